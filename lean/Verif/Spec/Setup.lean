import Verif.Spec.Recover

/-
Specification vocabulary for initialisation and registration.
-/

set_option autoImplicit false

namespace Ladder.Spec

/-- A memory area of `n` elements, all with the value `x`. -/
def Filled {α : Type} (a : Arr α) (n : Nat) (x : α) : Prop :=
  ∃ l, a = some l ∧ l.length = n ∧ ∀ y ∈ l, y = x

/-- A table that holds the entries `l`; an empty table is NULL. -/
def Table {α : Type} (a : Arr α) (l : List α) : Prop :=
  a = if l = [] then none else some l

/-- The registered read modules: number, functions, init hooks and port records. -/
structure Readers (c : Ctx) (fns hooks : List Bool) (ports : List InMod) : Prop where
  qty : c.fnReadQty = ports.length
  fnsLen : fns.length = ports.length
  hooksLen : hooks.length = ports.length
  read : Table c.read fns
  init : Table c.initRead hooks
  input : Table c.input ports

/-- The registered write modules. -/
structure Writers (c : Ctx) (fns hooks : List Bool) (ports : List OutMod) : Prop where
  qty : c.fnWriteQty = ports.length
  fnsLen : fns.length = ports.length
  hooksLen : hooks.length = ports.length
  write : Table c.write fns
  init : Table c.initWrite hooks
  output : Table c.output ports

/-- An init hook of a read module that keeps to its own slot of the read tables (it may do anything else). -/
def OwnInput (h : Nat → Bool → Ctx → Bool × Ctx) : Prop := ∀ n b c, (h n b c).2.fnReadQty = c.fnReadQty ∧
  (h n b c).2.read = c.read ∧ (h n b c).2.initRead = c.initRead ∧ ∃ o, (h n b c).2.input = c.input.map (·.set n o)

/-- An init hook of a write module that keeps to its own slot of the write tables. -/
def OwnOutput (h : Nat → Bool → Ctx → Bool × Ctx) : Prop := ∀ n b c, (h n b c).2.fnWriteQty = c.fnWriteQty ∧
  (h n b c).2.write = c.write ∧ (h n b c).2.initWrite = c.initWrite ∧ ∃ o, (h n b c).2.output = c.output.map (·.set n o)

/-- A context without its read modules and without its error report. -/
def sansReaders (c : Ctx) : Ctx :=
  { c with fnReadQty := 0, read := none, initRead := none, input := none, last := { c.last with err := .ok } }

/-- A context without its write modules and without its error report. -/
def sansWriters (c : Ctx) : Ctx :=
  { c with fnWriteQty := 0, write := none, initWrite := none, output := none, last := { c.last with err := .ok } }

/-- The foreign table holds the functions `fns`. -/
structure Foreigners (c : Ctx) (fns : List Foreign) : Prop where
  qty : c.foreignQty = fns.length
  table : Table c.foreign fns

/-- The zeroed descriptor handed to an init hook. -/
def fresh (id : Nat) : Foreign := { id := id, desc := ⟨0, 0, 0, 0⟩, hasDeinit := false }

/-- A context without its foreign functions and without its error report. -/
def sansForeign (c : Ctx) : Ctx :=
  { c with foreignQty := 0, foreign := none, last := { c.last with err := .ok } }

end Ladder.Spec
