import Verif.Model.Types

/-
Specification vocabulary: the process image as a set of named locations.

`load` observes one location, `Only` says that nothing but the listed locations changed and `Fits` that the memory
blocks have the configured sizes.  These definitions only use the data types of the model, none of its functions.
-/

namespace Ladder.Spec

/-- The observable locations of a context. -/
inductive Loc where
  | M (i : Nat) | Cd (i : Nat) | Cr (i : Nat) | Td (i : Nat) | Tr (i : Nat)
  | Mh (i : Nat) | Cdh (i : Nat) | Crh (i : Nat) | Tdh (i : Nat) | Trh (i : Nat)
  | C (i : Nat) | D (i : Nat) | R (i : Nat) | acc (i : Nat) | stamp (i : Nat)
  | I (m p : Nat) | IW (m p : Nat) | Ih (m p : Nat) | IWh (m p : Nat)
  | Q (m p : Nat) | QW (m p : Nat) | Qh (m p : Nat) | QWh (m p : Nat)
  | cell (n r c : Nat)   -- power state of a cell
  deriving DecidableEq

/-- Element `i` of an array. -/
def at? {α : Type} (a : Arr α) (i : Nat) : Option α := a.bind (·[i]?)

/-- Cell (r,c) of network `n`. -/
def cell? (ctx : Ctx) (n r c : Nat) : Option Cell :=
  (at? ctx.network n).bind fun net => (at? net.cells r).bind (·[c]?)

/-- Content of a location as a number; `none` when the location does not exist. -/
def load (ctx : Ctx) : Loc → Option Nat
  | .M i => (at? ctx.M i).map (·.toNat)
  | .Cd i => (at? ctx.Cd i).map (·.toNat)
  | .Cr i => (at? ctx.Cr i).map (·.toNat)
  | .Td i => (at? ctx.Td i).map (·.toNat)
  | .Tr i => (at? ctx.Tr i).map (·.toNat)
  | .Mh i => (at? ctx.Mh i).map (·.toNat)
  | .Cdh i => (at? ctx.Cdh i).map (·.toNat)
  | .Crh i => (at? ctx.Crh i).map (·.toNat)
  | .Tdh i => (at? ctx.Tdh i).map (·.toNat)
  | .Trh i => (at? ctx.Trh i).map (·.toNat)
  | .C i => (at? ctx.C i).map (·.toNat)
  | .D i => (at? ctx.D i).map (·.toNat)
  | .R i => (at? ctx.R i).map (·.toNat)
  | .acc i => (at? ctx.timers i).map (·.acc.toNat)
  | .stamp i => (at? ctx.timers i).map (·.timeStamp.toNat)
  | .I m p => (at? ctx.input m).bind fun o => (at? o.I p).map (·.toNat)
  | .IW m p => (at? ctx.input m).bind fun o => (at? o.IW p).map (·.toNat)
  | .Ih m p => (at? ctx.input m).bind fun o => (at? o.Ih p).map (·.toNat)
  | .IWh m p => (at? ctx.input m).bind fun o => (at? o.IWh p).map (·.toNat)
  | .Q m p => (at? ctx.output m).bind fun o => (at? o.Q p).map (·.toNat)
  | .QW m p => (at? ctx.output m).bind fun o => (at? o.QW p).map (·.toNat)
  | .Qh m p => (at? ctx.output m).bind fun o => (at? o.Qh p).map (·.toNat)
  | .QWh m p => (at? ctx.output m).bind fun o => (at? o.QWh p).map (·.toNat)
  | .cell n r c => (cell? ctx n r c).map (·.state.toNat)

/-- A cell without its power state. -/
def cellText (c : Cell) : Cell := { c with state := false }

/-- A network without power states: the program text. -/
def netText (n : Network) : Network := { n with cells := n.cells.map (·.map (·.map cellText)) }

/-- The program text of a context. -/
def program (ctx : Ctx) : Arr Network := ctx.network.map (·.map netText)

/-- Everything in a context that is not a location: configuration, program text, state and error report. -/
def shell (ctx : Ctx) : Ctx :=
  { ctx with
    M := none, Cd := none, Cr := none, Td := none, Tr := none, Mh := none, Cdh := none, Crh := none, Tdh := none,
    Trh := none, C := none, D := none, R := none, timers := none
    input := ctx.input.map (·.map fun o => { o with I := none, IW := none, Ih := none, IWh := none })
    output := ctx.output.map (·.map fun o => { o with Q := none, QW := none, Qh := none, QWh := none })
    network := program ctx }

/-- From `a` to `b` nothing changed except, possibly, the contents of the locations `S`. -/
def Only (a b : Ctx) (S : List Loc) : Prop :=
  shell b = shell a ∧ ∀ ℓ, ℓ ∉ S → load b ℓ = load a ℓ

/-- Sizes of the memory blocks of one input module agree with its quantities. -/
structure InFits (o : InMod) : Prop where
  I : ∀ l, o.I = some l → l.length = o.iQty
  IW : ∀ l, o.IW = some l → l.length = o.iwQty
  Ih : ∀ l, o.Ih = some l → l.length = o.iQty
  IWh : ∀ l, o.IWh = some l → l.length = o.iwQty

/-- Sizes of the memory blocks of one output module agree with its quantities. -/
structure OutFits (o : OutMod) : Prop where
  Q : ∀ l, o.Q = some l → l.length = o.qQty
  QW : ∀ l, o.QW = some l → l.length = o.qwQty
  Qh : ∀ l, o.Qh = some l → l.length = o.qQty
  QWh : ∀ l, o.QWh = some l → l.length = o.qwQty

/-- The matrix of a network has the declared number of rows and columns, and each operand block the declared size. -/
structure GridFits (net : Network) : Prop where
  rows : ∀ l, net.cells = some l → l.length = net.rows
  cols : ∀ l, net.cells = some l → ∀ row ∈ l, row.length = net.cols
  data : ∀ l, net.cells = some l → ∀ row ∈ l, ∀ cell ∈ row, ∀ d, cell.data = some d → d.length = cell.dataQty

/-- The size of every allocated memory block agrees with the configured quantities. -/
structure Fits (ctx : Ctx) : Prop where
  M : ∀ l, ctx.M = some l → l.length = ctx.qty.m
  Mh : ∀ l, ctx.Mh = some l → l.length = ctx.qty.m
  Cd : ∀ l, ctx.Cd = some l → l.length = ctx.qty.c
  Cdh : ∀ l, ctx.Cdh = some l → l.length = ctx.qty.c
  Cr : ∀ l, ctx.Cr = some l → l.length = ctx.qty.c
  Crh : ∀ l, ctx.Crh = some l → l.length = ctx.qty.c
  C : ∀ l, ctx.C = some l → l.length = ctx.qty.c
  Td : ∀ l, ctx.Td = some l → l.length = ctx.qty.t
  Tdh : ∀ l, ctx.Tdh = some l → l.length = ctx.qty.t
  Tr : ∀ l, ctx.Tr = some l → l.length = ctx.qty.t
  Trh : ∀ l, ctx.Trh = some l → l.length = ctx.qty.t
  timers : ∀ l, ctx.timers = some l → l.length = ctx.qty.t
  D : ∀ l, ctx.D = some l → l.length = ctx.qty.d
  R : ∀ l, ctx.R = some l → l.length = ctx.qty.r
  input : ∀ l, ctx.input = some l → l.length = ctx.fnReadQty ∧ ∀ o ∈ l, InFits o
  output : ∀ l, ctx.output = some l → l.length = ctx.fnWriteQty ∧ ∀ o ∈ l, OutFits o
  network : ∀ l, ctx.network = some l → ∀ net ∈ l, GridFits net
  noInput : ctx.input = none → ctx.fnReadQty = 0
  noOutput : ctx.output = none → ctx.fnWriteQty = 0

/-- Operand `i` of cell (r,c) of network `n`. -/
def operand? (ctx : Ctx) (n r c i : Nat) : Option Value :=
  (cell? ctx n r c).bind fun cell => if i < cell.dataQty then at? cell.data i else none

/-- The location an operand designates: an index for register kinds (negative numbers designate nothing), module
and port in the two low bytes for hardware kinds. -/
def place (v : Value) : Option Loc :=
  let i := v.raw.toNat
  let idx (ℓ : Loc) : Option Loc := if i < 2^31 then some ℓ else none
  let m := i % 256
  let p := i / 256 % 256
  match v.type with
  | .M => idx (.M i) | .Cd => idx (.Cd i) | .Cr => idx (.Cr i) | .Td => idx (.Td i) | .Tr => idx (.Tr i)
  | .C => idx (.C i) | .T => idx (.acc i) | .D => idx (.D i) | .R => idx (.R i)
  | .I => some (.I m p) | .IW => some (.IW m p) | .Q => some (.Q m p) | .QW => some (.QW m p)
  | .NONE | .S | .INV => none

/-- Integer part of the IEEE-754 single with the given bits, when it is finite and fits 32 bits.
The magnitude of a single is `(2^23 + f) * 2^e / 2^150` (`2 * f / 2^150` when subnormal). -/
def truncFloat (bits : Nat) : Option Int :=
  let f := bits % 2^23
  let e := bits / 2^23 % 256
  let mag : Int := ((if e = 0 then 2 * f else (2^23 + f) * 2^e) / 2^150 : Nat)
  let v := if bits / 2^31 = 1 then -mag else mag
  if e ≠ 255 ∧ -2^31 ≤ v ∧ v < 2^31 then some v else none

/-- The value an instruction sees for an operand, by kind, given the content of the designated location. -/
def decode (k : Reg) (x : Nat) : Option W32 :=
  match k with
  | .Cd | .Cr | .Td | .Tr => if x ≤ 1 then some (BitVec.ofNat 32 x) else none
  | .T => some (BitVec.ofNat 32 (min x 2147483647))
  | .R => (truncFloat x).map (BitVec.ofInt 32)
  | _ => some (BitVec.ofNat 32 x)

/-- The value of an operand: constants are themselves, strings and invalid operands read as 0, the others are the
decoded content of the location they designate (`none`: there is no such location, or its content has no value). -/
def value (ctx : Ctx) (v : Value) : Option W32 :=
  match v.type with
  | .NONE => some v.raw
  | .S | .INV => some 0
  | k => (place v).bind fun ℓ => (load ctx ℓ).bind (decode k)

/-- The location holding the previous-scan value of a digital operand. -/
def prevPlace (v : Value) : Option Loc :=
  let i := v.raw.toNat
  let idx (ℓ : Loc) : Option Loc := if i < 2^31 then some ℓ else none
  let m := i % 256
  let p := i / 256 % 256
  match v.type with
  | .M => idx (.Mh i) | .Cd => idx (.Cdh i) | .Cr => idx (.Crh i) | .Td => idx (.Tdh i) | .Tr => idx (.Trh i)
  | .I => some (.Ih m p) | .Q => some (.Qh m p)
  | _ => none

/-- The previous-scan value of a digital operand. -/
def prevOf (ctx : Ctx) (v : Value) : Option W32 :=
  (prevPlace v).bind fun ℓ => (load ctx ℓ).bind (decode v.type)

/-- Power arriving from the left: the left rail is always powered. -/
def leftPower (ctx : Ctx) (n r c : Nat) : Option Bool :=
  if c = 0 then some true else (cell? ctx n r (c - 1)).map (·.state)

/-- Kinds of 0/1 flags stored as C `bool`. -/
def isBoolKind : Reg → Bool
  | .Cd | .Cr | .Td | .Tr => true
  | _ => false

/-- Kinds that can be written through an operand. -/
def writableKind : Reg → Bool
  | .M | .Cd | .Cr | .Td | .Tr | .C | .D | .R | .I | .IW | .Q | .QW => true
  | _ => false

/-- Kinds whose register is one byte wide. -/
def byteKind : Reg → Bool
  | .M | .Cd | .Cr | .Td | .Tr | .I | .Q => true
  | _ => false

/-- What a register of the given kind keeps of a 32-bit value. -/
def stored (k : Reg) (x : W32) : Nat := if byteKind k then x.toNat % 256 else x.toNat

/-- From `w` to `w'` the listed locations received the listed values, nothing else changed and no external function
was called. -/
structure Sets (w w' : World) (S : List (Loc × Nat)) : Prop where
  tick : w'.tick = w.tick
  trace : w'.trace = w.trace
  only : Only w.ctx w'.ctx (S.map (·.1))
  val : ∀ p ∈ S, load w'.ctx p.1 = some p.2

/-- Network `n` is being executed, its cell (r,c) exists and receives power `l` from the left. -/
structure Site (ctx : Ctx) (n r c : Nat) (l : Bool) : Prop where
  fits : Fits ctx
  exec : ctx.exec = some n
  cell : (load ctx (.cell n r c)).isSome
  left : leftPower ctx n r c = some l

/-- Operand `i` of the cell has value `x`. -/
def Reads (ctx : Ctx) (n r c i : Nat) (x : W32) : Prop :=
  ∃ v, operand? ctx n r c i = some v ∧ value ctx v = some x

/-- Operand `i` of the cell had value `x` in the previous scan. -/
def ReadsPrev (ctx : Ctx) (n r c i : Nat) (x : W32) : Prop :=
  ∃ v, operand? ctx n r c i = some v ∧ prevOf ctx v = some x

/-- Operand `i` of the cell designates the existing, writable register `ℓ`, of kind `k`. -/
def Dest (ctx : Ctx) (n r c i : Nat) (k : Reg) (ℓ : Loc) : Prop :=
  ∃ v, operand? ctx n r c i = some v ∧ v.type = k ∧ writableKind k = true ∧ place v = some ℓ ∧ (load ctx ℓ).isSome

/-- The memory area of a register kind has not been allocated. -/
def areaMissing (ctx : Ctx) : Reg → Prop
  | .M => ctx.M = none | .Cd => ctx.Cd = none | .Cr => ctx.Cr = none | .Td => ctx.Td = none | .Tr => ctx.Tr = none
  | .C => ctx.C = none | .T => ctx.timers = none | .D => ctx.D = none | .R => ctx.R = none
  | _ => False

end Ladder.Spec
