import Verif.Model.HeapSave
import Verif.Spec.Json

/-
Histories of a context as far as the heap is concerned: what a user may do between initialisation and teardown.
-/

namespace Ladder.Heap

/-- The cell at a row and a column of a network. -/
def Net.cell (net : Net) (r c : Nat) : Option Cell :=
  net.cells.bind fun a => a.2[r]?.bind fun row => row.bind fun b => b.2[c]?

/-- The cell at a row and a column of network `n`. -/
def Ctx.cell (x : Ctx) (n r c : Nat) : Option Cell :=
  x.nets.bind fun a => a.2[n]?.bind fun net => net.cell r c

/-- What the heap model keeps of a cell: instruction, number of operands, and which operands have a text. -/
def Cell.view (x : Cell) : Ladder.Ins × Nat × Option (List Bool) :=
  (x.code, x.qty, x.data.map fun d => d.2.map Option.isSome)

/-- What the heap model keeps of a network. -/
def Net.view (x : Net) : Nat × Nat × Option (List (Option (List (Ladder.Ins × Nat × Option (List Bool))))) :=
  (x.rows, x.cols, x.cells.map fun a => a.2.map fun row => row.map fun b => b.2.map Cell.view)

/-- The same of a cell of the other model. -/
def shadow (x : Ladder.Cell) : Ladder.Ins × Nat × Option (List Bool) :=
  (x.code, x.dataQty, x.data.map fun l => l.map fun v => v.cstr.isSome)

/-- The same of a network of the other model. -/
def netShadow (x : Ladder.Network) : Nat × Nat × Option (List (Option (List (Ladder.Ins × Nat × Option (List Bool))))) :=
  (x.rows, x.cols, x.cells.map fun rs => rs.map fun row => some (row.map shadow))

/-- The two models describe the same program. -/
def Twin (x : Ctx) (c : Ladder.Ctx) : Prop :=
  x.networks = c.qty.networks ∧ (x.nets.map fun a => a.2.map Net.view) = c.network.map fun l => l.map netShadow

/-- A heap as the user hands it over: no block listed twice, block numbers below the next one. -/
structure Store.Sound (h : Store) : Prop where
  nodup : h.live.Nodup
  below : ∀ b ∈ h.live, b < h.next

open Ladder.Spec (Ranged Number Member) in
/-- A description of a network whose numbers are in range and that, if it announces rows, has a number of columns and as many
rows as it announces; the rows may contain anything, except continuation cells where reading behind the table is undefined. -/
def Firm (host : Ladder.Host) (j : Ladder.Json) : Prop :=
  ∀ ms, j = .obj ms → Ranged "id" ms ∧ Ranged "rows" ms ∧ Ranged "cols" ms ∧
    (∀ rows, Number "rows" rows ms → 0 < rows →
      (∃ k, Number "cols" k ms) ∧ ∃ l, Member "networkData" (.arr l) ms ∧ (l.length : Int) = rows) ∧
    (∀ l row cells x, Member "networkData" (.arr l) ms → row ∈ l → row = .arr cells → x ∈ cells →
      ∀ xs, x = .obj xs → Member "symbol" (.str "occupied") xs → host.beyond ≠ none)

/-- A file that is missing, is not JSON, is not a list, or is a list of such descriptions. -/
def FirmFile (host : Ladder.Host) (file : File) : Prop := ∀ l, file = .tree (.arr l) → ∀ j ∈ l, Firm host j

/-- No operand of the program has a text. -/
def Textless (x : Ctx) : Prop :=
  ∀ n r c cell b ts, x.cell n r c = some cell → cell.data = some (b, ts) → ∀ q ∈ ts, q = none

/-- Calls on an initialised context. -/
inductive Act where
  | addRead (hook : Bool)
  | addWrite (hook : Bool)
  | addForeign (qty : Nat) (hook : Bool)
  | fnCell (d : Ladder.Iocd) (code : Ladder.Ins) (fid n r c : Nat)
  | setText (n r c i : Nat)
  | clear
  | cronInit (qty : Nat)
  | load (t : Policy) (host : Ladder.Host) (file : File)
  | save (k : Policy) (writable : Bool)

/-- Effect of a call: its boolean result and the context. -/
def Act.run (p : Policy) : Act → Ctx → H (Bool × Ctx)
  | .addRead hook, x => Heap.addRead p hook x
  | .addWrite hook, x => Heap.addWrite p hook x
  | .addForeign qty hook, x => Heap.addForeign p qty hook x
  | .fnCell d code fid n r c, x => Heap.fnCell p d code fid n r c x
  | .setText n r c i, x => Heap.setText p n r c i x
  | .clear, x => do
    let y ← clearProgram x
    pure (true, y)
  | .cronInit qty, x => Heap.cronInit p qty x
  | .load t host file, x => Heap.loadFile p t host file x
  | .save k writable, x => do
    let ok ← Heap.saveFile p k writable x
    pure (ok, x)

/-- What is asked of the user and the allocator at a call: an instruction takes at least one cell, texts are put into
operands that exist, the request for a cron table is granted, and so are the requests for
the row tables of the networks of a program file, which has the rows it announces; a program that is saved has no texts, and the
names of its arrays are granted. -/
def Act.allowed (p : Policy) (x : Ctx) (h : Store) : Act → Prop
  | .fnCell d _ _ _ _ _ => 1 ≤ d.cells
  | .setText n r c i => ∃ cell b ts, x.cell n r c = some cell ∧ cell.data = some (b, ts) ∧ i < ts.length
  | .cronInit qty => qty > 0 → x.jobs = none → p.grow h.tries = true
  | .load t host file => (∀ k, t.grow k = true) ∧ FirmFile host file
  | .save k _ => (∀ i, k.grow i = true) ∧ Textless x
  | _ => True

/-- The contexts and heaps reached from a heap `h0` by a successful initialisation and any sequence of calls,
successful or not. -/
inductive Built (p : Policy) (a : InitArgs) (h0 : Store) : Ctx → Store → Prop
  | init {old x : Ctx} {h : Store} : ctxInit p old a h0 = .ok ((true, x), h) → Built p a h0 x h
  | step {x y : Ctx} {h h' : Store} {r : Bool} (act : Act) : Built p a h0 x h → act.allowed p x h →
      act.run p x h = .ok ((r, y), h') → Built p a h0 y h'

end Ladder.Heap
