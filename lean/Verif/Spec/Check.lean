import Verif.Spec.Grid

/-
Specification vocabulary for the program checker: what a checked program is expected to look like.
-/

set_option autoImplicit false

namespace Ladder.Spec

/-- All the memory the configuration and the program speak of has been allocated. -/
structure Full (c : Ctx) : Prop where
  fits : Fits c
  M : 0 < c.qty.m → c.M.isSome
  Cd : 0 < c.qty.c → c.Cd.isSome
  Cr : 0 < c.qty.c → c.Cr.isSome
  C : 0 < c.qty.c → c.C.isSome
  Td : 0 < c.qty.t → c.Td.isSome
  Tr : 0 < c.qty.t → c.Tr.isSome
  timers : 0 < c.qty.t → c.timers.isSome
  D : 0 < c.qty.d → c.D.isSome
  R : 0 < c.qty.r → c.R.isSome
  ins : ∀ m o, at? c.input m = some o → (0 < o.iQty → o.I.isSome) ∧ (0 < o.iwQty → o.IW.isSome)
  outs : ∀ m o, at? c.output m = some o → (0 < o.qQty → o.Q.isSome) ∧ (0 < o.qwQty → o.QW.isSome)

/-- The networks, the operands of every cell, the module tables and the foreign functions are stored as declared. -/
structure Stored (c : Ctx) : Prop where
  grids : Grids c
  data : ∀ n r k x, cell? c n r k = some x → ∀ i, i < x.dataQty → (at? x.data i).isSome
  input : ∀ m, m < c.fnReadQty → (at? c.input m).isSome
  output : ∀ m, m < c.fnWriteQty → (at? c.output m).isSome
  foreign : ∀ i, i < c.foreignQty → (at? c.foreign i).isSome

/-- Position `(r, k)` lies within the dimensions of configured network `n`. -/
def Within (c : Ctx) (n r k : Nat) : Prop :=
  n < c.qty.networks ∧ ∃ net, at? c.network n = some net ∧ r < net.rows ∧ k < net.cols

/-- The operand designates an existing register or port. -/
def Designates (c : Ctx) (v : Value) : Prop := ∃ ℓ, place v = some ℓ ∧ (load c ℓ).isSome

/-- Timer instructions. -/
def timing : Ins → Bool
  | .TON | .TOF | .TP => true
  | _ => false

/-- Kinds that are digital or analog ports of a module. -/
def hardware : Reg → Bool
  | .I | .IW | .Q | .QW => true
  | _ => false

/-- Operand `i` of an instruction names a register or port: it is not a constant, a string or the preset of a timer. -/
def names (f : Ins) (i : Nat) (k : Reg) : Prop := k ≠ .NONE ∧ k ≠ .S ∧ ¬ (timing f = true ∧ i = 1)

/-- Kinds of operand `i` of an instruction. -/
def Takes (f : Ins) (i : Nat) (k : Reg) : Prop :=
  match f with
  | .NO | .NC | .RE | .FE => i = 0 ∧ k ∈ [.NONE, .I, .Q, .M, .Cd, .Cr, .Td, .Tr]
  | .COIL | .COILL | .COILU => i = 0 ∧ k ∈ [.Q, .M]
  | .TON | .TOF | .TP => (i = 0 → k = .T) ∧ (i = 1 → k ∈ [.NONE, .M, .Q, .I, .Cd]) ∧ k ≠ .INV
  | .CTU | .CTD => (i = 0 ∧ k = .C) ∨ (i = 1 ∧ k ∈ [.NONE, .D])
  | .MOVE | .TMOVE => k ∈ [.D, .R, .NONE, .C, .IW, .QW, .S]
  | .INV | .MULTI => False
  | .NOP | .CONN | .NEG | .FOREIGN => k ≠ .INV
  | _ => k ∈ [.D, .R, .NONE, .C, .IW, .QW]

/-- Number of the foreign function called by a cell: its first operand. -/
def callee (x : Cell) : Nat := ((at? x.data 0).map (·.raw.toNat)).getD 0

/-- A continuation marker without operands. -/
def Marker (x : Cell) : Prop := x.code = .MULTI ∧ x.dataQty = 0 ∧ x.data = none

/-- Every instruction fits in its column with the rest of its cells marked as such, and every marker belongs to one. -/
structure LaidOut (c : Ctx) : Prop where
  whole : ∀ n r k x, Within c n r k → cell? c n r k = some x → x.code ≠ .MULTI →
    (∃ net, at? c.network n = some net ∧ r + span c x.code (callee x) ≤ net.rows) ∧
    ∀ j, r < j → j < r + span c x.code (callee x) → ∃ y, cell? c n j k = some y ∧ Marker y
  owned : ∀ n r k x, Within c n r k → cell? c n r k = some x → x.code = .MULTI →
    Marker x ∧ ∃ r0 y, r0 < r ∧ cell? c n r0 k = some y ∧ y.code ≠ .MULTI ∧ r < r0 + span c y.code (callee y)

end Ladder.Spec
