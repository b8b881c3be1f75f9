import Verif.Spec.Well
import Verif.Spec.Check

/-
Specification vocabulary for running programs that the checker accepted: what the context must provide, and what the checker does
not look at.
-/

set_option autoImplicit false

namespace Ladder.Spec

/-- The previous values of all digital registers and ports are kept. -/
structure Kept (c : Ctx) : Prop where
  Mh : 0 < c.qty.m → c.Mh.isSome
  Cdh : 0 < c.qty.c → c.Cdh.isSome
  Crh : 0 < c.qty.c → c.Crh.isSome
  Tdh : 0 < c.qty.t → c.Tdh.isSome
  Trh : 0 < c.qty.t → c.Trh.isSome
  ins : ∀ m o, at? c.input m = some o → 0 < o.iQty → o.Ih.isSome
  outs : ∀ m o, at? c.output m = some o → 0 < o.qQty → o.Qh.isSome

/-- A context in which programs can run: all memory is allocated, there is a clock, and the cron table, if any, is in order. -/
structure Ready (c : Ctx) : Prop where
  full : Full c
  kept : Kept c
  tall : ∀ i g, at? c.foreign i = some g → 1 ≤ g.desc.cells ∧ g.desc.cells ≤ 255
  clock : c.millis = true
  cron : c.cron = none ∨ ∃ jobs, Jobs c jobs
  count : c.qty.networks < 2 ^ 32

/-- Every configured network has its cells stored, and dimensions that fit their type. -/
def Solid (c : Ctx) : Prop := c.network.isSome ∧ ∀ n, n < c.qty.networks → ∃ net, at? c.network n = some net ∧ net.cells.isSome ∧
  net.rows < 2 ^ 32 ∧ net.cols < 2 ^ 32

/-- Enabled networks have at least one column. -/
def Wide (c : Ctx) : Prop := ∀ n net, at? c.network n = some net → net.enable = true → 0 < net.cols

/-- Every instruction comes with its operands. -/
def Complete (c : Ctx) : Prop := ∀ n r k x, Within c n r k → cell? c n r k = some x → x.code ≠ .MULTI → x.code ≠ .FOREIGN →
  arity c x.code 0 ≤ x.dataQty

/-- Operand `i` of the cell is no float register. -/
def NoFloat (x : Cell) (i : Nat) : Prop := ∀ v, at? x.data i = some v → v.type ≠ .R

/-- Operand `i` of the cell is an integer register. -/
def Integer (x : Cell) (i : Nat) : Prop := ∀ v, at? x.data i = some v → integral v.type = true

/-- Operand `i` of the cell is a constant, and `p` holds for it. -/
def Literal (x : Cell) (i : Nat) (p : W32 → Prop) : Prop := ∀ v, at? x.data i = some v → v.type = .NONE ∧ p v.raw

/-- What the checker does not look at, for each instruction: float registers, moves from and shifts of a constant, constants that a
quotient, remainder or rotation cannot take, calls of missing foreign functions.  Sums, differences, products and table moves are
excluded. -/
def Tame (c : Ctx) (x : Cell) : Prop :=
  match x.code with
  | .NOP | .CONN | .NEG | .MULTI | .NO | .NC | .RE | .FE | .COIL | .COILL | .COILU | .TON | .TOF | .TP | .CTU | .CTD => True
  | .EQ | .GT | .GE | .LT | .LE | .NE | .AND | .OR | .XOR => NoFloat x 0 ∧ NoFloat x 1
  | .NOT => NoFloat x 0
  | .SHL | .SHR => Integer x 0 ∧ NoFloat x 1
  | .ROL | .ROR => Integer x 0 ∧ Literal x 1 (fun y => y.toNat % 32 ≠ 0)
  | .DIV => NoFloat x 0 ∧ Literal x 1 (· ≠ -1)
  | .MOD => NoFloat x 0 ∧ Literal x 1 (fun y => y ≠ 0 ∧ y ≠ -1)
  | .MOVE => Integer x 0 ∧ Integer x 1
  | .FOREIGN => 1 ≤ x.dataQty ∧ Literal x 0 fun y => y.toNat < 2 ∧ y.toNat < c.foreignQty ∧ (at? c.foreign y.toNat).isSome
  | .ADD | .SUB | .MUL | .TMOVE | .INV => False

/-- A program within these limits. -/
def TameProgram (c : Ctx) : Prop := ∀ n r k x, Within c n r k → cell? c n r k = some x → Tame c x

end Ladder.Spec
