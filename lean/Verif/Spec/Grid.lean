import Verif.Spec.Setup

/-
Specification vocabulary for placing instructions on the grid.
-/

set_option autoImplicit false

namespace Ladder.Spec

/-- Every configured network exists and has a cell at each position within its dimensions. -/
def Grids (c : Ctx) : Prop := ∀ n, n < c.qty.networks → ∃ net, at? c.network n = some net ∧
  ∀ r k, r < net.rows → k < net.cols → (cell? c n r k).isSome

/-- `h` cells from `(row, col)` downwards lie within the dimensions of network `n`. -/
def Inside (c : Ctx) (n row h col : Nat) : Prop :=
  ∃ net, at? c.network n = some net ∧ row < net.rows ∧ row + h ≤ net.rows ∧ col < net.cols

/-- Number of cells, from the top down, that an instruction covers. -/
def span (c : Ctx) (f : Ins) (id : Nat) : Nat :=
  match f with
  | .TON | .TOF | .TP | .CTU | .CTD | .MOVE | .SHL | .SHR | .ROL | .ROR => 2
  | .NOT | .EQ | .GT | .GE | .LT | .LE | .NE => 2
  | .ADD | .SUB | .MUL | .DIV | .MOD | .AND | .OR | .XOR => 3
  | .FOREIGN => ((at? c.foreign id).map (·.desc.cells)).getD 0
  | _ => 1

/-- Number of operands of an instruction. -/
def arity (c : Ctx) (f : Ins) (id : Nat) : Nat :=
  match f with
  | .NOP | .CONN | .INV => 0
  | .TON | .TOF | .TP | .CTU | .CTD | .MOVE | .SHL | .SHR | .ROL | .ROR => 2
  | .NOT | .EQ | .GT | .GE | .LT | .LE | .NE => 2
  | .ADD | .SUB | .MUL | .DIV | .MOD | .AND | .OR | .XOR => 3
  | .TMOVE => 5
  | .FOREIGN => ((at? c.foreign id).map (·.desc.dataQty)).getD 0
  | _ => 1

/-- An instruction that can be placed: not the continuation marker, and not a foreign function that covers no cell or covers
several cells without having operands. -/
def Placeable (c : Ctx) (f : Ins) (id : Nat) : Prop :=
  f ≠ .MULTI ∧ (f = .FOREIGN → ∀ g, at? c.foreign id = some g →
    1 ≤ g.desc.cells ∧ (g.desc.cells = 1 ∨ 1 ≤ g.desc.dataQty))

/-- A context without cells and error report. -/
def sansCells (c : Ctx) : Ctx :=
  { c with network := c.network.map (·.map fun net => { net with cells := none }), last := { c.last with err := .ok } }

/-- From `a` to `b` instruction `f` with `h` cells and `ops` operands was placed at `(n, row, col)` on empty cells: its first cell
holds the instruction with its operands blank, the others the continuation marker, and nothing else changed. -/
structure Placed (a b : Ctx) (n row col : Nat) (f : Ins) (h ops : Nat) : Prop where
  height : 0 < h
  empty : ∀ k, k < h → ∃ x, cell? a n (row + k) col = some x ∧ x.code = .NOP
  top : ∃ x, cell? b n row col = some x ∧ x.code = f ∧ x.dataQty = ops ∧
    (∀ i, i < ops → at? x.data i = some { type := .NONE, raw := 0 }) ∧ x.bar = decide (1 < h)
  below : ∀ k, 0 < k → k < h → ∃ x, cell? b n (row + k) col = some x ∧ x.code = .MULTI ∧ x.bar = decide (k + 1 < h)
  others : ∀ n' r' c', ¬ (n' = n ∧ c' = col ∧ row ≤ r' ∧ r' < row + h) → cell? b n' r' c' = cell? a n' r' c'
  rest : sansCells b = sansCells a

/-- An instruction on the grid: network, row of its first cell, column, code and number of cells. -/
structure Block where
  n : Nat
  row : Nat
  col : Nat
  code : Ins
  height : Nat

/-- The cell `(n, r, c)` belongs to the block. -/
def Block.has (b : Block) (n r c : Nat) : Prop := n = b.n ∧ c = b.col ∧ b.row ≤ r ∧ r < b.row + b.height

/-- The grid consists of the blocks `bs` and empty cells: each block has its instruction in its first cell and the continuation
marker in the others, no two blocks share a cell, and every cell that is not empty belongs to a block. -/
structure Tiled (c : Ctx) (bs : List Block) : Prop where
  top : ∀ b ∈ bs, 0 < b.height ∧ b.code ≠ .NOP ∧ b.code ≠ .MULTI ∧ ∃ x, cell? c b.n b.row b.col = some x ∧ x.code = b.code
  below : ∀ b ∈ bs, ∀ k, 0 < k → k < b.height → ∃ x, cell? c b.n (b.row + k) b.col = some x ∧ x.code = .MULTI
  apart : bs.Pairwise fun b b' => ∀ n r k, b.has n r k → ¬ b'.has n r k
  cover : ∀ n r k x, cell? c n r k = some x → x.code ≠ .NOP → ∃ b ∈ bs, b.has n r k

end Ladder.Spec
