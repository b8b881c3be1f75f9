import Verif.Spec.Logic

/-
Counters whose reset input is a row of its own.
-/

set_option autoImplicit false

namespace Ladder.Spec.Logic

/-- The operand that an instruction of one row stores to. -/
def sink (x : Cell) : Option Value :=
  match x.code with
  | .COIL | .COILL | .COILU | .SHL | .SHR | .ROL | .ROR => some (arg x 0)
  | .NOT | .MOVE => some (arg x 1)
  | .AND | .OR | .XOR | .ADD | .MUL | .DIV | .MOD => some (arg x 2)
  | _ => none

/-- The cell counts with counter `i`. -/
def tallies (i : Nat) (x : Cell) : Bool := (decide (x.code = .CTU) || decide (x.code = .CTD)) && decide ((arg x 0).raw.toNat = i)

/-- The cell stores nothing to the count and the done flag of counter `i`. -/
def Aside (i : Nat) (x : Cell) : Prop := ∀ v, sink x = some v → place v ≠ some (.C i) ∧ place v ≠ some (.Cd i)

/-- In rows of cells: count and done flag of counter `i` are left to counting instructions.  These do not stand in the first column, the row
below them, which is their reset input, is a rung of its own, and what stands left of them does not reach into that row. -/
def Apart (i : Nat) (rows : List (List Cell)) : Prop :=
  ∀ (r : Nat) (row : List Cell) (c : Nat) (x : Cell), rows[r]? = some row → row[c]? = some x →
    Aside i x ∧ (tallies i x = true → 0 < c ∧ (∀ row', rows[r + 1]? = some row' → joined row' = false) ∧
      ∀ y, row[c - 1]? = some y → tall y.code = false)

/-- Counter `i` is at `n`, and done. -/
def Finished (i n : Nat) (m : Image) : Prop := m (.C i) = some n ∧ m (.Cd i) = some 1

end Ladder.Spec.Logic
