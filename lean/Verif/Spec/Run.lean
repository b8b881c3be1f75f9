import Verif.Spec.Mem

/-
Specification vocabulary for scans and tasks: assumptions on callbacks and observations on event traces.
-/

set_option autoImplicit false

namespace Ladder.Spec

/-- Every callback a scan may invoke relates the context before and after the call by `P`. -/
structure Hooks (env : Env) (P : Ctx → Ctx → Prop) : Prop where
  panic : ∀ t c, P c (env.panic t c)
  instruction : ∀ t c, P c (env.instruction t c)
  scanEnd : ∀ t c, P c (env.scanEnd t c)
  foreign : ∀ t id col row c, P c (env.foreign t id col row c).2

/-- The part of the trace added from `w` to `w'`. -/
def news (w w' : World) : List Event := w'.trace.drop w.trace.length

/-- The cells executed, in order, as (network, row, column, code). -/
def execs (l : List Event) : List (Nat × Nat × Nat × Ins) :=
  l.filterMap fun | .exec n r c code => some (n, r, c, code) | _ => none

/-- Observation of a finished run. -/
def ended {α : Type} (r : Except UB (α × World)) (p : World → Bool) : Bool :=
  match r with
  | .ok (_, w) => p w
  | .error _ => false

theorem of_ended {r : Except UB (Unit × World)} {p : World → Bool} (h : ended r p = true) :
    ∃ w, r = .ok ((), w) ∧ p w = true := by
  cases r with
  | error e => cases h
  | ok x => exact ⟨x.2, rfl, h⟩

end Ladder.Spec
