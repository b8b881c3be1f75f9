import Verif.Model.Task

/-
How long a task runs that is to stop after a certain cycle.
-/

set_option autoImplicit false

namespace Ladder.Spec.Logic

/-- How a task that was observed for `n` iterations stands after the cycles `as`, when it is to stop after the first one for which `last` holds:
no cycle but the last one is such; the task still runs after `n` cycles, or ended earlier because the last one is. -/
def Halts {α : Type} (last : α → Bool) (n : Nat) (r : TaskRes) (as : List α) : Prop :=
  (∀ e ∈ as.dropLast, last e = false) ∧ (r = .running ∧ as.length = n ∨ r = .ended ∧ as.length < n ∧ ∃ e, as.getLast? = some e ∧ last e = true)

end Ladder.Spec.Logic
