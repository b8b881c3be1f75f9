import Verif.Spec.Run

/-
Specification vocabulary for the independence of a scan from leftover power states.
-/

set_option autoImplicit false

namespace Ladder.Spec

/-- The context with all power states off in every enabled network with index at least `m` that is not being executed. -/
def shade (m : Nat) (ctx : Ctx) : Ctx :=
  { ctx with network := ctx.network.map (·.mapIdx fun n net =>
      if m ≤ n ∧ net.enable = true ∧ ctx.exec ≠ some n then netText net else net) }

/-- Callbacks that neither look at nor change power states of enabled networks not being executed. -/
structure Blind (env : Env) : Prop where
  panic : ∀ m t c, env.panic t (shade m c) = shade m (env.panic t c)
  instruction : ∀ m t c, env.instruction t (shade m c) = shade m (env.instruction t c)
  scanEnd : ∀ m t c, env.scanEnd t (shade m c) = shade m (env.scanEnd t c)
  foreign : ∀ m t id col row c, env.foreign t id col row (shade m c) =
    ((env.foreign t id col row c).1, shade m (env.foreign t id col row c).2)

/-- The contexts agree except, possibly, in power states of enabled networks (no network being executed). -/
def SameButStates (a b : Ctx) : Prop :=
  shade 0 { a with exec := none } = shade 0 { b with exec := none }

end Ladder.Spec
