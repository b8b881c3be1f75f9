import Verif.Model.General
import Verif.Spec.CronJobs

/-
Specification vocabulary for a context without modules whose networks are all disabled.
-/

set_option autoImplicit false

namespace Ladder.Spec

/-- An allocated area of `n` elements. -/
def Area {α : Type} (a : Arr α) (n : Nat) : Prop := ∃ l, a = some l ∧ l.length = n

/-- A running context with all its areas, a clock and a delay, no modules and no hooks, and only disabled networks. -/
structure Idle (c : Ctx) : Prop where
  state : c.state = .running
  millis : c.millis = true
  delay : c.delay = true
  on : c.on = {}
  noRead : c.fnReadQty = 0
  noWrite : c.fnWriteQty = 0
  noOutput : c.output = none
  M : Area c.M c.qty.m
  Mh : Area c.Mh c.qty.m
  Cd : Area c.Cd c.qty.c
  Cdh : Area c.Cdh c.qty.c
  Cr : Area c.Cr c.qty.c
  Crh : Area c.Crh c.qty.c
  Td : Area c.Td c.qty.t
  Tdh : Area c.Tdh c.qty.t
  Tr : Area c.Tr c.qty.t
  Trh : Area c.Trh c.qty.t
  C : Area c.C c.qty.c
  D : Area c.D c.qty.d
  R : Area c.R c.qty.r
  timers : Area c.timers c.qty.t
  networks : c.qty.networks < 2 ^ 32
  network : ∃ l, c.network = some l ∧ l.length = c.qty.networks ∧ ∀ n ∈ l, n.enable = false ∧ n.cells.isSome

/-- What an application does after initialisation: clock, delay, and the state set to running. -/
def started (a : InitArgs) : Ctx := { initCtx a with millis := true, delay := true, state := .running }

end Ladder.Spec
