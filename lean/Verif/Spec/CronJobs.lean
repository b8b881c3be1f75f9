import Verif.Spec.CronField
import Verif.Spec.Mem

/-
Specification vocabulary for the cron jobs of a context.
-/

set_option autoImplicit false

namespace Ladder.Spec

/-- The flags (by number) after those of the enabled auto-reset jobs have been cleared. -/
def cleared (jobs : List CronJob) (m : Nat → Option Byte) (i : Nat) : Option Byte :=
  if ∃ j ∈ jobs, j.enabled = true ∧ j.autoReset = true ∧ j.flagReg = i then some 0 else m i

/-- The flags after the enabled jobs due at `tm` have, one after the other, copied their enable flag to their flag. -/
def fired (tm : Tm) : List CronJob → (Nat → Option Byte) → Nat → Option Byte
  | [], m => m
  | j :: rest, m =>
    if j.enabled = true ∧ Due j.cron tm then fired tm rest fun i => if i = j.flagReg then m j.enableReg else m i
    else fired tm rest m

/-- The registered jobs of a context are `jobs`, with existing flags. -/
structure Jobs (c : Ctx) (jobs : List CronJob) : Prop where
  table : ∃ cr all, c.cron = some cr ∧ cr.ctx = some all ∧ all.take cr.used = jobs ∧ cr.used = jobs.length
  sized : ∀ j ∈ jobs, Sized j.cron
  flags : ∀ j ∈ jobs, (at? c.M j.enableReg).isSome ∧ (at? c.M j.flagReg).isSome

end Ladder.Spec
