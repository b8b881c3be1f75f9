import Verif.Model.Lwdtc

/-
The cron list of a ladder context, `optional/cron/ladderlib_cron.c`.
-/

namespace Ladder

open Op

/-- A zero-filled job (`calloc`), ladderlib_cron.c:46. -/
def CronJob.zero : CronJob :=
  { enabled := false, autoReset := false, enableReg := 0, flagReg := 0
    cron := { sec := List.replicate 8 0, min := List.replicate 8 0, hour := List.replicate 3 0,
              mday := List.replicate 4 0, mon := List.replicate 2 0, wday := List.replicate 1 0,
              year := List.replicate 13 0 } }

/-- `ladderlib_cron_init`, ladderlib_cron.c:42-54.  Simplified: `calloc` succeeds. -/
def cronInit (ctx : Ctx) (qty : Nat) : Except UB (Err × Ctx) :=
  match ctx.cron with
  | none => .error .nullDeref
  | some cr =>
    if cr.ctx.isSome then .ok (.fail, ctx)
    else .ok (.ok, { ctx with cron := some { ctx := some (List.replicate qty CronJob.zero), qty := qty, used := 0 } })

/-- Result of `ladderlib_cron_add`: the parser may not terminate. -/
inductive AddRes where
  | ub (e : UB)
  | diverges
  | done (err : Err) (ctx : Ctx)

/-- `ladderlib_cron_add`, ladderlib_cron.c:63-77.  The tests `reg > quantity.m - 1` are in `uint32_t` (with `m = 0`
nothing is rejected).  Simplified: after a failed parse the unused slot is shown unchanged. -/
def cronAdd (ctx : Ctx) (autoReset : Bool) (enableReg flagReg : Nat) (str : List Char) : AddRes :=
  match ctx.cron with
  | none => .ub .nullDeref
  | some cr =>
    match cr.ctx with
    | none => .done .fail ctx
    | some jobs =>
      let lim := (BitVec.ofNat 32 ctx.qty.m - 1).toNat
      if cr.used = cr.qty ∨ enableReg > lim ∨ flagReg > lim then .done .fail ctx
      else if cr.used ≥ jobs.length then .ub .oob
      else match Lwdtc.parse str with
        | .ub e => .ub e
        | .diverges => .diverges
        | .fail _ => .done .fail ctx
        | .ok c =>
          .done .ok { ctx with cron := some { cr with
            ctx := some (jobs.set cr.used
              { enabled := true, autoReset := autoReset, enableReg := enableReg, flagReg := flagReg, cron := c }),
            used := cr.used + 1 } }

/-- Loop of `ladderlib_cron_eval`, ladderlib_cron.c:88-94, over jobs `k, k+1, …` (`n` of them). -/
def cronEvalLoop (tm : Tm) (jobs : List CronJob) : Nat → Nat → Arr Byte → Except UB (Arr Byte)
  | _, 0, m => .ok m
  | k, n + 1, m =>
    match jobs[k]? with
    | none => .error .oob
    | some j =>
      if j.enabled then
        match Lwdtc.isValid tm j.cron with
        | .error e => .error e
        | .ok false => cronEvalLoop tm jobs (k + 1) n m
        | .ok true =>
          match aget m j.enableReg, aget m j.flagReg with
          | .ok b, .ok _ => cronEvalLoop tm jobs (k + 1) n (aset m j.flagReg b)
          | .error e, _ => .error e
          | _, .error e => .error e
      else cronEvalLoop tm jobs (k + 1) n m

/-- `ladderlib_cron_eval`, ladderlib_cron.c:79-97.  Simplified: `localtime` does not return NULL. -/
def cronEval (env : Env) : Op Err := fun w =>
  match w.ctx.cron with
  | none => .error .nullDeref
  | some cr =>
    match cr.ctx with
    | none => .ok (.fail, w)
    | some jobs =>
      if cr.used = 0 then .ok (.fail, w) else
      match cronEvalLoop (env.localtime w.tick) jobs 0 cr.used w.ctx.M with
      | .error e => .error e
      | .ok m => .ok (.ok, { w with ctx := { w.ctx with M := m }, tick := w.tick + 1 })

/-- Auto-reset loop of `ladder_scan`, ladder_scan.c:133-135. -/
def cronResetLoop (jobs : Arr CronJob) : Nat → Nat → Arr Byte → Except UB (Arr Byte)
  | _, 0, m => .ok m
  | k, n + 1, m =>
    match aget jobs k with
    | .error e => .error e
    | .ok j =>
      if j.enabled && j.autoReset then
        match aget m j.flagReg with
        | .error e => .error e
        | .ok _ => cronResetLoop jobs (k + 1) n (aset m j.flagReg 0)
      else cronResetLoop jobs (k + 1) n m

/-- Cron part of `ladder_scan`, ladder_scan.c:132-141: false when the scan must stop (state INV). -/
def cronPhase (env : Env) : Op Bool := do
  let ctx ← getCtx
  match ctx.cron with
  | none => pure true
  | some cr => do
    let m ← lift (cronResetLoop cr.ctx 0 cr.used ctx.M)
    modCtx fun ctx => { ctx with M := m }
    let e ← cronEval env
    if e ≠ .ok then do
      modCtx fun ctx => { ctx with state := .inv }
      pure false
    else pure true

end Ladder
