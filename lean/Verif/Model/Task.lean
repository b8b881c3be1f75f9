import Verif.Model.Scan
import Verif.Model.General

/-
`ladder_task`, source/ladder_task.c:42-307.
-/

namespace Ladder

open Op

/-- Usability checks, ladder_task.c:48-63: true when the context is refused. -/
def taskRefuses (ctx : Ctx) : Except UB Bool :=
  let firstNull (qty : Nat) (fns : Arr Bool) (vals : Bool) : Except UB Bool :=
    if qty > 0 then
      if fns.isNone ∨ vals then .ok true
      else (aget fns 0).map (! ·)
    else .ok false
  if !ctx.millis ∨ !ctx.delay then .ok true else
  match firstNull ctx.fnReadQty ctx.read ctx.input.isNone with
  | .error e => .error e
  | .ok true => .ok true
  | .ok false =>
    match firstNull ctx.fnWriteQty ctx.write ctx.output.isNone with
    | .error e => .error e
    | .ok true => .ok true
    | .ok false =>
      .ok (decide (
        (ctx.qty.m > 0 ∧ (ctx.M.isNone ∨ ctx.Mh.isNone)) ∨
        (ctx.qty.c > 0 ∧ (ctx.Cd.isNone ∨ ctx.Cr.isNone ∨ ctx.Cdh.isNone ∨ ctx.Crh.isNone ∨ ctx.C.isNone)) ∨
        (ctx.qty.t > 0 ∧ (ctx.Td.isNone ∨ ctx.Tr.isNone ∨ ctx.Tdh.isNone ∨ ctx.Trh.isNone ∨ ctx.timers.isNone)) ∨
        (ctx.qty.d > 0 ∧ ctx.D.isNone) ∨ (ctx.qty.r > 0 ∧ ctx.R.isNone) ∨
        (ctx.qty.networks > 0 ∧ ctx.network.isNone)))

variable (env : Env)

/-- `hw.time.delay(ms)`. -/
def callDelay (ms : Nat) : Op Unit := external (fun _ => .delay ms) env.delay

/-- `state = ERROR; if (on.panic != NULL) on.panic(ctx);` -/
def failPanic : Op Unit := do
  modCtx fun ctx => { ctx with state := .error }
  callPanic env

inductive WaitRes where
  | ready    -- RUNNING was seen
  | timeout  -- MAX_WAIT_CYCLES reached
  | leave    -- EXIT_TSK seen: the task returns
  deriving DecidableEq

/-- `MAX_WAIT_CYCLES`, ladder_task.c:40. -/
def maxWait : Nat := 1000

/-- Wait loop, ladder_task.c:68-84; the argument is the number of rounds left. -/
def waitLoop : Nat → Op WaitRes
  | 0 => pure .timeout
  | n + 1 => do
    let ctx ← getCtx
    if ctx.state = .running then pure .ready
    else if ctx.state = .exitTsk then pure .leave
    else do
      if !ctx.delay then failPanic env else callDelay env ctx.qty.delayNotRun
      waitLoop n

/-- Body of the input history loop, ladder_task.c:127-142. -/
def histIn (m : InMod) : Except UB InMod :=
  if m.iQty = 0 ∨ m.I.isNone ∨ m.Ih.isNone then .ok m else do
  let ih ← acopy m.Ih m.I m.iQty
  if m.iwQty = 0 ∨ m.IW.isNone ∨ m.IWh.isNone then .ok { m with Ih := ih } else do
  let iwh ← acopy m.IWh m.IW m.iwQty
  .ok { m with Ih := ih, IWh := iwh }

/-- Body of the output history loop, ladder_task.c:169-182. -/
def histOut (m : OutMod) : Except UB OutMod :=
  if m.qQty = 0 ∨ m.Q.isNone ∨ m.Qh.isNone then .ok m else do
  let qh ← acopy m.Qh m.Q m.qQty
  if m.qwQty = 0 ∨ m.QW.isNone ∨ m.QWh.isNone then .ok { m with Qh := qh } else do
  let qwh ← acopy m.QWh m.QW m.qwQty
  .ok { m with Qh := qh, QWh := qwh }

/-- Body of the revert loop, ladder_task.c:191-201. -/
def revertOut (m : OutMod) : Except UB OutMod :=
  if m.qQty = 0 ∨ m.Q.isNone ∨ m.Qh.isNone then .ok m else do
  let q ← acopy m.Q m.Qh m.qQty
  if m.qwQty = 0 ∨ m.QW.isNone ∨ m.QWh.isNone then .ok { m with Q := q } else do
  let qw ← acopy m.QW m.QWh m.qwQty
  .ok { m with Q := q, QW := qw }

/-- Body of the clearing loop, ladder_task.c:230-246. -/
def safeOut (m : OutMod) : Except UB OutMod :=
  if m.qQty = 0 ∨ m.Q.isNone then .ok m else do
  let q ← afill m.Q m.qQty 0
  if m.qwQty = 0 ∨ m.QW.isNone then .ok { m with Q := q } else do
  let qw ← afill m.QW m.qwQty 0
  let qh ← (if m.Qh.isSome then acopy m.Qh q m.qQty else .ok m.Qh)
  let qwh ← (if m.QWh.isSome then acopy m.QWh qw m.qwQty else .ok m.QWh)
  .ok { m with Q := q, QW := qw, Qh := qh, QWh := qwh }

/-- Read callbacks `n, n+1, …`, ladder_task.c:144-157. -/
def readLoop : Nat → Nat → Op Unit
  | 0, _ => lift (.error .diverges)
  | fuel + 1, n => do
    let ctx ← getCtx
    if n < ctx.fnReadQty then do
      if !(← lift (aget ctx.read n)) then failPanic env
      else do
        external (fun _ => .read n) (fun t => env.read t n)
        readLoop fuel (n + 1)
    else pure ()

/-- Write callbacks `n, n+1, …`, ladder_task.c:251-263 and 277-288. -/
def writeLoop : Nat → Nat → Op Unit
  | 0, _ => lift (.error .diverges)
  | fuel + 1, n => do
    let ctx ← getCtx
    if n < ctx.fnWriteQty then do
      if !(← lift (aget ctx.write n)) then failPanic env
      else do
        external (fun ctx => .write n ctx.output) (fun t => env.write t n)
        writeLoop fuel (n + 1)
    else pure ()

/-- `if (fn_write_qty > 0 && write != NULL) for …`, ladder_task.c:251 and 277. -/
def doWrites : Op Unit := do
  let ctx ← getCtx
  if ctx.fnWriteQty > 0 ∧ ctx.write.isSome then writeLoop env u32Fuel 0

/-- `if (on.task_after != NULL) on.task_after(ctx)`, ladder_task.c:268-269 and 300-301. -/
def callAfter : Op Unit := fun w =>
  if w.ctx.on.taskAfter then external (fun _ => .after) env.after w else .ok ((), w)

/-- `if (on.task_before != NULL) on.task_before(ctx)`, ladder_task.c:112-113. -/
def callBefore : Op Unit := fun w =>
  if w.ctx.on.taskBefore then external (fun _ => .before) env.before w else .ok ((), w)

/-- `if (on.end_task != NULL) on.end_task(ctx)`, ladder_task.c:304-306. -/
def callEndTask : Op Unit := fun w =>
  if w.ctx.on.endTask then external (fun _ => .endTask) env.endTask w else .ok ((), w)

/-- Rollback after a failed scan, ladder_task.c:190-223 (memory and registers). -/
def rollback (ctx : Ctx) : Except UB Ctx := do
  let out ← amapFirst revertOut ctx.fnWriteQty ctx.output
  let m ← acopy ctx.M ctx.Mh ctx.qty.m
  let cd ← acopy ctx.Cd ctx.Cdh ctx.qty.c
  let cr ← acopy ctx.Cr ctx.Crh ctx.qty.c
  let td ← acopy ctx.Td ctx.Tdh ctx.qty.t
  let tr ← acopy ctx.Tr ctx.Trh ctx.qty.t
  let c ← (if ctx.qty.c > 0 ∧ ctx.C.isSome then afill ctx.C ctx.qty.c 0 else .ok ctx.C)
  let ts ← (if ctx.qty.t > 0 ∧ ctx.timers.isSome then zeroAcc ctx.qty.t ctx.timers else .ok ctx.timers)
  let d ← (if ctx.qty.d > 0 ∧ ctx.D.isSome then afill ctx.D ctx.qty.d 0 else .ok ctx.D)
  let r ← (if ctx.qty.r > 0 ∧ ctx.R.isSome then afill ctx.R ctx.qty.r 0 else .ok ctx.R)
  .ok { ctx with output := out, M := m, Cd := cd, Cr := cr, Td := td, Tr := tr, C := c, timers := ts, D := d, R := r }

/-- Fault path after the scan left state INV, ladder_task.c:186-272 (up to `goto exit`). -/
def faultPath : Op Unit := do
  modCtx fun ctx => { ctx with state := .exitTsk }
  let ctx ← getCtx
  let ctx ← lift (rollback ctx)
  let ctx ← lift (savePrevious ctx)
  let out ← lift (if ctx.writeOnFault then .ok ctx.output else amapFirst safeOut ctx.fnWriteQty ctx.output)
  modCtx fun _ => { ctx with output := out }
  doWrites env
  scanTime env
  callAfter env

/-- Padding to the target scan time, ladder_task.c:292-297. -/
def pad : Op Unit := do
  let ctx ← getCtx
  let target := ctx.scan.targetScanMs
  if target.toInt > 0 ∧ ctx.scan.actualScanTime.toNat < target.toNat ∧ ctx.delay then
    callDelay env (target.toNat - ctx.scan.actualScanTime.toNat)

inductive IterRes where
  | again  -- next iteration of the main loop
  | exit   -- `goto exit`
  | leave  -- `return` (without the end_task callback)
  deriving DecidableEq

/-- Read phase, ladder_task.c:115-157: false when the cycle is abandoned (`continue`). -/
def readPhase : Op Bool := do
  let ctx ← getCtx
  if ctx.fnReadQty > 0 ∧ ctx.input.isNone then do
    failPanic env
    pure false
  else do
    let inp ← lift (if ctx.fnReadQty > 0 then amapFirst histIn ctx.fnReadQty ctx.input else .ok ctx.input)
    modCtx fun ctx => { ctx with input := inp }
    if ctx.fnReadQty > 0 ∧ ctx.read.isSome then readLoop env u32Fuel 0
    pure true

/-- Output history phase, ladder_task.c:159-182: false when the cycle is abandoned (`continue`). -/
def outHistPhase : Op Bool := do
  let ctx ← getCtx
  if ctx.fnWriteQty > 0 ∧ ctx.output.isNone then do
    failPanic env
    pure false
  else do
    let out ← lift (if ctx.fnWriteQty > 0 then amapFirst histOut ctx.fnWriteQty ctx.output else .ok ctx.output)
    modCtx fun ctx => { ctx with output := out }
    pure true

/-- One cycle in state RUNNING, ladder_task.c:100-301. -/
def cycle : Op IterRes := do
  let ctx ← getCtx
  if !ctx.millis then do
    modCtx fun ctx => { ctx with scan := { ctx.scan with startTime := 0 } }
    failPanic env
  else do
    let now ← callMillis env
    modCtx fun ctx => { ctx with scan := { ctx.scan with startTime := now } }
  callBefore env
  if !(← readPhase env) then pure .again else do
  if !(← outHistPhase env) then pure .again else do
  scan env
  let ctx ← getCtx
  if ctx.state = .inv then do
    faultPath env
    pure .exit
  else do
    let ctx' ← lift (savePrevious ctx)
    modCtx fun _ => ctx'
    doWrites env
    scanTime env
    pad env
    callAfter env
    pure .again

/-- One iteration of the main loop, ladder_task.c:66-302. -/
def taskIter : Op IterRes := do
  match ← waitLoop env maxWait with
  | .leave => pure .leave
  | .timeout => do
    failPanic env
    modCtx fun ctx => { ctx with state := .exitTsk }
    pure .again
  | .ready => cycle env

/-- How an observed run of the task stands. -/
inductive TaskRes where
  | refused  -- NULLFN: the context is not usable
  | running  -- still in the main loop
  | ended    -- the task function has returned
  deriving DecidableEq

/-- Main loop observed for `n` iterations, ladder_task.c:66-306. -/
def taskLoop : Nat → Op TaskRes
  | 0 => pure .running
  | n + 1 => do
    let ctx ← getCtx
    if ctx.state = .exitTsk then do
      callEndTask env
      pure .ended
    else
      match ← taskIter env with
      | .again => taskLoop n
      | .exit => do
        callEndTask env
        pure .ended
      | .leave => pure .ended

/-- `ladder_task`, ladder_task.c:42-307, for a non-NULL context, observed for `n` iterations of its main loop. -/
def task (n : Nat) : Op TaskRes := do
  let ctx ← getCtx
  if ← lift (taskRefuses ctx) then do
    modCtx fun ctx => { ctx with state := .nullFn }
    pure .refused
  else taskLoop env n

end Ladder
