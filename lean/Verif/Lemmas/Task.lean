import Verif.Lemmas.ScanChange
import Verif.Model.Task
import Verif.Spec.Run

/-
Cycles of the task decomposed into their phases.
-/

set_option autoImplicit false

namespace Ladder

open Spec Op

variable {env : Env}

/-- Start of a cycle: the clock is read (ladder_task.c:100-110). -/
def startOf (env : Env) (w : World) : World :=
  if w.ctx.millis then
    { w with ctx := { w.ctx with scan := { w.ctx.scan with startTime := env.clock w.tick } }, tick := w.tick + 1 }
  else
    let c := { w.ctx with scan := { w.ctx.scan with startTime := 0 }, state := .error }
    if w.ctx.on.panic then { ctx := env.panic w.tick c, tick := w.tick + 1, trace := w.trace ++ [.panic] }
    else { w with ctx := c }

/-- The phases of a cycle. -/
inductive CycleRun (env : Env) (w : World) : IterRes → World → Prop
  | noInput {w1 w' : World} (hb : callBefore env (startOf env w) = .ok ((), w1))
      (hr : readPhase env w1 = .ok (false, w')) : CycleRun env w .again w'
  | noOutput {w1 w2 w' : World} (hb : callBefore env (startOf env w) = .ok ((), w1))
      (hr : readPhase env w1 = .ok (true, w2)) (ho : outHistPhase env w2 = .ok (false, w')) : CycleRun env w .again w'
  | fault {w1 w2 w3 w4 w' : World} (hb : callBefore env (startOf env w) = .ok ((), w1))
      (hr : readPhase env w1 = .ok (true, w2)) (ho : outHistPhase env w2 = .ok (true, w3))
      (hs : scan env w3 = .ok ((), w4)) (hi : w4.ctx.state = .inv) (hf : faultPath env w4 = .ok ((), w')) :
      CycleRun env w .exit w'
  | normal {w1 w2 w3 w4 w5 w6 w7 w' : World} {c : Ctx} (hb : callBefore env (startOf env w) = .ok ((), w1))
      (hr : readPhase env w1 = .ok (true, w2)) (ho : outHistPhase env w2 = .ok (true, w3))
      (hs : scan env w3 = .ok ((), w4)) (hi : w4.ctx.state ≠ .inv) (hp : savePrevious w4.ctx = .ok c)
      (hw : doWrites env { w4 with ctx := c } = .ok ((), w5)) (ht : scanTime env w5 = .ok ((), w6))
      (hd : pad env w6 = .ok ((), w7)) (ha : callAfter env w7 = .ok ((), w')) : CycleRun env w .again w'

theorem callPanic_apply (w : World) : callPanic env w = .ok ((), if w.ctx.on.panic then
    { ctx := env.panic w.tick w.ctx, tick := w.tick + 1, trace := w.trace ++ [.panic] } else w) := by
  unfold callPanic
  split <;> simp

theorem failPanic_apply (w : World) : failPanic env w = .ok ((), if w.ctx.on.panic then
    { ctx := env.panic w.tick { w.ctx with state := .error }, tick := w.tick + 1, trace := w.trace ++ [.panic] }
    else { w with ctx := { w.ctx with state := .error } }) := by
  unfold failPanic
  rw [bind_modCtx, callPanic_apply]

theorem cycleRun {w w' : World} {r : IterRes} (h : cycle env w = .ok (r, w')) : CycleRun env w r w' := by
  unfold cycle at h
  rw [bind_getCtx] at h
  have key : (do
      callBefore env
      if !(← readPhase env) then pure .again else do
      if !(← outHistPhase env) then pure .again else do
      scan env
      let ctx ← getCtx
      if ctx.state = .inv then do
        faultPath env
        pure .exit
      else do
        let ctx' ← lift (savePrevious ctx)
        modCtx fun _ => ctx'
        doWrites env
        scanTime env
        pad env
        callAfter env
        pure .again : Op IterRes) (startOf env w) = .ok (r, w') := by
    unfold startOf
    by_cases hm : w.ctx.millis = true
    · rw [if_pos hm]
      simp only [hm, Bool.not_true, Bool.false_eq_true, if_false] at h
      obtain ⟨now, w1, h1, h⟩ := bind_eq_ok.1 h
      unfold callMillis at h1
      rw [if_pos hm] at h1
      cases h1
      rw [bind_modCtx] at h
      exact h
    · rw [if_neg hm]
      simp only [hm, Bool.not_false, if_true] at h
      rw [bind_modCtx] at h
      obtain ⟨u, w1, h1, h⟩ := bind_eq_ok.1 h
      rw [failPanic_apply] at h1
      cases h1
      exact h
  clear h
  obtain ⟨u, w1, hb, h⟩ := bind_eq_ok.1 key
  obtain ⟨b, w2, hr, h⟩ := bind_eq_ok.1 h
  cases b with
  | false => simp at h; rw [← h.1, ← h.2]; exact .noInput hb hr
  | true =>
    simp only [Bool.not_true, Bool.false_eq_true, if_false] at h
    obtain ⟨b, w3, ho, h⟩ := bind_eq_ok.1 h
    cases b with
    | false => simp at h; rw [← h.1, ← h.2]; exact .noOutput hb hr ho
    | true =>
      simp only [Bool.not_true, Bool.false_eq_true, if_false] at h
      obtain ⟨u, w4, hs, h⟩ := bind_eq_ok.1 h
      rw [bind_getCtx] at h
      split at h
      · rename_i hi
        obtain ⟨u, w5, hf, h⟩ := bind_eq_ok.1 h
        simp at h; rw [← h.1, ← h.2]; exact .fault hb hr ho hs hi hf
      · rename_i hi
        rw [bind_lift_eq_ok] at h
        obtain ⟨c, hp, h⟩ := h
        rw [bind_modCtx] at h
        obtain ⟨u, w5, hw, h⟩ := bind_eq_ok.1 h
        obtain ⟨u, w6, ht, h⟩ := bind_eq_ok.1 h
        obtain ⟨u, w7, hd, h⟩ := bind_eq_ok.1 h
        obtain ⟨u, w8, ha, h⟩ := bind_eq_ok.1 h
        simp at h; rw [← h.1, ← h.2]; exact .normal hb hr ho hs hi hp hw ht hd ha

/-- The phases of the fault path. -/
theorem faultPath_eq {w w' : World} (h : faultPath env w = .ok ((), w')) :
    ∃ c c' out w1 w2, rollback { w.ctx with state := .exitTsk } = .ok c ∧ savePrevious c = .ok c' ∧
      (if c'.writeOnFault then .ok c'.output else amapFirst safeOut c'.fnWriteQty c'.output) = .ok out ∧
      doWrites env { w with ctx := { c' with output := out } } = .ok ((), w1) ∧ scanTime env w1 = .ok ((), w2) ∧
      callAfter env w2 = .ok ((), w') := by
  unfold faultPath at h
  rw [bind_modCtx, bind_getCtx, bind_lift_eq_ok] at h
  obtain ⟨c, h1, h⟩ := h
  rw [bind_lift_eq_ok] at h
  obtain ⟨c', h2, h⟩ := h
  rw [bind_lift_eq_ok] at h
  obtain ⟨out, h3, h⟩ := h
  rw [bind_modCtx] at h
  obtain ⟨u, w1, h4, h⟩ := bind_eq_ok.1 h
  obtain ⟨u, w2, h5, h⟩ := bind_eq_ok.1 h
  exact ⟨c, c', out, w1, w2, h1, h2, h3, h4, h5, h⟩

theorem callBefore_apply (w : World) : callBefore env w = .ok ((), if w.ctx.on.taskBefore then
    { ctx := env.before w.tick w.ctx, tick := w.tick + 1, trace := w.trace ++ [.before] } else w) := by
  unfold callBefore
  split <;> simp

theorem callAfter_apply (w : World) : callAfter env w = .ok ((), if w.ctx.on.taskAfter then
    { ctx := env.after w.tick w.ctx, tick := w.tick + 1, trace := w.trace ++ [.after] } else w) := by
  unfold callAfter
  split <;> simp

theorem callEndTask_apply (w : World) : callEndTask env w = .ok ((), if w.ctx.on.endTask then
    { ctx := env.endTask w.tick w.ctx, tick := w.tick + 1, trace := w.trace ++ [.endTask] } else w) := by
  unfold callEndTask
  split <;> simp

/-- The milliseconds a cycle still lacks to its target. -/
def lack (c : Ctx) : Option Nat :=
  if c.scan.targetScanMs.toInt > 0 ∧ c.scan.actualScanTime.toNat < c.scan.targetScanMs.toNat ∧ c.delay then
    some (c.scan.targetScanMs.toNat - c.scan.actualScanTime.toNat) else none

theorem pad_apply (w : World) : pad env w = .ok ((), match lack w.ctx with
    | some d => { ctx := env.delay w.tick w.ctx, tick := w.tick + 1, trace := w.trace ++ [.delay d] }
    | none => w) := by
  unfold pad lack
  rw [bind_getCtx]
  split <;> simp [callDelay]

theorem readPhase_eq {w w' : World} {b : Bool} (h : readPhase env w = .ok (b, w')) :
    (b = false ∧ w.ctx.fnReadQty > 0 ∧ w.ctx.input = none ∧ failPanic env w = .ok ((), w')) ∨
    (b = true ∧ ∃ inp, (if w.ctx.fnReadQty > 0 then amapFirst histIn w.ctx.fnReadQty w.ctx.input
          else .ok w.ctx.input) = .ok inp ∧
      ((w.ctx.fnReadQty > 0 ∧ w.ctx.read.isSome ∧
          readLoop env u32Fuel 0 { w with ctx := { w.ctx with input := inp } } = .ok ((), w')) ∨
        (¬ (w.ctx.fnReadQty > 0 ∧ w.ctx.read.isSome) ∧ w' = { w with ctx := { w.ctx with input := inp } }))) := by
  unfold readPhase at h
  rw [bind_getCtx] at h
  split at h
  · rename_i hc
    obtain ⟨u, w1, h1, h⟩ := bind_eq_ok.1 h
    simp at h
    left
    rw [← h.1, ← h.2]
    exact ⟨rfl, hc.1, Option.isNone_iff_eq_none.1 hc.2, h1⟩
  · rename_i hc
    rw [bind_lift_eq_ok] at h
    obtain ⟨inp, hi, h⟩ := h
    rw [bind_modCtx] at h
    right
    split at h
    · rename_i hr
      obtain ⟨u, w1, h1, h⟩ := bind_eq_ok.1 h
      simp at h
      rw [← h.2]
      exact ⟨h.1, inp, hi, .inl ⟨hr.1, hr.2, h1⟩⟩
    · rename_i hr
      simp at h
      rw [← h.2]
      exact ⟨h.1, inp, hi, .inr ⟨hr, rfl⟩⟩

theorem outHistPhase_eq {w w' : World} {b : Bool} (h : outHistPhase env w = .ok (b, w')) :
    (b = false ∧ w.ctx.fnWriteQty > 0 ∧ w.ctx.output = none ∧ failPanic env w = .ok ((), w')) ∨
    (b = true ∧ ∃ out, (if w.ctx.fnWriteQty > 0 then amapFirst histOut w.ctx.fnWriteQty w.ctx.output
          else .ok w.ctx.output) = .ok out ∧ w' = { w with ctx := { w.ctx with output := out } }) := by
  unfold outHistPhase at h
  rw [bind_getCtx] at h
  split at h
  · rename_i hc
    obtain ⟨u, w1, h1, h⟩ := bind_eq_ok.1 h
    simp at h
    left
    rw [← h.1, ← h.2]
    exact ⟨rfl, hc.1, Option.isNone_iff_eq_none.1 hc.2, h1⟩
  · rw [bind_lift_eq_ok] at h
    obtain ⟨out, hi, h⟩ := h
    rw [bind_modCtx] at h
    simp at h
    right
    rw [← h.1, ← h.2]
    exact ⟨rfl, out, hi, rfl⟩

/-- The clock reading at the end of a cycle. -/
theorem scanTime_eq {w w' : World} (h : scanTime env w = .ok ((), w')) (hm : w.ctx.millis = true) :
    ∃ s, scanMetrics w.ctx.scan (env.clock w.tick) = .ok s ∧
      w' = if w.ctx.qty.watchdogMs > 0 ∧ s.actualScanTime.toNat > w.ctx.qty.watchdogMs then
          (if w.ctx.on.panic then
            { ctx := env.panic (w.tick + 1) { w.ctx with scan := s, state := .error }, tick := w.tick + 1 + 1
              trace := w.trace ++ [.panic] }
           else { w with ctx := { w.ctx with scan := s, state := .error }, tick := w.tick + 1 })
        else { w with ctx := { w.ctx with scan := s }, tick := w.tick + 1 } := by
  unfold scanTime at h
  rw [bind_getCtx] at h
  simp only [hm, Bool.not_true, Bool.false_eq_true, if_false] at h
  obtain ⟨now, w1, h1, h⟩ := bind_eq_ok.1 h
  unfold callMillis at h1
  rw [if_pos hm] at h1
  cases h1
  rw [bind_lift_eq_ok] at h
  obtain ⟨s, hs, h⟩ := h
  rw [bind_modCtx] at h
  refine ⟨s, hs, ?_⟩
  split at h
  · rw [bind_modCtx, callPanic_apply] at h
    rename_i hc
    rw [if_pos hc]
    cases h
    rfl
  · rename_i hc
    rw [if_neg hc]
    simp at h
    rw [← h]

theorem except_bind {α β : Type} {x : Except UB α} {f : α → Except UB β} {b : β} :
    (x >>= f) = .ok b ↔ ∃ a, x = .ok a ∧ f a = .ok b := by
  cases x with
  | error e => simp [bind, Except.bind]
  | ok a => simp [bind, Except.bind]

theorem amapFirst_isSome {α : Type} {f : α → Except UB α} {n : Nat} {a b : Arr α} (h : amapFirst f n a = .ok b) :
    b.isSome = a.isSome := by
  cases a with
  | none => simp [amapFirst] at h; rw [← h]
  | some l =>
    simp only [amapFirst] at h
    cases hm : mapFirst f n l with
    | error e => rw [hm] at h; simp [Except.map] at h
    | ok l' => rw [hm] at h; simp [Except.map] at h; rw [← h]; rfl

theorem savePrevious_eq {c c' : Ctx} (h : savePrevious c = .ok c') :
    ∃ mh cdh crh tdh trh out, acopyIf c.Mh c.M c.qty.m = .ok mh ∧ acopyIf c.Cdh c.Cd c.qty.c = .ok cdh ∧
      acopyIf c.Crh c.Cr c.qty.c = .ok crh ∧ acopyIf c.Tdh c.Td c.qty.t = .ok tdh ∧
      acopyIf c.Trh c.Tr c.qty.t = .ok trh ∧ amapFirst saveOut c.fnWriteQty c.output = .ok out ∧
      c' = { c with Mh := mh, Cdh := cdh, Crh := crh, Tdh := tdh, Trh := trh, output := out } := by
  unfold savePrevious at h
  simp only [except_bind] at h
  obtain ⟨mh, h1, cdh, h2, crh, h3, tdh, h4, trh, h5, out, h6, h⟩ := h
  cases h
  exact ⟨mh, cdh, crh, tdh, trh, out, h1, h2, h3, h4, h5, h6, rfl⟩

theorem rollback_eq {c c' : Ctx} (h : rollback c = .ok c') :
    ∃ out m cd cr td tr cc ts d r, amapFirst revertOut c.fnWriteQty c.output = .ok out ∧
      acopy c.M c.Mh c.qty.m = .ok m ∧ acopy c.Cd c.Cdh c.qty.c = .ok cd ∧ acopy c.Cr c.Crh c.qty.c = .ok cr ∧
      acopy c.Td c.Tdh c.qty.t = .ok td ∧ acopy c.Tr c.Trh c.qty.t = .ok tr ∧
      (if c.qty.c > 0 ∧ c.C.isSome then afill c.C c.qty.c 0 else .ok c.C) = .ok cc ∧
      (if c.qty.t > 0 ∧ c.timers.isSome then zeroAcc c.qty.t c.timers else .ok c.timers) = .ok ts ∧
      (if c.qty.d > 0 ∧ c.D.isSome then afill c.D c.qty.d 0 else .ok c.D) = .ok d ∧
      (if c.qty.r > 0 ∧ c.R.isSome then afill c.R c.qty.r 0 else .ok c.R) = .ok r ∧
      c' = { c with
        output := out, M := m, Cd := cd, Cr := cr, Td := td, Tr := tr, C := cc, timers := ts, D := d, R := r } := by
  unfold rollback at h
  simp only [except_bind] at h
  obtain ⟨out, h1, m, h2, cd, h3, cr, h4, td, h5, tr, h6, cc, h7, ts, h8, d, h9, r, h10, h⟩ := h
  cases h
  exact ⟨out, m, cd, cr, td, tr, cc, ts, d, r, h1, h2, h3, h4, h5, h6, h7, h8, h9, h10, rfl⟩

end Ladder
