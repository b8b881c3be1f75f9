import Verif.Lemmas.Frame
import Verif.Lemmas.Task
import Verif.Props.ScanFrame

/-
The order of events in a task: cycles (C34), waiting (C37), stopping (C38, C39) and refusal (C40).
-/

set_option autoImplicit false

namespace Ladder.Props

open Spec Op

variable {env : Env}

/-! ### Traces of the phases -/

theorem calm_append (a b : List Event) : calm (a ++ b) = calm a ++ calm b := List.filter_append ..

theorem failPanic_trace {w w' : World} {u : Unit} (h : failPanic env w = .ok (u, w')) :
    ∃ new, w'.trace = w.trace ++ new ∧ ∀ e ∈ new, e = .panic := by
  rw [failPanic_apply] at h
  cases h
  split
  · exact ⟨_, rfl, by simp⟩
  · exact ⟨[], by simp, by simp⟩

theorem calm_panics {l : List Event} (h : ∀ e ∈ l, e = .panic) : calm l = [] := by
  rw [calm, List.filter_eq_nil_iff]
  intro e he; simp [h e he]

theorem readLoop_trace : ∀ (fuel n : Nat) {w w' : World} {u : Unit}, readLoop env fuel n w = .ok (u, w') →
    ∃ new k, w'.trace = w.trace ++ new ∧ calm new = (List.range' n k).map .read
  | 0, _, _, _, _, h => by simp [readLoop] at h
  | fuel + 1, n, w, w', u, h => by
    unfold readLoop at h
    rw [bind_getCtx] at h
    split at h
    · rw [bind_lift_eq_ok] at h
      obtain ⟨b, -, h⟩ := h
      split at h
      · obtain ⟨new, e, hp⟩ := failPanic_trace h
        exact ⟨new, 0, e, by simp [calm_panics hp]⟩
      · obtain ⟨u, w1, h1, h⟩ := bind_eq_ok.1 h
        rw [external_apply] at h1
        cases h1
        obtain ⟨new, k, e, c⟩ := readLoop_trace fuel (n + 1) h
        refine ⟨.read n :: new, k + 1, by rw [e]; simp, ?_⟩
        rw [List.range'_succ, List.map_cons, ← c]
        rfl
    · simp at h
      exact ⟨[], 0, by rw [h]; simp, rfl⟩

theorem writeLoop_trace : ∀ (fuel n : Nat) {w w' : World} {u : Unit}, writeLoop env fuel n w = .ok (u, w') →
    ∃ new, ∃ outs : List (Arr OutMod), w'.trace = w.trace ++ new ∧
      calm new = outs.mapIdx fun i o => .write (n + i) o
  | 0, _, _, _, _, h => by simp [writeLoop] at h
  | fuel + 1, n, w, w', u, h => by
    unfold writeLoop at h
    rw [bind_getCtx] at h
    split at h
    · rw [bind_lift_eq_ok] at h
      obtain ⟨b, -, h⟩ := h
      split at h
      · obtain ⟨new, e, hp⟩ := failPanic_trace h
        exact ⟨new, [], e, by simp [calm_panics hp]⟩
      · obtain ⟨u, w1, h1, h⟩ := bind_eq_ok.1 h
        rw [external_apply] at h1
        cases h1
        obtain ⟨new, outs, e, c⟩ := writeLoop_trace fuel (n + 1) h
        refine ⟨.write n w.ctx.output :: new, w.ctx.output :: outs, by rw [e]; simp, ?_⟩
        rw [List.mapIdx_cons]
        show .write n w.ctx.output :: calm new = _
        rw [c]
        simp [Nat.add_assoc, Nat.add_comm 1]
    · simp at h
      exact ⟨[], [], by rw [h]; simp, rfl⟩

theorem doWrites_trace {w w' : World} {u : Unit} (h : doWrites env w = .ok (u, w')) :
    ∃ new, ∃ outs : List (Arr OutMod), w'.trace = w.trace ++ new ∧ calm new = outs.mapIdx .write := by
  unfold doWrites at h
  rw [bind_getCtx] at h
  split at h
  · obtain ⟨new, outs, e, c⟩ := writeLoop_trace _ _ h
    exact ⟨new, outs, e, by simpa using c⟩
  · simp at h
    exact ⟨[], [], by rw [h]; simp, rfl⟩

theorem scanTime_trace {w w' : World} {u : Unit} (h : scanTime env w = .ok (u, w')) :
    ∃ new, w'.trace = w.trace ++ new ∧ ∀ e ∈ new, e = .panic := by
  cases hm : w.ctx.millis with
  | false =>
    unfold scanTime at h
    rw [bind_getCtx] at h
    simp only [hm, Bool.not_false, if_true] at h
    exact failPanic_trace (env := env) (by unfold failPanic; exact h)
  | true =>
    obtain ⟨s, -, e⟩ := scanTime_eq h hm
    rw [e]
    split
    · split
      · exact ⟨_, rfl, by simp⟩
      · exact ⟨[], by simp, by simp⟩
    · exact ⟨[], by simp, by simp⟩

theorem readPhase_trace {w w' : World} {b : Bool} (h : readPhase env w = .ok (b, w')) :
    ∃ new k, w'.trace = w.trace ++ new ∧ calm new = (List.range k).map .read := by
  rcases readPhase_eq h with ⟨-, -, -, h⟩ | ⟨-, inp, -, ⟨-, -, h⟩ | ⟨-, h⟩⟩
  · obtain ⟨new, e, hp⟩ := failPanic_trace h
    exact ⟨new, 0, e, by simp [calm_panics hp]⟩
  · obtain ⟨new, k, e, c⟩ := readLoop_trace _ _ h
    exact ⟨new, k, e, by rw [c, List.range_eq_range']⟩
  · rw [h]; exact ⟨[], 0, by simp, rfl⟩

theorem outHistPhase_trace {w w' : World} {b : Bool} (h : outHistPhase env w = .ok (b, w')) :
    ∃ new, w'.trace = w.trace ++ new ∧ ∀ e ∈ new, e = .panic := by
  rcases outHistPhase_eq h with ⟨-, -, -, h⟩ | ⟨-, out, -, h⟩
  · exact failPanic_trace h
  · rw [h]; exact ⟨[], by simp, by simp⟩

theorem startOf_trace (w : World) : ∃ new, (startOf env w).trace = w.trace ++ new ∧ ∀ e ∈ new, e = .panic := by
  unfold startOf
  split
  · exact ⟨[], by simp, by simp⟩
  · dsimp only
    split
    · exact ⟨_, rfl, by simp⟩
    · exact ⟨[], by simp, by simp⟩

theorem before_trace {w w' : World} (h : callBefore env (startOf env w) = .ok ((), w')) :
    ∃ new, w'.trace = w.trace ++ new ∧ (calm new = [] ∨ calm new = [.before]) := by
  obtain ⟨n0, e0, hp⟩ := startOf_trace (env := env) w
  rw [callBefore_apply] at h
  cases h
  split
  · exact ⟨n0 ++ [.before], by simp [e0], .inr (by rw [calm_append, calm_panics hp]; rfl)⟩
  · exact ⟨n0, e0, .inl (calm_panics hp)⟩

theorem tail_trace {w w1 w2 w' : World} (ht : scanTime env w = .ok ((), w1)) (hd : pad env w1 = .ok ((), w2))
    (ha : callAfter env w2 = .ok ((), w')) :
    ∃ new d a, w'.trace = w.trace ++ new ∧ calm new = d ++ a ∧ (d = [] ∨ ∃ ms, d = [.delay ms]) ∧
      (a = [] ∨ a = [.after]) := by
  obtain ⟨n0, e0, hp⟩ := scanTime_trace ht
  rw [pad_apply] at hd
  rw [callAfter_apply] at ha
  cases hd
  cases ha
  have ha : ∀ v : World, ∃ a, (if v.ctx.on.taskAfter = true then
      { ctx := env.after v.tick v.ctx, tick := v.tick + 1, trace := v.trace ++ [.after] : World } else v).trace =
        v.trace ++ a ∧ (a = [] ∨ a = [.after]) ∧ calm a = a := by
    intro v
    split
    · exact ⟨_, rfl, .inr rfl, rfl⟩
    · exact ⟨[], by simp, .inl rfl, rfl⟩
  cases lack w1.ctx with
  | none =>
    obtain ⟨a, e, h, ca⟩ := ha w1
    exact ⟨n0 ++ a, [], a, e.trans (by rw [e0, List.append_assoc]), by rw [calm_append, calm_panics hp, ca], .inl rfl, h⟩
  | some d =>
    obtain ⟨a, e, h, ca⟩ := ha { ctx := env.delay w1.tick w1.ctx, tick := w1.tick + 1, trace := w1.trace ++ [.delay d] }
    exact ⟨n0 ++ ([.delay d] ++ a), [.delay d], a, e.trans (by simp [e0]), by
      rw [calm_append, calm_panics hp, calm_append, ca]; rfl, .inr ⟨d, rfl⟩, h⟩

theorem tail_trace' {w w1 w' : World} (ht : scanTime env w = .ok ((), w1))
    (ha : callAfter env w1 = .ok ((), w')) :
    ∃ new d a, w'.trace = w.trace ++ new ∧ calm new = d ++ a ∧ (d = [] ∨ ∃ ms, d = [.delay ms]) ∧
      (a = [] ∨ a = [.after]) := by
  obtain ⟨n0, e0, hp⟩ := scanTime_trace ht
  rw [callAfter_apply] at ha
  cases ha
  split
  · exact ⟨n0 ++ [.after], [], [.after], by simp [e0], by rw [calm_append, calm_panics hp]; rfl, .inl rfl, .inr rfl⟩
  · exact ⟨n0, [], [], e0, by rw [calm_panics hp]; rfl, .inl rfl, .inl rfl⟩

/-! ### C34 -/

/-- C34, for every behaviour of the callbacks (they may even rewire the context).  The events of a cycle are the before hook,
then reads of the modules 0, 1, … in order, then those of the scan, then writes of the modules 0, 1, … in order, then the
padding and the after hook.  So nothing is written before the reads and the scan are over. -/
theorem C34_cycle_phased {w w' : World} {r : IterRes} (h : cycle env w = .ok (r, w')) : Phased (news w w') := by
  cases cycleRun h with
  | noInput hb hr =>
    obtain ⟨b, eb, cb⟩ := before_trace hb
    obtain ⟨rs, k, er, cr⟩ := readPhase_trace hr
    refine ⟨b, rs, [], [], [], ?_, cb, ⟨k, cr⟩, by simp, ⟨[], rfl⟩, [], [], rfl, .inl rfl, .inl rfl⟩
    rw [news_of (new := b ++ rs) (by rw [er, eb, List.append_assoc])]; simp
  | noOutput hb hr ho =>
    obtain ⟨b, eb, cb⟩ := before_trace hb
    obtain ⟨rs, k, er, cr⟩ := readPhase_trace hr
    obtain ⟨o, eo, co⟩ := outHistPhase_trace ho
    refine ⟨b, rs ++ o, [], [], [], ?_, cb, ⟨k, by rw [calm_append, cr, calm_panics co]; simp⟩, by simp, ⟨[], rfl⟩, [], [],
      rfl, .inl rfl, .inl rfl⟩
    rw [news_of (new := b ++ (rs ++ o)) (by rw [eo, er, eb]; simp)]; simp
  | fault hb hr ho hs hi hf =>
    obtain ⟨b, eb, cb⟩ := before_trace hb
    obtain ⟨rs, k, er, cr⟩ := readPhase_trace hr
    obtain ⟨o, eo, co⟩ := outHistPhase_trace ho
    obtain ⟨s, es, cs⟩ := scan_trace hs
    obtain ⟨c, c', out, v1, v2, -, -, -, hw, ht, ha⟩ := faultPath_eq hf
    obtain ⟨ws, outs, ew, cw⟩ := doWrites_trace hw
    obtain ⟨t, d, a, et, ct, hd, ha⟩ := tail_trace' ht ha
    refine ⟨b, rs ++ o, s, ws, t, ?_, cb, ⟨k, by rw [calm_append, cr, calm_panics co]; simp⟩, cs, ⟨outs, cw⟩, d, a, ct, hd, ha⟩
    refine news_of ?_
    rw [et, ew]
    dsimp only
    rw [es, eo, er, eb]
    simp
  | normal hb hr ho hs hi hp hw ht hd ha =>
    obtain ⟨b, eb, cb⟩ := before_trace hb
    obtain ⟨rs, k, er, cr⟩ := readPhase_trace hr
    obtain ⟨o, eo, co⟩ := outHistPhase_trace ho
    obtain ⟨s, es, cs⟩ := scan_trace hs
    obtain ⟨ws, outs, ew, cw⟩ := doWrites_trace hw
    obtain ⟨t, d, a, et, ct, hd, ha⟩ := tail_trace ht hd ha
    refine ⟨b, rs ++ o, s, ws, t, ?_, cb, ⟨k, by rw [calm_append, cr, calm_panics co]; simp⟩, cs, ⟨outs, cw⟩, d, a, ct, hd, ha⟩
    refine news_of ?_
    rw [et, ew]
    dsimp only
    rw [es, eo, er, eb]
    simp

theorem waitLoop_trace : ∀ (n : Nat) {w w' : World} {r : WaitRes}, waitLoop env n w = .ok (r, w') →
    ∃ new, w'.trace = w.trace ++ new ∧ Waiting new
  | 0, w, w', r, h => by
    simp [waitLoop] at h; exact ⟨[], by rw [h.2]; simp, by simp [Waiting]⟩
  | n + 1, w, w', r, h => by
    unfold waitLoop at h
    rw [bind_getCtx] at h
    split at h
    · simp at h; exact ⟨[], by rw [h.2]; simp, by simp [Waiting]⟩
    · split at h
      · simp at h; exact ⟨[], by rw [h.2]; simp, by simp [Waiting]⟩
      · split at h
        · obtain ⟨u, w1, h1, h⟩ := bind_eq_ok.1 h
          obtain ⟨n1, e1, hp⟩ := failPanic_trace h1
          obtain ⟨n2, e2, hw⟩ := waitLoop_trace n h
          refine ⟨n1 ++ n2, by rw [e2, e1, List.append_assoc], fun e he => ?_⟩
          rcases List.mem_append.1 he with he | he
          · exact .inl (hp e he)
          · exact hw e he
        · obtain ⟨u, w1, h1, h⟩ := bind_eq_ok.1 h
          rw [callDelay, external_apply] at h1
          cases h1
          obtain ⟨n2, e2, hw⟩ := waitLoop_trace n h
          refine ⟨.delay w.ctx.qty.delayNotRun :: n2, by rw [e2]; simp, fun e he => ?_⟩
          rcases List.mem_cons.1 he with he | he
          · exact .inr ⟨_, he⟩
          · exact hw e he

theorem news_append {w w1 w2 : World} {a b : List Event} (h1 : w1.trace = w.trace ++ a) (h2 : w2.trace = w1.trace ++ b) :
    w2.trace = w.trace ++ (a ++ b) := by rw [h2, h1, List.append_assoc]

theorem cycle_trace {w w' : World} {r : IterRes} (h : cycle env w = .ok (r, w')) :
    w'.trace = w.trace ++ news w w' := by
  have : ∃ n, w'.trace = w.trace ++ n := by
    cases cycleRun h with
    | noInput hb hr =>
      obtain ⟨b, eb, -⟩ := before_trace hb
      obtain ⟨rs, k, er, -⟩ := readPhase_trace hr
      exact ⟨_, news_append eb er⟩
    | noOutput hb hr ho =>
      obtain ⟨b, eb, -⟩ := before_trace hb
      obtain ⟨rs, k, er, -⟩ := readPhase_trace hr
      obtain ⟨o, eo, -⟩ := outHistPhase_trace ho
      exact ⟨_, news_append (news_append eb er) eo⟩
    | fault hb hr ho hs hi hf =>
      obtain ⟨b, eb, -⟩ := before_trace hb
      obtain ⟨rs, k, er, -⟩ := readPhase_trace hr
      obtain ⟨o, eo, -⟩ := outHistPhase_trace ho
      obtain ⟨s, es, -⟩ := scan_trace hs
      obtain ⟨c, c', out, v1, v2, -, -, -, hw, ht, ha⟩ := faultPath_eq hf
      obtain ⟨ws, outs, ew, -⟩ := doWrites_trace hw
      obtain ⟨t, d, a, et, -⟩ := tail_trace' ht ha
      exact ⟨_, news_append (news_append (news_append (news_append (news_append eb er) eo) es) ew) et⟩
    | normal hb hr ho hs hi hp hw ht hd ha =>
      obtain ⟨b, eb, -⟩ := before_trace hb
      obtain ⟨rs, k, er, -⟩ := readPhase_trace hr
      obtain ⟨o, eo, -⟩ := outHistPhase_trace ho
      obtain ⟨s, es, -⟩ := scan_trace hs
      obtain ⟨ws, outs, ew, -⟩ := doWrites_trace hw
      obtain ⟨t, d, a, et, -⟩ := tail_trace ht hd ha
      exact ⟨_, news_append (news_append (news_append (news_append (news_append eb er) eo) es) ew) et⟩
  obtain ⟨n, e⟩ := this
  rw [news_of e, e]

/-- C34 over a whole run, for every behaviour of the callbacks: what happens during any number of iterations of the main loop is
a sequence of waiting periods and phased cycles, followed at most by the end hook. -/
theorem C34_run_phased : ∀ (n : Nat) {w w' : World} {r : TaskRes}, taskLoop env n w = .ok (r, w') →
    ∃ (segs : List (List Event)) (e : List Event), w'.trace = w.trace ++ (segs.flatten ++ e) ∧
      (∀ s ∈ segs, Waiting s ∨ Phased s) ∧ (e = [] ∨ e = [.endTask] ∧ r = .ended)
  | 0, w, w', r, h => by
    simp [taskLoop] at h
    exact ⟨[], [], by rw [h.2]; simp, by simp, .inl rfl⟩
  | n + 1, w, w', r, h => by
    unfold taskLoop at h
    rw [bind_getCtx] at h
    have hend : ∀ {v : World}, (do callEndTask env; pure .ended : Op TaskRes) v = .ok (r, w') →
        ∃ e, w'.trace = v.trace ++ e ∧ (e = [] ∨ e = [.endTask] ∧ r = .ended) := by
      intro v h
      rw [bind_apply, callEndTask_apply] at h
      cases h
      split
      · exact ⟨_, rfl, .inr ⟨rfl, rfl⟩⟩
      · exact ⟨[], by simp, .inl rfl⟩
    split at h
    · obtain ⟨e, he, hr⟩ := hend h
      exact ⟨[], e, by simpa using he, by simp, hr⟩
    · obtain ⟨i, w1, hi, h⟩ := bind_eq_ok.1 h
      have hseg : ∃ segs : List (List Event), w1.trace = w.trace ++ segs.flatten ∧ ∀ s ∈ segs, Waiting s ∨ Phased s := by
        unfold taskIter at hi
        obtain ⟨q, w2, hq, hi⟩ := bind_eq_ok.1 hi
        obtain ⟨n1, e1, hw⟩ := waitLoop_trace _ hq
        cases q with
        | leave => simp at hi; exact ⟨[n1], by rw [← hi.2]; simpa using e1, by simp [hw]⟩
        | timeout =>
          obtain ⟨u, w3, hf, hi⟩ := bind_eq_ok.1 hi
          obtain ⟨n2, e2, hp⟩ := failPanic_trace hf
          rw [bind_modCtx] at hi
          simp at hi
          refine ⟨[n1, n2], by rw [← hi.2]; simp [e2, e1], ?_⟩
          intro s hs
          simp only [List.mem_cons, List.not_mem_nil, or_false] at hs
          rcases hs with rfl | rfl
          · exact .inl hw
          · exact .inl fun e he => .inl (hp e he)
        | ready =>
          refine ⟨[n1, news w2 w1], ?_, ?_⟩
          · rw [cycle_trace hi, e1]; simp
          intro s hs
          simp only [List.mem_cons, List.not_mem_nil, or_false] at hs
          rcases hs with rfl | rfl
          · exact .inl hw
          · exact .inr (C34_cycle_phased hi)
      obtain ⟨segs, es, hs⟩ := hseg
      cases i with
      | again =>
        obtain ⟨segs', e, e', hs', hr⟩ := C34_run_phased n h
        refine ⟨segs ++ segs', e, by rw [e', es]; simp, ?_, hr⟩
        intro s hm
        rcases List.mem_append.1 hm with hm | hm
        · exact hs s hm
        · exact hs' s hm
      | exit =>
        obtain ⟨e, he, hr⟩ := hend h
        exact ⟨segs, e, by rw [he, es]; simp, hs, hr⟩
      | leave =>
        simp at h
        exact ⟨segs, [], by rw [← h.2, es]; simp, hs, .inl rfl⟩

/-! #### With modules that stay registered -/

theorem wiring_frame {a b : Ctx} (h : frame a = frame b) : wiring a = wiring b := by
  have e : ∀ c, wiring (frame c) = wiring c := by intro c; simp [wiring, frame]
  rw [← e a, h, e]

theorem wired_congr {a b : Ctx} (h : wiring b = wiring a) (hw : Wired a) : Wired b := by
  have h1 : b.fnReadQty = a.fnReadQty := congrArg Wiring.reads h
  have h2 : b.fnWriteQty = a.fnWriteQty := congrArg Wiring.writes h
  have h3 : b.read = a.read := congrArg Wiring.read h
  have h4 : b.write = a.write := congrArg Wiring.write h
  have h5 : b.millis = a.millis := congrArg Wiring.millis h
  have h6 : b.input.isSome = a.input.isSome := congrArg Wiring.hasInput h
  have h7 : b.output.isSome = a.output.isSome := congrArg Wiring.hasOutput h
  constructor
  · rw [h5]; exact hw.millis
  · rw [h1, h3]; exact hw.read
  · rw [h2, h4]; exact hw.write
  · rw [h1, h6]; exact hw.input
  · rw [h2, h7]; exact hw.output

section
variable (hk : TaskHooks env fun c c' => wiring c' = wiring c)
include hk

theorem readLoop_wired : ∀ (fuel n : Nat) {w w' : World} {u : Unit}, Wired w.ctx → readLoop env fuel n w = .ok (u, w') →
    w'.trace = w.trace ++ (List.range' n (w.ctx.fnReadQty - n)).map .read ∧ wiring w'.ctx = wiring w.ctx
  | 0, _, _, _, _, _, h => by simp [readLoop] at h
  | fuel + 1, n, w, w', u, hw, h => by
    unfold readLoop at h
    rw [bind_getCtx] at h
    split at h
    · rename_i hn
      rw [bind_lift_eq_ok] at h
      obtain ⟨b, hb, h⟩ := h
      rw [aget_eq_ok.2 (hw.read n hn)] at hb
      cases hb
      simp only [Bool.not_true, Bool.false_eq_true, if_false] at h
      obtain ⟨u, w1, h1, h⟩ := bind_eq_ok.1 h
      rw [external_apply] at h1
      cases h1
      have e := hk.read w.tick n w.ctx
      obtain ⟨ht, he⟩ := readLoop_wired fuel (n + 1) (wired_congr e hw) h
      refine ⟨?_, he.trans e⟩
      rw [ht, show (env.read w.tick n w.ctx).fnReadQty = w.ctx.fnReadQty from congrArg Wiring.reads e,
        show w.ctx.fnReadQty - n = (w.ctx.fnReadQty - (n + 1)) + 1 by omega, List.range'_succ]
      simp
    · rename_i hn
      simp at h
      rw [← h, show w.ctx.fnReadQty - n = 0 by omega]
      simp

theorem writeLoop_wired : ∀ (fuel n : Nat) {w w' : World} {u : Unit}, Wired w.ctx → writeLoop env fuel n w = .ok (u, w') →
    (∃ outs : List (Arr OutMod), outs.length = w.ctx.fnWriteQty - n ∧
      w'.trace = w.trace ++ outs.mapIdx fun i o => .write (n + i) o) ∧ wiring w'.ctx = wiring w.ctx
  | 0, _, _, _, _, _, h => by simp [writeLoop] at h
  | fuel + 1, n, w, w', u, hw, h => by
    unfold writeLoop at h
    rw [bind_getCtx] at h
    split at h
    · rename_i hn
      rw [bind_lift_eq_ok] at h
      obtain ⟨b, hb, h⟩ := h
      rw [aget_eq_ok.2 (hw.write n hn)] at hb
      cases hb
      simp only [Bool.not_true, Bool.false_eq_true, if_false] at h
      obtain ⟨u, w1, h1, h⟩ := bind_eq_ok.1 h
      rw [external_apply] at h1
      cases h1
      have e := hk.write w.tick n w.ctx
      obtain ⟨⟨outs, hl, ht⟩, he⟩ := writeLoop_wired fuel (n + 1) (wired_congr e hw) h
      refine ⟨⟨w.ctx.output :: outs, ?_, ?_⟩, he.trans e⟩
      · rw [List.length_cons, hl, show (env.write w.tick n w.ctx).fnWriteQty = w.ctx.fnWriteQty from congrArg Wiring.writes e]
        omega
      · rw [ht, List.mapIdx_cons]
        simp [Nat.add_assoc, Nat.add_comm 1]
    · rename_i hn
      simp at h
      rw [← h]
      exact ⟨⟨[], by simp; omega, by simp⟩, rfl⟩

theorem doWrites_wired {w w' : World} (hw : Wired w.ctx) (h : doWrites env w = .ok ((), w')) :
    (∃ outs : List (Arr OutMod), outs.length = w.ctx.fnWriteQty ∧ w'.trace = w.trace ++ outs.mapIdx .write) ∧
      wiring w'.ctx = wiring w.ctx := by
  unfold doWrites at h
  rw [bind_getCtx] at h
  split at h
  · obtain ⟨⟨outs, hl, ht⟩, he⟩ := writeLoop_wired hk _ _ hw h
    exact ⟨⟨outs, by simpa using hl, by simpa using ht⟩, he⟩
  · rename_i hc
    simp at h
    rw [h]
    have h0 : w'.ctx.fnWriteQty = 0 := by
      rw [← h]
      cases hq : w.ctx.fnWriteQty with
      | zero => rfl
      | succ k =>
        have := isSome_of_at? (hw.write 0 (by omega))
        exact absurd ⟨by omega, this⟩ hc
    exact ⟨⟨[], by simp [h0], by simp⟩, rfl⟩

theorem panicked_wiring (w : World) : wiring (panicked env w).ctx = wiring w.ctx := by
  unfold panicked
  split
  · exact hk.panic _ _
  · rfl

theorem readPhase_wired {w w' : World} {b : Bool} (hw : Wired w.ctx) (h : readPhase env w = .ok (b, w')) :
    b = true ∧ w'.trace = w.trace ++ (List.range w.ctx.fnReadQty).map .read ∧ wiring w'.ctx = wiring w.ctx := by
  rcases readPhase_eq h with ⟨-, h1, h2, -⟩ | ⟨hb, inp, hi, hr⟩
  · have := hw.input h1; simp [h2] at this
  · have hin : inp.isSome = w.ctx.input.isSome := by
      split at hi
      · exact amapFirst_isSome hi
      · simp at hi; rw [hi]
    have hwi : wiring { w.ctx with input := inp } = wiring w.ctx := by simp [wiring, hin]
    refine ⟨hb, ?_⟩
    rcases hr with ⟨-, -, h⟩ | ⟨hc, h⟩
    · obtain ⟨ht, he⟩ := readLoop_wired hk _ _ (w := { w with ctx := { w.ctx with input := inp } }) (wired_congr hwi hw) h
      exact ⟨by simpa [List.range_eq_range'] using ht, he.trans hwi⟩
    · rw [h]
      refine ⟨?_, hwi⟩
      cases hq : w.ctx.fnReadQty with
      | zero => simp
      | succ k =>
        have := isSome_of_at? (hw.read 0 (by omega))
        exact absurd ⟨by omega, this⟩ hc

omit hk in
theorem outHistPhase_wired {w w' : World} {b : Bool} (hw : Wired w.ctx) (h : outHistPhase env w = .ok (b, w')) :
    b = true ∧ w'.trace = w.trace ∧ wiring w'.ctx = wiring w.ctx := by
  rcases outHistPhase_eq h with ⟨-, h1, h2, -⟩ | ⟨hb, out, hi, hr⟩
  · have := hw.output h1; simp [h2] at this
  · have hin : out.isSome = w.ctx.output.isSome := by
      split at hi
      · exact amapFirst_isSome hi
      · simp at hi; rw [hi]
    rw [hr]
    exact ⟨hb, rfl, by simp [wiring, hin]⟩

theorem before_wired {w w' : World} (hm : w.ctx.millis = true) (h : callBefore env (startOf env w) = .ok ((), w')) :
    w'.trace = w.trace ++ ifOn w.ctx.on.taskBefore .before ∧ wiring w'.ctx = wiring w.ctx := by
  rw [callBefore_apply] at h
  cases h
  unfold startOf
  rw [if_pos hm]
  unfold ifOn
  dsimp only
  split
  · exact ⟨rfl, hk.before _ _⟩
  · exact ⟨by simp, rfl⟩

theorem scanTime_wired {w w' : World} (hm : w.ctx.millis = true) (h : scanTime env w = .ok ((), w')) :
    wiring w'.ctx = wiring w.ctx := by
  obtain ⟨s, -, e⟩ := scanTime_eq h hm
  rw [e]
  split
  · split
    · exact hk.panic _ _
    · rfl
  · rfl

omit hk in
theorem savePrevious_wired {c c' : Ctx} (h : savePrevious c = .ok c') : wiring c' = wiring c := by
  obtain ⟨mh, cdh, crh, tdh, trh, out, -, -, -, -, -, ho, e⟩ := savePrevious_eq h
  rw [e]; simp [wiring, amapFirst_isSome ho]

omit hk in
theorem rollback_wired {c c' : Ctx} (h : rollback c = .ok c') : wiring c' = wiring c := by
  obtain ⟨out, m, cd, cr, td, tr, cc, ts, d, r, ho, -, -, -, -, -, -, -, -, -, e⟩ := rollback_eq h
  rw [e]; simp [wiring, amapFirst_isSome ho]

omit hk in
theorem calm_self {l : List Event} (h : ∀ e ∈ l, e ≠ .panic) : calm l = l := by
  rw [calm, List.filter_eq_self]
  intro e he; simpa using h e he

omit hk in
theorem calm_writes (outs : List (Arr OutMod)) : calm (outs.mapIdx .write) = outs.mapIdx .write := by
  apply calm_self
  intro e he
  obtain ⟨i, hi, rfl⟩ := List.mem_mapIdx.1 he
  simp

/-- The wiring just before the scan, with the events so far. -/
theorem scan_wired {w w1 w2 w3 w4 : World} {b b' : Bool} (hw : Wired w.ctx)
    (hb : callBefore env (startOf env w) = .ok ((), w1))
    (hr : readPhase env w1 = .ok (b, w2)) (ho : outHistPhase env w2 = .ok (b', w3))
    (hs : scan env w3 = .ok ((), w4)) :
    wiring w4.ctx = wiring w.ctx ∧ ∃ s, (∀ e ∈ s, isScan e = true) ∧ w4.trace = w.trace ++
      (ifOn w.ctx.on.taskBefore .before ++ (List.range w.ctx.fnReadQty).map .read ++ s) := by
  obtain ⟨tb, eb⟩ := before_wired hk hw.millis hb
  have w1w := wired_congr eb hw
  obtain ⟨-, tr, er⟩ := readPhase_wired hk w1w hr
  obtain ⟨-, to, eo⟩ := outHistPhase_wired (wired_congr er w1w) ho
  obtain ⟨s, es, cs⟩ := scan_trace hs
  have ew := scan_keeps (fun _ _ => wiring_frame) hk.toHooks hs
  refine ⟨ew.trans (eo.trans (er.trans eb)), s, cs, ?_⟩
  rw [es, to, tr, tb, show w1.ctx.fnReadQty = w.ctx.fnReadQty from congrArg Wiring.reads eb]
  simp

omit hk in
theorem calm_finish {w v : World} {pre s ws n d : List Event} (key : v.trace = w.trace ++ (pre ++ s ++ ws ++ n ++ d))
    (hp : calm pre = pre) (cw : calm ws = ws) (cn : calm n = []) (cd : calm d = d) (b : Bool) (c : Ctx) (t : Nat) :
    calm (news w (if b = true then { ctx := c, tick := t, trace := v.trace ++ [.after] } else v)) =
      pre ++ calm s ++ ws ++ d ++ ifOn b .after := by
  cases b with
  | true =>
    rw [if_pos rfl, news_of (new := pre ++ s ++ ws ++ n ++ d ++ [.after]) (by dsimp only; rw [key]; simp)]
    simp only [calm_append, hp, cw, cn, cd]
    simp [ifOn, calm]
  | false =>
    rw [if_neg (by simp), news_of key]
    simp only [calm_append, hp, cw, cn, cd]
    simp [ifOn]

/-- C34 with a clock and modules that the callbacks leave registered: every cycle calls the before hook if there is one, every
read function once in order, then runs the scan, then calls every write function once in order, then the after hook. -/
theorem C34_cycle_complete {w w' : World} {r : IterRes} (hw : Wired w.ctx) (h : cycle env w = .ok (r, w')) :
    ∃ (s d : List Event) (outs : List (Arr OutMod)), (∀ e ∈ s, isScan e = true) ∧ outs.length = w.ctx.fnWriteQty ∧
      (d = [] ∨ ∃ ms, d = [.delay ms]) ∧
      calm (news w w') = ifOn w.ctx.on.taskBefore .before ++ (List.range w.ctx.fnReadQty).map .read ++ s ++
        outs.mapIdx .write ++ d ++ ifOn w.ctx.on.taskAfter .after := by
  have hcalm : ∀ s : List Event, (∀ e ∈ s, isScan e = true) → ∀ e ∈ calm s, isScan e = true := by
    intro s hs e he; exact hs e (List.mem_filter.1 he).1
  have hbr : calm (ifOn w.ctx.on.taskBefore .before ++ (List.range w.ctx.fnReadQty).map .read) =
      ifOn w.ctx.on.taskBefore .before ++ (List.range w.ctx.fnReadQty).map .read := by
    apply calm_self
    intro e he
    rcases List.mem_append.1 he with he | he
    · unfold ifOn at he; split at he <;> simp at he; rw [he]; simp
    · obtain ⟨i, -, rfl⟩ := List.mem_map.1 he; simp
  cases cycleRun h with
  | noInput hb hr =>
    obtain ⟨-, eb⟩ := before_wired hk hw.millis hb
    have := (readPhase_wired hk (wired_congr eb hw) hr).1
    cases this
  | noOutput hb hr ho =>
    obtain ⟨-, eb⟩ := before_wired hk hw.millis hb
    obtain ⟨-, -, er⟩ := readPhase_wired hk (wired_congr eb hw) hr
    have := (outHistPhase_wired (wired_congr er (wired_congr eb hw)) ho).1
    cases this
  | @fault w1 w2 w3 w4 _ hb hr ho hs hi hf =>
    obtain ⟨e4, s, cs, t4⟩ := scan_wired hk hw hb hr ho hs
    obtain ⟨c, c', out, v1, v2, h1, h2, h3, h4, h5, h6⟩ := faultPath_eq hf
    have ec : wiring { c' with output := out } = wiring w.ctx := by
      have ho : out.isSome = c'.output.isSome := by
        split at h3
        · cases h3; rfl
        · exact amapFirst_isSome h3
      have : wiring { c' with output := out } = wiring c' := by simp [wiring, ho]
      rw [this, savePrevious_wired h2, rollback_wired h1]
      exact e4
    obtain ⟨⟨outs, hl, tw⟩, ew⟩ := doWrites_wired hk (w := { w4 with ctx := { c' with output := out } }) (wired_congr ec hw) h4
    have hv : wiring v1.ctx = wiring w.ctx := ew.trans ec
    obtain ⟨n5, t5, p5⟩ := scanTime_trace h5
    have h2 := scanTime_wired hk (wired_congr hv hw).millis h5
    rw [callAfter_apply] at h6
    cases h6
    have on2 : v2.ctx.on = w.ctx.on := congrArg Wiring.on (h2.trans hv)
    refine ⟨calm s, [], outs, hcalm s cs, by rw [hl]; exact congrArg Wiring.writes ec, .inl rfl, ?_⟩
    rw [on2]
    have key : v2.trace = w.trace ++ ((ifOn w.ctx.on.taskBefore .before ++ (List.range w.ctx.fnReadQty).map .read) ++ s ++
        outs.mapIdx .write ++ n5) := by
      rw [t5, tw]; dsimp only; rw [t4]; simp
    exact (calm_finish (d := []) (by rw [key]; simp) hbr (calm_writes _) (calm_panics p5) rfl _ _ _)
  | @normal w1 w2 w3 w4 w5 w6 w7 _ c hb hr ho hs hi hp hd ht hpad ha =>
    obtain ⟨e4, s, cs, t4⟩ := scan_wired hk hw hb hr ho hs
    have ec : wiring c = wiring w.ctx := (savePrevious_wired hp).trans e4
    obtain ⟨⟨outs, hl, tw⟩, ew⟩ := doWrites_wired hk (w := { w4 with ctx := c }) (wired_congr ec hw) hd
    have hv : wiring w5.ctx = wiring w.ctx := ew.trans ec
    obtain ⟨n5, t5, p5⟩ := scanTime_trace ht
    have h6 : wiring w6.ctx = wiring w.ctx := (scanTime_wired hk (wired_congr hv hw).millis ht).trans hv
    have key : w6.trace = w.trace ++ ((ifOn w.ctx.on.taskBefore .before ++ (List.range w.ctx.fnReadQty).map .read) ++ s ++
        outs.mapIdx .write ++ n5) := by
      rw [t5, tw]; dsimp only; rw [t4]; simp
    have h7 : wiring w7.ctx = wiring w.ctx ∧ ∃ d, (d = [] ∨ ∃ ms, d = [.delay ms]) ∧ w7.trace = w6.trace ++ d := by
      rw [pad_apply] at hpad
      cases lk : lack w6.ctx with
      | none => rw [lk] at hpad; cases hpad; exact ⟨h6, [], .inl rfl, by simp⟩
      | some d => rw [lk] at hpad; cases hpad; exact ⟨(hk.delay _ _).trans h6, _, .inr ⟨d, rfl⟩, rfl⟩
    obtain ⟨h7, d, hd, t7⟩ := h7
    have cd : calm d = d := by rcases hd with rfl | ⟨ms, rfl⟩ <;> rfl
    rw [callAfter_apply] at ha
    cases ha
    have on2 : w7.ctx.on = w.ctx.on := congrArg Wiring.on h7
    refine ⟨calm s, d, outs, hcalm s cs, by rw [hl]; exact congrArg Wiring.writes ec, hd, ?_⟩
    rw [on2]
    have key := t7.trans (by rw [key, List.append_assoc])
    exact calm_finish key hbr (calm_writes _) (calm_panics p5) cd _ _ _

end

end Ladder.Props
