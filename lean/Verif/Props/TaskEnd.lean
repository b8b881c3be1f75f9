import Verif.Lemmas.Gear
import Verif.Props.TaskOrder

/-
Waiting (C37), stopping (C38, C39) and refusal (C40).
-/

set_option autoImplicit false

namespace Ladder.Props

open Spec Op

variable {env : Env}

/-- C38, whenever the run is observed: from a world in the exit state the task calls the end hook and returns. -/
theorem C38_exit {v : World} (hs : v.ctx.state = .exitTsk) (n : Nat) :
    taskLoop env (n + 1) v = .ok (.ended, endHook env v) := by
  rw [taskLoop, bind_getCtx, if_pos hs, bind_apply, callEndTask_apply]
  rfl

/-! ### C37 -/

/-- The state lets the task neither start nor leave. -/
def Idle (w : World) : Prop := w.ctx.state ≠ .running ∧ w.ctx.state ≠ .exitTsk

theorem afterWaits_succ (w : World) (k : Nat) : afterWaits env w (k + 1) = afterWaits env (afterWaits env w 1) k := by
  induction k with
  | zero => rfl
  | succ k ih => rw [afterWaits, ih]; rfl

theorem waitLoop_idle {w : World} (hd : w.ctx.delay = true) (hi : Idle w) (n : Nat) :
    waitLoop env (n + 1) w = waitLoop env n (afterWaits env w 1) := by
  rw [waitLoop, bind_getCtx, if_neg hi.1, if_neg hi.2]
  simp only [hd, Bool.not_true, Bool.false_eq_true, if_false]
  rfl

section
variable (hk : ∀ t c, c.delay = true → (env.delay t c).delay = true)
include hk

theorem waitLoop_skip : ∀ (k n : Nat) {w : World}, w.ctx.delay = true → (∀ i, i < k → Idle (afterWaits env w i)) →
    waitLoop env (k + n) w = waitLoop env n (afterWaits env w k) ∧ (afterWaits env w k).ctx.delay = true
  | 0, n, w, hd, _ => ⟨by rw [Nat.zero_add]; rfl, hd⟩
  | k + 1, n, w, hd, hi => by
    rw [show k + 1 + n = (k + n) + 1 by omega, waitLoop_idle hd (hi 0 (by omega)), afterWaits_succ w k]
    refine waitLoop_skip k n (w := afterWaits env w 1) (hk _ _ hd) fun i h => ?_
    rw [← afterWaits_succ]
    exact hi (i + 1) (by omega)

/-- C37, start: if the state becomes running after fewer than 1000 waits, the cycle starts at once, nothing else having
happened than those waits. -/
theorem C37_starts {w : World} {j : Nat} (hd : w.ctx.delay = true) (hj : j < 1000)
    (hi : ∀ i, i < j → Idle (afterWaits env w i)) (hr : (afterWaits env w j).ctx.state = .running) :
    taskIter env w = cycle env (afterWaits env w j) := by
  have e := (waitLoop_skip hk j (1000 - j) hd hi).1
  rw [show j + (1000 - j) = maxWait by simp [maxWait]; omega, show 1000 - j = (999 - j) + 1 by omega] at e
  rw [taskIter, bind_apply, e, waitLoop, bind_getCtx, if_pos hr]
  rfl

/-- C37, leaving: if the exit state is requested after fewer than 1000 waits the task returns. -/
theorem C37_leaves {w : World} {j : Nat} (hd : w.ctx.delay = true) (hj : j < 1000)
    (hi : ∀ i, i < j → Idle (afterWaits env w i)) (hr : (afterWaits env w j).ctx.state = .exitTsk) :
    taskIter env w = .ok (.leave, afterWaits env w j) := by
  have e := (waitLoop_skip hk j (1000 - j) hd hi).1
  rw [show j + (1000 - j) = maxWait by simp [maxWait]; omega, show 1000 - j = (999 - j) + 1 by omega] at e
  rw [taskIter, bind_apply, e, waitLoop, bind_getCtx, if_neg (by rw [hr]; simp), if_pos hr]
  rfl

theorem taskIter_timeout {w : World} (hd : w.ctx.delay = true) (hi : ∀ i, i < 1000 → Idle (afterWaits env w i)) :
    taskIter env w = .ok (.again, inState (panicked env (inState (afterWaits env w 1000) .error)) .exitTsk) := by
  have e := (waitLoop_skip hk 1000 0 hd hi).1
  rw [taskIter, bind_apply, show maxWait = 1000 + 0 from rfl, e, waitLoop]
  simp only [pure_apply]
  rw [bind_apply, show failPanic env (afterWaits env w 1000) =
    .ok ((), panicked env (inState (afterWaits env w 1000) .error)) from failPanic_apply _]
  rfl

/-- C37, time-out: if the state is neither running nor exit at any of the 1000 looks at it, the task makes exactly 1000 waits,
reports panic in the error state, and ends in the exit state with the end hook; nothing else happens.  (The state is not looked
at once more after the last wait.) -/
theorem C37_timeout {w : World} (hd : w.ctx.delay = true) (hi : ∀ i, i < 1000 → Idle (afterWaits env w i)) (n : Nat) :
    taskLoop env (n + 2) w =
      .ok (.ended, endHook env (inState (panicked env (inState (afterWaits env w 1000) .error)) .exitTsk)) := by
  have h0 : w.ctx.state ≠ .exitTsk := (hi 0 (by omega)).2
  rw [taskLoop, bind_getCtx, if_neg h0, bind_apply, taskIter_timeout hk hd hi]
  exact C38_exit rfl n

end

/-- The waits are of the configured delay. -/
theorem C37_wait_length {w : World} (hk : ∀ t c, (env.delay t c).qty.delayNotRun = c.qty.delayNotRun) (k : Nat) :
    news w (afterWaits env w k) = List.replicate k (.delay w.ctx.qty.delayNotRun) := by
  have : ∀ k, (afterWaits env w k).ctx.qty.delayNotRun = w.ctx.qty.delayNotRun ∧
      (afterWaits env w k).trace = w.trace ++ List.replicate k (.delay w.ctx.qty.delayNotRun) := by
    intro k
    induction k with
    | zero => simp [afterWaits]
    | succ k ih => exact ⟨by rw [afterWaits, hk]; exact ih.1, by
        rw [afterWaits]; dsimp only; rw [ih.1, ih.2, List.append_assoc, ← List.replicate_succ']⟩
  exact news_of (this k).2

theorem waitLoop_bound : ∀ (n : Nat) {w w' : World} {r : WaitRes}, waitLoop env n w = .ok (r, w') →
    (news w w').length ≤ n ∧ Waiting (news w w') := by
  have key : ∀ (n : Nat) {w w' : World} {r : WaitRes}, waitLoop env n w = .ok (r, w') →
      ∃ new, w'.trace = w.trace ++ new ∧ new.length ≤ n ∧ Waiting new := by
    intro n
    induction n with
    | zero => intro w w' r h; simp [waitLoop] at h; exact ⟨[], by rw [h.2]; simp, by simp, by simp [Waiting]⟩
    | succ n ih =>
      intro w w' r h
      unfold waitLoop at h
      rw [bind_getCtx] at h
      split at h
      · simp at h; exact ⟨[], by rw [h.2]; simp, by simp, by simp [Waiting]⟩
      · split at h
        · simp at h; exact ⟨[], by rw [h.2]; simp, by simp, by simp [Waiting]⟩
        · have step : ∀ {w1 : World} {e : List Event}, w1.trace = w.trace ++ e → e.length ≤ 1 → Waiting e →
              waitLoop env n w1 = .ok (r, w') → ∃ new, w'.trace = w.trace ++ new ∧ new.length ≤ n + 1 ∧ Waiting new := by
            intro w1 e e1 l1 hw h
            obtain ⟨n2, e2, l2, h2⟩ := ih h
            refine ⟨e ++ n2, by rw [e2, e1, List.append_assoc], by rw [List.length_append]; omega, fun x hx => ?_⟩
            rcases List.mem_append.1 hx with hx | hx
            · exact hw x hx
            · exact h2 x hx
          split at h
          · obtain ⟨u, w1, h1, h⟩ := bind_eq_ok.1 h
            rw [failPanic_apply] at h1
            cases h1
            revert h
            split
            · exact step (e := [.panic]) rfl (by simp) (by simp [Waiting])
            · exact step (e := []) (by simp) (by simp) (by simp [Waiting])
          · obtain ⟨u, w1, h1, h⟩ := bind_eq_ok.1 h
            rw [callDelay, external_apply] at h1
            cases h1
            exact step (e := [.delay w.ctx.qty.delayNotRun]) rfl (by simp) (by simp [Waiting]) h
  intro n w w' r h
  obtain ⟨new, e, l, hw⟩ := key n h
  rw [news_of e]
  exact ⟨l, hw⟩

/-- C37, bound, for every behaviour of the callbacks: from any state other than running, an iteration of the task either makes at
most 1000 waits (and at most one further panic report) without reading or writing anything, or makes at most 1000 waits and then
finds the state running and performs a cycle. -/
theorem C37_bounded {w w' : World} {r : IterRes} (h : taskIter env w = .ok (r, w')) :
    (∃ v, v.ctx.state = .running ∧ (news w v).length ≤ 1000 ∧ Waiting (news w v) ∧ cycle env v = .ok (r, w')) ∨
    ((news w w').length ≤ 1001 ∧ Waiting (news w w') ∧ w'.ctx.state = .exitTsk) := by
  unfold taskIter at h
  obtain ⟨q, v, hq, h⟩ := bind_eq_ok.1 h
  obtain ⟨l, hw⟩ := waitLoop_bound _ hq
  obtain ⟨new, ev, -⟩ := waitLoop_trace _ hq
  have hst : ∀ n {w v : World} {q : WaitRes}, waitLoop env n w = .ok (q, v) →
      (q = .ready → v.ctx.state = .running) ∧ (q = .leave → v.ctx.state = .exitTsk) := by
    intro n
    induction n with
    | zero => intro w v q h; simp [waitLoop] at h; rw [← h.1]; simp
    | succ n ih =>
      intro w v q h
      unfold waitLoop at h
      rw [bind_getCtx] at h
      split at h
      · rename_i hr; simp at h; rw [← h.1, ← h.2]; exact ⟨fun _ => hr, by simp⟩
      · split at h
        · rename_i hr; simp at h; rw [← h.1, ← h.2]; exact ⟨by simp, fun _ => hr⟩
        · split at h <;> (obtain ⟨u, w1, -, h⟩ := bind_eq_ok.1 h; exact ih h)
  cases q with
  | ready => exact .inl ⟨v, (hst _ hq).1 rfl, l, hw, h⟩
  | leave =>
    simp at h
    rw [← h.2]
    exact .inr ⟨by simp [maxWait] at l; omega, hw, (hst _ hq).2 rfl⟩
  | timeout =>
    obtain ⟨u, v2, h2, h⟩ := bind_eq_ok.1 h
    rw [bind_modCtx] at h
    simp at h
    rw [failPanic_apply] at h2
    cases h2
    rw [news_of ev] at l hw
    rw [← h.2]
    refine .inr ?_
    split
    · rw [news_of (new := new ++ [.panic]) (by dsimp only; rw [ev]; simp)]
      refine ⟨by simp [maxWait] at l ⊢; omega, fun x hx => ?_, rfl⟩
      rcases List.mem_append.1 hx with hx | hx
      · exact hw x hx
      · simp at hx; exact .inl hx
    · rw [news_of (new := new) (by dsimp only; rw [ev])]
      exact ⟨by simp [maxWait] at l; omega, hw, rfl⟩

/-! ### C38 -/

/-- C38.  If the state is the exit state at the end of an iteration (a cycle, or a time-out), the task returns without any further
read, scan or write; only the end hook is called, once. -/
theorem C38_stop {w v : World} (hw : w.ctx.state ≠ .exitTsk) (hc : taskIter env w = .ok (.again, v))
    (hs : v.ctx.state = .exitTsk) (n : Nat) :
    taskLoop env (n + 2) w = .ok (.ended, endHook env v) ∧ news v (endHook env v) = ifOn v.ctx.on.endTask .endTask := by
  constructor
  · rw [taskLoop, bind_getCtx, if_neg hw, bind_apply, hc]
    dsimp only
    rw [taskLoop, bind_getCtx, if_pos hs, bind_apply, callEndTask_apply]
    rfl
  · unfold endHook ifOn
    split
    · exact news_of rfl
    · exact news_of (by simp)

/-! ### C39 -/

theorem noEnd_phased {l : List Event} (h : Phased l) : Event.endTask ∉ l := by
  obtain ⟨b, rs, s, ws, t, e, hb, ⟨k, hr⟩, hs, ⟨outs, hw⟩, d, a, ht, hd, ha⟩ := h
  have hc : ∀ {l : List Event}, Event.endTask ∈ l → Event.endTask ∈ calm l := by
    intro l h; exact List.mem_filter.2 ⟨h, by simp⟩
  intro hm
  rw [e] at hm
  simp only [List.mem_append] at hm
  rcases hm with (((hm | hm) | hm) | hm) | hm
  · have := hc hm; rcases hb with hb | hb <;> simp [hb] at this
  · have := hc hm; rw [hr] at this; simp at this
  · have := hs _ hm; simp [isScan] at this
  · have := hc hm
    rw [hw] at this
    obtain ⟨i, hi, hx⟩ := List.mem_mapIdx.1 this
    cases hx
  · have := hc hm
    rw [ht] at this
    rcases hd with rfl | ⟨ms, rfl⟩ <;> rcases ha with rfl | rfl <;> simp at this

theorem noEnd_waiting {l : List Event} (h : Waiting l) : Event.endTask ∉ l := by
  intro hm
  rcases h _ hm with h | ⟨ms, h⟩ <;> cases h

/-- The callbacks invoked while waiting do not request the exit. -/
structure NoExit (env : Env) : Prop where
  delay : ∀ t c, c.state ≠ .exitTsk → (env.delay t c).state ≠ .exitTsk
  panic : ∀ t c, c.state ≠ .exitTsk → (env.panic t c).state ≠ .exitTsk

theorem waitLoop_noLeave (hx : NoExit env) : ∀ (n : Nat) {w w' : World}, w.ctx.state ≠ .exitTsk →
    waitLoop env n w ≠ .ok (.leave, w')
  | 0, _, _, _ => by simp [waitLoop]
  | n + 1, w, w', hs => by
    intro h
    unfold waitLoop at h
    rw [bind_getCtx, if_neg hs] at h
    split at h
    · simp at h
    · split at h
      · obtain ⟨u, w1, h1, h⟩ := bind_eq_ok.1 h
        rw [failPanic_apply] at h1
        cases h1
        refine waitLoop_noLeave hx n ?_ h
        split
        · exact hx.panic _ _ (by simp)
        · simp
      · obtain ⟨u, w1, h1, h⟩ := bind_eq_ok.1 h
        rw [callDelay, external_apply] at h1
        cases h1
        exact waitLoop_noLeave hx n (hx.delay _ _ hs) h

theorem taskIter_segs {w w' : World} {r : IterRes} (h : taskIter env w = .ok (r, w')) :
    ∃ new, w'.trace = w.trace ++ new ∧ Event.endTask ∉ new := by
  unfold taskIter at h
  obtain ⟨q, v, hq, h⟩ := bind_eq_ok.1 h
  obtain ⟨n1, e1, hw⟩ := waitLoop_trace _ hq
  cases q with
  | leave => simp at h; rw [← h.2]; exact ⟨n1, e1, noEnd_waiting hw⟩
  | timeout =>
    obtain ⟨u, v2, h2, h⟩ := bind_eq_ok.1 h
    rw [bind_modCtx] at h
    simp at h
    obtain ⟨n2, e2, hp⟩ := failPanic_trace h2
    refine ⟨n1 ++ n2, by rw [← h.2]; dsimp only; rw [e2, e1, List.append_assoc], ?_⟩
    rw [List.mem_append]
    rintro (hm | hm)
    · exact noEnd_waiting hw hm
    · cases hp _ hm
  | ready =>
    refine ⟨n1 ++ news v w', by rw [cycle_trace h, e1, List.append_assoc], ?_⟩
    rw [List.mem_append]
    rintro (hm | hm)
    · exact noEnd_waiting hw hm
    · exact noEnd_phased (C34_cycle_phased h) hm

/-- C39 (partial: provided no callback requests the exit state while the task waits).  Whenever the task returns, the end hook has
been called, if registered, exactly once and as the last callback; `v` is the world in which it was called. -/
theorem C39_end_hook_partial (hx : NoExit env) : ∀ (n : Nat) {w w' : World}, taskLoop env n w = .ok (.ended, w') →
    ∃ v new, w' = endHook env v ∧ v.trace = w.trace ++ new ∧ Event.endTask ∉ new
  | 0, _, _, h => by simp [taskLoop] at h
  | n + 1, w, w', h => by
    unfold taskLoop at h
    rw [bind_getCtx] at h
    split at h
    · rw [bind_apply, callEndTask_apply] at h
      cases h
      exact ⟨w, [], rfl, by simp, by simp⟩
    · rename_i hs
      obtain ⟨i, w1, hi, h⟩ := bind_eq_ok.1 h
      obtain ⟨n1, e1, h1⟩ := taskIter_segs hi
      cases i with
      | again =>
        obtain ⟨v, n2, e, e2, h2⟩ := C39_end_hook_partial hx n h
        refine ⟨v, n1 ++ n2, e, by rw [e2, e1, List.append_assoc], ?_⟩
        rw [List.mem_append]
        rintro (hm | hm)
        · exact h1 hm
        · exact h2 hm
      | exit =>
        dsimp only at h
        rw [bind_apply, callEndTask_apply] at h
        cases h
        exact ⟨w1, n1, rfl, e1, h1⟩
      | leave =>
        exfalso
        unfold taskIter at hi
        obtain ⟨q, v, hq, hi⟩ := bind_eq_ok.1 hi
        cases q with
        | leave => exact waitLoop_noLeave hx _ hs hq
        | timeout =>
          obtain ⟨u, v2, h2, hi⟩ := bind_eq_ok.1 hi
          rw [bind_modCtx] at hi
          simp at hi
        | ready => cases cycleRun hi

/-- C39 (partial, same proviso): with the hook registered and left so by the callbacks, the last event of a finished task is
the end hook, and there is no other one. -/
theorem C39_exactly_once_partial (hx : NoExit env) (hk : TaskHooks env fun c c' => c'.on = c.on) {n : Nat} {w w' : World}
    (hon : w.ctx.on.endTask = true) (h : task env n w = .ok (.ended, w')) :
    ∃ new, news w w' = new ++ [.endTask] ∧ Event.endTask ∉ new := by
  unfold task at h
  rw [bind_getCtx, bind_lift_eq_ok] at h
  obtain ⟨b, -, h⟩ := h
  cases b with
  | true => simp at h
  | false =>
    simp only [Bool.false_eq_true, if_false] at h
    have hkept : w'.ctx.on = w.ctx.on := keeps_taskLoop (fun _ _ e => congrArg Ctx.on e) hk (fun _ _ => rfl) n h
    obtain ⟨v, new, e, ev, hn⟩ := C39_end_hook_partial hx n h
    have hv : v.ctx.on.endTask = true := by
      rw [e] at hkept
      unfold endHook at hkept
      split at hkept
      · assumption
      · rw [hkept]; exact hon
    refine ⟨new, ?_, hn⟩
    rw [e, endHook, if_pos hv]
    exact news_of (by dsimp only; rw [ev, List.append_assoc])

/-- A stopped context with an end hook whose delay callback requests the exit. -/
def leaveDemo : World := ⟨{ Demo.ctx [] with state := .stopped, on := { endTask := true } }, 0, []⟩

/-- The environment in which the exit is requested during the first wait. -/
def leaveEnv : Env := { Demo.env with delay := fun _ c => { c with state := .exitTsk } }

/-- C39 is false as stated: a task that sees the exit request while waiting returns without calling the end hook. -/
theorem C39_refuted : ∃ (env : Env) (w w' : World) (n : Nat), w.ctx.on.endTask = true ∧
    TaskHooks env (fun c c' => c'.on = c.on) ∧ task env n w = .ok (.ended, w') ∧ Event.endTask ∉ news w w' := by
  refine ⟨leaveEnv, leaveDemo, ⟨{ leaveDemo.ctx with state := .exitTsk }, 1, [.delay 1]⟩, 1, rfl, ?_, rfl, by simp [news, leaveDemo]⟩
  constructor
  · constructor <;> intros <;> rfl
  all_goals intros; rfl

/-! ### C40 -/

/-- Something the start-up check of the task requires is missing. -/
structure Missing (c : Ctx) : Prop where
  one : c.millis = false ∨ c.delay = false ∨
    (0 < c.fnReadQty ∧ (c.read = none ∨ c.input = none ∨ at? c.read 0 = some false)) ∨
    (0 < c.fnWriteQty ∧ (c.write = none ∨ c.output = none ∨ at? c.write 0 = some false)) ∨
    (0 < c.qty.m ∧ (c.M = none ∨ c.Mh = none)) ∨
    (0 < c.qty.c ∧ (c.Cd = none ∨ c.Cr = none ∨ c.Cdh = none ∨ c.Crh = none ∨ c.C = none)) ∨
    (0 < c.qty.t ∧ (c.Td = none ∨ c.Tr = none ∨ c.Tdh = none ∨ c.Trh = none ∨ c.timers = none)) ∨
    (0 < c.qty.d ∧ c.D = none) ∨ (0 < c.qty.r ∧ c.R = none) ∨ (0 < c.qty.networks ∧ c.network = none)

/-- The function tables have an entry for each module. -/
structure Tables (c : Ctx) : Prop where
  read : ∀ l, c.read = some l → c.fnReadQty ≤ l.length
  write : ∀ l, c.write = some l → c.fnWriteQty ≤ l.length

theorem taskRefuses_iff {c : Ctx} (ht : Tables c) : ∃ b, taskRefuses c = .ok b ∧ (b = true ↔ Missing c) := by
  have hfst : ∀ {α : Type} (q : Nat) (fns : Arr Bool) (v : Arr α), (∀ l, fns = some l → q ≤ l.length) →
      ∃ b, (if q > 0 then if fns.isNone = true ∨ v.isNone = true then .ok true else (aget fns 0).map (! ·) else .ok false :
        Except UB Bool) = .ok b ∧ (b = true ↔ 0 < q ∧ (fns = none ∨ v = none ∨ at? fns 0 = some false)) := by
    intro α q fns v hl
    by_cases hq : 0 < q
    · cases fns with
      | none => exact ⟨true, by simp [hq], by simp [hq]⟩
      | some l =>
        cases v with
        | none => exact ⟨true, by simp [hq], by simp [hq]⟩
        | some v =>
          have := hl l rfl
          cases l with
          | nil => simp at this; omega
          | cons x l => exact ⟨!x, by simp [hq, aget, Except.map], by cases x <;> simp [hq, at?]⟩
    · exact ⟨false, by simp [hq], by simp [hq]⟩
  obtain ⟨r, er, hr⟩ := hfst c.fnReadQty c.read c.input ht.read
  obtain ⟨q, eq, hq⟩ := hfst c.fnWriteQty c.write c.output ht.write
  have hm : Missing c ↔ c.millis = false ∨ c.delay = false ∨ r = true ∨ q = true ∨
      ((0 < c.qty.m ∧ (c.M = none ∨ c.Mh = none)) ∨
      (0 < c.qty.c ∧ (c.Cd = none ∨ c.Cr = none ∨ c.Cdh = none ∨ c.Crh = none ∨ c.C = none)) ∨
      (0 < c.qty.t ∧ (c.Td = none ∨ c.Tr = none ∨ c.Tdh = none ∨ c.Trh = none ∨ c.timers = none)) ∨
      (0 < c.qty.d ∧ c.D = none) ∨ (0 < c.qty.r ∧ c.R = none) ∨ (0 < c.qty.networks ∧ c.network = none)) := by
    rw [hr, hq]
    exact ⟨fun h => h.one, fun h => ⟨h⟩⟩
  unfold taskRefuses
  dsimp only
  rw [er, eq]
  by_cases h0 : (!c.millis) = true ∨ (!c.delay) = true
  · rw [if_pos h0]
    refine ⟨true, rfl, by simp only [true_iff]; rw [hm]; rcases h0 with h | h <;> simp at h <;> simp [h]⟩
  · rw [if_neg h0]
    simp at h0
    cases r with
    | true => exact ⟨true, rfl, by rw [hm]; simp⟩
    | false =>
      cases q with
      | true => exact ⟨true, rfl, by rw [hm]; simp⟩
      | false =>
        refine ⟨_, rfl, ?_⟩
        rw [hm, decide_eq_true_iff]
        simp [h0]

/-- C40 (partial: of the module functions, the first one of each kind is meant).  If something required is missing, the task sets
the null-function state and returns; no callback is called and nothing else changes. -/
theorem C40_refusal_partial {w : World} (ht : Tables w.ctx) (hm : Missing w.ctx) (n : Nat) :
    task env n w = .ok (.refused, inState w .nullFn) := by
  obtain ⟨b, e, hb⟩ := taskRefuses_iff ht
  rw [task, bind_getCtx, e, bind_lift_ok, hb.2 hm]
  rfl

/-- C40, converse: a context with nothing missing is accepted. -/
theorem C40_accepts_partial {w : World} (ht : Tables w.ctx) (hm : ¬ Missing w.ctx) (n : Nat) :
    task env n w = taskLoop env n w := by
  obtain ⟨b, e, hb⟩ := taskRefuses_iff ht
  rw [task, bind_getCtx, e, bind_lift_ok]
  cases b with
  | true => exact absurd (hb.1 rfl) hm
  | false => rfl

/-- Two input modules, the second without a read function. -/
def holeDemo : World :=
  ⟨{ Demo.ctx [] with fnReadQty := 2, read := some [true, false], input := some [{}, {}], on := { taskBefore := true } }, 0, []⟩

/-- C40 is false as stated: a missing read function other than the first is not refused, and callbacks are called. -/
theorem C40_refuted : ∃ (env : Env) (w w' : World) (r : TaskRes), at? w.ctx.read 1 = some false ∧ w.ctx.fnReadQty = 2 ∧
    task env 1 w = .ok (r, w') ∧ r ≠ .refused ∧ Event.before ∈ news w w' ∧ Event.read 0 ∈ news w w' := by
  have key : (match task Demo.env 1 holeDemo with
      | .ok (r, w') => decide (r ≠ .refused ∧ Event.before ∈ news holeDemo w' ∧ Event.read 0 ∈ news holeDemo w')
      | .error _ => false) = true := by decide +kernel
  split at key
  · rename_i r w' h
    rw [decide_eq_true_iff] at key
    exact ⟨Demo.env, holeDemo, w', r, rfl, rfl, h, key⟩
  · cases key

/-! ### Cases that meet the hypotheses -/

theorem demoTaskHooks (P : Ctx → Ctx → Prop) (h : ∀ c, P c c) : TaskHooks Demo.env P := by
  constructor
  · exact demoHooks P h
  all_goals intros; exact h _

/-- A running context with every hook and one module of each kind: the coil Q0.0 follows the contact I0.0. -/
def cycleDemo : World :=
  ⟨{ Demo.ctx [Demo.net [[Demo.ins .NO [Demo.op .I 0], Demo.ins .COIL [Demo.op .Q 0]]]] with
      on := { taskBefore := true, taskAfter := true, endTask := true } }, 0, []⟩

theorem cycleDemo_wired : Wired cycleDemo.ctx := by
  refine ⟨rfl, ?_, ?_, fun _ => rfl, fun _ => rfl⟩
  all_goals
    intro n hn
    have : n = 0 := by simp [cycleDemo, Demo.ctx] at hn; exact hn
    subst this; rfl

/-- The events of a cycle of the demonstration program. -/
def orderEvents : List Event :=
  [.before, .read 0, .exec 0 0 0 .NO, .ret 0 0 0 .ok, .exec 0 0 1 .COIL, .ret 0 0 1 .ok,
    .write 0 (some [{ qQty := 2, qwQty := 1, Q := some [1, 1], QW := some [5], Qh := some [1, 1], QWh := some [5] }]), .after]

example : ∃ w', cycle Demo.env cycleDemo = .ok (.again, w') ∧ news cycleDemo w' = orderEvents := by
  have key : (match cycle Demo.env cycleDemo with
      | .ok (r, w') => decide (r = .again ∧ news cycleDemo w' = orderEvents)
      | .error _ => false) = true := by decide +kernel
  split at key
  · rename_i r w' h
    rw [decide_eq_true_iff] at key
    exact ⟨w', key.1 ▸ h, key.2⟩
  · cases key

/-- C34 applies to it. -/
example {w' : World} {r : IterRes} (h : cycle Demo.env cycleDemo = .ok (r, w')) :=
  C34_cycle_complete (demoTaskHooks _ fun _ => rfl) cycleDemo_wired h

/-- A context that nobody starts. -/
def stoppedDemo : World := inState cycleDemo .stopped

theorem stopped_idle (i : Nat) : Idle (afterWaits Demo.env stoppedDemo i) := by
  have : (afterWaits Demo.env stoppedDemo i).ctx = stoppedDemo.ctx := by
    induction i with
    | zero => rfl
    | succ i ih => rw [afterWaits]; exact ih
  unfold Idle
  rw [this]
  simp [stoppedDemo, inState]

example (n : Nat) : ∃ w', taskLoop Demo.env (n + 2) stoppedDemo = .ok (.ended, w') :=
  ⟨_, C37_timeout (fun _ _ h => h) rfl (fun i _ => stopped_idle i) n⟩

example : news stoppedDemo (afterWaits Demo.env stoppedDemo 1000) = List.replicate 1000 (.delay 1) :=
  C37_wait_length (fun _ _ => rfl) 1000

/-- The environment in which the context is started during the third wait. -/
def startEnv : Env := { Demo.env with delay := fun t c => if t = 2 then { c with state := .running } else c }

example : taskIter startEnv stoppedDemo = cycle startEnv (afterWaits startEnv stoppedDemo 3) := by
  refine C37_starts ?_ rfl (by omega) ?_ rfl
  · intro t c h; simp only [startEnv]; split <;> exact h
  · intro i hi
    have : i = 0 ∨ i = 1 ∨ i = 2 := by omega
    rcases this with rfl | rfl | rfl <;> exact ⟨by decide, by decide⟩

example : taskIter leaveEnv leaveDemo = .ok (.leave, afterWaits leaveEnv leaveDemo 1) := by
  refine C37_leaves (fun _ _ h => h) rfl (by omega) ?_ rfl
  intro i hi
  have : i = 0 := by omega
  subst this
  exact ⟨by decide, by decide⟩

/-- The environment in which the after hook requests the exit. -/
def stopEnv : Env := { Demo.env with after := fun _ c => { c with state := .exitTsk } }

theorem stopDemo : ∃ v, taskIter stopEnv cycleDemo = .ok (.again, v) ∧ v.ctx.state = .exitTsk := by
  have key : (match taskIter stopEnv cycleDemo with
      | .ok (r, w') => decide (r = .again ∧ w'.ctx.state = .exitTsk)
      | .error _ => false) = true := by decide +kernel
  split at key
  · rename_i r w' h
    rw [decide_eq_true_iff] at key
    exact ⟨w', key.1 ▸ h, key.2⟩
  · cases key

theorem stopNoExit : NoExit stopEnv := ⟨fun _ _ h => h, fun _ _ h => h⟩

theorem stopHooks : TaskHooks stopEnv (fun c c' => c'.on = c.on) := by
  constructor
  · constructor <;> intros <;> rfl
  all_goals intros; rfl

/-- A run that starts, performs one cycle and ends with the end hook. -/
example : ∃ w', task stopEnv 2 cycleDemo = .ok (.ended, w') ∧
    ∃ new, news cycleDemo w' = new ++ [.endTask] ∧ Event.endTask ∉ new := by
  obtain ⟨v, h, hs⟩ := stopDemo
  have h1 := (C38_stop (by decide) h hs 0).1
  have hm : ¬ Missing cycleDemo.ctx := by rintro ⟨h⟩; revert h; decide
  have ht : Tables cycleDemo.ctx := by
    constructor <;> intro l hl <;> cases hl <;> decide
  have h2 := (C40_accepts_partial (env := stopEnv) ht hm 2).trans h1
  exact ⟨_, h2, C39_exactly_once_partial stopNoExit stopHooks rfl h2⟩

/-- A context without a delay function. -/
example : Missing { cycleDemo.ctx with delay := false } := ⟨.inr (.inl rfl)⟩

end Ladder.Props
