import Verif.Props.TaskEnd

/-
C63: a stop requested during a cycle.
-/

set_option autoImplicit false

namespace Ladder.Props

open Spec Op

variable {env : Env}

/-- The callbacks whose call shows as an event of `S` request a stop, i.e. leave another state than running; the other
callbacks do not restart a stopped program.  (The ghost events `exec` and `ret` are no calls.) -/
structure Stopper (env : Env) (S : Event → Prop) : Prop where
  panic : ∀ t c, (S .panic ∨ c.state ≠ .running) → (env.panic t c).state ≠ .running
  instruction : ∀ t c, (S (.instr c.last) ∨ c.state ≠ .running) → (env.instruction t c).state ≠ .running
  scanEnd : ∀ t c, (S .scanEnd ∨ c.state ≠ .running) → (env.scanEnd t c).state ≠ .running
  before : ∀ t c, (S .before ∨ c.state ≠ .running) → (env.before t c).state ≠ .running
  after : ∀ t c, (S .after ∨ c.state ≠ .running) → (env.after t c).state ≠ .running
  delay : ∀ t ms c, (S (.delay ms) ∨ c.state ≠ .running) → (env.delay t c).state ≠ .running
  read : ∀ t n c, (S (.read n) ∨ c.state ≠ .running) → (env.read t n c).state ≠ .running
  write : ∀ t n c, (S (.write n c.output) ∨ c.state ≠ .running) → (env.write t n c).state ≠ .running
  foreign : ∀ t id col row c, (S (.foreign id col row) ∨ c.state ≠ .running) →
    (env.foreign t id col row c).2.state ≠ .running
  exec : ∀ n r c k, ¬ S (.exec n r c k)
  ret : ∀ n r c e, ¬ S (.ret n r c e)

/-- From `w` to `w'` a stop request is not lost. -/
def Holds (S : Event → Prop) (w w' : World) : Prop :=
  ∃ new, w'.trace = w.trace ++ new ∧ ((w.ctx.state ≠ .running ∨ ∃ e ∈ new, S e) → w'.ctx.state ≠ .running)

namespace Holds

variable {S : Event → Prop}

theorem refl (w : World) : Holds S w w := ⟨[], by simp, by simp⟩

theorem trans {a b c : World} (h : Holds S a b) (h' : Holds S b c) : Holds S a c := by
  obtain ⟨n1, e1, h1⟩ := h
  obtain ⟨n2, e2, h2⟩ := h'
  refine ⟨n1 ++ n2, by rw [e2, e1, List.append_assoc], fun h => h2 ?_⟩
  rcases h with h | ⟨e, he, hs⟩
  · exact .inl (h1 (.inl h))
  · rcases List.mem_append.1 he with he | he
    · exact .inl (h1 (.inr ⟨e, he, hs⟩))
    · exact .inr ⟨e, he, hs⟩

/-- A step that is no call and does not set the running state. -/
theorem quiet {w w' : World} (ht : w'.trace = w.trace) (hs : w.ctx.state ≠ .running → w'.ctx.state ≠ .running) :
    Holds S w w' := ⟨[], by simp [ht], by simpa using hs⟩

/-- A call. -/
theorem call {w w' : World} {e : Event} (ht : w'.trace = w.trace ++ [e])
    (hs : (S e ∨ w.ctx.state ≠ .running) → w'.ctx.state ≠ .running) : Holds S w w' :=
  ⟨[e], ht, fun h => hs (by simpa [or_comm] using h)⟩

variable (hst : Stopper env S)
include hst

theorem change {w w' : World} (h : Change env w w') : Holds S w w' := by
  cases h with
  | store => exact quiet rfl (by simp)
  | clock => exact quiet rfl id
  | err => exact quiet rfl id
  | fault => exact quiet rfl (by simp)
  | panic on => exact call rfl (hst.panic _ _)
  | foreign id c r h => exact call rfl (hst.foreign _ _ _ _ _)
  | table => exact quiet rfl id

theorem schange {K : Nat → Prop} {E : Prop} {w w' : World} (h : SChange env K E w w') : Holds S w w' := by
  cases h with
  | instr h => exact change hst h
  | last => exact quiet rfl id
  | inv => exact quiet rfl (by simp)
  | leave => exact quiet rfl id
  | enter => exact quiet rfl id
  | exec m hm he hc => exact call rfl fun h => h.resolve_left (hst.exec _ _ _ _)
  | ret n r c e hn => exact call rfl fun h => h.resolve_left (hst.ret _ _ _ _)
  | callback => exact call rfl (hst.instruction _ _)
  | scanEnd => exact call rfl (hst.scanEnd _ _)

theorem scan {w w' : World} {u : Unit} (h : scan env w = .ok (u, w')) : Holds S w w' :=
  ((SChg.scan (K := fun _ => True) (E := True) trivial fun _ => trivial) _ _ _ h).lift refl (fun _ _ _ => trans)
    fun _ _ => schange hst

theorem callPanic {w w' : World} {u : Unit} (h : callPanic env w = .ok (u, w')) : Holds S w w' := by
  rw [callPanic_apply] at h
  cases h
  split
  · exact call rfl (hst.panic _ _)
  · exact refl _

theorem failPanic {w w' : World} {u : Unit} (h : failPanic env w = .ok (u, w')) : Holds S w w' := by
  rw [failPanic_apply] at h
  cases h
  split
  · exact call rfl fun _ => hst.panic _ _ (.inr (by simp))
  · exact quiet rfl (by simp)

theorem readLoop : ∀ (fuel n : Nat) {w w' : World} {u : Unit}, readLoop env fuel n w = .ok (u, w') → Holds S w w'
  | 0, _, _, _, _, h => by simp [Ladder.readLoop] at h
  | fuel + 1, n, w, w', u, h => by
    unfold Ladder.readLoop at h
    rw [bind_getCtx] at h
    split at h
    · rw [bind_lift_eq_ok] at h
      obtain ⟨b, -, h⟩ := h
      split at h
      · exact failPanic hst h
      · obtain ⟨v, w1, h1, h⟩ := bind_eq_ok.1 h
        rw [external_apply] at h1
        cases h1
        exact trans (call rfl (hst.read _ _ _)) (readLoop fuel (n + 1) h)
    · cases h; exact refl _

theorem writeLoop : ∀ (fuel n : Nat) {w w' : World} {u : Unit}, writeLoop env fuel n w = .ok (u, w') → Holds S w w'
  | 0, _, _, _, _, h => by simp [Ladder.writeLoop] at h
  | fuel + 1, n, w, w', u, h => by
    unfold Ladder.writeLoop at h
    rw [bind_getCtx] at h
    split at h
    · rw [bind_lift_eq_ok] at h
      obtain ⟨b, -, h⟩ := h
      split at h
      · exact failPanic hst h
      · obtain ⟨v, w1, h1, h⟩ := bind_eq_ok.1 h
        rw [external_apply] at h1
        cases h1
        exact trans (call rfl (hst.write _ _ _)) (writeLoop fuel (n + 1) h)
    · cases h; exact refl _

theorem doWrites {w w' : World} {u : Unit} (h : doWrites env w = .ok (u, w')) : Holds S w w' := by
  unfold Ladder.doWrites at h
  rw [bind_getCtx] at h
  split at h
  · exact writeLoop hst _ _ h
  · cases h; exact refl _

theorem readPhase {w w' : World} {b : Bool} (h : readPhase env w = .ok (b, w')) : Holds S w w' := by
  unfold Ladder.readPhase at h
  rw [bind_getCtx] at h
  split at h
  · obtain ⟨u, w1, h1, h⟩ := bind_eq_ok.1 h
    cases h
    exact failPanic hst h1
  · rw [bind_lift_eq_ok] at h
    obtain ⟨x, -, h⟩ := h
    rw [bind_modCtx] at h
    refine trans (quiet (w' := { w with ctx := { w.ctx with input := x } }) rfl id) ?_
    split at h
    · obtain ⟨u, w1, h1, h⟩ := bind_eq_ok.1 h
      cases h
      exact readLoop hst _ _ h1
    · cases h; exact refl _

theorem outHistPhase {w w' : World} {b : Bool} (h : outHistPhase env w = .ok (b, w')) : Holds S w w' := by
  unfold Ladder.outHistPhase at h
  rw [bind_getCtx] at h
  split at h
  · obtain ⟨u, w1, h1, h⟩ := bind_eq_ok.1 h
    cases h
    exact failPanic hst h1
  · rw [bind_lift_eq_ok] at h
    obtain ⟨x, -, h⟩ := h
    cases h
    exact quiet rfl id

theorem scanTime {w w' : World} {u : Unit} (h : scanTime env w = .ok (u, w')) : Holds S w w' := by
  have fin : ∀ {v w' : World} {u : Unit}, (do
      modCtx fun ctx => { ctx with state := .error }
      Ladder.callPanic env : Op Unit) v = .ok (u, w') → Holds S v w' := by
    intro v w' u h
    rw [bind_modCtx] at h
    exact trans (quiet (w' := { v with ctx := { v.ctx with state := .error } }) rfl (by simp)) (callPanic hst h)
  unfold Ladder.scanTime at h
  rw [bind_getCtx] at h
  split at h
  · exact fin h
  · obtain ⟨now, w1, h1, h⟩ := bind_eq_ok.1 h
    unfold callMillis at h1
    split at h1
    · cases h1
      rw [bind_lift_eq_ok] at h
      obtain ⟨s, -, h⟩ := h
      rw [bind_modCtx] at h
      refine trans (quiet (w' := { ctx := { w.ctx with scan := s }, tick := w.tick + 1, trace := w.trace }) rfl id) ?_
      split at h
      · exact fin h
      · cases h; exact refl _
    · cases h1

theorem pad {w w' : World} {u : Unit} (h : pad env w = .ok (u, w')) : Holds S w w' := by
  unfold Ladder.pad at h
  rw [bind_getCtx] at h
  split at h
  · unfold callDelay at h
    rw [external_apply] at h
    cases h
    exact call rfl (hst.delay _ _ _)
  · cases h; exact refl _

theorem callAfter {w w' : World} {u : Unit} (h : callAfter env w = .ok (u, w')) : Holds S w w' := by
  rw [callAfter_apply] at h
  cases h
  split
  · exact call rfl (hst.after _ _)
  · exact refl _

theorem callBefore {w w' : World} {u : Unit} (h : callBefore env w = .ok (u, w')) : Holds S w w' := by
  rw [callBefore_apply] at h
  cases h
  split
  · exact call rfl (hst.before _ _)
  · exact refl _

theorem startOf (w : World) : Holds S w (startOf env w) := by
  unfold Ladder.startOf
  split
  · exact quiet rfl id
  · dsimp only
    split
    · exact call rfl fun _ => hst.panic _ _ (.inr (by simp))
    · exact quiet rfl (by simp)

theorem faultPath {w w' : World} (h : faultPath env w = .ok ((), w')) : Holds S w w' := by
  obtain ⟨c, c', out, w1, w2, h1, h2, -, h4, h5, h6⟩ := faultPath_eq h
  have e1 : c.state = .exitTsk := by
    obtain ⟨_, _, _, _, _, _, _, _, _, _, -, -, -, -, -, -, -, -, -, -, e⟩ := rollback_eq h1
    rw [e]
  have e2 : c'.state = .exitTsk := by
    obtain ⟨_, _, _, _, _, _, -, -, -, -, -, -, e⟩ := savePrevious_eq h2
    rw [e]
    exact e1
  refine trans (quiet (w' := { w with ctx := { c' with output := out } }) rfl fun _ => ?_)
    (trans (doWrites hst h4) (trans (scanTime hst h5) (callAfter hst h6)))
  simp [e2]

theorem cycle {w w' : World} {r : IterRes} (h : cycle env w = .ok (r, w')) : Holds S w w' := by
  cases cycleRun h with
  | noInput hb hr => exact trans (startOf hst w) (trans (callBefore hst hb) (readPhase hst hr))
  | noOutput hb hr ho =>
    exact trans (startOf hst w) (trans (callBefore hst hb) (trans (readPhase hst hr) (outHistPhase hst ho)))
  | fault hb hr ho hs hi hf =>
    exact trans (startOf hst w) (trans (callBefore hst hb) (trans (readPhase hst hr) (trans (outHistPhase hst ho)
      (trans (scan hst hs) (faultPath hst hf)))))
  | @normal w1 w2 w3 w4 w5 w6 w7 w' c hb hr ho hs hi hp hw ht hd ha =>
    refine trans (startOf hst w) (trans (callBefore hst hb) (trans (readPhase hst hr) (trans (outHistPhase hst ho)
      (trans (scan hst hs) (trans (quiet (w' := { w4 with ctx := c }) rfl ?_) (trans (doWrites hst hw)
        (trans (scanTime hst ht) (trans (pad hst hd) (callAfter hst ha)))))))))
    obtain ⟨_, _, _, _, _, _, -, -, -, -, -, -, e⟩ := savePrevious_eq hp
    rw [e]
    exact id

end Holds

/-- C63 (partial), during the cycle: if any callback of a cycle requests a stop, and none restarts the program, then the state
at the end of the cycle is not running, whatever the library reports in between.
Missing: the state need not be the exit state, see `C63_refuted`. -/
theorem C63_request_kept_partial {S : Event → Prop} (hst : Stopper env S) {w w' : World} {r : IterRes}
    (h : cycle env w = .ok (r, w')) (hreq : ∃ e ∈ news w w', S e) : w'.ctx.state ≠ .running := by
  obtain ⟨new, e, hs⟩ := Holds.cycle hst h
  rw [news_of e] at hreq
  exact hs (.inr hreq)

/-- While the program is stopped, waiting ends with a time-out or an exit request. -/
theorem waitLoop_stopped {S : Event → Prop} (hst : Stopper env S) : ∀ (n : Nat) {w : World}, w.ctx.state ≠ .running →
    ∃ q v, waitLoop env n w = .ok (q, v) ∧ q ≠ .ready
  | 0, w, _ => ⟨_, _, rfl, by simp⟩
  | n + 1, w, hs => by
    rw [waitLoop, bind_getCtx, if_neg hs]
    split
    · exact ⟨_, _, rfl, by simp⟩
    · split
      · rw [bind_apply, failPanic_apply]
        refine waitLoop_stopped hst n ?_
        split
        · exact hst.panic _ _ (.inr (by simp))
        · simp
      · exact waitLoop_stopped hst n (hst.delay _ 0 _ (.inr hs))

/-- C63 (partial), after the cycle: once the state is not running, and no callback restarts the program, the task returns without
any further read, scan or write: it ends at once or waits, at most 1000 times, and ends then. -/
theorem C63_task_ends_partial {S : Event → Prop} (hst : Stopper env S) {w : World} (hs : w.ctx.state ≠ .running) (n : Nat) :
    ∃ w' new e, taskLoop env (n + 2) w = .ok (.ended, w') ∧ news w w' = new ++ e ∧ Waiting new ∧ new.length ≤ 1001 ∧
      (e = [] ∨ e = [.endTask]) := by
  have hend : ∀ v : World, ∃ e, (endHook env v).trace = v.trace ++ e ∧ (e = [] ∨ e = [.endTask]) := by
    intro v
    unfold endHook
    split
    · exact ⟨_, rfl, .inr rfl⟩
    · exact ⟨[], by simp, .inl rfl⟩
  by_cases hx : w.ctx.state = .exitTsk
  · obtain ⟨e, he, h⟩ := hend w
    exact ⟨_, [], e, C38_exit hx _, by rw [news_of he]; simp, by simp [Waiting], by simp, h⟩
  · obtain ⟨q, v, hq, hr⟩ := waitLoop_stopped hst maxWait hs
    obtain ⟨l, hw⟩ := waitLoop_bound _ hq
    obtain ⟨new, ev, -⟩ := waitLoop_trace _ hq
    rw [news_of ev] at l hw
    rw [taskLoop, bind_getCtx, if_neg hx]
    cases q with
    | ready => exact absurd rfl hr
    | leave =>
      have hi : taskIter env w = .ok (.leave, v) := by rw [taskIter, bind_apply, hq]; rfl
      rw [bind_apply, hi]
      exact ⟨v, new, [], rfl, by rw [news_of ev]; simp, hw, by simp [maxWait] at l; omega, .inl rfl⟩
    | timeout =>
      have hi : taskIter env w = .ok (.again, inState (panicked env (inState v .error)) .exitTsk) := by
        rw [taskIter, bind_apply, hq]
        show (Ladder.failPanic env >>= _) v = _
        rw [bind_apply, show failPanic env v = .ok ((), panicked env (inState v .error)) from failPanic_apply _]
        rfl
      rw [bind_apply, hi]
      dsimp only
      rw [C38_exit rfl]
      obtain ⟨e, he, h⟩ := hend (inState (panicked env (inState v .error)) .exitTsk)
      have hp : ∃ p, (inState (panicked env (inState v .error)) .exitTsk).trace = v.trace ++ p ∧ p.length ≤ 1 ∧ Waiting p := by
        unfold panicked inState
        dsimp only
        split
        · exact ⟨[.panic], rfl, by simp, by simp [Waiting]⟩
        · exact ⟨[], by simp, by simp, by simp [Waiting]⟩
      obtain ⟨p, ep, lp, hwp⟩ := hp
      refine ⟨_, new ++ p, e, rfl, news_of (by rw [he, ep, ev]; simp), fun x hx => ?_, ?_, h⟩
      · rcases List.mem_append.1 hx with hx | hx
        · exact hw x hx
        · exact hwp x hx
      · simp [maxWait] at l ⊢; omega

/-- C63 is violated: the exit requested by a read callback is overwritten by the watchdog; the cycle ends in the error state
and the task goes on (waiting) instead of ending. -/
theorem C63_refuted : ∃ (env : Env) (w w' : World), (∀ t n c, (env.read t n c).state = .exitTsk) ∧
    Stopper env (fun e => ∃ n, e = .read n) ∧ cycle env w = .ok (.again, w') ∧ (.read 0 ∈ news w w') ∧
    w'.ctx.state = .error := by
  let env : Env := { Demo.env with read := fun _ _ c => { c with state := .exitTsk } }
  let w : World := ⟨{ Demo.ctx [Demo.net [[Demo.ins .NO [Demo.op .M 0]]]] with
    scan := { (Demo.ctx []).scan with maxScanCycles := 0 } }, 0, []⟩
  have hst : Stopper env (fun e => ∃ n, e = .read n) :=
    ⟨by simp [env, Demo.env], by simp [env, Demo.env], by simp [env, Demo.env], by simp [env, Demo.env],
     by simp [env, Demo.env], by simp [env, Demo.env], by simp [env], by simp [env, Demo.env], by simp [env, Demo.env],
     by simp, by simp⟩
  have h : (match cycle env w with
      | .ok (r, w') => decide (r = .again) && decide (.read 0 ∈ news w w') && decide (w'.ctx.state = .error)
      | .error _ => false) = true := by decide +kernel
  cases hc : cycle env w with
  | error e => rw [hc] at h; cases h
  | ok x =>
    obtain ⟨r, w'⟩ := x
    rw [hc] at h
    simp only [Bool.and_eq_true, decide_eq_true_eq] at h
    obtain ⟨⟨rfl, h2⟩, h3⟩ := h
    exact ⟨env, w, w', fun _ _ _ => rfl, hst, hc, h2, h3⟩

-- the hypotheses are met by the witness of the violation: the task ends all the same, after waiting
example : ∃ (env : Env) (w w' w'' : World), cycle env w = .ok (.again, w') ∧ w'.ctx.state ≠ .running ∧
    taskLoop env 5 w' = .ok (.ended, w'') := by
  obtain ⟨env, w, w', -, hst, hc, hr, -⟩ := C63_refuted
  have hs := C63_request_kept_partial hst hc ⟨_, hr, 0, rfl⟩
  obtain ⟨w'', _, _, h, -⟩ := C63_task_ends_partial hst hs 3
  exact ⟨env, w, w', w'', hc, hs, h⟩

end Ladder.Props
