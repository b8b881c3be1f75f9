import Verif.Lemmas.Gear

/-
What stays once it is so: predicates on the configuration that callbacks may establish but never end.
-/

set_option autoImplicit false
set_option linter.unusedSectionVars false

namespace Ladder

open Spec Op

/-- `p` follows from `q`. -/
def To (p q : Prop) : Prop := q → p

namespace To

@[refl] theorem refl (p : Prop) : To p p := id
theorem of {p q : Prop} (h : p = q) : To p q := fun x => h ▸ x
theorem trans {p q r : Prop} (h : To p q) (h' : To q r) : To p r := fun x => h (h' x)

end To

theorem nil_map {α : Type} {a b : Arr α} (h : b.isSome = a.isSome) :
    (b.map fun _ => ([] : List α)) = a.map fun _ => [] := by
  cases a <;> cases b <;> simp at h ⊢

section
variable {f : Ctx → Prop} (hf : Geared f) {env : Env} (hk : TaskHooks env fun c c' => To (f c') (f c))
include hf hk

theorem stay_failPanic {w w' : World} {u : Unit} (h : failPanic env w = .ok (u, w')) : To (f w'.ctx) (f w.ctx) := by
  rw [failPanic_apply] at h
  cases h
  split
  · exact (hk.panic _ _).trans ((To.of (hf _ _ rfl)))
  · exact (To.of (hf _ _ rfl))

theorem stay_waitLoop : ∀ (n : Nat) {w w' : World} {r : WaitRes}, waitLoop env n w = .ok (r, w') → To (f w'.ctx) (f w.ctx)
  | 0, w, w', r, h => by simp [waitLoop] at h; rw [h.2]
  | n + 1, w, w', r, h => by
    unfold waitLoop at h
    rw [bind_getCtx] at h
    split at h
    · simp at h; rw [h.2]
    · split at h
      · simp at h; rw [h.2]
      · split at h
        · obtain ⟨u, w1, h1, h⟩ := bind_eq_ok.1 h
          exact (stay_waitLoop n h).trans (stay_failPanic hf hk h1)
        · obtain ⟨u, w1, h1, h⟩ := bind_eq_ok.1 h
          rw [callDelay, external_apply] at h1
          cases h1
          exact (stay_waitLoop n h).trans (hk.delay _ _)

theorem stay_readLoop : ∀ (fuel n : Nat) {w w' : World} {u : Unit}, readLoop env fuel n w = .ok (u, w') →
    To (f w'.ctx) (f w.ctx)
  | 0, _, _, _, _, h => by simp [readLoop] at h
  | fuel + 1, n, w, w', u, h => by
    unfold readLoop at h
    rw [bind_getCtx] at h
    split at h
    · rw [bind_lift_eq_ok] at h
      obtain ⟨b, -, h⟩ := h
      split at h
      · exact stay_failPanic hf hk h
      · obtain ⟨u, w1, h1, h⟩ := bind_eq_ok.1 h
        rw [external_apply] at h1
        cases h1
        exact (stay_readLoop fuel _ h).trans (hk.read _ _ _)
    · simp at h; rw [h]

theorem stay_writeLoop : ∀ (fuel n : Nat) {w w' : World} {u : Unit}, writeLoop env fuel n w = .ok (u, w') →
    To (f w'.ctx) (f w.ctx)
  | 0, _, _, _, _, h => by simp [writeLoop] at h
  | fuel + 1, n, w, w', u, h => by
    unfold writeLoop at h
    rw [bind_getCtx] at h
    split at h
    · rw [bind_lift_eq_ok] at h
      obtain ⟨b, -, h⟩ := h
      split at h
      · exact stay_failPanic hf hk h
      · obtain ⟨u, w1, h1, h⟩ := bind_eq_ok.1 h
        rw [external_apply] at h1
        cases h1
        exact (stay_writeLoop fuel _ h).trans (hk.write _ _ _)
    · simp at h; rw [h]

theorem stay_doWrites {w w' : World} {u : Unit} (h : doWrites env w = .ok (u, w')) : To (f w'.ctx) (f w.ctx) := by
  unfold doWrites at h
  rw [bind_getCtx] at h
  split at h
  · exact stay_writeLoop hf hk _ _ h
  · simp at h; rw [h]

theorem stay_scanTime (hz : ∀ c s, To (f { c with scan := s }) (f c))
    {w w' : World} {u : Unit} (h : scanTime env w = .ok (u, w')) : To (f w'.ctx) (f w.ctx) := by
  cases hm : w.ctx.millis with
  | false =>
    unfold scanTime at h
    rw [bind_getCtx] at h
    simp only [hm, Bool.not_false, if_true] at h
    exact stay_failPanic hf hk (by unfold failPanic; exact h)
  | true =>
    obtain ⟨s, -, e⟩ := scanTime_eq h hm
    rw [e]
    split
    · split
      · exact (hk.panic _ _).trans ((show To (f { w.ctx with scan := s, state := .error }) (f { w.ctx with scan := s }) from
          (To.of (hf _ _ rfl))).trans (hz _ _))
      · exact (show To (f { w.ctx with scan := s, state := .error }) (f { w.ctx with scan := s }) from
          (To.of (hf _ _ rfl))).trans (hz _ _)
    · exact hz _ _

theorem stay_input {c : Ctx} {inp : Arr InMod} (h : inp.isSome = c.input.isSome) : To (f { c with input := inp }) (f c) := by
  refine .of (hf _ _ ?_)
  unfold gear
  rw [show (({ c with input := inp } : Ctx).input.map fun _ => ([] : List InMod)) = c.input.map fun _ => [] from
    nil_map h]

theorem stay_output {c : Ctx} {out : Arr OutMod} (h : out.isSome = c.output.isSome) : To (f { c with output := out }) (f c) := by
  refine .of (hf _ _ ?_)
  unfold gear
  rw [show (({ c with output := out } : Ctx).output.map fun _ => ([] : List OutMod)) = c.output.map fun _ => [] from
    nil_map h]

theorem stay_readPhase {w w' : World} {b : Bool} (h : readPhase env w = .ok (b, w')) : To (f w'.ctx) (f w.ctx) := by
  rcases readPhase_eq h with ⟨-, -, -, h⟩ | ⟨-, inp, hi, hr⟩
  · exact stay_failPanic hf hk h
  · have hin : inp.isSome = w.ctx.input.isSome := by
      split at hi
      · exact amapFirst_isSome hi
      · simp at hi; rw [hi]
    rcases hr with ⟨-, -, h⟩ | ⟨-, h⟩
    · exact (stay_readLoop hf hk _ _ h).trans (stay_input hf hk hin)
    · rw [h]; exact stay_input hf hk hin

theorem stay_outHistPhase {w w' : World} {b : Bool} (h : outHistPhase env w = .ok (b, w')) : To (f w'.ctx) (f w.ctx) := by
  rcases outHistPhase_eq h with ⟨-, -, -, h⟩ | ⟨-, out, hi, hr⟩
  · exact stay_failPanic hf hk h
  · have hin : out.isSome = w.ctx.output.isSome := by
      split at hi
      · exact amapFirst_isSome hi
      · simp at hi; rw [hi]
    rw [hr]; exact stay_output hf hk hin

theorem stay_start (hz : ∀ c s, To (f { c with scan := s }) (f c)) (w : World) : To (f (startOf env w).ctx) (f w.ctx) := by
  unfold startOf
  split
  · exact hz _ _
  · dsimp only
    have e : To (f { w.ctx with scan := { w.ctx.scan with startTime := 0 }, state := .error }) (f w.ctx) :=
      (show To (f { w.ctx with scan := { w.ctx.scan with startTime := 0 }, state := .error }) (f { w.ctx with scan := { w.ctx.scan with startTime := 0 } }) from (To.of (hf _ _ rfl))).trans (hz _ _)
    split
    · exact (hk.panic _ _).trans e
    · exact e

theorem stay_before {w w' : World} {u : Unit} (h : callBefore env w = .ok (u, w')) : To (f w'.ctx) (f w.ctx) := by
  rw [callBefore_apply] at h
  cases h
  split
  · exact hk.before _ _
  · rfl

theorem stay_after {w w' : World} {u : Unit} (h : callAfter env w = .ok (u, w')) : To (f w'.ctx) (f w.ctx) := by
  rw [callAfter_apply] at h
  cases h
  split
  · exact hk.after _ _
  · rfl

theorem stay_endTask {w w' : World} {u : Unit} (h : callEndTask env w = .ok (u, w')) : To (f w'.ctx) (f w.ctx) := by
  rw [callEndTask_apply] at h
  cases h
  split
  · exact hk.endTask _ _
  · rfl

theorem stay_pad {w w' : World} {u : Unit} (h : pad env w = .ok (u, w')) : To (f w'.ctx) (f w.ctx) := by
  rw [pad_apply] at h
  cases h
  cases lack w.ctx with
  | none => rfl
  | some d => exact hk.delay _ _

theorem stay_scan {w w' : World} (h : scan env w = .ok ((), w')) : To (f w'.ctx) (f w.ctx) := by
  have hf' : ∀ a b, frame a = frame b → To (f a) (f b) := fun _ _ e => .of (hf _ _ (gear_frame e))
  have change : ∀ w w', Change env w w' → To (f w'.ctx) (f w.ctx) := by
    intro w w' h
    cases h with
    | store hist => exact hf' _ _ (frame_upd _ _ hist)
    | clock => exact .refl _
    | err => exact hf' _ _ rfl
    | fault => exact hf' _ _ rfl
    | panic => exact hk.panic _ _
    | foreign => exact hk.foreign _ _ _ _ _
    | table => exact hf' _ _ rfl
  refine (SChg.scan (K := fun _ => True) (E := True) trivial (fun _ => trivial) _ _ _ h).lift
    (S := fun w w' => To (f w'.ctx) (f w.ctx)) (fun _ => .refl _) (by intro a b c h h'; exact h'.trans h) fun _ _ h => ?_
  cases h with
  | instr h => exact change _ _ h
  | callback => exact hk.instruction _ _
  | scanEnd => exact hk.scanEnd _ _
  | _ => exact hf' _ _ rfl

theorem stay_savePrevious {c c' : Ctx} (h : savePrevious c = .ok c') : To (f c') (f c) := by
  obtain ⟨mh, cdh, crh, tdh, trh, out, -, -, -, -, -, ho, e⟩ := savePrevious_eq h
  rw [e]
  refine To.trans (q := f { c with output := out }) (To.of (hf _ _ ?_)) (stay_output hf hk (amapFirst_isSome ho))
  rfl

theorem stay_rollback {c c' : Ctx} (h : rollback c = .ok c') : To (f c') (f c) := by
  obtain ⟨out, m, cd, cr, td, tr, cc, ts, d, r, ho, -, -, -, -, -, -, -, -, -, e⟩ := rollback_eq h
  rw [e]
  refine To.trans (q := f { c with output := out }) (To.of (hf _ _ ?_)) (stay_output hf hk (amapFirst_isSome ho))
  rfl

theorem stay_faultPath (hz : ∀ c s, To (f { c with scan := s }) (f c))
    {w w' : World} (h : faultPath env w = .ok ((), w')) : To (f w'.ctx) (f w.ctx) := by
  obtain ⟨c, c', out, v1, v2, h1, h2, h3, h4, h5, h6⟩ := faultPath_eq h
  have ho : out.isSome = c'.output.isSome := by
    split at h3
    · cases h3; rfl
    · exact amapFirst_isSome h3
  exact (stay_after hf hk h6).trans ((stay_scanTime hf hk hz h5).trans ((stay_doWrites hf hk h4).trans ((stay_output hf hk ho).trans
    ((stay_savePrevious hf hk h2).trans ((stay_rollback hf hk h1).trans (To.of (hf _ _ rfl)))))))

theorem stay_cycle (hz : ∀ c s, To (f { c with scan := s }) (f c))
    {w w' : World} {r : IterRes} (h : cycle env w = .ok (r, w')) : To (f w'.ctx) (f w.ctx) := by
  cases cycleRun h with
  | noInput hb hr =>
    exact (stay_readPhase hf hk hr).trans ((stay_before hf hk hb).trans (stay_start hf hk hz w))
  | noOutput hb hr ho =>
    exact (stay_outHistPhase hf hk ho).trans
      ((stay_readPhase hf hk hr).trans ((stay_before hf hk hb).trans (stay_start hf hk hz w)))
  | fault hb hr ho hs hi hfp =>
    exact (stay_faultPath hf hk hz hfp).trans ((stay_scan hf hk hs).trans ((stay_outHistPhase hf hk ho).trans
      ((stay_readPhase hf hk hr).trans ((stay_before hf hk hb).trans (stay_start hf hk hz w)))))
  | normal hb hr ho hs hi hp hw ht hd ha =>
    exact (stay_after hf hk ha).trans ((stay_pad hf hk hd).trans ((stay_scanTime hf hk hz ht).trans
      ((stay_doWrites hf hk hw).trans ((stay_savePrevious hf hk hp).trans
      ((stay_scan hf hk hs).trans ((stay_outHistPhase hf hk ho).trans
      ((stay_readPhase hf hk hr).trans ((stay_before hf hk hb).trans (stay_start hf hk hz w)))))))))

theorem stay_taskIter (hz : ∀ c s, To (f { c with scan := s }) (f c))
    {w w' : World} {r : IterRes} (h : taskIter env w = .ok (r, w')) : To (f w'.ctx) (f w.ctx) := by
  unfold taskIter at h
  obtain ⟨q, v, hq, h⟩ := bind_eq_ok.1 h
  have e := stay_waitLoop hf hk _ hq
  cases q with
  | leave => simp at h; rw [← h.2]; exact e
  | ready => exact (stay_cycle hf hk hz h).trans e
  | timeout =>
    obtain ⟨u, v2, h2, h⟩ := bind_eq_ok.1 h
    rw [bind_modCtx] at h
    simp at h
    rw [← h.2]
    exact (show To (f { v2.ctx with state := .exitTsk }) (f v2.ctx) from (To.of (hf _ _ rfl))).trans ((stay_failPanic hf hk h2).trans e)

theorem stay_taskLoop (hz : ∀ c s, To (f { c with scan := s }) (f c)) : ∀ (n : Nat) {w w' : World} {r : TaskRes}, taskLoop env n w = .ok (r, w') → To (f w'.ctx) (f w.ctx)
  | 0, w, w', r, h => by simp [taskLoop] at h; rw [h.2]
  | n + 1, w, w', r, h => by
    unfold taskLoop at h
    rw [bind_getCtx] at h
    split at h
    · obtain ⟨u, w1, h1, h⟩ := bind_eq_ok.1 h
      simp at h
      rw [← h.2]; exact stay_endTask hf hk h1
    · obtain ⟨i, w1, hi, h⟩ := bind_eq_ok.1 h
      have e := stay_taskIter hf hk hz hi
      cases i with
      | again => exact (stay_taskLoop hz n h).trans e
      | exit =>
        obtain ⟨u, w2, h2, h⟩ := bind_eq_ok.1 h
        simp at h
        rw [← h.2]; exact (stay_endTask hf hk h2).trans e
      | leave => simp at h; rw [← h.2]; exact e

theorem stay_task (hz : ∀ c s, To (f { c with scan := s }) (f c)) (n : Nat) {w w' : World} {r : TaskRes}
    (h : task env n w = .ok (r, w')) : To (f w'.ctx) (f w.ctx) := by
  unfold task at h
  rw [bind_getCtx, bind_lift_eq_ok] at h
  obtain ⟨b, -, h⟩ := h
  split at h
  · rw [bind_modCtx] at h
    cases h
    exact To.of (hf _ _ rfl)
  · exact stay_taskLoop hf hk hz n h

end

end Ladder
