import Verif.Lemmas.Frame
import Verif.Lemmas.Task

/-
What no task changes: the configuration.
-/

set_option autoImplicit false
set_option linter.unusedSectionVars false

namespace Ladder

open Spec Op

/-- The configuration of a context: everything but program, values, history, error report and state. -/
def gear (ctx : Ctx) : Ctx :=
  { ctx with
    state := .stopped, last := {}, exec := none, network := none
    M := none, Cd := none, Cr := none, Td := none, Tr := none, Mh := none, Cdh := none, Crh := none, Tdh := none, Trh := none
    C := none, D := none, R := none, timers := none
    input := ctx.input.map fun _ => [], output := ctx.output.map fun _ => [] }

theorem gear_frame {a b : Ctx} (h : frame a = frame b) : gear a = gear b := by
  have e : ∀ c, gear (frame c) = gear c := by intro c; simp [gear, frame, Function.comp_def]
  rw [← e a, h, e]

/-- A part of the configuration. -/
abbrev Geared {β : Type} (f : Ctx → β) : Prop := ∀ a b, gear a = gear b → f a = f b

section
variable {β : Type} {f : Ctx → β} (hf : Geared f) {env : Env} (hk : TaskHooks env fun c c' => f c' = f c)
include hf hk

theorem keeps_failPanic {w w' : World} {u : Unit} (h : failPanic env w = .ok (u, w')) : f w'.ctx = f w.ctx := by
  rw [failPanic_apply] at h
  cases h
  split
  · exact (hk.panic _ _).trans (hf _ _ rfl)
  · exact hf _ _ rfl

theorem keeps_waitLoop : ∀ (n : Nat) {w w' : World} {r : WaitRes}, waitLoop env n w = .ok (r, w') → f w'.ctx = f w.ctx
  | 0, w, w', r, h => by simp [waitLoop] at h; rw [h.2]
  | n + 1, w, w', r, h => by
    unfold waitLoop at h
    rw [bind_getCtx] at h
    split at h
    · simp at h; rw [h.2]
    · split at h
      · simp at h; rw [h.2]
      · split at h
        · obtain ⟨u, w1, h1, h⟩ := bind_eq_ok.1 h
          exact (keeps_waitLoop n h).trans (keeps_failPanic hf hk h1)
        · obtain ⟨u, w1, h1, h⟩ := bind_eq_ok.1 h
          rw [callDelay, external_apply] at h1
          cases h1
          exact (keeps_waitLoop n h).trans (hk.delay _ _)

theorem keeps_readLoop : ∀ (fuel n : Nat) {w w' : World} {u : Unit}, readLoop env fuel n w = .ok (u, w') →
    f w'.ctx = f w.ctx
  | 0, _, _, _, _, h => by simp [readLoop] at h
  | fuel + 1, n, w, w', u, h => by
    unfold readLoop at h
    rw [bind_getCtx] at h
    split at h
    · rw [bind_lift_eq_ok] at h
      obtain ⟨b, -, h⟩ := h
      split at h
      · exact keeps_failPanic hf hk h
      · obtain ⟨u, w1, h1, h⟩ := bind_eq_ok.1 h
        rw [external_apply] at h1
        cases h1
        exact (keeps_readLoop fuel _ h).trans (hk.read _ _ _)
    · simp at h; rw [h]

theorem keeps_writeLoop : ∀ (fuel n : Nat) {w w' : World} {u : Unit}, writeLoop env fuel n w = .ok (u, w') →
    f w'.ctx = f w.ctx
  | 0, _, _, _, _, h => by simp [writeLoop] at h
  | fuel + 1, n, w, w', u, h => by
    unfold writeLoop at h
    rw [bind_getCtx] at h
    split at h
    · rw [bind_lift_eq_ok] at h
      obtain ⟨b, -, h⟩ := h
      split at h
      · exact keeps_failPanic hf hk h
      · obtain ⟨u, w1, h1, h⟩ := bind_eq_ok.1 h
        rw [external_apply] at h1
        cases h1
        exact (keeps_writeLoop fuel _ h).trans (hk.write _ _ _)
    · simp at h; rw [h]

theorem keeps_doWrites {w w' : World} {u : Unit} (h : doWrites env w = .ok (u, w')) : f w'.ctx = f w.ctx := by
  unfold doWrites at h
  rw [bind_getCtx] at h
  split at h
  · exact keeps_writeLoop hf hk _ _ h
  · simp at h; rw [h]

theorem keeps_scanTime (hz : ∀ c s, f { c with scan := s } = f c)
    {w w' : World} {u : Unit} (h : scanTime env w = .ok (u, w')) : f w'.ctx = f w.ctx := by
  cases hm : w.ctx.millis with
  | false =>
    unfold scanTime at h
    rw [bind_getCtx] at h
    simp only [hm, Bool.not_false, if_true] at h
    exact keeps_failPanic hf hk (by unfold failPanic; exact h)
  | true =>
    obtain ⟨s, -, e⟩ := scanTime_eq h hm
    rw [e]
    split
    · split
      · exact (hk.panic _ _).trans ((show f { w.ctx with scan := s, state := .error } = f { w.ctx with scan := s } from
          hf _ _ rfl).trans (hz _ _))
      · exact (show f { w.ctx with scan := s, state := .error } = f { w.ctx with scan := s } from
          hf _ _ rfl).trans (hz _ _)
    · exact hz _ _

theorem map_nil {α : Type} {a b : Arr α} (h : b.isSome = a.isSome) :
    (b.map fun _ => ([] : List α)) = a.map fun _ => [] := by
  cases a <;> cases b <;> simp at h ⊢

theorem keeps_input {c : Ctx} {inp : Arr InMod} (h : inp.isSome = c.input.isSome) : f { c with input := inp } = f c := by
  refine hf _ _ ?_
  unfold gear
  rw [show (({ c with input := inp } : Ctx).input.map fun _ => ([] : List InMod)) = c.input.map fun _ => [] from
    map_nil hf hk h]

theorem keeps_output {c : Ctx} {out : Arr OutMod} (h : out.isSome = c.output.isSome) : f { c with output := out } = f c := by
  refine hf _ _ ?_
  unfold gear
  rw [show (({ c with output := out } : Ctx).output.map fun _ => ([] : List OutMod)) = c.output.map fun _ => [] from
    map_nil hf hk h]

theorem keeps_readPhase {w w' : World} {b : Bool} (h : readPhase env w = .ok (b, w')) : f w'.ctx = f w.ctx := by
  rcases readPhase_eq h with ⟨-, -, -, h⟩ | ⟨-, inp, hi, hr⟩
  · exact keeps_failPanic hf hk h
  · have hin : inp.isSome = w.ctx.input.isSome := by
      split at hi
      · exact amapFirst_isSome hi
      · simp at hi; rw [hi]
    rcases hr with ⟨-, -, h⟩ | ⟨-, h⟩
    · exact (keeps_readLoop hf hk _ _ h).trans (keeps_input hf hk hin)
    · rw [h]; exact keeps_input hf hk hin

theorem keeps_outHistPhase {w w' : World} {b : Bool} (h : outHistPhase env w = .ok (b, w')) : f w'.ctx = f w.ctx := by
  rcases outHistPhase_eq h with ⟨-, -, -, h⟩ | ⟨-, out, hi, hr⟩
  · exact keeps_failPanic hf hk h
  · have hin : out.isSome = w.ctx.output.isSome := by
      split at hi
      · exact amapFirst_isSome hi
      · simp at hi; rw [hi]
    rw [hr]; exact keeps_output hf hk hin

theorem keeps_start (hz : ∀ c s, f { c with scan := s } = f c) (w : World) : f (startOf env w).ctx = f w.ctx := by
  unfold startOf
  split
  · exact hz _ _
  · dsimp only
    have e : f { w.ctx with scan := { w.ctx.scan with startTime := 0 }, state := .error } = f w.ctx :=
      (show f { w.ctx with scan := { w.ctx.scan with startTime := 0 }, state := .error } =
        f { w.ctx with scan := { w.ctx.scan with startTime := 0 } } from hf _ _ rfl).trans (hz _ _)
    split
    · exact (hk.panic _ _).trans e
    · exact e

theorem keeps_before {w w' : World} {u : Unit} (h : callBefore env w = .ok (u, w')) : f w'.ctx = f w.ctx := by
  rw [callBefore_apply] at h
  cases h
  split
  · exact hk.before _ _
  · rfl

theorem keeps_after {w w' : World} {u : Unit} (h : callAfter env w = .ok (u, w')) : f w'.ctx = f w.ctx := by
  rw [callAfter_apply] at h
  cases h
  split
  · exact hk.after _ _
  · rfl

theorem keeps_endTask {w w' : World} {u : Unit} (h : callEndTask env w = .ok (u, w')) : f w'.ctx = f w.ctx := by
  rw [callEndTask_apply] at h
  cases h
  split
  · exact hk.endTask _ _
  · rfl

theorem keeps_pad {w w' : World} {u : Unit} (h : pad env w = .ok (u, w')) : f w'.ctx = f w.ctx := by
  rw [pad_apply] at h
  cases h
  cases lack w.ctx with
  | none => rfl
  | some d => exact hk.delay _ _

theorem keeps_scan {w w' : World} (h : scan env w = .ok ((), w')) : f w'.ctx = f w.ctx :=
  scan_keeps (fun _ _ e => hf _ _ (gear_frame e)) hk.toHooks h

theorem keeps_savePrevious {c c' : Ctx} (h : savePrevious c = .ok c') : f c' = f c := by
  obtain ⟨mh, cdh, crh, tdh, trh, out, -, -, -, -, -, ho, e⟩ := savePrevious_eq h
  rw [e, ← keeps_output hf hk (amapFirst_isSome ho)]
  exact hf _ _ rfl

theorem keeps_rollback {c c' : Ctx} (h : rollback c = .ok c') : f c' = f c := by
  obtain ⟨out, m, cd, cr, td, tr, cc, ts, d, r, ho, -, -, -, -, -, -, -, -, -, e⟩ := rollback_eq h
  rw [e, ← keeps_output hf hk (amapFirst_isSome ho)]
  exact hf _ _ rfl

theorem keeps_faultPath (hz : ∀ c s, f { c with scan := s } = f c)
    {w w' : World} (h : faultPath env w = .ok ((), w')) : f w'.ctx = f w.ctx := by
  obtain ⟨c, c', out, v1, v2, h1, h2, h3, h4, h5, h6⟩ := faultPath_eq h
  have ho : out.isSome = c'.output.isSome := by
    split at h3
    · cases h3; rfl
    · exact amapFirst_isSome h3
  calc f w'.ctx = f v2.ctx := keeps_after hf hk h6
    _ = f v1.ctx := keeps_scanTime hf hk hz h5
    _ = f { c' with output := out } := keeps_doWrites hf hk h4
    _ = f c' := keeps_output hf hk ho
    _ = f c := keeps_savePrevious hf hk h2
    _ = f { w.ctx with state := .exitTsk } := keeps_rollback hf hk h1
    _ = f w.ctx := hf _ _ rfl

theorem keeps_cycle (hz : ∀ c s, f { c with scan := s } = f c)
    {w w' : World} {r : IterRes} (h : cycle env w = .ok (r, w')) : f w'.ctx = f w.ctx := by
  cases cycleRun h with
  | noInput hb hr =>
    exact (keeps_readPhase hf hk hr).trans ((keeps_before hf hk hb).trans (keeps_start hf hk hz w))
  | noOutput hb hr ho =>
    exact (keeps_outHistPhase hf hk ho).trans
      ((keeps_readPhase hf hk hr).trans ((keeps_before hf hk hb).trans (keeps_start hf hk hz w)))
  | fault hb hr ho hs hi hfp =>
    exact (keeps_faultPath hf hk hz hfp).trans ((keeps_scan hf hk hs).trans ((keeps_outHistPhase hf hk ho).trans
      ((keeps_readPhase hf hk hr).trans ((keeps_before hf hk hb).trans (keeps_start hf hk hz w)))))
  | normal hb hr ho hs hi hp hw ht hd ha =>
    exact (keeps_after hf hk ha).trans ((keeps_pad hf hk hd).trans ((keeps_scanTime hf hk hz ht).trans
      ((keeps_doWrites hf hk hw).trans ((keeps_savePrevious hf hk hp).trans
      ((keeps_scan hf hk hs).trans ((keeps_outHistPhase hf hk ho).trans
      ((keeps_readPhase hf hk hr).trans ((keeps_before hf hk hb).trans (keeps_start hf hk hz w)))))))))

theorem keeps_taskIter (hz : ∀ c s, f { c with scan := s } = f c)
    {w w' : World} {r : IterRes} (h : taskIter env w = .ok (r, w')) : f w'.ctx = f w.ctx := by
  unfold taskIter at h
  obtain ⟨q, v, hq, h⟩ := bind_eq_ok.1 h
  have e := keeps_waitLoop hf hk _ hq
  cases q with
  | leave => simp at h; rw [← h.2, e]
  | ready => exact (keeps_cycle hf hk hz h).trans e
  | timeout =>
    obtain ⟨u, v2, h2, h⟩ := bind_eq_ok.1 h
    rw [bind_modCtx] at h
    simp at h
    rw [← h.2]
    exact (show f { v2.ctx with state := .exitTsk } = f v2.ctx from hf _ _ rfl).trans ((keeps_failPanic hf hk h2).trans e)

theorem keeps_taskLoop (hz : ∀ c s, f { c with scan := s } = f c) : ∀ (n : Nat) {w w' : World} {r : TaskRes}, taskLoop env n w = .ok (r, w') → f w'.ctx = f w.ctx
  | 0, w, w', r, h => by simp [taskLoop] at h; rw [h.2]
  | n + 1, w, w', r, h => by
    unfold taskLoop at h
    rw [bind_getCtx] at h
    split at h
    · obtain ⟨u, w1, h1, h⟩ := bind_eq_ok.1 h
      simp at h
      rw [← h.2]; exact keeps_endTask hf hk h1
    · obtain ⟨i, w1, hi, h⟩ := bind_eq_ok.1 h
      have e := keeps_taskIter hf hk hz hi
      cases i with
      | again => exact (keeps_taskLoop hz n h).trans e
      | exit =>
        obtain ⟨u, w2, h2, h⟩ := bind_eq_ok.1 h
        simp at h
        rw [← h.2]; exact (keeps_endTask hf hk h2).trans e
      | leave => simp at h; rw [← h.2]; exact e

end

end Ladder
