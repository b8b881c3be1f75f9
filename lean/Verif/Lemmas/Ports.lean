import Verif.Lemmas.Task
import Verif.Spec.Cycle

/-
What the phases outside of the scan leave to the callbacks: they only set the run state and the statistics.
-/

set_option autoImplicit false
set_option linter.unusedSectionVars false

namespace Ladder

open Spec Op

section
variable {β : Type} {f : Ctx → β} (hst : ∀ c s, f { c with state := s } = f c) (hsc : ∀ c s, f { c with scan := s } = f c)
  {env : Env} (hk : Quiet env fun c c' => f c' = f c)
include hst hsc hk

theorem holds_failPanic {w w' : World} {u : Unit} (h : failPanic env w = .ok (u, w')) : f w'.ctx = f w.ctx := by
  rw [failPanic_apply] at h
  cases h
  split
  · exact (hk.panic _ _).trans (hst _ _)
  · exact hst _ _

theorem holds_waitLoop : ∀ (n : Nat) {w w' : World} {r : WaitRes}, waitLoop env n w = .ok (r, w') → f w'.ctx = f w.ctx
  | 0, w, w', r, h => by simp [waitLoop] at h; rw [h.2]
  | n + 1, w, w', r, h => by
    unfold waitLoop at h
    rw [bind_getCtx] at h
    split at h
    · simp at h; rw [h.2]
    · split at h
      · simp at h; rw [h.2]
      · split at h
        · obtain ⟨u, w1, h1, h⟩ := bind_eq_ok.1 h
          exact (holds_waitLoop n h).trans (holds_failPanic hst hsc hk h1)
        · obtain ⟨u, w1, h1, h⟩ := bind_eq_ok.1 h
          rw [callDelay, external_apply] at h1
          cases h1
          exact (holds_waitLoop n h).trans (hk.delay _ _)

theorem holds_writeLoop : ∀ (fuel n : Nat) {w w' : World} {u : Unit}, writeLoop env fuel n w = .ok (u, w') →
    f w'.ctx = f w.ctx
  | 0, _, _, _, _, h => by simp [writeLoop] at h
  | fuel + 1, n, w, w', u, h => by
    unfold writeLoop at h
    rw [bind_getCtx] at h
    split at h
    · rw [bind_lift_eq_ok] at h
      obtain ⟨b, -, h⟩ := h
      split at h
      · exact holds_failPanic hst hsc hk h
      · obtain ⟨u, w1, h1, h⟩ := bind_eq_ok.1 h
        rw [external_apply] at h1
        cases h1
        exact (holds_writeLoop fuel _ h).trans (hk.write _ _ _)
    · simp at h; rw [h]

theorem holds_doWrites {w w' : World} {u : Unit} (h : doWrites env w = .ok (u, w')) : f w'.ctx = f w.ctx := by
  unfold doWrites at h
  rw [bind_getCtx] at h
  split at h
  · exact holds_writeLoop hst hsc hk _ _ h
  · simp at h; rw [h]

theorem holds_scanTime {w w' : World} {u : Unit} (h : scanTime env w = .ok (u, w')) : f w'.ctx = f w.ctx := by
  cases hm : w.ctx.millis with
  | false =>
    unfold scanTime at h
    rw [bind_getCtx] at h
    simp only [hm, Bool.not_false, if_true] at h
    exact holds_failPanic hst hsc hk (by unfold failPanic; exact h)
  | true =>
    obtain ⟨s, -, e⟩ := scanTime_eq h hm
    rw [e]
    split
    · split
      · exact (hk.panic _ _).trans ((show f { w.ctx with scan := s, state := .error } = f { w.ctx with scan := s } from
          hst { w.ctx with scan := s } _).trans (hsc _ _))
      · exact (show f { w.ctx with scan := s, state := .error } = f { w.ctx with scan := s } from
          hst { w.ctx with scan := s } _).trans (hsc _ _)
    · exact hsc _ _

theorem holds_start (w : World) : f (startOf env w).ctx = f w.ctx := by
  unfold startOf
  split
  · exact hsc _ _
  · dsimp only
    have e : f { w.ctx with scan := { w.ctx.scan with startTime := 0 }, state := .error } = f w.ctx :=
      (show f { w.ctx with scan := { w.ctx.scan with startTime := 0 }, state := .error } =
        f { w.ctx with scan := { w.ctx.scan with startTime := 0 } } from hst { w.ctx with scan := { w.ctx.scan with startTime := 0 } } _).trans (hsc _ _)
    split
    · exact (hk.panic _ _).trans e
    · exact e

theorem holds_before {w w' : World} {u : Unit} (h : callBefore env w = .ok (u, w')) : f w'.ctx = f w.ctx := by
  rw [callBefore_apply] at h
  cases h
  split
  · exact hk.before _ _
  · rfl

theorem holds_after {w w' : World} {u : Unit} (h : callAfter env w = .ok (u, w')) : f w'.ctx = f w.ctx := by
  rw [callAfter_apply] at h
  cases h
  split
  · exact hk.after _ _
  · rfl

theorem holds_endTask {w w' : World} {u : Unit} (h : callEndTask env w = .ok (u, w')) : f w'.ctx = f w.ctx := by
  rw [callEndTask_apply] at h
  cases h
  split
  · exact hk.endTask _ _
  · rfl

theorem holds_pad {w w' : World} {u : Unit} (h : pad env w = .ok (u, w')) : f w'.ctx = f w.ctx := by
  rw [pad_apply] at h
  cases h
  cases lack w.ctx with
  | none => rfl
  | some d => exact hk.delay _ _

end

theorem holds_readLoop {β : Type} {f : Ctx → β} (hst : ∀ c s, f { c with state := s } = f c)
    (hsc : ∀ c s, f { c with scan := s } = f c) {env : Env} (hk : Ports env fun c c' => f c' = f c) :
    ∀ (fuel n : Nat) {w w' : World} {u : Unit}, readLoop env fuel n w = .ok (u, w') →
    f w'.ctx = f w.ctx
  | 0, _, _, _, _, h => by simp [readLoop] at h
  | fuel + 1, n, w, w', u, h => by
    unfold readLoop at h
    rw [bind_getCtx] at h
    split at h
    · rw [bind_lift_eq_ok] at h
      obtain ⟨b, -, h⟩ := h
      split at h
      · exact holds_failPanic hst hsc hk.toQuiet h
      · obtain ⟨u, w1, h1, h⟩ := bind_eq_ok.1 h
        rw [external_apply] at h1
        cases h1
        exact (holds_readLoop hst hsc hk fuel _ h).trans (hk.read _ _ _)
    · simp at h; rw [h]

end Ladder
