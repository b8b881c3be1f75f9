import Verif.Lemmas.ScanChange
import Verif.Spec.Cycle

/-
What no scan changes: configuration, sizes of memory areas and the previous-value history.
-/

set_option autoImplicit false

namespace Ladder

open Spec Op

/-- The shape of an area. -/
def blank {α : Type} (z : α) (a : Arr α) : Arr α := a.map (·.map fun _ => z)

/-- The context without program, current values, error report, state and executing network. -/
def frame (ctx : Ctx) : Ctx :=
  { ctx with
    state := .stopped, last := {}, exec := none, network := none
    M := blank 0 ctx.M, Cd := blank 0 ctx.Cd, Cr := blank 0 ctx.Cr, Td := blank 0 ctx.Td, Tr := blank 0 ctx.Tr
    C := blank 0 ctx.C, D := blank 0 ctx.D, R := blank 0 ctx.R, timers := blank ⟨0, 0⟩ ctx.timers
    input := ctx.input.map (·.map fun o => { o with I := blank 0 o.I, IW := blank 0 o.IW })
    output := ctx.output.map (·.map fun o => { o with Q := blank 0 o.Q, QW := blank 0 o.QW }) }

theorem blank_aset {α : Type} (z : α) (a : Arr α) (i : Nat) (x : α) : blank z (aset a i x) = blank z a := by
  cases a with
  | none => rfl
  | some l =>
    simp only [blank, aset, Option.map_some, Option.some.injEq]
    apply List.ext_getElem
    · simp
    · intro j h1 h2; simp only [List.getElem_map]

theorem blank_modify {α : Type} (z : α) (a : Arr α) (i : Nat) (f : α → α) :
    blank z (a.map fun l => l.modify i f) = blank z a := by
  cases a with
  | none => rfl
  | some l =>
    simp only [blank, Option.map_some, Option.some.injEq]
    apply List.ext_getElem <;> simp

theorem map_modify_arr {α β : Type} (f : α → β) (g : α → α) (hfg : ∀ x, f (g x) = f x) (a : Arr α) (i : Nat) :
    (a.map fun l => l.modify i g).map (·.map f) = a.map (·.map f) := by
  cases a with
  | none => rfl
  | some l => simp only [Option.map_some]; rw [map_modify_eq f g hfg]

theorem frame_upd (ctx : Ctx) {ℓ : Loc} (v : Nat) (h : ℓ.isHist = false) : frame (upd ctx ℓ v) = frame ctx := by
  cases ℓ <;> first | (cases h; done) | skip
  all_goals
    simp only [frame, upd, Ctx.modIn, Ctx.modOut, Ctx.modCell, blank_aset, blank_modify]
  all_goals
    rw [map_modify_arr]
    intro o
    simp only [blank_aset]

/-- A change keeps every part of the frame kept by the callbacks. -/
theorem frame_change {β : Type} {f : Ctx → β} (hf : ∀ a b, frame a = frame b → f a = f b) {env : Env}
    (hk : Hooks env fun c c' => f c' = f c) {w w' : World} (h : Change env w w') : f w'.ctx = f w.ctx := by
  cases h with
  | store hist => exact hf _ _ (frame_upd _ _ hist)
  | clock => rfl
  | err => exact hf _ _ rfl
  | fault => exact hf _ _ rfl
  | panic => exact hk.panic _ _
  | foreign => exact hk.foreign _ _ _ _ _
  | table => exact hf _ _ rfl

theorem frame_schange {β : Type} {f : Ctx → β} (hf : ∀ a b, frame a = frame b → f a = f b) {env : Env}
    (hk : Hooks env fun c c' => f c' = f c) {K : Nat → Prop} {E : Prop} {w w' : World} (h : SChange env K E w w') :
    f w'.ctx = f w.ctx := by
  cases h with
  | instr h => exact frame_change hf hk h
  | callback => exact hk.instruction _ _
  | scanEnd => exact hk.scanEnd _ _
  | _ => exact hf _ _ rfl

/-- A scan keeps every part of the frame kept by the callbacks. -/
theorem scan_keeps {β : Type} {f : Ctx → β} (hf : ∀ a b, frame a = frame b → f a = f b) {env : Env}
    (hk : Hooks env fun c c' => f c' = f c) {w w' : World} (h : scan env w = .ok ((), w')) : f w'.ctx = f w.ctx :=
  (SChg.scan (K := fun _ => True) (E := True) trivial (fun _ => trivial) _ _ _ h).lift
    (S := fun w w' => f w'.ctx = f w.ctx) (fun _ => rfl) (by intro a b c h h'; exact h'.trans h)
    (fun _ _ => frame_schange hf hk)

theorem scan_trace {env : Env} {w w' : World} (h : scan env w = .ok ((), w')) :
    ∃ new, w'.trace = w.trace ++ new ∧ ∀ e ∈ new, isScan e = true := by
  refine (SChg.scan (K := fun _ => True) (E := True) trivial (fun _ => trivial) _ _ _ h).lift
    (S := fun w w' => ∃ new, w'.trace = w.trace ++ new ∧ ∀ e ∈ new, isScan e = true) (fun _ => ⟨[], by simp, by simp⟩) ?_ ?_
  · rintro a b c ⟨n, e, k⟩ ⟨n', e', k'⟩
    refine ⟨n ++ n', by rw [e', e, List.append_assoc], fun x hx => ?_⟩
    rcases List.mem_append.1 hx with hx | hx
    · exact k x hx
    · exact k' x hx
  · intro a b h
    cases h with
    | instr h => cases h with
      | panic => exact ⟨_, rfl, by simp [isScan]⟩
      | foreign => exact ⟨_, rfl, by simp [isScan]⟩
      | _ => exact ⟨[], by simp, by simp⟩
    | exec => exact ⟨_, rfl, by simp [isScan]⟩
    | ret => exact ⟨_, rfl, by simp [isScan]⟩
    | callback => exact ⟨_, rfl, by simp [isScan]⟩
    | scanEnd => exact ⟨_, rfl, by simp [isScan]⟩
    | _ => exact ⟨[], by simp, by simp⟩

end Ladder
