import Verif.Lemmas.Area
import Verif.Lemmas.Safe
import Verif.Spec.Control

/-
Copying and clearing of memory areas of the right size succeeds, and what it makes of each element.
-/

set_option autoImplicit false

namespace Ladder

open Spec Logic

variable {α : Type}

/-- A block, when there is one, has `n` elements. -/
def Sized (a : Arr α) (n : Nat) : Prop := ∀ l, a = some l → l.length = n

theorem isSome_over (s b : Option α) : (over s b).isSome = b.isSome := by cases s <;> cases b <;> rfl

theorem over_none (b : Option α) : over none b = b := by cases b <;> rfl
theorem over_none' (s : Option α) : over s none = none := by cases s <;> rfl

theorem over_map {β : Type} (f : α → β) (s b : Option α) : over (s.map f) (b.map f) = (over s b).map f := by
  cases s <;> cases b <;> rfl

theorem over_eq_some {s b : Option α} {x : α} (h : over s b = some x) : s = some x ∨ b = some x := by
  cases s <;> cases b <;> simp_all [over]

/-- `b` is `d` after copying `s` over it. -/
structure Copied (d s b : Arr α) : Prop where
  there : b.isSome = d.isSome
  elem : ∀ i, at? b i = over (at? s i) (at? d i)

theorem copied_null {d s : Arr α} (h : s.isNone = true ∨ d.isNone = true) : Copied d s d := by
  refine ⟨rfl, fun i => ?_⟩
  rcases h with h | h
  · cases s with
    | none => exact (over_none _).symm
    | some _ => cases h
  · cases d with
    | none => exact (over_none' _).symm
    | some _ => cases h

theorem acopy_sized {d s : Arr α} {n : Nat} (hd : Sized d n) (hs : Sized s n) (h1 : d.isSome) (h2 : s.isSome) :
    ∃ b, acopy d s n = .ok b ∧ Sized b n ∧ Copied d s b := by
  obtain ⟨ld, rfl⟩ := Option.isSome_iff_exists.1 h1
  obtain ⟨ls, rfl⟩ := Option.isSome_iff_exists.1 h2
  have e1 := hd _ rfl
  have e2 := hs _ rfl
  have e : acopy (some ld) (some ls) n = .ok (some ls) := by
    unfold acopy
    dsimp only
    rw [if_pos ⟨by omega, by omega⟩, List.take_of_length_le (by omega), List.drop_of_length_le (by omega), List.append_nil]
  refine ⟨_, e, hs, rfl, fun i => ?_⟩
  show ls[i]? = over ls[i]? ld[i]?
  by_cases hi : i < n
  · rw [List.getElem?_eq_getElem (show i < ls.length by omega), List.getElem?_eq_getElem (show i < ld.length by omega), over]
  · rw [List.getElem?_eq_none (show ls.length ≤ i by omega), List.getElem?_eq_none (show ld.length ≤ i by omega)]
    rfl

theorem acopyIf_sized {d s : Arr α} {n : Nat} (hd : Sized d n) (hs : Sized s n) :
    ∃ b, acopyIf d s n = .ok b ∧ Sized b n ∧ Copied d s b := by
  unfold acopyIf
  split
  · rename_i h
    exact acopy_sized hd hs h.2.2 h.2.1
  · rename_i h
    refine ⟨d, rfl, hd, rfl, fun i => ?_⟩
    cases d with
    | none => exact (over_none' _).symm
    | some ld =>
      cases s with
      | none => exact (over_none _).symm
      | some ls =>
        have h0 : n = 0 := by simp at h; exact h
        have e1 := hd _ rfl
        show ld[i]? = over ls[i]? ld[i]?
        rw [List.getElem?_eq_none (show ld.length ≤ i by omega), over_none']

theorem afill_sized {d : Arr α} {n : Nat} (x : α) (hd : Sized d n) (h1 : d.isSome) :
    ∃ b, afill d n x = .ok b ∧ Sized b n ∧ b.isSome = d.isSome ∧ ∀ i, at? b i = (at? d i).map fun _ => x := by
  obtain ⟨l, rfl⟩ := Option.isSome_iff_exists.1 h1
  have e1 := hd _ rfl
  have e : afill (some l) n x = .ok (some (List.replicate n x)) := by
    unfold afill
    dsimp only
    rw [if_pos (by omega), List.drop_of_length_le (by omega), List.append_nil]
  refine ⟨_, e, fun l' h => by cases h; simp, rfl, fun i => ?_⟩
  simp only [at?, Option.bind_some, List.getElem?_replicate]
  split
  · rw [List.getElem?_eq_getElem (by omega)]; rfl
  · rw [List.getElem?_eq_none (by omega)]; rfl

/-- A loop over all elements of a block. -/
theorem mapFirst_all {f : α → Except UB α} {R : α → α → Prop} : ∀ (l : List α), (∀ x ∈ l, ∃ y, f x = .ok y ∧ R x y) →
    ∃ l', mapFirst f l.length l = .ok l' ∧ l'.length = l.length ∧ (∀ (i : Nat) x, l[i]? = some x → ∃ y, l'[i]? = some y ∧ R x y) ∧
      ∀ y ∈ l', ∃ x ∈ l, R x y
  | [], _ => ⟨[], rfl, rfl, fun i x h => by simp at h, fun y h => by cases h⟩
  | x :: xs, h => by
    obtain ⟨y, e, hr⟩ := h x (.head _)
    obtain ⟨ys, e', hl, hg, hb⟩ := mapFirst_all xs fun a ha => h a (.tail _ ha)
    refine ⟨y :: ys, ?_, by simp [hl], fun i a ha => ?_, fun b hb' => ?_⟩
    · simp only [List.length_cons, mapFirst, e, e']
    · cases i with
      | zero => simp at ha ⊢; subst ha; exact hr
      | succ i => simp at ha ⊢; exact hg i a ha
    · rcases List.mem_cons.1 hb' with rfl | hb'
      · exact ⟨x, .head _, hr⟩
      · obtain ⟨a, ha, hra⟩ := hb b hb'
        exact ⟨a, .tail _ ha, hra⟩

/-- What a loop over an array of modules does. -/
structure Mapped (R : α → α → Prop) (a b : Arr α) : Prop where
  there : b.isSome = a.isSome
  get : ∀ i x, at? a i = some x → ∃ y, at? b i = some y ∧ R x y
  out : ∀ i, at? a i = none → at? b i = none
  back : ∀ l', b = some l' → ∃ l, a = some l ∧ l'.length = l.length ∧ ∀ y ∈ l', ∃ x ∈ l, R x y

theorem amapFirst_all {f : α → Except UB α} {R : α → α → Prop} {a : Arr α} {n : Nat} (hn : Sized a n)
    (h : ∀ l, a = some l → ∀ x ∈ l, ∃ y, f x = .ok y ∧ R x y) : ∃ b, amapFirst f n a = .ok b ∧ Mapped R a b := by
  cases a with
  | none => exact ⟨none, rfl, rfl, fun i x h => by simp [at?] at h, fun _ _ => rfl, fun l h => by cases h⟩
  | some l =>
    have e := hn l rfl
    subst e
    obtain ⟨l', e, hl, hg, hb⟩ := mapFirst_all l (h l rfl)
    refine ⟨some l', by unfold amapFirst; dsimp only; rw [e]; rfl, rfl, hg, fun i hi => ?_, fun l2 h2 => ?_⟩
    · simp only [at?, Option.bind_some, List.getElem?_eq_none_iff] at hi ⊢
      omega
    · cases h2
      exact ⟨l, rfl, hl, hb⟩

theorem Mapped.refl {R : α → α → Prop} (hR : ∀ x, R x x) (a : Arr α) : Mapped R a a :=
  ⟨rfl, fun _ x h => ⟨x, h, hR x⟩, fun _ h => h, fun l h => ⟨l, h, rfl, fun y hy => ⟨y, hy, hR y⟩⟩⟩

end Ladder
