import Verif.Lemmas.Task

/-
Copying and clearing of memory areas, element by element.
-/

set_option autoImplicit false

namespace Ladder

open Spec

variable {α : Type}

theorem acopy_at {d s d' : Arr α} {n : Nat} (h : acopy d s n = .ok d') (i : Nat) :
    at? d' i = if i < n then at? s i else at? d i := by
  unfold acopy at h
  split at h
  · rename_i l r
    split at h
    · rename_i hn
      simp only [Except.ok.injEq] at h
      subst h
      simp only [at?, Option.bind_some]
      split
      · rename_i hi
        rw [List.getElem?_append_left (by simp; omega), List.getElem?_take, if_pos hi]
      · rename_i hi
        rw [List.getElem?_append_right (by simp; omega), List.getElem?_drop]
        congr 1
        simp; omega
    · cases h
  · cases h

theorem acopy_some {d s d' : Arr α} {n : Nat} (h : acopy d s n = .ok d') :
    d.isSome ∧ s.isSome ∧ d'.isSome := by
  unfold acopy at h
  split at h
  · split at h
    · cases h; simp
    · cases h
  · cases h

theorem acopyIf_at {d s d' : Arr α} {n i : Nat} (h : acopyIf d s n = .ok d') (hi : i < n) (hs : (at? s i).isSome)
    (hd : (at? d' i).isSome) : at? d' i = at? s i := by
  unfold acopyIf at h
  split at h
  · rw [acopy_at h, if_pos hi]
  · rename_i hn
    simp only [Except.ok.injEq] at h
    subst h
    refine absurd ⟨by omega, ?_, ?_⟩ hn
    · cases s with
      | none => cases hs
      | some l => rfl
    · cases d with
      | none => cases hd
      | some l => rfl

theorem afill_at {a a' : Arr α} {n : Nat} {x : α} (h : afill a n x = .ok a') (i : Nat) :
    at? a' i = if i < n then some x else at? a i := by
  unfold afill at h
  split at h
  · rename_i l
    split at h
    · rename_i hn
      simp only [Except.ok.injEq] at h
      subst h
      simp only [at?, Option.bind_some]
      split
      · rename_i hi
        rw [List.getElem?_append_left (by simp; omega), List.getElem?_replicate, if_pos hi]
      · rename_i hi
        rw [List.getElem?_append_right (by simp; omega), List.getElem?_drop]
        congr 1
        simp; omega
    · cases h
  · cases h

theorem mapFirst_at {f : α → Except UB α} : ∀ {n : Nat} {l l' : List α}, mapFirst f n l = .ok l' → ∀ i x', l'[i]? = some x' →
    ∃ x, l[i]? = some x ∧ (i < n → f x = .ok x') ∧ (n ≤ i → x' = x)
  | 0, l, l', h, i, x', hx => by
    simp only [mapFirst, Except.ok.injEq] at h
    subst h
    exact ⟨x', hx, by omega, fun _ => rfl⟩
  | n + 1, [], l', h, i, x', hx => by simp [mapFirst] at h
  | n + 1, a :: l, l', h, i, x', hx => by
    simp only [mapFirst] at h
    cases hf : f a with
    | error e => simp [hf] at h
    | ok y =>
      cases hm : mapFirst f n l with
      | error e => simp [hf, hm] at h
      | ok ys =>
        simp only [hf, hm, Except.ok.injEq] at h
        subst h
        cases i with
        | zero =>
          simp only [List.getElem?_cons_zero, Option.some.injEq] at hx
          subst hx
          exact ⟨a, rfl, fun _ => hf, by omega⟩
        | succ i =>
          rw [List.getElem?_cons_succ] at hx
          obtain ⟨x, h1, h2, h3⟩ := mapFirst_at hm i x' hx
          exact ⟨x, by rw [List.getElem?_cons_succ]; exact h1, fun hi => h2 (by omega), fun hi => h3 (by omega)⟩

theorem mapFirst_length {f : α → Except UB α} : ∀ {n : Nat} {l l' : List α}, mapFirst f n l = .ok l' → l'.length = l.length ∧ n ≤ l.length
  | 0, l, l', h => by simp only [mapFirst, Except.ok.injEq] at h; subst h; exact ⟨rfl, Nat.zero_le _⟩
  | n + 1, [], l', h => by simp [mapFirst] at h
  | n + 1, a :: l, l', h => by
    simp only [mapFirst] at h
    cases hf : f a with
    | error e => simp [hf] at h
    | ok y =>
      cases hm : mapFirst f n l with
      | error e => simp [hf, hm] at h
      | ok ys =>
        simp only [hf, hm, Except.ok.injEq] at h
        subst h
        have := mapFirst_length hm
        simp; omega

theorem amapFirst_at {f : α → Except UB α} {n : Nat} {a b : Arr α} (h : amapFirst f n a = .ok b) (i : Nat) {x' : α}
    (hx : at? b i = some x') : ∃ x, at? a i = some x ∧ (i < n → f x = .ok x') ∧ (n ≤ i → x' = x) := by
  cases a with
  | none => simp only [amapFirst, Except.ok.injEq] at h; subst h; cases hx
  | some l =>
    simp only [amapFirst] at h
    cases hm : mapFirst f n l with
    | error e => simp [hm, Except.map] at h
    | ok l' =>
      simp only [hm, Except.map, Except.ok.injEq] at h
      subst h
      exact mapFirst_at hm i x' hx

theorem amapFirst_back {f : α → Except UB α} {n : Nat} {a b : Arr α} (h : amapFirst f n a = .ok b) (i : Nat) {x : α}
    (hx : at? a i = some x) : ∃ x', at? b i = some x' ∧ (i < n → f x = .ok x') ∧ (n ≤ i → x' = x) := by
  cases a with
  | none => cases hx
  | some l =>
    simp only [amapFirst] at h
    cases hm : mapFirst f n l with
    | error e => simp [hm, Except.map] at h
    | ok l' =>
      simp only [hm, Except.map, Except.ok.injEq] at h
      subst h
      have hl := (mapFirst_length hm).1
      simp only [at?, Option.bind_some] at hx ⊢
      have hi : i < l'.length := by rw [hl]; exact (List.getElem?_eq_some_iff.1 hx).1
      obtain ⟨x1, h1, h2, h3⟩ := mapFirst_at hm i l'[i] (List.getElem?_eq_getElem hi)
      rw [hx] at h1
      cases h1
      exact ⟨_, List.getElem?_eq_getElem hi, h2, h3⟩

end Ladder
