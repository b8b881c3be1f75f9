import Verif.Spec.Flash

/-
How often and for how long a lamp flashes.
-/

set_option autoImplicit false
set_option linter.unusedSectionVars false

namespace Ladder.Flash

open Spec Spec.Logic Spec.Flash

theorem passed_iff {now : W64} {since : Nat} (h : since ≤ now.toNat) : passed now since = true ↔ since + 5000 ≤ now.toNat := by
  have e : lapse now since = now.toNat - since := by
    have := now.isLt
    unfold lapse
    rw [show now.toNat + 2^64 - since = now.toNat - since + 2^64 by omega, Nat.add_mod_right, Nat.mod_eq_of_lt (by omega)]
  unfold passed
  rw [e, decide_eq_true_eq]
  omega

/-! ### One step -/

theorem lit_iff {l : Lamp} : l.lit = true ↔ ∃ s o, l.phase = .lit s o := by
  unfold Lamp.lit
  split
  · rename_i s o h; exact ⟨fun _ => ⟨s, o, h⟩, fun _ => rfl⟩
  · rename_i h
    exact ⟨fun h' => (by cases h'), fun ⟨s, o, h'⟩ => absurd h' (h s o)⟩

theorem wait_pass {l : Lamp} {p f : Reading} {since : Nat} (h : passed p.test since = true) :
    l.wait p f since = ⟨.lit f.start.toNat (passed f.test f.start.toNat), l.flashes + 1⟩ := by
  unfold Lamp.wait; exact if_pos h

theorem wait_fail {l : Lamp} {p f : Reading} {since : Nat} (h : passed p.test since = false) :
    l.wait p f since = ⟨.pause since, l.flashes⟩ := by
  unfold Lamp.wait; exact if_neg (by rw [h]; decide)

/-- What a step can do. -/
inductive Does (on : Bool) (p f : Reading) (l : Lamp) : Lamp → Prop where
  | idle : ¬ (on = true ∧ l.flashes < 5) → Does on p f l ⟨.out, l.flashes⟩
  | rise (s : Nat) : on = true → l.flashes < 5 → (l.phase = .out ∧ s = p.start.toNat ∨ l.phase = .pause s) → passed p.test s = true →
      Does on p f l ⟨.lit f.start.toNat (passed f.test f.start.toNat), l.flashes + 1⟩
  | wait (s : Nat) : on = true → l.flashes < 5 → (l.phase = .out ∧ s = p.start.toNat ∨ l.phase = .pause s) → passed p.test s = false →
      Does on p f l ⟨.pause s, l.flashes⟩
  | stay (s : Nat) : on = true → l.flashes < 5 → l.phase = .lit s false → Does on p f l ⟨.lit s (passed f.test s), l.flashes⟩
  | fall (s : Nat) : on = true → l.flashes < 5 → l.phase = .lit s true → Does on p f l ⟨.out, l.flashes⟩

theorem does (on : Bool) (p f : Reading) (l : Lamp) : Does on p f l (l.step on p f) := by
  unfold Lamp.step
  by_cases h : on = true ∧ l.flashes < 5
  · have hc : (on && decide (l.flashes < 5)) = true := by simp [h.1, h.2]
    rw [if_pos hc]
    have hw : ∀ s, (l.phase = .out ∧ s = p.start.toNat ∨ l.phase = .pause s) → Does on p f l (l.wait p f s) := fun s hs => by
      rcases Bool.eq_false_or_eq_true (passed p.test s) with e | e
      · rw [wait_pass e]; exact .rise s h.1 h.2 hs e
      · rw [wait_fail e]; exact .wait s h.1 h.2 hs e
    split
    · rename_i e; exact hw _ (.inl ⟨e, rfl⟩)
    · rename_i s e; exact hw _ (.inr e)
    · rename_i s o e
      cases o with
      | true => exact .fall s h.1 h.2 e
      | false => exact .stay s h.1 h.2 e
  · have hc : ¬ (on && decide (l.flashes < 5)) = true := by
      rw [Bool.and_eq_true, decide_eq_true_eq]; exact h
    rw [if_neg hc]
    exact .idle h

theorem step_flashes {on : Bool} {p f : Reading} {l : Lamp} :
    (l.step on p f).flashes = l.flashes + if (l.step on p f).lit && !l.lit then 1 else 0 := by
  have dark : l.phase = .out ∨ (∃ s, l.phase = .pause s) → l.lit = false := by
    rintro (h | ⟨s, h⟩) <;> (unfold Lamp.lit; rw [h])
  have h := does on p f l
  generalize l.step on p f = l' at h ⊢
  cases h with
  | idle => rfl
  | rise s h1 h2 h3 h4 =>
    rw [dark (by exact h3.imp And.left fun h => ⟨s, h⟩)]
    rfl
  | wait => rfl
  | stay s h1 h2 h3 =>
    rw [lit_iff.2 ⟨s, _, h3⟩]
    simp
  | fall => rfl

theorem step_few {on : Bool} {p f : Reading} {l : Lamp} (hl : l.flashes ≤ 5) : (l.step on p f).flashes ≤ 5 := by
  have h := does on p f l
  generalize l.step on p f = l' at h ⊢
  cases h with
  | rise s h1 h2 h3 h4 => simp only; omega
  | _ => exact hl

theorem step_lit {on : Bool} {p f : Reading} {l : Lamp} (h : (l.step on p f).lit = true) : on = true ∧ l.flashes < 5 := by
  have h' := does on p f l
  generalize l.step on p f = l' at h h'
  cases h' with
  | idle => cases h
  | rise s h1 h2 h3 h4 => exact ⟨h1, h2⟩
  | wait => cases h
  | stay s h1 h2 h3 => exact ⟨h1, h2⟩
  | fall => cases h

/-! ### Many steps -/

theorem rises_snoc (was : Bool) (l : List Bool) (b : Bool) :
    rises was (l ++ [b]) = rises was l + if b && !l.getLastD was then 1 else 0 := by
  induction l generalizing was with
  | nil => simp [rises]
  | cons x l ih =>
    rw [List.cons_append, rises, rises, ih x, List.getLastD_cons]
    omega

/-- A lamp over `n` cycles. -/
structure Going (n : Nat) (L : Nat → Lamp) (on : Nat → Bool) (p f : Nat → Reading) : Prop where
  start : L 0 = {}
  step : ∀ k, k < n → L (k + 1) = (L k).step (on k) (p k) (f k)

section

variable {n : Nat} {L : Nat → Lamp} {on : Nat → Bool} {p f : Nat → Reading} (h : Going n L on p f)
include h

theorem Going.does {k : Nat} (hk : k < n) : Does (on k) (p k) (f k) (L k) (L (k + 1)) := by
  rw [h.step k hk]; exact Flash.does _ _ _ _

theorem Going.flashes {k : Nat} (hk : k ≤ n) : (L k).flashes = rises false ((List.range k).map fun i => (L (i + 1)).lit) := by
  induction k with
  | zero => rw [h.start]; rfl
  | succ k ih =>
    have e := @step_flashes (on k) (p k) (f k) (L k)
    rw [← h.step k (by omega)] at e
    rw [List.range_succ, List.map_append, List.map_cons, List.map_nil, rises_snoc, ← ih (by omega), e]
    congr 4
    cases k with
    | zero => rw [h.start]; rfl
    | succ k => simp [List.range_succ]

theorem Going.few {k : Nat} (hk : k ≤ n) : (L k).flashes ≤ 5 := by
  induction k with
  | zero => rw [h.start]; decide
  | succ k ih => rw [h.step k (by omega)]; exact step_few (ih (by omega))

theorem Going.off {k : Nat} (hk : k < n) (hf : (L k).flashes = 5) : (L (k + 1)).lit = false := by
  cases e : (L (k + 1)).lit with
  | false => rfl
  | true =>
    rw [h.step k hk] at e
    have := (step_lit e).2
    omega

/-! ### Time -/

variable {c : Nat → Nat} (hc : ∀ k, k < n → c k ≤ (p k).start.toNat ∧ (p k).start.toNat ≤ (p k).test.toNat ∧ (p k).test.toNat ≤ (f k).start.toNat ∧
  (f k).start.toNat ≤ (f k).test.toNat ∧ (f k).test.toNat ≤ c (k + 1))
include hc

theorem Going.mono {i j : Nat} (hij : i ≤ j) (hj : j ≤ n) : c i ≤ c j := by
  induction j with
  | zero => rw [Nat.le_zero.1 hij]; exact Nat.le_refl _
  | succ j ih =>
    rcases Nat.lt_or_ge j i with e | e
    · rw [show i = j + 1 by omega]; exact Nat.le_refl _
    · have := hc j (by omega)
      have := ih e (by omega)
      omega

/-- During a flash. -/
theorem Going.during {i k : Nat} (hi : (L i).lit = false) (hk : i + k < n) (hl : ∀ m, i ≤ m → m ≤ i + k → (L (m + 1)).lit = true) :
    (L (i + k + 1)).phase = .lit (f i).start.toNat (passed (f (i + k)).test (f i).start.toNat) := by
  induction k with
  | zero =>
    have hd := h.does hk
    have := hl i (by omega) (by omega)
    simp only [Nat.add_zero] at *
    generalize L (i + 1) = l' at hd this ⊢
    cases hd with
    | idle => cases this
    | rise => rfl
    | wait => cases this
    | stay s h1 h2 h3 => rw [lit_iff.2 ⟨_, _, h3⟩] at hi; cases hi
    | fall => cases this
  | succ k ih =>
    have hp := ih (by omega) fun m h1 h2 => hl m h1 (by omega)
    have hd := h.does (k := i + k + 1) (by omega)
    have := hl (i + (k + 1)) (by omega) (by omega)
    rw [show i + (k + 1) = i + k + 1 by omega] at *
    generalize L (i + k + 1 + 1) = l' at hd this ⊢
    cases hd with
    | idle => cases this
    | rise s h1 h2 h3 h4 => rcases h3 with ⟨h3, -⟩ | h3 <;> (rw [hp] at h3; cases h3)
    | wait => cases this
    | stay s h1 h2 h3 =>
      rw [hp] at h3
      obtain ⟨rfl, -⟩ := Phase.lit.inj h3
      rfl
    | fall => cases this

/-- A flash, except the fifth one, lasts at least five seconds. -/
theorem Going.flash_min {i j : Nat} (hij : i < j) (hj : j < n) (hi : (L i).lit = false) (hl : ∀ m, i ≤ m → m < j → (L (m + 1)).lit = true)
    (he : (L (j + 1)).lit = false) (hf : (L j).flashes < 5) (ho : on j = true) : c i + 5000 ≤ c j := by
  obtain ⟨k, rfl⟩ : ∃ k, j = i + k + 1 := ⟨j - i - 1, by omega⟩
  have hp := h.during hc hi (k := k) (by omega) fun m h1 h2 => hl m h1 (by omega)
  have hd := h.does hj
  generalize L (i + k + 1 + 1) = l' at hd he
  have hi' := hc i (by omega)
  have hk' := hc (i + k) (by omega)
  have ord : (f i).start.toNat ≤ (f (i + k)).test.toNat := by
    rcases Nat.eq_zero_or_pos k with rfl | hk
    · exact hi'.2.2.2.1
    · have := h.mono hc (i := i + 1) (j := i + k) (by omega) (by omega)
      omega
  cases hd with
  | idle h1 => exact absurd ⟨ho, hf⟩ h1
  | rise => cases he
  | wait s h1 h2 h3 h4 => rcases h3 with ⟨h3, -⟩ | h3 <;> (rw [hp] at h3; cases h3)
  | stay => cases he
  | fall s h1 h2 h3 =>
    rw [hp] at h3
    have := (passed_iff ord).1 (Phase.lit.inj h3).2
    omega

/-- A flash does not last longer than five seconds and two cycles. -/
theorem Going.flash_max {i j : Nat} (hij : i ≤ j) (hj : j + 1 < n) (hi : (L i).lit = false) (hl : ∀ m, i ≤ m → m ≤ j + 1 → (L (m + 1)).lit = true) :
    c j < c (i + 1) + 5000 := by
  obtain ⟨k, rfl⟩ : ∃ k, j = i + k := ⟨j - i, by omega⟩
  have hp := h.during hc hi (k := k) (by omega) fun m h1 h2 => hl m h1 (by omega)
  have hd := h.does hj
  have he := hl (i + k + 1) (by omega) (by omega)
  generalize L (i + k + 1 + 1) = l' at hd he
  have hi' := hc i (by omega)
  have hk' := hc (i + k) (by omega)
  have ord : (f i).start.toNat ≤ (f (i + k)).test.toNat := by
    rcases Nat.eq_zero_or_pos k with rfl | hk
    · exact hi'.2.2.2.1
    · have := h.mono hc (i := i + 1) (j := i + k) (by omega) (by omega)
      omega
  cases hd with
  | idle => cases he
  | rise s h1 h2 h3 h4 => rcases h3 with ⟨h3, -⟩ | h3 <;> (rw [hp] at h3; cases h3)
  | wait => cases he
  | stay s h1 h2 h3 =>
    rw [hp] at h3
    have h5 := (Phase.lit.inj h3).2
    have : ¬ ((f i).start.toNat + 5000 ≤ (f (i + k)).test.toNat) := fun h6 => by
      rw [(passed_iff ord).2 h6] at h5; cases h5
    omega
  | fall => cases he

/-- Before a flash, the lamp is out for at least five seconds. -/
theorem Going.gap_min {i j : Nat} (hij : i < j ∨ i = 0) (hj : j < n) (hi : i = 0 ∨ (L i).lit = true) (hl : ∀ m, i ≤ m → m < j → (L (m + 1)).lit = false)
    (he : (L (j + 1)).lit = true) : c i + 5000 ≤ c (j + 1) := by
  have key : ∀ k, (i < k ∨ i = 0) → k ≤ j → (L k).phase = .out ∨ ∃ s, (L k).phase = .pause s ∧ c i ≤ s ∧ s ≤ c k := by
    intro k
    induction k with
    | zero => intro hk _; rw [h.start]; exact .inl rfl
    | succ k ih =>
      intro hk hkj
      have hd := h.does (k := k) (by omega)
      have hx := hl k (by omega) (by omega)
      have ho := hc k (by omega)
      have hm := h.mono hc (i := i) (j := k) (by omega) (by omega)
      have hp : (L k).phase = .out ∨ (∃ s, (L k).phase = .pause s ∧ c i ≤ s ∧ s ≤ c k) ∨ (L k).lit = true := by
        by_cases hik : i < k ∨ i = 0
        · rcases ih hik (by omega) with h | h
          · exact .inl h
          · exact .inr (.inl h)
        · have : i = k := by omega
          subst this
          rcases hi with hi | hi
          · exact absurd (.inr hi) hik
          · exact .inr (.inr hi)
      generalize L (k + 1) = l' at hd hx ⊢
      cases hd with
      | idle => exact .inl rfl
      | rise => cases hx
      | wait s h1 h2 h3 h4 =>
        refine .inr ⟨s, rfl, ?_⟩
        rcases h3 with ⟨h3, rfl⟩ | h3
        · omega
        · rcases hp with hp | ⟨s', hp, h5, h6⟩ | hp
          · rw [h3] at hp; cases hp
          · rw [h3] at hp; cases hp; omega
          · obtain ⟨_, _, hp⟩ := lit_iff.1 hp
            rw [h3] at hp; cases hp
      | stay => cases hx
      | fall => exact .inl rfl
  have hp := key j hij (Nat.le_refl _)
  have hd := h.does hj
  have ho := hc j hj
  have hm := h.mono hc (i := i) (j := j) (by omega) (by omega)
  generalize L (j + 1) = l' at hd he
  cases hd with
  | idle => cases he
  | rise s h1 h2 h3 h4 =>
    rcases h3 with ⟨h3, rfl⟩ | h3
    · have := (passed_iff ho.2.1).1 h4
      omega
    · rcases hp with hp | ⟨s', hp, h5, h6⟩
      · rw [h3] at hp; cases hp
      · rw [h3] at hp; cases hp
        have := (passed_iff (by omega)).1 h4
        omega
  | wait => cases he
  | stay s h1 h2 h3 =>
    rcases hp with hp | ⟨s', hp, -⟩ <;> (rw [h3] at hp; cases hp)
  | fall => cases he

/-- A pause has onsets. -/
theorem Going.since {k s : Nat} (hk : k ≤ n) (hp : (L k).phase = .pause s) : s ≤ c k := by
  induction k with
  | zero => rw [h.start] at hp; cases hp
  | succ k ih =>
    have hd := h.does (k := k) (by omega)
    have ho := hc k (by omega)
    generalize L (k + 1) = l' at hd hp
    cases hd with
    | idle => cases hp
    | rise => cases hp
    | wait s h1 h2 h3 h4 =>
      cases hp
      rcases h3 with ⟨h3, rfl⟩ | h3
      · omega
      · have := ih (by omega) h3; omega
    | stay => cases hp
    | fall => cases hp

theorem Going.more {i j : Nat} (hij : i ≤ j) (hj : j ≤ n) : (L i).flashes ≤ (L j).flashes := by
  induction j with
  | zero => rw [Nat.le_zero.1 hij]; exact Nat.le_refl _
  | succ j ih =>
    rcases Nat.lt_or_ge j i with e | e
    · rw [show i = j + 1 by omega]; exact Nat.le_refl _
    · rw [h.step j (by omega), step_flashes]
      exact Nat.le_trans (ih e (by omega)) (Nat.le_add_right _ _)

/-- A lamp that is on and has not flashed five times is not out for longer than five seconds and two cycles. -/
theorem Going.gap_max {i j : Nat} (hij : i + 2 ≤ j) (hj : j < n) (ho : ∀ m, i ≤ m → m ≤ j → on m = true) (hf : (L j).flashes < 5)
    (hl : ∀ m, i ≤ m → m ≤ j → (L (m + 1)).lit = false) : c j < c (i + 2) + 5000 := by
  have few : ∀ m, m ≤ j → (L m).flashes < 5 := fun m hm => Nat.lt_of_le_of_lt (h.more hc hm (by omega)) hf
  have one : (L (i + 1)).phase = .out ∨ ∃ s, (L (i + 1)).phase = .pause s := by
    have hd := h.does (k := i) (by omega)
    have hx := hl i (by omega) (by omega)
    generalize L (i + 1) = l' at hd hx ⊢
    cases hd with
    | idle h1 => exact .inl rfl
    | rise => cases hx
    | wait s => exact .inr ⟨s, rfl⟩
    | stay => cases hx
    | fall => exact .inl rfl
  have next : ∀ k, i ≤ k → k ≤ j → ((L k).phase = .out ∨ ∃ s, (L k).phase = .pause s) →
      ∃ s, (L (k + 1)).phase = .pause s ∧ passed (p k).test s = false ∧ ∀ s', (L k).phase = .pause s' → s' = s := by
    intro k h1 h2 hp
    have hd := h.does (k := k) (by omega)
    have hx := hl k h1 h2
    generalize L (k + 1) = l' at hd hx ⊢
    cases hd with
    | idle h3 => exact absurd ⟨ho k h1 h2, few k h2⟩ h3
    | rise => cases hx
    | wait s h3 h4 h5 h6 =>
      refine ⟨s, rfl, h6, fun s' hs => ?_⟩
      rcases h5 with ⟨h5, -⟩ | h5
      · rw [hs] at h5; cases h5
      · rw [hs] at h5; exact Phase.pause.inj h5
    | stay => cases hx
    | fall s h3 h4 h5 => rcases hp with hp | ⟨_, hp⟩ <;> (rw [hp] at h5; cases h5)
  obtain ⟨s, hs, -⟩ := next (i + 1) (by omega) (by omega) one
  have key : ∀ k, i + 2 + k ≤ j → (L (i + 2 + k)).phase = .pause s := by
    intro k
    induction k with
    | zero => intro _; exact hs
    | succ k ih =>
      intro hk
      have := ih (by omega)
      obtain ⟨s', h1, -, h2⟩ := next (i + 2 + k) (by omega) (by omega) (.inr ⟨s, this⟩)
      rw [show i + 2 + (k + 1) = i + 2 + k + 1 by omega, h1, h2 s this]
  have hp := key (j - (i + 2)) (by omega)
  rw [show i + 2 + (j - (i + 2)) = j by omega] at hp
  obtain ⟨s', h1, h2, h3⟩ := next j (by omega) (by omega) (.inr ⟨s, hp⟩)
  obtain rfl := h3 s hp
  have h4 : s ≤ c (i + 2) := h.since hc (by omega) hs
  have h5 := h.mono hc (i := i + 2) (j := j) hij (by omega)
  have h6 := hc j hj
  have : ¬ (s + 5000 ≤ (p j).test.toNat) := fun h7 => by
    rw [(passed_iff (by omega)).2 h7] at h2; cases h2
  omega

end

/-! ### The statements about what is seen -/

section

variable {n : Nat} {L : Nat → Lamp} {on : Nat → Bool} {p f : Nat → Reading} (h : Going n L on p f) {lit : Nat → Bool}
  (hlit : ∀ k, k < n → lit k = (L (k + 1)).lit)
include h hlit

theorem Going.onsets {k : Nat} (hk : k ≤ n) : onsets lit k = (L k).flashes := by
  rw [h.flashes hk]
  unfold Spec.Flash.onsets
  congr 1
  exact List.map_congr_left fun i hi => hlit i (by have := List.mem_range.1 hi; omega)

theorem Going.was {i : Nat} (hi : i ≤ n) (h0 : i = 0 ∨ lit (i - 1) = false) : (L i).lit = false := by
  rcases h0 with rfl | h0
  · rw [h.start]; rfl
  · cases i with
    | zero => rw [h.start]; rfl
    | succ i => rw [← hlit i (by omega)]; exact h0

theorem Going.fivefold : Fivefold n on lit where
  few := fun k hk => by rw [h.onsets hlit hk]; exact h.few hk
  last := fun k hk hb => by rw [hlit k hk]; exact h.off hk (by rw [← h.onsets hlit (by omega)]; exact hb)
  only := fun k hk hl => by
    rw [hlit k hk, h.step k hk] at hl
    exact (step_lit hl).1

theorem Going.paced {c : Nat → Nat} (hc : ∀ k, k < n → c k ≤ (p k).start.toNat ∧ (p k).start.toNat ≤ (p k).test.toNat ∧
    (p k).test.toNat ≤ (f k).start.toNat ∧ (f k).start.toNat ≤ (f k).test.toNat ∧ (f k).test.toNat ≤ c (k + 1))
    (hon : ∀ k, k + 1 < n → on k = true → on (k + 1) = true) : Paced n on lit c where
  flash := fun i j hij hj hi hl he hb => by
    have hl' : ∀ m, i ≤ m → m < j → (L (m + 1)).lit = true := fun m h1 h2 => (hlit m (by omega)) ▸ hl m h1 h2
    refine h.flash_min hc hij hj (h.was hlit (by omega) hi) hl' (by rw [← hlit j hj]; exact he) (by rw [← h.onsets hlit (by omega)]; exact hb) ?_
    have := hl' (j - 1) (by omega) (by omega)
    rw [h.step (j - 1) (by omega)] at this
    have := hon (j - 1) (by omega) (step_lit this).1
    rwa [show j - 1 + 1 = j by omega] at this
  flash' := fun i j hij hj hi hl =>
    h.flash_max hc hij hj (h.was hlit (by omega) hi) fun m h1 h2 => (hlit m (by omega)) ▸ hl m h1 h2
  gap := fun i j hij hj hi hl he => by
    refine h.gap_min hc hij hj ?_ (fun m h1 h2 => (hlit m (by omega)) ▸ hl m h1 h2) (by rw [← hlit j hj]; exact he)
    rcases Nat.eq_zero_or_pos i with h0 | h0
    · exact .inl h0
    · rcases hi with hi | hi
      · exact .inl hi
      · rw [hlit (i - 1) (by omega), show i - 1 + 1 = i by omega] at hi
        exact .inr hi
  gap' := fun i j hij hj hl hb => by
    refine h.gap_max hc hij hj (fun m h1 h2 => (hl m h1 h2).1) (by rw [← h.onsets hlit (by omega)]; exact hb) fun m h1 h2 => ?_
    rw [← hlit m (by omega)]; exact (hl m h1 h2).2

end

/-! ### The panel -/

/-- The reading number `i` of cycle `k`. -/
def reading (es : List (List Byte × List Reading)) (i k : Nat) : Reading := (es.getD k ([], [])).2.getD i ⟨0, 0, 0⟩

section

variable {es : List (List Byte × List Reading)} (h4 : ∀ e ∈ es, e.2.length = 4)
include h4

theorem after_step {k : Nat} (hk : k < es.length) : after (es.take (k + 1)) =
    ⟨(after (es.take k)).first.step true (reading es 0 k) (reading es 1 k),
      (after (es.take k)).second.step (decide ((after (es.take (k + 1))).first.flashes = 5)) (reading es 2 k) (reading es 3 k),
      (after (es.take k)).key ^^ decide ((es.getD k ([], [])).1.getLast? = some 55)⟩ := by
  have e : after (es.take (k + 1)) = (after (es.take k)).step es[k] := by
    unfold after
    rw [List.take_succ_eq_append_getElem hk, List.foldl_append]
    rfl
  have hg : es.getD k ([], []) = es[k] := by simp [hk]
  rw [e]
  unfold reading
  rw [hg]
  have hl := h4 es[k] (List.getElem_mem hk)
  generalize es[k] = x at hl ⊢
  obtain ⟨t, us⟩ := x
  match us, hl with
  | [a, b, c, d], _ => rfl

theorem after_first : Going es.length (fun k => (after (es.take k)).first) (fun _ => true) (reading es 0) (reading es 1) :=
  ⟨rfl, fun k hk => by rw [congrArg Panel.first (after_step h4 hk)]⟩

theorem after_second : Going es.length (fun k => (after (es.take k)).second) (fun k => decide ((after (es.take (k + 1))).first.flashes = 5))
    (reading es 2) (reading es 3) :=
  ⟨rfl, fun k hk => by rw [congrArg Panel.second (after_step h4 hk)]⟩

theorem after_key {k : Nat} (hk : k ≤ es.length) :
    (after (es.take k)).key = decide ((es.take k).countP (fun e => decide (e.1.getLast? = some 55)) % 2 = 1) := by
  induction k with
  | zero => rfl
  | succ k ih =>
    have hg : es.getD k ([], []) = es[k] := by simp; rw [List.getElem?_eq_getElem (by omega)]; rfl
    rw [congrArg Panel.key (after_step h4 (by omega)), ih (by omega), List.take_succ_eq_append_getElem (by omega), List.countP_append, hg,
      List.countP_singleton]
    generalize List.countP _ _ = x
    by_cases h : es[k].1.getLast? = some 55
    · simp only [h, decide_true, Bool.xor_true, if_true]
      rw [← decide_not]
      exact decide_eq_decide.2 (by omega)
    · simp only [h, decide_false, Bool.xor_false, Bool.false_eq_true, if_false, Nat.add_zero]

end

/-! ### The clock -/

theorem within {env : Env} {s e : Nat} {as : List (Nat × List Reading)} (h : Timely env 1 s as e) {k : Nat} (hk : k < as.length) :
    ∃ b, Told env (begins as e k + 1) b as[k].2 ∧ b ≤ begins as e (k + 1) := by
  induction as generalizing s k with
  | nil => simp at hk
  | cons x as ih =>
    obtain ⟨a, us⟩ := x
    obtain ⟨-, s', -, h2, h3⟩ := h
    cases k with
    | zero =>
      refine ⟨s', h2, ?_⟩
      cases as with
      | nil => exact h3
      | cons y as =>
        obtain ⟨a', us'⟩ := y
        exact Nat.le_of_lt h3.1
    | succ k => exact ih h3 (by simpa using hk)

/-- The readings of a cycle of the panel on a clock that does not run backwards. -/
theorem readings {env : Env} {lo hi : Nat} {us : List Reading} (h : Told env lo hi us) (h4 : us.length = 4)
    (hm : ∀ t t', t ≤ t' → (env.clock t).toNat ≤ (env.clock t').toNat) {a z : Nat} (ha : a ≤ lo) (hz : hi ≤ z) :
    ∃ q1 q2 q3 q4, us = [q1, q2, q3, q4] ∧ (env.clock a).toNat ≤ q1.start.toNat ∧ q1.start.toNat ≤ q1.test.toNat ∧ q1.test.toNat ≤ q2.start.toNat ∧
      q2.start.toNat ≤ q2.test.toNat ∧ q2.test.toNat ≤ q3.start.toNat ∧ q3.start.toNat ≤ q3.test.toNat ∧ q3.test.toNat ≤ q4.start.toNat ∧
      q4.start.toNat ≤ q4.test.toNat ∧ q4.test.toNat ≤ (env.clock z).toNat := by
  match us, h4 with
  | [q1, q2, q3, q4], _ =>
    cases h with
    | more a1 a2 a3 h =>
    cases h with
    | more b1 b2 b3 h =>
    cases h with
    | more c1 c2 c3 h =>
    cases h with
    | more d1 d2 d3 h =>
    cases h with
    | done e =>
    exact ⟨_, _, _, _, rfl, hm _ _ (by omega), hm _ _ (by omega), hm _ _ (by omega), hm _ _ (by omega), hm _ _ (by omega), hm _ _ (by omega),
      hm _ _ (by omega), hm _ _ (by omega), hm _ _ (by omega)⟩

end Ladder.Flash
