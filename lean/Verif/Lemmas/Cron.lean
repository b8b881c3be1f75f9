import Verif.Model.Cron
import Verif.Spec.CronField

/-
Lemmas on the cron expression parser: bit maps, numbers, elements and lists.
-/

set_option autoImplicit false

namespace Ladder.Lwdtc

open Ladder Ladder.Spec

theorem and7 (n : Nat) : n &&& 7 = n % 8 := Nat.and_two_pow_sub_one_eq_mod n 3

theorem shr3 (n : Nat) : n >>> 3 = n / 8 := by rw [Nat.shiftRight_eq_div_pow]

theorem bitIsSet_ok {map : List Byte} {n : Nat} (h : n < 8 * map.length) :
    bitIsSet map n = .ok (decide (Has map n)) := by
  have hl : n / 8 < map.length := by omega
  have : decide (Has map n) = map[n / 8].getLsbD (n % 8) := by
    rw [Bool.eq_iff_iff, decide_eq_true_iff]
    unfold Has
    rw [List.getElem?_eq_getElem hl]
    rfl
  rw [this]
  unfold bitIsSet
  rw [shr3, and7, List.getElem?_eq_getElem hl]

theorem one_shift_getLsbD (k j : Nat) (hk : k < 8) (hj : j < 8) : (1#8 <<< k).getLsbD j = decide (j = k) := by
  have : ∀ k : Fin 8, ∀ j : Fin 8, (1#8 <<< k.val).getLsbD j.val = decide (j.val = k.val) := by decide
  exact this ⟨k, hk⟩ ⟨j, hj⟩

theorem bitSet_ok {map : List Byte} {p : Nat} (h : p < 8 * map.length) :
    ∃ map', bitSet map p = .ok map' ∧ map'.length = map.length ∧ ∀ n, Has map' n ↔ Has map n ∨ n = p := by
  have hl : p >>> 3 < map.length := by rw [shr3]; omega
  refine ⟨map.modify (p >>> 3) (· ||| (1#8 <<< (p &&& 7))), ?_, by simp, ?_⟩
  · unfold bitSet; rw [if_pos hl]
  · intro n
    unfold Has
    rw [shr3, and7, List.getElem?_modify]
    by_cases e : p / 8 = n / 8
    · have hl' : n / 8 < map.length := by omega
      simp only [if_pos e]
      rw [List.getElem?_eq_getElem hl']
      show ((map[n / 8] ||| 1#8 <<< (p % 8)).getLsbD (n % 8)) = true ↔ _
      rw [BitVec.getLsbD_or, one_shift_getLsbD _ _ (Nat.mod_lt p (by decide)) (Nat.mod_lt n (by decide))]
      simp only [Bool.or_eq_true, decide_eq_true_eq, Option.any_some]
      constructor
      · rintro (h1 | h1)
        · exact .inl h1
        · exact .inr (by omega)
      · rintro (h1 | h1)
        · exact .inl h1
        · exact .inr (by omega)
    · simp only [if_neg e]
      have : (fun x : Byte => x) <$> map[n / 8]? = map[n / 8]? := by cases map[n / 8]? <;> rfl
      have hne : n ≠ p := fun x => e (by rw [x])
      simp [hne]

/-- The bit setting loop without wrap-around. -/
theorem bitLoop_ok {step last : Nat} (hs : 1 ≤ step) (hw : last + step < 2 ^ 64) :
    ∀ (fuel bit : Nat) (map : List Byte), last < 8 * map.length → 1 ≤ fuel → last + 2 ≤ fuel + bit →
    ∃ map' b, bitLoop step last fuel bit map = .done map' b ∧ map'.length = map.length ∧
      (bit ≤ last → last < b ∧ b ≤ last + step) ∧
      ∀ n, Has map' n ↔ Has map n ∨ (n ≤ last ∧ ∃ i, n = bit + i * step) := by
  intro fuel
  induction fuel with
  | zero => intro _ _ _ h; exact absurd h (by decide)
  | succ fuel ih =>
    intro bit map hl _ hf
    by_cases hb : bit ≤ last
    · obtain ⟨m1, e1, l1, h1⟩ := bitSet_ok (map := map) (p := bit) (by omega)
      obtain ⟨m2, b, e2, l2, h3, h2⟩ := ih (bit + step) m1 (by omega) (by omega) (by omega)
      refine ⟨m2, b, ?_, by omega, ?_, ?_⟩
      · unfold bitLoop
        rw [if_pos hb, e1]
        show bitLoop step last fuel ((bit + step) % 2 ^ 64) m1 = _
        rw [Nat.mod_eq_of_lt (by omega), e2]
      · intro _
        by_cases hb' : bit + step ≤ last
        · exact h3 hb'
        · have : b = bit + step := by
            cases fuel with
            | zero => omega
            | succ f => 
              unfold bitLoop at e2
              rw [if_neg hb'] at e2
              injection e2 with _ h
              exact h.symm
          omega
      · intro n
        rw [h2, h1]
        constructor
        · rintro ((h | h) | ⟨h, i, h'⟩)
          · exact .inl h
          · exact .inr ⟨by omega, 0, by omega⟩
          · exact .inr ⟨h, i + 1, by rw [h', Nat.succ_mul]; omega⟩
        · rintro (h | ⟨h, i, h'⟩)
          · exact .inl (.inl h)
          · cases i with
            | zero => exact .inl (.inr (by omega))
            | succ i => exact .inr ⟨h, i, by rw [h', Nat.succ_mul]; omega⟩
    · refine ⟨map, bit, ?_, rfl, fun h => absurd h hb, ?_⟩
      · unfold bitLoop; rw [if_neg hb]
      · intro n
        constructor
        · exact .inl
        · rintro (h | ⟨h, i, h'⟩)
          · exact h
          · exfalso; have := Nat.zero_le (i * step); omega

/-! ### Numbers -/

theorem isNum_iff {c : Char} : isNum c = true ↔ Digit c := by
  unfold isNum Digit; exact decide_eq_true_iff

theorem toNum_eq (c : Char) : toNum c = c.toNat - 48 := rfl

/-- The rest of a text does not start with a digit. -/
def Stop (t : List Char) : Prop := ∀ c ∈ t.head?, ¬ Digit c

theorem parseDigits_append {t : List Char} (ht : Stop t) : ∀ (s : List Char) (acc : Nat), (∀ c ∈ s, Digit c) →
    parseDigits (acc % 2 ^ 64) (s ++ t) = ((s.foldl (fun a c => a * 10 + (c.toNat - 48)) acc) % 2 ^ 64, t) := by
  intro s
  induction s with
  | nil =>
    intro acc _
    cases t with
    | nil => rfl
    | cons c t =>
      have : isNum c = false := by
        rw [Bool.eq_false_iff, Ne, isNum_iff]
        exact ht c rfl
      show parseDigits _ (c :: t) = _
      unfold parseDigits
      rw [this]
      rfl
  | cons c s ih =>
    intro acc h
    have hc : isNum c = true := isNum_iff.2 (h c (by simp))
    show parseDigits _ (c :: (s ++ t)) = _
    unfold parseDigits
    rw [hc, if_pos rfl, toNum_eq]
    have : (acc % 2 ^ 64 * 10 + (c.toNat - 48)) % 2 ^ 64 = (acc * 10 + (c.toNat - 48)) % 2 ^ 64 := by
      generalize c.toNat - 48 = d
      omega
    rw [this, ih _ (fun c hc => h c (by simp [hc]))]
    rfl

theorem parseNum_append {s t : List Char} {n : Nat} (hs : Numeral s n) (ht : Stop t) :
    parseNum (s ++ t) = some (n % 2 ^ 64, t) := by
  obtain ⟨h0, h1, h2⟩ := hs
  cases s with
  | nil => exact absurd rfl h0
  | cons c s =>
    have hc : isNum c = true := isNum_iff.2 (h1 c (by simp))
    have := parseDigits_append ht (c :: s) 0 h1
    show parseNum (c :: (s ++ t)) = _
    unfold parseNum
    dsimp only
    rw [hc, if_pos rfl]
    rw [show (0 : Nat) % 2 ^ 64 = 0 from rfl] at this
    rw [show c :: (s ++ t) = (c :: s) ++ t from rfl, this]
    unfold decimal at h2
    rw [h2]

/-- Every text is a sequence of digits followed by something else. -/
theorem digits_split (s : List Char) : ∃ d t, s = d ++ t ∧ (∀ c ∈ d, Digit c) ∧ Stop t := by
  induction s with
  | nil => exact ⟨[], [], rfl, by simp, by intro c h; simp at h⟩
  | cons c s ih =>
    by_cases h : Digit c
    · obtain ⟨d, t, e, h1, h2⟩ := ih
      exact ⟨c :: d, t, by rw [e]; rfl, by intro x hx; rcases List.mem_cons.1 hx with rfl | hx; exact h; exact h1 x hx, h2⟩
    · exact ⟨[], c :: s, rfl, by simp, by intro x hx; simp at hx; exact hx ▸ h⟩

theorem parseNum_some {s : List Char} {n : Nat} {t : List Char} (h : parseNum s = some (n, t)) :
    ∃ d k, s = d ++ t ∧ Numeral d k ∧ n = k % 2 ^ 64 ∧ Stop t := by
  obtain ⟨d, u, e, h1, h2⟩ := digits_split s
  have hd : d ≠ [] := by
    rintro rfl
    cases s with
    | nil => cases h
    | cons c s =>
      have hc : ¬ Digit c := h2 c (by rw [← (show c :: s = u from e)]; rfl)
      unfold parseNum at h
      dsimp only at h
      rw [if_neg (fun x => hc (isNum_iff.1 x))] at h
      cases h
  have hn : Numeral d (decimal d) := ⟨hd, h1, rfl⟩
  rw [e, parseNum_append hn h2] at h
  injection h with h
  injection h with ha hb
  exact ⟨d, _, by rw [e, hb], hn, ha.symm, hb ▸ h2⟩

theorem decimal_snoc_lt : ∀ (s : List Char) (acc : Nat), (∀ c ∈ s, Digit c) →
    s.foldl (fun a c => a * 10 + (c.toNat - 48)) acc < (acc + 1) * 10 ^ s.length := by
  intro s
  induction s with
  | nil => intro acc _; simp
  | cons c s ih =>
    intro acc h
    have hc : c.toNat - 48 ≤ 9 := by
      have := (h c (by simp)).2
      have : c.toNat ≤ '9'.toNat := this
      have e : '9'.toNat = 57 := rfl
      omega
    have := ih (acc * 10 + (c.toNat - 48)) (fun x hx => h x (by simp [hx]))
    show s.foldl _ (acc * 10 + (c.toNat - 48)) < _
    have hm : (acc * 10 + (c.toNat - 48) + 1) * 10 ^ s.length ≤ (acc + 1) * 10 * 10 ^ s.length :=
      Nat.mul_le_mul_right _ (by omega)
    rw [List.length_cons, Nat.pow_succ, Nat.mul_comm (10 ^ s.length) 10, ← Nat.mul_assoc]
    omega

/-- A number of at most 18 digits. -/
theorem numeral_lt {s : List Char} {n : Nat} (h : Numeral s n) (hl : s.length ≤ 18) : n < 10 ^ 18 := by
  have := decimal_snoc_lt s 0 h.digits
  have h2 : 10 ^ s.length ≤ 10 ^ 18 := Nat.pow_le_pow_right (by decide) hl
  have e : decimal s = n := h.value
  unfold decimal at e
  omega

/-! ### Elements -/

/-- Start of an element: a star or a number. -/
inductive Head (lo hi : Nat) : List Char → Nat → Nat → Prop
  | star : Head lo hi ['*'] lo hi
  | num {s : List Char} {k : Nat} : Numeral s k → Head lo hi s (k % 2 ^ 64) (k % 2 ^ 64)

/-- An element before its step. -/
inductive Mid (lo hi : Nat) : List Char → Elem → Prop
  | plain {h : List Char} {a b : Nat} : Head lo hi h a b → Mid lo hi h ⟨a, b, 1, false, false⟩
  | up {h t : List Char} {a b k : Nat} : Head lo hi h a b → Numeral t k → a ≤ k % 2 ^ 64 →
      Mid lo hi (h ++ '-' :: t) ⟨a, k % 2 ^ 64, 1, true, false⟩
  | down {h t : List Char} {a b k : Nat} : Head lo hi h a b → Numeral t k → k % 2 ^ 64 < a →
      Mid lo hi (h ++ '-' :: t) ⟨k % 2 ^ 64, a, 1, true, true⟩

/-- The texts scanned as one element, with the result. -/
inductive Shape (lo hi : Nat) : List Char → Elem → Prop
  | plain {h : List Char} {el : Elem} : Mid lo hi h el → Shape lo hi h el
  | step {h u : List Char} {el : Elem} {k : Nat} : Mid lo hi h el → Numeral u k →
      Shape lo hi (h ++ '/' :: u) { el with step := k % 2 ^ 64, stop := if el.range then el.stop else sizeMax }

/-- First part of `parseElem`. -/
def headOf (vmin vmax : Nat) (s : List Char) : Option (Nat × Nat × List Char) :=
  match s with
  | [] => none
  | c :: rest => if c = '*' then some (vmin, vmax, rest) else (parseNum s).map fun (n, t) => (n, n, t)

/-- Second part of `parseElem`. -/
def midOf (a b : Nat) (t : List Char) : Except Res (Elem × List Char) :=
  match t with
  | '-' :: t' =>
    if t'.isEmpty then .error .err else
    match parseNum t' with
    | none => .error .errToken
    | some (n, u) =>
      if a > n then .ok ({ start := n, stop := a, step := 1, range := true, opposite := true }, u)
      else .ok ({ start := a, stop := n, step := 1, range := true, opposite := false }, u)
  | _ => .ok ({ start := a, stop := b, step := 1, range := false, opposite := false }, t)

/-- Third part of `parseElem`. -/
def stepOf (el : Elem) (u : List Char) : Except Res (Elem × List Char) :=
  match u with
  | '/' :: u' =>
    match parseNum u' with
    | none => .error .errToken
    | some (n, x) => .ok ({ el with step := n, stop := if el.range then el.stop else sizeMax }, x)
  | _ => .ok (el, u)

theorem parseElem_eq (vmin vmax : Nat) (s : List Char) : parseElem vmin vmax s =
    if s = [] then .error .err else
    match headOf vmin vmax s with
    | none => .error .errToken
    | some (a, b, t) =>
      match midOf a b t with
      | .error e => .error e
      | .ok (el, u) => stepOf el u := by
  cases s with
  | nil => rfl
  | cons c rest =>
    rw [if_neg (by simp)]
    unfold parseElem headOf midOf stepOf
    rfl

/-- What may follow an element. -/
def Comma (t : List Char) : Prop := ∀ c ∈ t.head?, c = ','

theorem Comma.stop {t : List Char} (h : Comma t) : Stop t := by
  intro c hc hd
  rw [h c hc] at hd
  exact absurd hd (by decide)

theorem stop_cons {c : Char} {t : List Char} (h : ¬ Digit c) : Stop (c :: t) := by
  intro x hx
  simp at hx
  exact hx ▸ h

theorem numeral_head {s : List Char} {n : Nat} (h : Numeral s n) : ∃ c t, s = c :: t ∧ Digit c := by
  cases s with
  | nil => exact absurd rfl h.nonempty
  | cons c t => exact ⟨c, t, rfl, h.digits c (by simp)⟩

theorem headOf_ok {lo hi a b : Nat} {h t : List Char} (hh : Head lo hi h a b) (ht : Stop t) :
    headOf lo hi (h ++ t) = some (a, b, t) := by
  cases hh with
  | star => rfl
  | num hn =>
    have hp := parseNum_append hn ht
    obtain ⟨c, r, rfl, hc⟩ := numeral_head hn
    show headOf lo hi (c :: (r ++ t)) = _
    unfold headOf
    dsimp only
    rw [if_neg (by rintro rfl; exact absurd hc (by decide)), show c :: (r ++ t) = (c :: r) ++ t from rfl, hp]
    rfl

theorem headOf_some {lo hi a b : Nat} {s t : List Char} (hh : headOf lo hi s = some (a, b, t)) :
    ∃ h, s = h ++ t ∧ Head lo hi h a b := by
  cases s with
  | nil => cases hh
  | cons c r =>
    unfold headOf at hh
    dsimp only at hh
    split at hh
    · next e =>
      subst e
      injection hh with hh
      injection hh with h1 hh
      injection hh with h2 h3
      subst h1 h2 h3
      exact ⟨['*'], rfl, .star⟩
    · cases hp : parseNum (c :: r) with
      | none => rw [hp] at hh; cases hh
      | some p =>
        obtain ⟨n, u⟩ := p
        rw [hp] at hh
        injection hh with hh
        injection hh with h1 hh
        injection hh with h2 h3
        subst h1 h2 h3
        obtain ⟨d, k, e, hn, e', _⟩ := parseNum_some hp
        subst e'
        exact ⟨d, e, .num hn⟩

/-- The rest of the text does not go on with a range or a step or a digit. -/
def Halt (t : List Char) : Prop := Stop t ∧ ∀ c ∈ t.head?, c ≠ '-'

theorem midOf_plain {a b : Nat} {t : List Char} (ht : ∀ c ∈ t.head?, c ≠ '-') :
    midOf a b t = .ok (⟨a, b, 1, false, false⟩, t) := by
  unfold midOf
  split
  · exact absurd rfl (ht _ rfl)
  · rfl

theorem mid_ok {lo hi : Nat} {h t : List Char} {el : Elem} (hm : Mid lo hi h el) (ht : Stop t)
    (hd : ∀ c ∈ t.head?, c ≠ '-') :
    ∃ a b u, headOf lo hi (h ++ t) = some (a, b, u) ∧ midOf a b u = .ok (el, t) := by
  cases hm with
  | plain hh => exact ⟨_, _, t, headOf_ok hh ht, midOf_plain hd⟩
  | @up h s a b k hh hn hle =>
    refine ⟨a, b, '-' :: (s ++ t), ?_, ?_⟩
    · rw [List.append_assoc]
      exact headOf_ok hh (stop_cons (by decide))
    · obtain ⟨c, r, e, _⟩ := numeral_head hn
      show (if (s ++ t).isEmpty then _ else match parseNum (s ++ t) with | none => _ | some (n, u) => _) = _
      rw [if_neg (by rw [e]; simp), parseNum_append hn ht]
      dsimp only
      rw [if_neg (by omega)]
  | @down h s a b k hh hn hlt =>
    refine ⟨a, b, '-' :: (s ++ t), ?_, ?_⟩
    · rw [List.append_assoc]
      exact headOf_ok hh (stop_cons (by decide))
    · obtain ⟨c, r, e, _⟩ := numeral_head hn
      show (if (s ++ t).isEmpty then _ else match parseNum (s ++ t) with | none => _ | some (n, u) => _) = _
      rw [if_neg (by rw [e]; simp), parseNum_append hn ht]
      dsimp only
      rw [if_pos hlt]

theorem mid_some {lo hi a b : Nat} {s t u : List Char} {el : Elem} (hh : headOf lo hi s = some (a, b, u))
    (hm : midOf a b u = .ok (el, t)) : ∃ h, s = h ++ t ∧ Mid lo hi h el := by
  obtain ⟨h, e, hd⟩ := headOf_some hh
  unfold midOf at hm
  split at hm
  · next t' =>
    split at hm
    · cases hm
    · cases hp : parseNum t' with
      | none => rw [hp] at hm; cases hm
      | some p =>
        obtain ⟨n, v⟩ := p
        rw [hp] at hm
        dsimp only at hm
        obtain ⟨d, k, e1, hn, e2, _⟩ := parseNum_some hp
        subst e2
        split at hm
        · next hlt =>
          injection hm with hm
          injection hm with h1 h2
          subst h1 h2
          exact ⟨h ++ '-' :: d, by rw [e, e1, List.append_assoc]; rfl, .down hd hn hlt⟩
        · next hlt =>
          injection hm with hm
          injection hm with h1 h2
          subst h1 h2
          exact ⟨h ++ '-' :: d, by rw [e, e1, List.append_assoc]; rfl, .up hd hn (by omega)⟩
  · injection hm with hm
    injection hm with h1 h2
    subst h1 h2
    exact ⟨h, e, .plain hd⟩

theorem Head.ne_nil {lo hi a b : Nat} {h : List Char} (hh : Head lo hi h a b) : h ≠ [] := by
  cases hh with
  | star => simp
  | num hn => exact hn.nonempty

theorem Mid.ne_nil {lo hi : Nat} {h : List Char} {el : Elem} (hm : Mid lo hi h el) : h ≠ [] := by
  cases hm with
  | plain hh => exact hh.ne_nil
  | up hh _ _ => simp
  | down hh _ _ => simp

theorem Shape.ne_nil {lo hi : Nat} {h : List Char} {el : Elem} (hm : Shape lo hi h el) : h ≠ [] := by
  cases hm with
  | plain hh => exact hh.ne_nil
  | step hh _ => simp

theorem parseElem_ok {lo hi : Nat} {e t : List Char} {el : Elem} (hs : Shape lo hi e el) (ht : Comma t) :
    parseElem lo hi (e ++ t) = .ok (el, t) := by
  rw [parseElem_eq, if_neg (by simp [hs.ne_nil])]
  cases hs with
  | plain hm =>
    obtain ⟨a, b, u, h1, h2⟩ := mid_ok hm ht.stop (fun c hc => by rw [ht c hc]; decide)
    rw [h1]
    dsimp only
    rw [h2]
    unfold stepOf
    dsimp only
    split
    · have := ht _ rfl; exact absurd this (by decide)
    · rfl
  | @step h u el k hm hn =>
    obtain ⟨a, b, v, h1, h2⟩ := mid_ok (t := '/' :: (u ++ t)) hm (stop_cons (by decide))
      (fun c hc => by simp at hc; rw [← hc]; decide)
    rw [List.append_assoc]
    show (match headOf lo hi (h ++ '/' :: (u ++ t)) with | none => _ | some (a, b, t) => _) = _
    rw [h1]
    dsimp only
    rw [h2]
    show (match parseNum (u ++ t) with | none => _ | some (n, x) => _) = _
    rw [parseNum_append hn ht.stop]

theorem parseElem_some {lo hi : Nat} {s t : List Char} {el : Elem} (h : parseElem lo hi s = .ok (el, t)) :
    ∃ e, s = e ++ t ∧ Shape lo hi e el := by
  rw [parseElem_eq] at h
  split at h
  · cases h
  · cases h1 : headOf lo hi s with
    | none => rw [h1] at h; cases h
    | some p =>
      obtain ⟨a, b, u⟩ := p
      rw [h1] at h
      dsimp only at h
      cases h2 : midOf a b u with
      | error e => rw [h2] at h; cases h
      | ok q =>
        obtain ⟨el', v⟩ := q
        rw [h2] at h
        dsimp only at h
        obtain ⟨g, e, hm⟩ := mid_some h1 h2
        unfold stepOf at h
        split at h
        · next u' =>
          cases hp : parseNum u' with
          | none => rw [hp] at h; cases h
          | some r =>
            obtain ⟨n, x⟩ := r
            rw [hp] at h
            injection h with h
            injection h with h3 h4
            subst h3 h4
            obtain ⟨d, k, e1, hn, e2, _⟩ := parseNum_some hp
            subst e2
            exact ⟨g ++ '/' :: d, by rw [e, e1, List.append_assoc]; rfl, .step hm hn⟩
        · injection h with h
          injection h with h3 h4
          subst h3 h4
          exact ⟨g, e, .plain hm⟩

/-! ### Setting the bits of an element -/

/-- Limits of a field: its values fit the bit map, and are small numbers. -/
structure Field (lo hi bytes : Nat) : Prop where
  order : lo ≤ hi
  fits  : hi < 8 * bytes
  small : hi ≤ 1000

theorem sizeMax_eq : sizeMax = 18446744073709551615 := rfl

theorem apply_fwd {lo hi : Nat} {el : Elem} {map : List Byte} (hf : Field lo hi map.length) (h1 : lo ≤ el.start)
    (h2 : el.stop ≤ hi ∨ el.stop = sizeMax) (h3 : el.opposite = false) (h4 : 1 ≤ el.step) (h5 : el.step < 10 ^ 18) :
    ∃ map', applyElem lo hi el map = .ok map' ∧ map'.length = map.length ∧
      ∀ n, Has map' n ↔ Has map n ∨ (n ≤ hi ∧ n ≤ el.stop ∧ ∃ i, n = el.start + i * el.step) := by
  obtain ⟨o1, o2, o3⟩ := hf
  have hs := sizeMax_eq
  let stop := if el.stop > hi then hi else el.stop
  have e : stop = if el.stop > hi then hi else el.stop := rfl
  have hle : stop ≤ hi := by rw [e]; split <;> omega
  have hst : ∀ n, n ≤ stop ↔ n ≤ hi ∧ n ≤ el.stop := by
    intro n; rw [e]; split <;> omega
  obtain ⟨m, b, e1, l1, _, k1⟩ := bitLoop_ok (step := el.step) (last := stop) h4 (by omega) (hi + 2) el.start map
    (by omega) (by omega) (by omega)
  refine ⟨m, ?_, l1, fun n => ?_⟩
  · unfold applyElem
    rw [if_neg (by omega), if_neg (by omega)]
    dsimp only
    rw [if_neg (by rw [h3]; decide), ← e, e1]
  · rw [k1, hst, and_assoc]

theorem apply_opp {lo hi : Nat} {el : Elem} {map : List Byte} (hf : Field lo hi map.length) (h1 : lo ≤ el.start)
    (h2 : el.start ≤ hi) (h2' : el.stop ≤ hi) (h3 : el.opposite = true) (h4 : 1 ≤ el.step) (h5 : el.step < 10 ^ 18) :
    ∃ map' c, applyElem lo hi el map = .ok map' ∧ map'.length = map.length ∧ lo ≤ c ∧ (el.step = 1 → c = lo) ∧
      ∀ n, Has map' n ↔ Has map n ∨ (n ≤ hi ∧ ∃ i, n = el.stop + i * el.step) ∨
        (n ≤ el.start ∧ ∃ i, n = c + i * el.step) := by
  obtain ⟨o1, o2, o3⟩ := hf
  have hs := sizeMax_eq
  obtain ⟨m, b, e1, l1, _, k1⟩ := bitLoop_ok (step := el.step) (last := hi) h4 (by omega) (hi + 2) el.stop map
    (by omega) (by omega) (by omega)
  have hm : b % el.step < el.step := Nat.mod_lt _ (by omega)
  obtain ⟨m', b', e2, l2, _, k2⟩ := bitLoop_ok (step := el.step) (last := el.start) h4 (by omega) (hi + 2)
    (b % el.step + lo) m (by omega) (by omega) (by omega)
  refine ⟨m', b % el.step + lo, ?_, by omega, by omega, ?_, fun n => ?_⟩
  · unfold applyElem
    rw [if_neg (by omega), if_neg (by omega)]
    dsimp only
    rw [if_pos h3, if_neg (by omega), e1]
    dsimp only
    rw [Nat.mod_eq_of_lt (by omega), e2]
  · intro h; rw [h, Nat.mod_one]; omega
  · rw [k2, k1, or_assoc]

/-- A documented element is scanned and sets exactly its values. -/
theorem element_apply {lo hi : Nat} {e : List Char} {S : Nat → Prop} (he : Element lo hi e S) (hl : e.length ≤ 18)
    (hsm : hi ≤ 1000) :
    ∃ el, Shape lo hi e el ∧ ∀ map : List Byte, Field lo hi map.length → ∃ map', applyElem lo hi el map = .ok map' ∧
      map'.length = map.length ∧ ∀ n, Has map' n ↔ Has map n ∨ S n := by
  cases he with
  | all =>
    refine ⟨_, .plain (.plain .star), fun map hf => ?_⟩
    obtain ⟨m, h1, h2, h3⟩ := apply_fwd (el := ⟨lo, hi, 1, false, false⟩) hf (Nat.le_refl _) (.inl (Nat.le_refl _)) rfl
      (Nat.le_refl _) (show (1 : Nat) < 10 ^ 18 by decide)
    refine ⟨m, h1, h2, fun n => ?_⟩
    rw [h3]
    refine or_congr_right ⟨fun ⟨a, _, i, b⟩ => ⟨by rw [b]; exact Nat.le_add_right _ _, a⟩,
      fun ⟨a, b⟩ => ⟨b, b, n - lo, by dsimp only; omega⟩⟩
  | @one _ a hn h1 h2 =>
    have ea : a % 2 ^ 64 = a := Nat.mod_eq_of_lt (by omega)
    refine ⟨_, .plain (.plain (.num hn)), fun map hf => ?_⟩
    rw [ea]
    obtain ⟨m, k1, k2, k3⟩ := apply_fwd (el := ⟨a, a, 1, false, false⟩) hf h1 (.inl h2) rfl (Nat.le_refl _) (show (1 : Nat) < 10 ^ 18 by decide)
    refine ⟨m, k1, k2, fun n => ?_⟩
    rw [k3]
    refine or_congr_right ⟨fun ⟨_, b, i, c⟩ => ?_, fun h => ⟨by omega, by dsimp only; omega, 0, by dsimp only; omega⟩⟩
    dsimp only at b c
    omega
  | @range s t a b hs ht h1 h2 h3 =>
    have ea : a % 2 ^ 64 = a := Nat.mod_eq_of_lt (by omega)
    have eb : b % 2 ^ 64 = b := Nat.mod_eq_of_lt (by omega)
    have sh := Shape.plain (lo := lo) (hi := hi) (.up (.num hs) ht (by omega))
    rw [ea, eb] at sh
    refine ⟨_, sh, fun map hf => ?_⟩
    obtain ⟨m, k1, k2, k3⟩ := apply_fwd (el := ⟨a, b, 1, true, false⟩) hf h1 (.inl h3) rfl (Nat.le_refl _) (show (1 : Nat) < 10 ^ 18 by decide)
    refine ⟨m, k1, k2, fun n => ?_⟩
    rw [k3]
    refine or_congr_right ⟨fun ⟨_, d, i, c⟩ => ?_, fun ⟨h, h'⟩ => ⟨by omega, h', n - a, by dsimp only; omega⟩⟩
    dsimp only at d c
    omega
  | @around s t a b hs ht h1 h2 h3 =>
    have ea : a % 2 ^ 64 = a := Nat.mod_eq_of_lt (by omega)
    have eb : b % 2 ^ 64 = b := Nat.mod_eq_of_lt (by omega)
    have sh := Shape.plain (lo := lo) (hi := hi) (.down (.num hs) ht (by omega))
    rw [ea, eb] at sh
    refine ⟨_, sh, fun map hf => ?_⟩
    obtain ⟨m, c, k1, k2, _, kc, k3⟩ := apply_opp (el := ⟨b, a, 1, true, true⟩) hf h1 (by dsimp only; omega) h3 rfl
      (Nat.le_refl _) (show (1 : Nat) < 10 ^ 18 by decide)
    have kc := kc rfl
    subst kc
    refine ⟨m, k1, k2, fun n => ?_⟩
    rw [k3]
    dsimp only
    refine or_congr_right (or_congr ⟨fun ⟨x, i, y⟩ => ?_, fun ⟨h, h'⟩ => ⟨by omega, n - a, by omega⟩⟩
      ⟨fun ⟨x, i, y⟩ => ?_, fun ⟨h, h'⟩ => ⟨by omega, n - c, by omega⟩⟩)
    · omega
    · omega
  | @every u k hu h1 =>
    have hk := numeral_lt hu (by simp at hl; omega)
    have ek : k % 2 ^ 64 = k := Nat.mod_eq_of_lt (by omega)
    have sh := Shape.step (lo := lo) (hi := hi) (.plain .star) hu
    rw [ek] at sh
    refine ⟨_, sh, fun map hf => ?_⟩
    obtain ⟨m, k1, k2, k3⟩ := apply_fwd (el := ⟨lo, sizeMax, k, false, false⟩) hf (Nat.le_refl _) (.inr rfl) rfl h1 hk
    refine ⟨m, k1, k2, fun n => ?_⟩
    rw [k3]
    have := sizeMax_eq
    exact or_congr_right ⟨fun ⟨a, _, i, b⟩ => ⟨a, i, b⟩, fun ⟨a, i, b⟩ => ⟨a, by dsimp only; omega, i, b⟩⟩
  | @since s u a k hs hu h1 h2 h3 =>
    have hk := numeral_lt hu (by simp at hl; omega)
    have ek : k % 2 ^ 64 = k := Nat.mod_eq_of_lt (by omega)
    have ea : a % 2 ^ 64 = a := Nat.mod_eq_of_lt (by omega)
    have sh := Shape.step (lo := lo) (hi := hi) (.plain (.num hs)) hu
    rw [ek, ea] at sh
    refine ⟨_, sh, fun map hf => ?_⟩
    obtain ⟨m, k1, k2, k3⟩ := apply_fwd (el := ⟨a, sizeMax, k, false, false⟩) hf h1 (.inr rfl) rfl h3 hk
    refine ⟨m, k1, k2, fun n => ?_⟩
    rw [k3]
    have := sizeMax_eq
    exact or_congr_right ⟨fun ⟨a, _, i, b⟩ => ⟨a, i, b⟩, fun ⟨a, i, b⟩ => ⟨a, by dsimp only; omega, i, b⟩⟩
  | @stepped s t u a b k hs ht hu h1 h2 h3 h4 =>
    have hk := numeral_lt hu (by simp at hl; omega)
    have ek : k % 2 ^ 64 = k := Nat.mod_eq_of_lt (by omega)
    have ea : a % 2 ^ 64 = a := Nat.mod_eq_of_lt (by omega)
    have eb : b % 2 ^ 64 = b := Nat.mod_eq_of_lt (by omega)
    have sh := Shape.step (lo := lo) (hi := hi) (.up (.num hs) ht (by omega)) hu
    rw [ek, ea, eb] at sh
    refine ⟨_, sh, fun map hf => ?_⟩
    obtain ⟨m, k1, k2, k3⟩ := apply_fwd (el := ⟨a, b, k, true, false⟩) hf h1 (.inl h3) rfl h4 hk
    refine ⟨m, k1, k2, fun n => ?_⟩
    rw [k3]
    exact or_congr_right ⟨fun ⟨_, x, i, y⟩ => ⟨x, i, y⟩, fun ⟨x, i, y⟩ => ⟨Nat.le_trans x h3, x, i, y⟩⟩

/-- Without step the loop never ends. -/
theorem bitLoop_zero {last : Nat} (hl : last < 2 ^ 64) : ∀ (fuel bit : Nat) (map : List Byte), bit ≤ last →
    ∀ m b, bitLoop 0 last fuel bit map ≠ .done m b := by
  intro fuel
  induction fuel with
  | zero => intro bit map _ m b h; cases h
  | succ fuel ih =>
    intro bit map hb m b h
    unfold bitLoop at h
    rw [if_pos hb] at h
    cases hm : bitSet map bit with
    | error e => rw [hm] at h; cases h
    | ok m1 =>
      rw [hm] at h
      dsimp only at h
      rw [Nat.add_zero, Nat.mod_eq_of_lt (by omega)] at h
      exact ih bit m1 hb m b h

theorem apply_bounds {lo hi : Nat} {el : Elem} {map map' : List Byte} (h : applyElem lo hi el map = .ok map') :
    lo ≤ el.start ∧ (el.stop ≤ hi ∨ el.stop = sizeMax) := by
  unfold applyElem at h
  split at h
  · cases h
  · split at h
    · cases h
    · constructor
      · omega
      · omega

theorem apply_step {lo hi : Nat} {el : Elem} {map map' : List Byte} (hsm : hi ≤ 1000)
    (h : applyElem lo hi el map = .ok map') (hs : el.start ≤ hi) (hss : el.start ≤ el.stop) : 1 ≤ el.step := by
  have hb := apply_bounds h
  by_cases hz : el.step = 0
  · exfalso
    unfold applyElem at h
    rw [if_neg (by omega), if_neg (by omega)] at h
    dsimp only at h
    rw [hz] at h
    have hmin : (if el.stop > hi then hi else el.stop) ≤ hi := by split <;> omega
    have hmin' : el.start ≤ (if el.stop > hi then hi else el.stop) := by split <;> omega
    generalize (if el.stop > hi then hi else el.stop) = st at h hmin hmin'
    split at h
    · cases hl : bitLoop 0 hi (hi + 2) st map with
      | ub e => rw [hl] at h; cases h
      | diverges => rw [hl] at h; cases h
      | done m b => exact bitLoop_zero (by omega) _ _ _ hmin _ _ hl
    · cases hl : bitLoop 0 st (hi + 2) el.start map with
      | ub e => rw [hl] at h; cases h
      | diverges => rw [hl] at h; cases h
      | done m b => exact bitLoop_zero (by omega) _ _ _ hmin' _ _ hl
  · omega

/-- An accepted element is documented or an oddity. -/
theorem shape_element {lo hi : Nat} {e : List Char} {el : Elem} (hs : Shape lo hi e el) (hl : e.length ≤ 18)
    {map map' : List Byte} (hf : Field lo hi map.length) (ha : applyElem lo hi el map = .ok map') :
    (∃ S, Element lo hi e S) ∨ Oddity lo hi e := by
  obtain ⟨o1, o2, o3⟩ := hf
  have hb := apply_bounds ha
  have hst := apply_step o3 ha
  have hsz := sizeMax_eq
  cases hs with
  | plain hm =>
    cases hm with
    | plain hh =>
      cases hh with
      | star => exact .inl ⟨_, .all⟩
      | @num _ k hn =>
        have hk := numeral_lt hn hl
        rw [Nat.mod_eq_of_lt (by omega)] at hb
        dsimp only at hb
        exact .inl ⟨_, .one hn hb.1 (by omega)⟩
    | @up h t a b k hh ht hle =>
      have hk := numeral_lt ht (by simp at hl; omega)
      have ek : k % 2 ^ 64 = k := Nat.mod_eq_of_lt (by omega)
      rw [ek] at hb hle
      dsimp only at hb
      cases hh with
      | star => exact .inr (.starRange ht hle (by omega))
      | @num _ a hn =>
        have ha := numeral_lt hn (by simp at hl; omega)
        rw [Nat.mod_eq_of_lt (by omega)] at hb hle
        exact .inl ⟨_, .range hn ht hb.1 hle (by omega)⟩
    | @down h t a b k hh ht hlt =>
      have hk := numeral_lt ht (by simp at hl; omega)
      have ek : k % 2 ^ 64 = k := Nat.mod_eq_of_lt (by omega)
      rw [ek] at hb hlt
      dsimp only at hb
      cases hh with
      | star => omega
      | @num _ a hn =>
        have ha := numeral_lt hn (by simp at hl; omega)
        rw [Nat.mod_eq_of_lt (by omega)] at hb hlt
        exact .inl ⟨_, .around hn ht hb.1 hlt (by omega)⟩
  | @step h u el q hm hu =>
    have hq := numeral_lt hu (by simp at hl; omega)
    have eq : q % 2 ^ 64 = q := Nat.mod_eq_of_lt (by omega)
    cases hm with
    | plain hh =>
      dsimp only at hb hst
      rw [eq] at hst
      cases hh with
      | star => exact .inl ⟨_, .every hu (hst o1 (by rw [if_neg (by decide)]; omega))⟩
      | @num _ k hn =>
        have hk := numeral_lt hn (by simp at hl; omega)
        have ek : k % 2 ^ 64 = k := Nat.mod_eq_of_lt (by omega)
        rw [ek] at hb hst
        by_cases hle : k ≤ hi
        · exact .inl ⟨_, .since hn hu hb.1 hle (hst hle (by rw [if_neg (by decide)]; omega))⟩
        · exact .inr (.beyond hn hu (by omega))
    | @up h t a b k hh ht hle =>
      have hk := numeral_lt ht (by simp at hl; omega)
      have ek : k % 2 ^ 64 = k := Nat.mod_eq_of_lt (by omega)
      dsimp only at hb hst
      rw [if_pos rfl, ek] at hb
      rw [if_pos rfl, ek, eq] at hst
      rw [ek] at hle
      cases hh with
      | star => exact .inr (.starRangeStep ht hu hle (by omega) (hst o1 hle))
      | @num _ a hn =>
        have ha := numeral_lt hn (by simp at hl; omega)
        rw [Nat.mod_eq_of_lt (by omega)] at hb hle hst
        exact .inl ⟨_, .stepped hn ht hu hb.1 hle (by omega) (hst (by omega) hle)⟩
    | @down h t a b k hh ht hlt =>
      have hk := numeral_lt ht (by simp at hl; omega)
      have ek : k % 2 ^ 64 = k := Nat.mod_eq_of_lt (by omega)
      dsimp only at hb hst
      rw [if_pos rfl, ek] at hb
      rw [if_pos rfl, ek, eq] at hst
      rw [ek] at hlt
      cases hh with
      | star => omega
      | @num _ a hn =>
        have ha := numeral_lt hn (by simp at hl; omega)
        have ea : a % 2 ^ 64 = a := Nat.mod_eq_of_lt (by omega)
        rw [ea] at hb hlt hst
        exact .inr (.aroundStep hn ht hu hb.1 hlt (by omega) (hst (by omega) (by omega)))

/-- What the scanner knows about the numbers of an element. -/
theorem shape_facts {lo hi : Nat} {e : List Char} {el : Elem} (hs : Shape lo hi e el) (hl : e.length ≤ 18)
    (hlo : lo ≤ hi) (hsm : hi ≤ 1000) :
    el.step < 10 ^ 18 ∧ (el.opposite = true → el.start < el.stop ∧ el.stop ≠ sizeMax) := by
  have hsz := sizeMax_eq
  have mid : ∀ {h : List Char} {el : Elem}, Mid lo hi h el → h.length ≤ 18 →
      el.step = 1 ∧ (el.opposite = true → el.range = true ∧ el.start < el.stop ∧ el.stop ≠ sizeMax) := by
    intro h el hm hl
    cases hm with
    | plain hh => exact ⟨rfl, fun h => by cases h⟩
    | up hh ht hle => exact ⟨rfl, fun h => by cases h⟩
    | @down h t a b k hh ht hlt =>
      refine ⟨rfl, fun _ => ⟨rfl, hlt, ?_⟩⟩
      dsimp only
      cases hh with
      | star => omega
      | @num _ a hn =>
        have ha := numeral_lt hn (by simp at hl; omega)
        rw [Nat.mod_eq_of_lt (by omega)]
        omega
  cases hs with
  | plain hm =>
    obtain ⟨h1, h2⟩ := mid hm hl
    exact ⟨by rw [h1]; decide, fun h => (h2 h).2⟩
  | @step h u el q hm hu =>
    have hq := numeral_lt hu (by simp at hl; omega)
    have eq : q % 2 ^ 64 = q := Nat.mod_eq_of_lt (by omega)
    obtain ⟨h1, h2⟩ := mid hm (by simp at hl; omega)
    refine ⟨by dsimp only; omega, fun h => ?_⟩
    obtain ⟨a, b, c⟩ := h2 h
    dsimp only
    rw [if_pos a]
    exact ⟨b, c⟩

/-- An accepted element only sets values of the field. -/
theorem shape_range {lo hi : Nat} {e : List Char} {el : Elem} (hs : Shape lo hi e el) (hl : e.length ≤ 18)
    {map map' : List Byte} (hf : Field lo hi map.length) (ha : applyElem lo hi el map = .ok map') :
    map'.length = map.length ∧ ∀ n, Has map' n → Has map n ∨ (lo ≤ n ∧ n ≤ hi) := by
  have hb := apply_bounds ha
  have hst := apply_step hf.small ha
  obtain ⟨f1, f2⟩ := shape_facts hs hl hf.order hf.small
  have hsz := sizeMax_eq
  have hsm := hf.small
  by_cases ho : el.opposite = true
  · obtain ⟨f3, f4⟩ := f2 ho
    obtain ⟨m, c, k1, k2, k3, _, k4⟩ := apply_opp hf hb.1 (by omega) (by omega) ho (hst (by omega) (by omega)) f1
    rw [ha] at k1
    injection k1 with k1
    subst k1
    refine ⟨k2, fun n hn => ?_⟩
    rcases (k4 n).1 hn with h | ⟨h, i, h'⟩ | ⟨h, i, h'⟩
    · exact .inl h
    · right; have := Nat.zero_le (i * el.step); omega
    · right; have := Nat.zero_le (i * el.step); omega
  · rw [Bool.not_eq_true] at ho
    by_cases hz : 1 ≤ el.step
    · obtain ⟨m, k1, k2, k3⟩ := apply_fwd hf hb.1 hb.2 ho hz f1
      rw [ha] at k1
      injection k1 with k1
      subst k1
      refine ⟨k2, fun n hn => ?_⟩
      rcases (k3 n).1 hn with h | ⟨h, _, i, h'⟩
      · exact .inl h
      · right; have := Nat.zero_le (i * el.step); omega
    · -- step 0: the start lies beyond the end
      have hne : ¬ (el.start ≤ hi ∧ el.start ≤ el.stop) := fun ⟨x, y⟩ => hz (hst x y)
      unfold applyElem at ha
      rw [if_neg (by omega), if_neg (by omega)] at ha
      dsimp only at ha
      rw [if_neg (by rw [ho]; decide)] at ha
      have hmin : ¬ el.start ≤ (if el.stop > hi then hi else el.stop) := by split <;> omega
      unfold bitLoop at ha
      rw [if_neg hmin] at ha
      injection ha with ha
      subst ha
      exact ⟨rfl, fun n hn => .inl hn⟩

/-! ### Lists of elements -/

theorem takeWhile_all {p : Char → Bool} : ∀ {l r : List Char}, (∀ c ∈ l, p c = true) → (∀ c ∈ r.head?, p c = false) →
    (l ++ r).takeWhile p = l ∧ (l ++ r).dropWhile p = r := by
  intro l
  induction l with
  | nil =>
    intro r _ h
    cases r with
    | nil => exact ⟨rfl, rfl⟩
    | cons c r =>
      have := h c rfl
      simp [this]
  | cons c l ih =>
    intro r h h'
    obtain ⟨a, b⟩ := ih (fun x hx => h x (by simp [hx])) h'
    have := h c (by simp)
    simp [this, a, b]

theorem has_zero {k n : Nat} : ¬ Has (List.replicate k 0) n := by
  intro h
  have e : (List.replicate k (0 : Byte))[n / 8]? = if n / 8 < k then some 0 else none := List.getElem?_replicate
  unfold Has at h
  rw [e] at h
  split at h <;> simp at h

/-- A documented element stands for one set only. -/
theorem element_unique {lo hi : Nat} {e : List Char} {S T : Nat → Prop} (h1 : Element lo hi e S) (h2 : Element lo hi e T)
    (hl : e.length ≤ 18) (hlo : lo ≤ hi) (hsm : hi ≤ 1000) (n : Nat) : S n ↔ T n := by
  have hf : Field lo hi (List.replicate 126 (0 : Byte)).length := ⟨hlo, by simp; omega, hsm⟩
  obtain ⟨el, s1, a1⟩ := element_apply h1 hl hsm
  obtain ⟨el', s2, a2⟩ := element_apply h2 hl hsm
  have p1 := parseElem_ok (t := []) s1 (by intro c h; cases h)
  have p2 := parseElem_ok (t := []) s2 (by intro c h; cases h)
  rw [p1] at p2
  injection p2 with p2
  injection p2 with p2 _
  subst p2
  obtain ⟨m, b1, _, c1⟩ := a1 _ hf
  obtain ⟨m', b2, _, c2⟩ := a2 _ hf
  rw [b1] at b2
  injection b2 with b2
  subst b2
  have x := c1 n
  have y := c2 n
  have z := has_zero (k := 126) (n := n)
  constructor
  · intro h; exact ((y.1 (x.2 (.inr h))).resolve_left z)
  · intro h; exact ((x.1 (y.2 (.inr h))).resolve_left z)

theorem fieldText_one (e : List Char) : fieldText [e] = e := by
  unfold fieldText; simp [List.intercalate]

theorem fieldText_cons (e f : List Char) (es : List (List Char)) :
    fieldText (e :: f :: es) = e ++ ',' :: fieldText (f :: es) := by
  unfold fieldText; simp [List.intercalate]

/-- Documented elements are accepted and set exactly their values. -/
theorem elems_ok {lo hi : Nat} : ∀ (es : List (List Char)) (fuel : Nat) (map : List Byte), Field lo hi map.length →
    es ≠ [] → (∀ e ∈ es, ',' ∉ e ∧ e.length ≤ 18) → (∀ e ∈ es, ∃ S, Element lo hi e S) →
    (fieldText es).length < fuel →
    ∃ map', parseElems lo hi fuel (fieldText es) map = .ok map' ∧ map'.length = map.length ∧
      ∀ n, Has map' n ↔ Has map n ∨ Values lo hi es n := by
  intro es
  induction es with
  | nil => intro _ _ _ h; exact absurd rfl h
  | cons e es ih =>
    intro fuel map hf _ hp hS hfu
    obtain ⟨S, hS1⟩ := hS e (by simp)
    have hl := (hp e (by simp)).2
    obtain ⟨el, sh, ap⟩ := element_apply hS1 hl hf.small
    obtain ⟨m, a1, a2, a3⟩ := ap map hf
    have hval : ∀ n, Values lo hi (e :: es) n ↔ S n ∨ Values lo hi es n := by
      intro n
      unfold Values
      constructor
      · rintro ⟨x, hx, T, hT, ht⟩
        rcases List.mem_cons.1 hx with rfl | hx
        · exact .inl ((element_unique hS1 hT hl hf.order hf.small n).2 ht)
        · exact .inr ⟨x, hx, T, hT, ht⟩
      · rintro (h | ⟨x, hx, T, hT, ht⟩)
        · exact ⟨e, by simp, S, hS1, h⟩
        · exact ⟨x, by simp [hx], T, hT, ht⟩
    cases fuel with
    | zero => omega
    | succ fuel =>
      cases es with
      | nil =>
        refine ⟨m, ?_, a2, fun n => ?_⟩
        · have p := parseElem_ok (t := []) sh (by intro c h; cases h)
          rw [List.append_nil] at p
          rw [fieldText_one]
          unfold parseElems
          rw [p]
          dsimp only
          rw [a1]
        · rw [a3, hval]
          refine or_congr_right ⟨.inl, fun h => h.elim id ?_⟩
          rintro ⟨x, hx, _⟩
          cases hx
      | cons f es =>
        rw [fieldText_cons] at hfu ⊢
        obtain ⟨m2, b1, b2, b3⟩ := ih fuel m (a2 ▸ hf) (by simp) (fun x hx => hp x (by simp at hx ⊢; exact .inr hx))
          (fun x hx => hS x (by simp at hx ⊢; exact .inr hx)) (by simp at hfu; omega)
        refine ⟨m2, ?_, by omega, fun n => ?_⟩
        · have p := parseElem_ok (t := ',' :: fieldText (f :: es)) sh (by intro c h; simp at h; exact h.symm)
          unfold parseElems
          rw [p]
          dsimp only
          rw [a1]
          dsimp only
          rw [if_pos rfl, b1]
        · rw [b3, a3, hval, or_assoc]

theorem digit_ne {c d : Char} (h : Digit c) (hd : ¬ Digit d) : c ≠ d := fun e => hd (e ▸ h)

theorem Head.no_comma {lo hi a b : Nat} {h : List Char} (hh : Head lo hi h a b) : ',' ∉ h := by
  cases hh with
  | star => decide
  | num hn => exact fun h => absurd (hn.digits _ h) (by decide)

theorem Mid.no_comma {lo hi : Nat} {h : List Char} {el : Elem} (hm : Mid lo hi h el) : ',' ∉ h := by
  cases hm with
  | plain hh => exact hh.no_comma
  | up hh ht _ =>
    intro h
    simp at h
    exact h.elim hh.no_comma (fun h => absurd (ht.digits _ h) (by decide))
  | down hh ht _ =>
    intro h
    simp at h
    exact h.elim hh.no_comma (fun h => absurd (ht.digits _ h) (by decide))

theorem Shape.no_comma {lo hi : Nat} {h : List Char} {el : Elem} (hm : Shape lo hi h el) : ',' ∉ h := by
  cases hm with
  | plain hh => exact hh.no_comma
  | step hh ht =>
    intro h
    simp at h
    exact h.elim hh.no_comma (fun h => absurd (ht.digits _ h) (by decide))

/-- The first comma of a text is in one place. -/
theorem comma_split : ∀ {a b u v : List Char}, ',' ∉ a → ',' ∉ b → a ++ ',' :: u = b ++ ',' :: v → a = b ∧ u = v := by
  intro a
  induction a with
  | nil =>
    intro b u v _ hb h
    cases b with
    | nil => injection h with _ h; exact ⟨rfl, h⟩
    | cons c b => injection h with h _; exact absurd (by simp [← h]) hb
  | cons c a ih =>
    intro b u v ha hb h
    cases b with
    | nil => injection h with h _; exact absurd (by simp [h]) ha
    | cons d b =>
      injection h with h1 h2
      obtain ⟨x, y⟩ := ih (fun h => ha (by simp [h])) (fun h => hb (by simp [h])) h2
      exact ⟨by rw [h1, x], y⟩

/-- An accepted list consists of documented elements and oddities and only sets values of the field. -/
theorem elems_inv {lo hi : Nat} : ∀ (es : List (List Char)) (fuel : Nat) (map map' : List Byte), Field lo hi map.length →
    es ≠ [] → (∀ e ∈ es, ',' ∉ e ∧ e.length ≤ 18) → parseElems lo hi fuel (fieldText es) map = .ok map' →
    (∀ e ∈ es, (∃ S, Element lo hi e S) ∨ Oddity lo hi e) ∧ map'.length = map.length ∧
      ∀ n, Has map' n → Has map n ∨ (lo ≤ n ∧ n ≤ hi) := by
  intro es
  induction es with
  | nil => intro _ _ _ _ h; exact absurd rfl h
  | cons e es ih =>
    intro fuel map map' hf _ hp h
    cases fuel with
    | zero => cases h
    | succ fuel =>
      unfold parseElems at h
      cases hpe : parseElem lo hi (fieldText (e :: es)) with
      | error r => rw [hpe] at h; cases h
      | ok q =>
        obtain ⟨el, rest⟩ := q
        rw [hpe] at h
        dsimp only at h
        obtain ⟨x, hx, sh⟩ := parseElem_some hpe
        cases ha : applyElem lo hi el map with
        | ub r => rw [ha] at h; cases h
        | diverges => rw [ha] at h; cases h
        | fail r => rw [ha] at h; cases h
        | ok m =>
          rw [ha] at h
          dsimp only at h
          cases rest with
          | nil =>
            injection h with h
            subst h
            rw [List.append_nil] at hx
            cases es with
            | nil =>
              rw [fieldText_one] at hx
              subst hx
              have hl := (hp e (by simp)).2
              refine ⟨fun y hy => ?_, shape_range sh hl hf ha⟩
              simp at hy
              subst hy
              exact shape_element sh hl hf ha
            | cons f es =>
              rw [fieldText_cons] at hx
              exact absurd (hx ▸ (by simp : ',' ∈ e ++ ',' :: fieldText (f :: es))) sh.no_comma
          | cons c rest =>
            dsimp only at h
            split at h
            · next hc =>
              subst hc
              cases es with
              | nil =>
                rw [fieldText_one] at hx
                exact absurd (hx ▸ (by simp : ',' ∈ x ++ ',' :: rest)) (hp e (by simp)).1
              | cons f es =>
                rw [fieldText_cons] at hx
                obtain ⟨e1, e2⟩ := comma_split (hp e (by simp)).1 sh.no_comma hx
                subst e1 e2
                have hl := (hp e (by simp)).2
                obtain ⟨l1, r1⟩ := shape_range sh hl hf ha
                obtain ⟨k1, k2, k3⟩ := ih fuel m map' (l1 ▸ hf) (by simp)
                  (fun x hx => hp x (by simp at hx ⊢; exact .inr hx)) h
                refine ⟨fun y hy => ?_, by omega, fun n hn => ?_⟩
                · rcases List.mem_cons.1 hy with rfl | hy
                  · exact shape_element sh hl hf ha
                  · exact k1 y hy
                · rcases k3 n hn with h | h
                  · exact r1 n h
                  · exact .inr h
            · cases h

/-! ### Tokens -/

theorem fieldText_no_space : ∀ {es : List (List Char)}, (∀ e ∈ es, ' ' ∉ e) → ' ' ∉ fieldText es := by
  intro es
  induction es with
  | nil => intro _ h; simp [fieldText, List.intercalate] at h
  | cons e es ih =>
    intro h
    cases es with
    | nil => rw [fieldText_one]; exact h e (by simp)
    | cons f es =>
      rw [fieldText_cons]
      intro hm
      simp only [List.mem_append, List.mem_cons] at hm
      rcases hm with hm | hm | hm
      · exact h e (by simp) hm
      · exact absurd hm (by decide)
      · exact ih (fun x hx => h x (by simp at hx ⊢; exact .inr hx)) hm

theorem nextToken_eq {pad : Nat} {tok rest : List Char} (h0 : tok ≠ []) (h1 : ' ' ∉ tok) (h2 : Ends rest) :
    nextToken (List.replicate pad ' ' ++ tok ++ rest) = some (tok, rest) := by
  have hh : ∀ c ∈ (tok ++ rest).head?, (decide (c = ' ')) = false := by
    cases tok with
    | nil => exact absurd rfl h0
    | cons c tok =>
      intro d hd
      simp at hd
      subst hd
      rw [decide_eq_false_iff_not]
      intro h
      exact h1 (by simp [h])
  have d := (takeWhile_all (p := fun c => decide (c = ' ')) (l := List.replicate pad ' ') (r := tok ++ rest)
    (by intro c hc; rw [List.eq_of_mem_replicate hc]; rfl) hh).2
  have e := takeWhile_all (p := fun c => decide (c ≠ ' ')) (l := tok) (r := rest)
    (by intro c hc; rw [decide_eq_true_iff]; rintro rfl; exact h1 hc)
    (by
      intro c hc
      rcases h2 with rfl | ⟨r, rfl⟩
      · cases hc
      · simp at hc; subst hc; rfl)
  unfold nextToken
  rw [List.append_assoc]
  dsimp only
  rw [d, if_neg (by simp [h0]), e.1, e.2]

end Ladder.Lwdtc
