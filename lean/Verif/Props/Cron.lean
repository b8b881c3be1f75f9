import Verif.Lemmas.Cron

/-
C53-C55: cron expressions.
-/

set_option autoImplicit false

namespace Ladder.Props

open Ladder Ladder.Spec Ladder.Lwdtc

/-! ## C53: parsing -/

/-- Parsing a field is parsing its token. -/
theorem parseField_eq {lo hi bytes pad : Nat} {es : List (List Char)} {rest : List Char} (he : Elements es)
    (h0 : fieldText es ≠ []) (hr : Ends rest) : parseField lo hi bytes (spaces pad ++ fieldText es ++ rest) =
      match parseElems lo hi ((fieldText es).length + 1) (fieldText es) (List.replicate bytes 0) with
      | .ok map => .ok (map, rest)
      | .ub e => .ub e
      | .diverges => .diverges
      | .fail r => .fail r := by
  unfold parseField spaces
  rw [nextToken_eq h0 (fieldText_no_space fun e h => (he.plain e h).2.1) hr]
  rfl

theorem element_ne_nil {lo hi : Nat} {e : List Char} {S : Nat → Prop} (h : Element lo hi e S) : e ≠ [] := by
  cases h with
  | all => simp
  | one hn _ _ => exact hn.nonempty
  | range => simp
  | around => simp
  | every => simp
  | since => simp
  | stepped => simp

theorem docField_ne_nil {lo hi : Nat} {es : List (List Char)} (h : DocField lo hi es) : fieldText es ≠ [] := by
  obtain ⟨he, hd⟩ := h
  cases es with
  | nil => exact absurd rfl he.nonempty
  | cons e es =>
    obtain ⟨S, hS⟩ := hd e (by simp)
    cases es with
    | nil => rw [fieldText_one]; exact element_ne_nil hS
    | cons f es => rw [fieldText_cons]; simp

/-- **C53** A field made of documented elements with numbers in the range of the field is accepted, and the bit map has
exactly the documented values.  Partial: no element is longer than 18 characters, and a step in a range that goes around is
not among the documented elements. -/
theorem C53_documented_partial {lo hi bytes pad : Nat} {es : List (List Char)} {rest : List Char}
    (hf : Field lo hi bytes) (hd : DocField lo hi es) (hr : Ends rest) :
    ∃ map, parseField lo hi bytes (spaces pad ++ fieldText es ++ rest) = .ok (map, rest) ∧ map.length = bytes ∧
      ∀ n, Has map n ↔ Values lo hi es n := by
  rw [parseField_eq hd.1 (docField_ne_nil hd) hr]
  obtain ⟨m, h1, h2, h3⟩ := elems_ok es ((fieldText es).length + 1) (List.replicate bytes 0)
    (by rw [List.length_replicate]; exact hf) hd.1.nonempty
    (fun e h => ⟨(hd.1.plain e h).1, (hd.1.plain e h).2.2⟩) hd.2 (Nat.lt_succ_self _)
  rw [h1]
  refine ⟨m, rfl, by rw [h2, List.length_replicate], fun n => ?_⟩
  rw [h3]
  exact ⟨fun h => h.resolve_left has_zero, .inr⟩

/-- **C53** A field that is accepted consists of documented elements with numbers in range and of the listed oddities.
Partial: the oddities are accepted too, and no element is longer than 18 characters. -/
theorem C53_only_partial {lo hi bytes pad : Nat} {es : List (List Char)} {rest r' : List Char} {map : List Byte}
    (hf : Field lo hi bytes) (he : Elements es) (h0 : fieldText es ≠ []) (hr : Ends rest)
    (h : parseField lo hi bytes (spaces pad ++ fieldText es ++ rest) = .ok (map, r')) :
    ∀ e ∈ es, (∃ S, Element lo hi e S) ∨ Oddity lo hi e := by
  rw [parseField_eq he h0 hr] at h
  cases hp : parseElems lo hi ((fieldText es).length + 1) (fieldText es) (List.replicate bytes 0) with
  | ub e => rw [hp] at h; cases h
  | diverges => rw [hp] at h; cases h
  | fail r => rw [hp] at h; cases h
  | ok m =>
    exact (elems_inv es _ _ m (by rw [List.length_replicate]; exact hf) he.nonempty
      (fun e h => ⟨(he.plain e h).1, (he.plain e h).2.2⟩) hp).1

/-- **C53** Whatever is accepted, no value outside of the range of the field is set.  Partial: no element is longer than
18 characters. -/
theorem C53_in_range_partial {lo hi bytes pad : Nat} {es : List (List Char)} {rest r' : List Char} {map : List Byte}
    (hf : Field lo hi bytes) (he : Elements es) (h0 : fieldText es ≠ []) (hr : Ends rest)
    (h : parseField lo hi bytes (spaces pad ++ fieldText es ++ rest) = .ok (map, r')) :
    ∀ n, Has map n → lo ≤ n ∧ n ≤ hi := by
  rw [parseField_eq he h0 hr] at h
  cases hp : parseElems lo hi ((fieldText es).length + 1) (fieldText es) (List.replicate bytes 0) with
  | ub e => rw [hp] at h; cases h
  | diverges => rw [hp] at h; cases h
  | fail r => rw [hp] at h; cases h
  | ok m =>
    rw [hp] at h
    injection h with h
    injection h with h _
    subst h
    have := (elems_inv es _ _ m (by rw [List.length_replicate]; exact hf) he.nonempty
      (fun e h => ⟨(he.plain e h).1, (he.plain e h).2.2⟩) hp).2.2
    exact fun n hn => (this n hn).resolve_left has_zero

theorem ends_spaces {n : Nat} {t u : List Char} : Ends (spaces (n + 1) ++ t ++ u) :=
  .inr ⟨spaces n ++ t ++ u, by rfl⟩

/-- **C53** A whole expression: seven documented fields separated by spaces are accepted and give exactly the documented
values.  Partial: as for the single fields. -/
theorem C53_expression_partial {x : Expression} (hx : x.Documented) (pad : Nat → Nat) :
    ∃ c, parse (x.text pad) = .ok c ∧ Sized c ∧
      (∀ n, Has c.sec n ↔ Values 0 59 x.sec n) ∧ (∀ n, Has c.min n ↔ Values 0 59 x.min n) ∧
      (∀ n, Has c.hour n ↔ Values 0 23 x.hour n) ∧ (∀ n, Has c.mday n ↔ Values 1 31 x.mday n) ∧
      (∀ n, Has c.mon n ↔ Values 1 12 x.mon n) ∧ (∀ n, Has c.wday n ↔ Values 0 6 x.wday n) ∧
      (∀ n, Has c.year n ↔ Values 0 100 x.year n) := by
  obtain ⟨m1, a1, l1, k1⟩ := C53_documented_partial (pad := pad 0) (bytes := 8) ⟨by decide, by decide, by decide⟩ hx.sec
    (ends_spaces (n := pad 1) (t := fieldText x.min) (u := spaces (pad 2 + 1) ++ fieldText x.hour ++
    (spaces (pad 3 + 1) ++ fieldText x.mday ++ (spaces (pad 4 + 1) ++ fieldText x.mon ++ (spaces (pad 5 + 1) ++
    fieldText x.wday ++ (spaces (pad 6 + 1) ++ fieldText x.year))))))
  obtain ⟨m2, a2, l2, k2⟩ := C53_documented_partial (pad := pad 1 + 1) (bytes := 8) ⟨by decide, by decide, by decide⟩ hx.min
    (ends_spaces (n := pad 2) (t := fieldText x.hour) (u := 
    (spaces (pad 3 + 1) ++ fieldText x.mday ++ (spaces (pad 4 + 1) ++ fieldText x.mon ++ (spaces (pad 5 + 1) ++
    fieldText x.wday ++ (spaces (pad 6 + 1) ++ fieldText x.year))))))
  obtain ⟨m3, a3, l3, k3⟩ := C53_documented_partial (pad := pad 2 + 1) (bytes := 3) ⟨by decide, by decide, by decide⟩ hx.hour
    (ends_spaces (n := pad 3) (t := fieldText x.mday) (u := (spaces (pad 4 + 1) ++ fieldText x.mon ++ (spaces (pad 5 + 1) ++
    fieldText x.wday ++ (spaces (pad 6 + 1) ++ fieldText x.year)))))
  obtain ⟨m4, a4, l4, k4⟩ := C53_documented_partial (pad := pad 3 + 1) (bytes := 4) ⟨by decide, by decide, by decide⟩ hx.mday
    (ends_spaces (n := pad 4) (t := fieldText x.mon) (u := (spaces (pad 5 + 1) ++
    fieldText x.wday ++ (spaces (pad 6 + 1) ++ fieldText x.year))))
  obtain ⟨m5, a5, l5, k5⟩ := C53_documented_partial (pad := pad 4 + 1) (bytes := 2) ⟨by decide, by decide, by decide⟩ hx.mon
    (ends_spaces (n := pad 5) (t := fieldText x.wday) (u := (spaces (pad 6 + 1) ++ fieldText x.year)))
  obtain ⟨m6, a6, l6, k6⟩ := C53_documented_partial (pad := pad 5 + 1) (bytes := 1) ⟨by decide, by decide, by decide⟩ hx.wday
    (ends_spaces (n := pad 6) (t := fieldText x.year) (u := []))
  obtain ⟨m7, a7, l7, k7⟩ := C53_documented_partial (pad := pad 6 + 1) (bytes := 13) (rest := [])
    ⟨by decide, by decide, by decide⟩ hx.year (.inl rfl)
  refine ⟨⟨m1, m2, m3, m4, m5, m6, m7⟩, ?_, ⟨l1, l2, l3, l4, l5, l6, l7⟩, k1, k2, k3, k4, k5, k6, k7⟩
  unfold parse
  rw [if_neg]
  · unfold Expression.text
    rw [a1]
    dsimp only [Out.bind]
    rw [a2]
    dsimp only [Out.bind]
    rw [a3]
    dsimp only [Out.bind]
    rw [a4]
    dsimp only [Out.bind]
    rw [a5]
    dsimp only [Out.bind]
    rw [List.append_nil] at a6
    rw [a6]
    dsimp only [Out.bind]
    rw [List.append_nil] at a7
    rw [a7]
  · unfold Expression.text
    simp [docField_ne_nil hx.sec]

/-- The result of parsing one field given as a string. -/
def fieldOf (lo hi bytes : Nat) (s : String) : Out (List Nat) :=
  match parseField lo hi bytes s.toList with
  | .ok (map, _) => .ok ((List.range (8 * bytes)).filter fun n => decide (Has map n))
  | .ub e => .ub e
  | .diverges => .diverges
  | .fail r => .fail r

/-- Non-trivial instance of the theorems: `5,50-3,10-20/4` in a field of seconds. -/
theorem demo_field : DocField 0 59 ["5".toList, "50-3".toList, "10-20/4".toList] ∧
    fieldOf 0 59 8 "5,50-3,10-20/4" =
      .ok [0, 1, 2, 3, 5, 10, 14, 18, 50, 51, 52, 53, 54, 55, 56, 57, 58, 59] := by
  refine ⟨⟨⟨by simp, by decide⟩, ?_⟩, by decide +kernel⟩
  intro e he
  simp only [List.mem_cons, List.not_mem_nil, or_false] at he
  rcases he with rfl | rfl | rfl
  · exact ⟨_, .one (a := 5) ⟨by decide, by decide, by decide⟩ (by decide) (by decide)⟩
  · exact ⟨_, .around (s := ['5', '0']) (t := ['3']) (a := 50) (b := 3) ⟨by decide, by decide, by decide⟩
      ⟨by decide, by decide, by decide⟩ (by decide) (by decide) (by decide)⟩
  · exact ⟨_, .stepped (s := ['1', '0']) (t := ['2', '0']) (u := ['4']) (a := 10) (b := 20) (k := 4)
      ⟨by decide, by decide, by decide⟩ ⟨by decide, by decide, by decide⟩ ⟨by decide, by decide, by decide⟩
      (by decide) (by decide) (by decide) (by decide)⟩

/-- **C53 is violated**: a number of 20 digits is taken modulo 2^64, so a number far outside of the range is accepted. -/
theorem C53_refuted_number : fieldOf 0 59 8 "18446744073709551621" = .ok [5] ∧
    Numeral "18446744073709551621".toList 18446744073709551621 :=
  ⟨by decide +kernel, ⟨by decide, by decide, by decide⟩⟩

/-- **C53 is violated**: the number 2^64 - 1 is accepted, alone (no value at all) and as the end of a range. -/
theorem C53_refuted_maximum : fieldOf 0 59 8 "18446744073709551615" = .ok [] ∧
    fieldOf 0 59 8 "57-18446744073709551615" = .ok [57, 58, 59] :=
  ⟨by decide +kernel, by decide +kernel⟩

/-- **C53 is violated**: with a step, a start outside of the range is accepted. -/
theorem C53_refuted_start : fieldOf 0 59 8 "70/5" = .ok [] := by decide +kernel

/-- **C53 is violated**: a huge step goes backwards and sets day 0, which is outside of the range 1 … 31. -/
theorem C53_refuted_outside : fieldOf 1 31 4 "2/18446744073709551615" = .ok [0, 1, 2] := by decide +kernel

/-- **C53 is violated**: a step of 0 does not return. -/
theorem C53_refuted_step_zero : fieldOf 0 59 8 "*/0" = .diverges := by decide +kernel

/-- **C53 is violated**: the stepped range 50 … 10 goes on with 1, neither in step (50, 57, 64 = 4) nor anew from 0. -/
theorem C53_refuted_around_step : fieldOf 0 59 8 "50-10/7" = .ok [1, 8, 50, 57] := by decide +kernel

/-- The undocumented form with a star as start of a range is accepted. -/
theorem C53_star_range : fieldOf 0 59 8 "*-3" = .ok [0, 1, 2, 3] := by decide +kernel

/-! ## C54: matching -/

theorem u32_small {x : Int} (h0 : 0 ≤ x) (h1 : x ≤ 1000) : u32 x = x.toNat := by
  unfold u32
  congr 1
  omega

theorem allBits_cons {m : List Byte} {p : Int} {l : List (List Byte × Int)} (h0 : 0 ≤ p) (h1 : p ≤ 1000)
    (h2 : p.toNat < 8 * m.length) :
    allBits ((m, p) :: l) = if Has m p.toNat then allBits l else .ok false := by
  show (match bitIsSet m (u32 p) with | .error e => _ | .ok false => _ | .ok true => allBits l) = _
  rw [u32_small h0 h1, bitIsSet_ok h2]
  by_cases h : Has m p.toNat
  · rw [decide_eq_true h, if_pos h]
  · rw [decide_eq_false h, if_neg h]

/-- Matching is never undefined in the years 2000 … 2103 and tests the seven fields. -/
theorem isValid_eq {c : CronExpr} {tm : Tm} (hs : Sized c) (ht : Calendar tm) : isValid tm c = .ok (decide (Due c tm)) := by
  obtain ⟨s1, s2, s3, s4, s5, s6, s7⟩ := hs
  obtain ⟨t1, t2, t3, t4, t5, t6, t7⟩ := ht
  unfold isValid
  rw [allBits_cons (by omega) (by omega) (by omega), allBits_cons (by omega) (by omega) (by omega),
    allBits_cons (by omega) (by omega) (by omega), allBits_cons (by omega) (by omega) (by omega),
    allBits_cons (by omega) (by omega) (by omega), allBits_cons (by omega) (by omega) (by omega),
    allBits_cons (by omega) (by omega) (by omega)]
  show _ = Except.ok (decide (_ ∧ _ ∧ _ ∧ _ ∧ _ ∧ _ ∧ _))
  by_cases h1 : Has c.sec tm.sec.toNat
  · by_cases h2 : Has c.min tm.min.toNat
    · by_cases h3 : Has c.hour tm.hour.toNat
      · by_cases h4 : Has c.mday tm.mday.toNat
        · by_cases h5 : Has c.mon (tm.mon + 1).toNat
          · by_cases h6 : Has c.wday tm.wday.toNat
            · by_cases h7 : Has c.year (tm.year - 100).toNat
              · simp [h1, h2, h3, h4, h5, h6, h7, allBits]
              · simp [h1, h2, h3, h4, h5, h6, h7]
            · simp [h1, h2, h3, h4, h5, h6]
          · simp [h1, h2, h3, h4, h5]
        · simp [h1, h2, h3, h4]
      · simp [h1, h2, h3]
    · simp [h1, h2]
  · simp [h1]

/-- **C54** A parsed expression matches a calendar time iff every field of the time is among the documented values of its
field.  Partial: documented elements as in C53, years 2000 to 2103. -/
theorem C54_match_partial {x : Expression} (hx : x.Documented) {pad : Nat → Nat} {c : CronExpr}
    (hp : parse (x.text pad) = .ok c) {tm : Tm} (ht : Calendar tm) :
    ∃ b, isValid tm c = .ok b ∧ (b = true ↔ x.Fires tm) := by
  obtain ⟨c', h, hs, k1, k2, k3, k4, k5, k6, k7⟩ := C53_expression_partial hx pad
  rw [hp] at h
  injection h with h
  subst h
  refine ⟨_, isValid_eq hs ht, ?_⟩
  rw [decide_eq_true_iff]
  unfold Due Expression.Fires
  rw [k1, k2, k3, k4, k5, k6, k7]

/-- "Every five minutes on week days from 8 to 17 h". -/
def demoExpr : Expression where
  sec := ["0".toList]
  min := ["*/5".toList]
  hour := ["8-17".toList]
  mday := ["*".toList]
  mon := ["*".toList]
  wday := ["1-5".toList]
  year := ["*".toList]

theorem numeral1 (c : Char) (h : Digit c) : Numeral [c] (c.toNat - 48) :=
  ⟨by simp, by intro x hx; simp at hx; exact hx ▸ h, by simp [decimal]⟩

theorem demoExpr_documented : demoExpr.Documented := by
  have one : ∀ e, (',' ∉ e ∧ ' ' ∉ e ∧ e.length ≤ 18) → Elements [e] := fun e h =>
    ⟨by simp, by intro x hx; simp at hx; exact hx ▸ h⟩
  have doc : ∀ (lo hi : Nat) (e : List Char), (',' ∉ e ∧ ' ' ∉ e ∧ e.length ≤ 18) → (∃ S, Element lo hi e S) →
      DocField lo hi [e] := fun lo hi e h h' => ⟨one e h, by intro x hx; simp at hx; exact hx ▸ h'⟩
  exact
    { sec := doc _ _ _ (by decide) ⟨_, .one (a := 0) ⟨by decide, by decide, by decide⟩ (by decide) (by decide)⟩
      min := doc _ _ _ (by decide) ⟨_, .every (u := ['5']) (k := 5) ⟨by decide, by decide, by decide⟩ (by decide)⟩
      hour := doc _ _ _ (by decide) ⟨_, .range (s := ['8']) (t := ['1', '7']) (a := 8) (b := 17)
        ⟨by decide, by decide, by decide⟩ ⟨by decide, by decide, by decide⟩ (by decide) (by decide) (by decide)⟩
      mday := doc _ _ _ (by decide) ⟨_, .all⟩
      mon := doc _ _ _ (by decide) ⟨_, .all⟩
      wday := doc _ _ _ (by decide) ⟨_, .range (s := ['1']) (t := ['5']) (a := 1) (b := 5)
        ⟨by decide, by decide, by decide⟩ ⟨by decide, by decide, by decide⟩ (by decide) (by decide) (by decide)⟩
      year := doc _ _ _ (by decide) ⟨_, .all⟩ }

/-- Match of an expression given as a string. -/
def matchOf (s : String) (tm : Tm) : Option (Except UB Bool) :=
  match parse s.toList with
  | .ok c => some (isValid tm c)
  | _ => none

/-- Wednesday 2026-11-18, 09:35:00. -/
def demoTm : Tm := { sec := 0, min := 35, hour := 9, mday := 18, mon := 10, year := 126, wday := 3 }

/-- Non-trivial instance: the expression matches at 09:35:00 and not at 09:36:00. -/
theorem demo_match : demoExpr.text (fun _ => 0) = "0 */5 8-17 * * 1-5 *".toList ∧ Calendar demoTm ∧
    (match matchOf "0 */5 8-17 * * 1-5 *" demoTm with | some (.ok b) => b | _ => false) = true ∧
    (match matchOf "0 */5 8-17 * * 1-5 *" { demoTm with min := 36 } with | some (.ok b) => b | _ => true) = false :=
  ⟨by decide +kernel, ⟨by decide, by decide, by decide, by decide, by decide, by decide, by decide⟩,
    by decide +kernel, by decide +kernel⟩

/-- **C54 is violated**: in 1999 and in 2104 the test reads outside of the bit map. -/
theorem C54_refuted_year :
    (match matchOf "* * * * * * *" { demoTm with year := 99 } with | some (.error .oob) => true | _ => false) = true ∧
    (match matchOf "* * * * * * *" { demoTm with year := 204 } with | some (.error .oob) => true | _ => false) = true :=
  ⟨by decide +kernel, by decide +kernel⟩

/-! ## C55: the next time -/

theorem isValid_not_due {c : CronExpr} {tm : Tm} (hs : Sized c) (ht : Calendar tm) :
    isValid tm c = .ok false ↔ ¬ Due c tm := by
  rw [isValid_eq hs ht]
  simp

/-- What one round of the search skips. -/
theorem nextStep_ok {lt : Int → Tm} (hl : HalfHour lt) {c : CronExpr} (hs : Sized c) {t : Int} (h0 : 0 ≤ t)
    (ht : Calendar (lt t)) (hv : ¬ Due c (lt t)) :
    ∃ t', nextStep lt c t (lt t) = .ok (t', lt t') ∧ t < t' ∧ ∀ s, t ≤ s → s < t' → ¬ Due c (lt s) := by
  obtain ⟨s1, s2, s3, s4, s5, s6, s7⟩ := hs
  have e1 : allBits [(c.mday, (lt t).mday), (c.wday, (lt t).wday), (c.hour, (lt t).hour)] =
      .ok (decide (Has c.mday (lt t).mday.toNat ∧ Has c.wday (lt t).wday.toNat ∧ Has c.hour (lt t).hour.toNat)) := by
    obtain ⟨t1, t2, t3, t4, t5, t6, t7⟩ := ht
    rw [allBits_cons (by omega) (by omega) (by omega), allBits_cons (by omega) (by omega) (by omega),
      allBits_cons (by omega) (by omega) (by omega)]
    by_cases h1 : Has c.mday (lt t).mday.toNat
    · by_cases h2 : Has c.wday (lt t).wday.toNat
      · by_cases h3 : Has c.hour (lt t).hour.toNat
        · simp [h1, h2, h3, allBits]
        · simp [h1, h2, h3]
      · simp [h1, h2]
    · simp [h1]
  have e2 : bitIsSet c.min (u32 (lt t).min) = .ok (decide (Has c.min (lt t).min.toNat)) := by
    obtain ⟨t1, t2, t3, t4, t5, t6, t7⟩ := ht
    rw [u32_small (by omega) (by omega), bitIsSet_ok (by omega)]
  unfold nextStep
  rw [e1]
  show ∃ t', (if (!decide _) = true then _ else _) = _ ∧ _
  by_cases hd : Has c.mday (lt t).mday.toNat ∧ Has c.wday (lt t).wday.toNat ∧ Has c.hour (lt t).hour.toNat
  · rw [decide_eq_true hd, if_neg (by decide), e2]
    show ∃ t', (if (!decide _) = true then _ else _) = _ ∧ _
    by_cases hm : Has c.min (lt t).min.toNat
    · rw [decide_eq_true hm, if_neg (by decide)]
      by_cases hsec : (lt t).sec + 1 ≤ 59
      · refine ⟨t + 1, ?_, by omega, fun s h1 h2 => ?_⟩
        · rw [if_pos hsec, hl.tick t h0 (by omega)]
        · have : s = t := by omega
          subst this
          exact hv
      · refine ⟨t + 1, by rw [if_neg hsec], by omega, fun s h1 h2 => ?_⟩
        have : s = t := by omega
        subst this
        exact hv
    · rw [decide_eq_false hm, if_pos (by decide)]
      have e : t.tmod 60 = t % 60 := Int.tmod_eq_emod_of_nonneg h0
      refine ⟨t + (60 - t.tmod 60), rfl, by omega, fun s h1 h2 hdue => hm ?_⟩
      rw [hl.minute t s h0 (by omega) (by omega)]
      exact hdue.2.1
  · rw [decide_eq_false hd, if_pos (by decide)]
    have e : t.tmod 1800 = t % 1800 := Int.tmod_eq_emod_of_nonneg h0
    refine ⟨t + (1800 - t.tmod 1800), rfl, by omega, fun s h1 h2 hdue => hd ?_⟩
    obtain ⟨a, b, d⟩ := hl.half t s h0 (by omega) (by omega)
    rw [a, b, d]
    exact ⟨hdue.2.2.2.1, hdue.2.2.2.2.2.1, hdue.2.2.1⟩

theorem nextStep_lt {lt : Int → Tm} {c : CronExpr} {t t' : Int} {tm tm' : Tm} (h0 : 0 ≤ t)
    (h : nextStep lt c t tm = .ok (t', tm')) : t < t' := by
  have e1 : t.tmod 60 = t % 60 := Int.tmod_eq_emod_of_nonneg h0
  have e2 : t.tmod 1800 = t % 1800 := Int.tmod_eq_emod_of_nonneg h0
  unfold nextStep at h
  cases ha : allBits [(c.mday, tm.mday), (c.wday, tm.wday), (c.hour, tm.hour)] with
  | error e => rw [ha] at h; cases h
  | ok b =>
    rw [ha] at h
    cases b with
    | false =>
      injection h with h
      injection h with h _
      omega
    | true =>
      cases hb : bitIsSet c.min (u32 tm.min) with
      | error e => rw [hb] at h; cases h
      | ok b =>
        simp only [hb, Bind.bind, Except.bind, Bool.not_true, Bool.false_eq_true, if_false] at h
        cases b with
        | false =>
          injection h with h
          injection h with h _
          omega
        | true =>
          simp only [Bind.bind, Except.bind, Bool.not_true, Bool.false_eq_true, if_false] at h
          split at h
          · injection h with h
            injection h with h _
            omega
          · injection h with h
            injection h with h _
            omega

theorem nextLoop_ge {lt : Int → Tm} {c : CronExpr} : ∀ (fuel : Nat) (t : Int) (tm : Tm) (r : Int), 0 ≤ t →
    nextLoop lt c fuel t tm = .ok (some r) → t ≤ r := by
  intro fuel
  induction fuel with
  | zero => intro t tm r _ h; cases h
  | succ fuel ih =>
    intro t tm r h0 h
    unfold nextLoop at h
    cases hv : isValid tm c with
    | error e => rw [hv] at h; cases h
    | ok b =>
      rw [hv] at h
      cases b with
      | true => injection h with h; injection h with h; omega
      | false =>
        dsimp only at h
        cases hn : nextStep lt c t tm with
        | error e => rw [hn] at h; cases h
        | ok p =>
          obtain ⟨t', tm'⟩ := p
          rw [hn] at h
          have h1 := nextStep_lt h0 hn
          have := ih t' tm' r (by omega) h
          omega

theorem nextLoop_step {lt : Int → Tm} (hl : HalfHour lt) {c : CronExpr} (hs : Sized c) {t : Int} (h0 : 0 ≤ t)
    (hc : Calendar (lt t)) (fuel : Nat) :
    (Due c (lt t) ∧ nextLoop lt c (fuel + 1) t (lt t) = .ok (some t)) ∨
    (¬ Due c (lt t) ∧ ∃ t', t < t' ∧ (∀ s, t ≤ s → s < t' → ¬ Due c (lt s)) ∧
      nextLoop lt c (fuel + 1) t (lt t) = nextLoop lt c fuel t' (lt t')) := by
  by_cases hd : Due c (lt t)
  · refine .inl ⟨hd, ?_⟩
    unfold nextLoop
    rw [isValid_eq hs hc, decide_eq_true hd]
  · obtain ⟨t', h1, h2, h3⟩ := nextStep_ok hl hs h0 hc hd
    refine .inr ⟨hd, t', h2, h3, ?_⟩
    conv => lhs; unfold nextLoop
    rw [isValid_eq hs hc, decide_eq_false hd]
    dsimp only
    rw [h1]

/-- **C55** If the search for the next time returns `r`, then `r` is after the current time, matches, and no earlier time
after the current one matches.  Partial: from 1970 on, in years 2000 … 2103 without leap seconds, and for time zones whose
offset is a multiple of half an hour. -/
theorem C55_next_partial {lt : Int → Tm} (hl : HalfHour lt) {c : CronExpr} (hs : Sized c) {now r : Int} (h0 : 0 ≤ now)
    (hc : ∀ s, now < s → s ≤ r → Calendar (lt s)) {fuel : Nat} (h : cronNext lt c fuel now = .ok (some r)) :
    now < r ∧ Due c (lt r) ∧ ∀ s, now < s → s < r → ¬ Due c (lt s) := by
  have key : ∀ (fuel : Nat) (t : Int), now < t → (∀ s, now < s → s < t → ¬ Due c (lt s)) →
      nextLoop lt c fuel t (lt t) = .ok (some r) → now < r ∧ Due c (lt r) ∧ ∀ s, now < s → s < r → ¬ Due c (lt s) := by
    intro fuel
    induction fuel with
    | zero => intro t _ _ h; cases h
    | succ fuel ih =>
      intro t ht hn h
      have hge := nextLoop_ge _ _ _ _ (by omega) h
      rcases nextLoop_step hl hs (t := t) (by omega) (hc t ht hge) fuel with ⟨hd, e⟩ | ⟨_, t', h1, h2, e⟩
      · rw [e] at h
        injection h with h
        injection h with h
        subst h
        exact ⟨ht, hd, hn⟩
      · rw [e] at h
        refine ih t' (by omega) (fun s hs1 hs2 => ?_) h
        by_cases hlt : s < t
        · exact hn s hs1 hlt
        · exact h2 s (by omega) hs2
  exact key fuel (now + 1) (by omega) (fun s h1 h2 => by omega) h

/-- **C55** If some time after the current one matches, the search returns (and then, by the previous theorem, the first
such time). -/
theorem C55_found_partial {lt : Int → Tm} (hl : HalfHour lt) {c : CronExpr} (hs : Sized c) {now last : Int} (h0 : 0 ≤ now)
    (hc : ∀ s, now < s → s ≤ last → Calendar (lt s)) (hlast : now < last) (hd : Due c (lt last)) {fuel : Nat}
    (hf : last - now ≤ fuel) : ∃ r, r ≤ last ∧ cronNext lt c fuel now = .ok (some r) := by
  have key : ∀ (fuel : Nat) (t : Int), now < t → t ≤ last → last + 1 - t ≤ fuel →
      ∃ r, r ≤ last ∧ nextLoop lt c fuel t (lt t) = .ok (some r) := by
    intro fuel
    induction fuel with
    | zero => intro t _ h1 h2; exact absurd h2 (by simp; omega)
    | succ fuel ih =>
      intro t ht h1 h2
      rcases nextLoop_step hl hs (t := t) (by omega) (hc t ht h1) fuel with ⟨_, e⟩ | ⟨_, t', h3, h4, e⟩
      · exact ⟨t, h1, e⟩
      · rw [e]
        have : t' ≤ last := by
          by_cases hle : t' ≤ last
          · exact hle
          · exact absurd hd (h4 last h1 (by omega))
        exact ih t' (by omega) this (by simp at h2; omega)
  exact key fuel (now + 1) (by omega) (by omega) (by omega)

/-- Coordinated universal time from 1970 on, with the proleptic Gregorian calendar (days-to-date conversion on 400-year
eras starting in March). -/
def utc (t : Int) : Tm :=
  let days := t / 86400
  let z := days + 719468
  let doe := z % 146097
  let yoe := (doe - doe / 1460 + doe / 36524 - doe / 146096) / 365
  let doy := doe - (365 * yoe + yoe / 4 - yoe / 100)
  let mp := (5 * doy + 2) / 153
  let mon := if mp < 10 then mp + 2 else mp - 10
  { sec := t % 60, min := t / 60 % 60, hour := t / 3600 % 24
    mday := doy - (153 * mp + 2) / 5 + 1, mon := mon
    year := yoe + z / 146097 * 400 + (if mon ≤ 1 then 1 else 0) - 1900
    wday := (days + 4) % 7 }

/-- Coordinated universal time is such a local time. -/
theorem utc_halfHour : HalfHour utc := by
  refine ⟨fun t h0 h => ?_, fun t s _ _ h => ?_, fun t s _ _ h => ?_⟩
  · have h : t % 60 < 59 := h
    have e1 : (t + 1) / 86400 = t / 86400 := by omega
    have e2 : (t + 1) / 60 = t / 60 := by omega
    have e3 : (t + 1) / 3600 = t / 3600 := by omega
    have e4 : (t + 1) % 60 = t % 60 + 1 := by omega
    unfold utc
    rw [e1, e2, e3, e4]
  · show t / 60 % 60 = s / 60 % 60
    rw [h]
  · have e1 : t / 86400 = s / 86400 := by omega
    have e2 : t / 3600 = s / 3600 := by omega
    refine ⟨?_, ?_, ?_⟩
    · show t / 3600 % 24 = s / 3600 % 24
      rw [e2]
    · unfold utc
      rw [e1]
    · unfold utc
      rw [e1]

/-- Result of the search for an expression given as a string. -/
def nextOf (lt : Int → Tm) (s : String) (fuel : Nat) (now : Int) : Option Int :=
  match parse s.toList with
  | .ok c => match cronNext lt c fuel now with
    | .ok r => r
    | .error _ => none
  | _ => none

/-- Non-trivial instance: the Friday evening of 2026-11-20 17:58:20 is followed by Monday 2026-11-23 08:00:00. -/
theorem demo_next : utc 1795197500 = { sec := 20, min := 58, hour := 17, mday := 20, mon := 10, year := 126, wday := 5 } ∧
    utc 1795420800 = { sec := 0, min := 0, hour := 8, mday := 23, mon := 10, year := 126, wday := 1 } ∧
    nextOf utc "0 */5 8-17 * * 1-5 *" 1000 1795197500 = some 1795420800 := by
  refine ⟨by decide +kernel, by decide +kernel, by decide +kernel⟩

/-- **C55 is violated** in time zones that are not a multiple of half an hour off (Nepal, 5 h 45 min): the search steps from
00:00 UTC (05:45 local time) to 00:30 UTC (06:15) and misses 06:00:00, which matches; it returns 06:30:00. -/
theorem C55_refuted_zone :
    let lt := fun t => utc (t + 20700)
    nextOf lt "0 0,30 6 * * * *" 1000 1795132800 = some 1795135500 ∧
    (match parse "0 0,30 6 * * * *".toList with
      | .ok c => decide (Due c (lt 1795133700))
      | _ => false) = true ∧ (1795132800 : Int) < 1795133700 ∧ (1795133700 : Int) < 1795135500 := by
  refine ⟨by decide +kernel, by decide +kernel, by decide, by decide⟩

end Ladder.Props
