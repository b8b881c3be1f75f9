import Verif.Spec.Schema
import Verif.Lemmas.JsonDoc

/-
The validator of JSON documents decides the schemas it supports.
-/

set_option autoImplicit false

namespace Ladder

open Spec

/-! ### Unfolding -/

theorem allOk_map {α β : Type} {f : β → Except UB Bool} {g : α → β} : ∀ {l : List α}, allOk f (l.map g) = allOk (fun x => f (g x)) l
  | [] => rfl
  | x :: xs => by simp only [List.map_cons, allOk, allOk_map]

theorem allOk_attach {α : Type} {f : α → Except UB Bool} {l : List α} : allOk (fun x : { x // x ∈ l } => f x.1) l.attach = allOk f l := by
  rw [← allOk_map (f := f) (g := Subtype.val), List.attach_map_subtype_val]

theorem allOk_attach_zip {α β : Type} {f : α → β → Except UB Bool} {l : List α} {m : List β} :
    allOk (fun p : { x // x ∈ l } × β => f p.1.1 p.2) (l.attach.zip m) = allOk (fun p : α × β => f p.1 p.2) (l.zip m) := by
  have : (l.attach.zip m).map (fun p => (p.1.1, p.2)) = l.zip m := by
    conv => rhs; rw [← List.attach_map_subtype_val l]
    rw [List.zip_map_left]
    rfl
  rw [← this, allOk_map]

/-- The keywords for arrays. -/
def arrayKeys (L : Lib) (ms : List (String × Json)) (js : List Json) : Except UB Bool :=
  also
    (match member ms "items" with
      | some (.arr l) => also (allOk (fun p => validate L p.1 p.2) (l.zip js)) (.ok (extraItems ms l.length js.length))
      | some s => allOk (fun x => validate L s x) js
      | none => .ok true)
    (.ok (sizeKeys ms js.length))

/-- One member of `properties`. -/
def propKey (L : Lib) (ms os : List (String × Json)) (p : String × Json) : Except UB Bool :=
  match member os p.1 with
  | none => .ok (!isRequired ms p.1)
  | some v => validate L p.2 v

/-- The keywords for objects. -/
def objectKeys (L : Lib) (ms os : List (String × Json)) : Except UB Bool :=
  also
    (match member ms "properties" with
      | some (.obj ps) => allOk (propKey L ms os) ps
      | _ => .ok true)
    (.ok (extraMembers ms os))

/-- The keywords of the kind of the value. -/
def kindKeys (L : Lib) (ms : List (String × Json)) (j : Json) : Except UB Bool :=
  match j with
  | .num x => .ok (!applies ms ["number", "integer"] || numberKeys ms x)
  | .str s => .ok (!applies ms ["string"] || stringKeys ms s)
  | .arr js => if applies ms ["array"] then arrayKeys L ms js else .ok true
  | .obj os => if applies ms ["object"] then objectKeys L ms os else .ok true
  | _ => .ok true

/-- The keyword `allOf`. -/
def allKey (L : Lib) (ms : List (String × Json)) (j : Json) : Except UB Bool :=
  match member ms "allOf" with
  | some (.arr l) => allOk (fun s => validate L s j) l
  | _ => .ok true

theorem validate_bool {L : Lib} {b : Bool} {j : Json} : validate L (.bool b) j = .ok b := by
  rw [validate]

theorem validate_cond {L : Lib} {ms : List (String × Json)} {a b j : Json} (ha : member ms "if" = some a) (hb : member ms "then" = some b) :
    validate L (.obj ms) j = match validate L a j with
      | .error e => .error e
      | .ok true => validate L b j
      | .ok false => .ok true := by
  rw [validate.eq_def]
  simp only
  split
  · rename_i a' b' ha' hb'
    rw [ha] at ha'; rw [hb] at hb'
    cases ha'; cases hb'
    rfl
  · rename_i h
    exact absurd hb (h a b ha)

theorem validate_obj {L : Lib} {ms : List (String × Json)} {j : Json} (h : member ms "if" = none ∨ member ms "then" = none) :
    validate L (.obj ms) j =
      also (allKey L ms j) (also (typeKey ms j) (also (.ok (enumKey L ms j && constKey L ms j)) (kindKeys L ms j))) := by
  rw [validate.eq_def]
  simp only
  split
  · rename_i a' b' ha' hb'
    rcases h with h | h
    · rw [h] at ha'; cases ha'
    · rw [h] at hb'; cases hb'
  · congr 1
    · unfold allKey
      split
      · rename_i l e
        rw [e]
        exact allOk_attach (f := fun s => validate L s j)
      · rename_i h
        split
        · rename_i l e
          exact absurd e (h l)
        · rfl
    · congr 2
      unfold kindKeys
      cases j with
      | arr js =>
        simp only
        by_cases ha : applies ms ["array"] = true
        case neg => rw [if_neg ha, if_neg ha]
        rw [if_pos ha, if_pos ha]
        unfold arrayKeys
        congr 1
        split
        · rename_i l e
          rw [e]
          simp only
          congr 1
          exact allOk_attach_zip
        · rename_i s hs e
          rw [e]
          simp only
        · rename_i e
          rw [e]
      | obj os =>
        simp only
        by_cases ha : applies ms ["object"] = true
        case neg => rw [if_neg ha, if_neg ha]
        rw [if_pos ha, if_pos ha]
        unfold objectKeys
        congr 1
        split
        · rename_i ps e
          rw [e]
          exact allOk_attach (f := propKey L ms os)
        · rename_i h
          split
          · rename_i ps e
            exact absurd e (h ps)
          · rfl
      | _ => rfl

/-! ### Deciding -/

/-- The test is defined and tells whether `P`. -/
def Decides (r : Except UB Bool) (P : Prop) : Prop := ∃ b, r = .ok b ∧ (b = true ↔ P)

theorem Decides.bool {b : Bool} {P : Prop} (h : b = true ↔ P) : Decides (.ok b) P := ⟨b, rfl, h⟩

theorem Decides.iff {r : Except UB Bool} {P Q : Prop} (h : Decides r P) (e : P ↔ Q) : Decides r Q := by
  obtain ⟨b, h1, h2⟩ := h
  exact ⟨b, h1, h2.trans e⟩

theorem Decides.also {a b : Except UB Bool} {P Q : Prop} (h : Decides a P) (h' : P → Decides b Q) : Decides (also a b) (P ∧ Q) := by
  obtain ⟨x, rfl, e⟩ := h
  cases x with
  | false => exact ⟨false, rfl, by simp at e ⊢; exact fun p => absurd p e⟩
  | true =>
    obtain ⟨y, rfl, e'⟩ := h' (e.1 rfl)
    exact ⟨y, rfl, by rw [e']; exact ⟨fun q => ⟨e.1 rfl, q⟩, fun q => q.2⟩⟩

theorem Decides.all {α : Type} {f : α → Except UB Bool} {P : α → Prop} :
    ∀ {l : List α}, (∀ x ∈ l, Decides (f x) (P x)) → Decides (allOk f l) (∀ x ∈ l, P x)
  | [], _ => ⟨true, rfl, by simp⟩
  | x :: xs, h => (Decides.also (h x (by simp)) fun _ => Decides.all fun y hy => h y (by simp [hy])).iff (by simp)

theorem member_none {ms : List (String × Json)} {k : String} : member ms k = none ↔ ∀ v, (k, v) ∉ ms := by
  induction ms with
  | nil => simp [member]
  | cons p ms ih =>
    obtain ⟨a, b⟩ := p
    unfold member
    split
    · rename_i e
      subst e
      simp only [reduceCtorEq, false_iff]
      intro h
      exact h b (by simp)
    · rename_i e
      rw [ih]
      constructor
      · intro h v hv
        rcases List.mem_cons.1 hv with hv | hv
        · cases hv; exact e rfl
        · exact h v hv
      · intro h v hv
        exact h v (by simp [hv])

theorem member_mem {ms : List (String × Json)} {k : String} {v : Json} (h : member ms k = some v) : (k, v) ∈ ms := by
  induction ms with
  | nil => cases h
  | cons p ms ih =>
    obtain ⟨a, b⟩ := p
    unfold member at h
    split at h
    · rename_i e; subst e; cases h; simp
    · simp [ih h]

theorem mem_member {ms : List (String × Json)} {k : String} {v : Json} (h : (k, v) ∈ ms) : ∃ w, member ms k = some w := by
  cases e : member ms k with
  | some w => exact ⟨w, rfl⟩
  | none => exact absurd h (member_none.1 e v)

theorem lt_false {a b : Num} : a.lt b = false ↔ AtMost b a := by
  cases a <;> cases b <;> simp [Num.lt, AtMost, Rat.not_lt]
  · rename_i a b
    cases a <;> cases b <;> simp

theorem tdiv_bounds (q : Rat) : (-2 ^ 31 - 1 < q → -2 ^ 31 ≤ q.num.tdiv q.den) ∧ (q < 2 ^ 31 → q.num.tdiv q.den < 2 ^ 31) := by
  have hd : (0 : Int) < q.den := by exact_mod_cast q.den_pos
  rcases Int.lt_or_le q.num 0 with hn | hn
  · have e : q.num.tdiv q.den = -((-q.num) / q.den) := by
      rw [← Int.tdiv_eq_ediv_of_nonneg (by omega), Int.neg_tdiv, Int.neg_neg]
    rw [e]
    constructor
    · intro h
      have h' : (-2 ^ 31 - 1 : Int) * q.den < q.num := by
        rw [show (-2 ^ 31 - 1 : Rat) = ((-2147483649 : Int) : Rat) by decide +kernel] at h
        have := (Rat.lt_iff _ _).1 h
        simpa using this
      have := Int.ediv_lt_of_lt_mul (a := -q.num) (b := 2 ^ 31 + 1) hd (by omega)
      omega
    · intro _
      have := Int.ediv_nonneg (a := -q.num) (b := q.den) (by omega) (by omega)
      omega
  · rw [Int.tdiv_eq_ediv_of_nonneg hn]
    constructor
    · intro _
      have := Int.ediv_nonneg (a := q.num) (b := q.den) hn (by omega)
      omega
    · intro h
      have h' : q.num < (2 ^ 31 : Int) * q.den := by
        have := (Rat.lt_iff _ _).1 h
        simpa using this
      exact Int.ediv_lt_of_lt_mul hd h'

theorem isInteger_decides {q : Rat} (lo : -2 ^ 31 - 1 < q) (hi : q < 2 ^ 31) :
    Decides (isInteger (.fin q)) (∃ k : Int, q = k) := by
  have h := tdiv_bounds q
  unfold isInteger
  simp only
  rw [if_pos ⟨h.1 lo, h.2 hi⟩]
  refine Decides.bool ?_
  rw [decide_eq_true_iff]
  constructor
  · exact fun e => ⟨_, e⟩
  · rintro ⟨k, rfl⟩
    simp

theorem typeOk_decides {t : String} {j : Json} (ht : t ∈ typeNames) (hj : Modest j) : Decides (typeOk t j) (HasType t j) := by
  simp only [typeNames, List.mem_cons, List.not_mem_nil, or_false] at ht
  rcases ht with rfl | rfl | rfl | rfl | rfl | rfl | rfl <;> cases hj <;>
    first
    | exact Decides.bool (by simp [HasType])
    | (rename_i lo hi; exact (isInteger_decides lo hi).iff (by simp [HasType]))

/-! ### The keywords -/

theorem typeKey_decides {ms : List (String × Json)} {j : Json} (R : Regular ms) (hj : Modest j) :
    Decides (typeKey ms j) (∀ t, Member "type" (.str t) ms → HasType t j) := by
  unfold typeKey strMember
  cases e : member ms "type" with
  | none => exact Decides.bool (by simp [has_member, e])
  | some v =>
    obtain ⟨t, ht, rfl⟩ := R.type v (has_member.2 e)
    exact (typeOk_decides ht hj).iff (by simp [has_member, e])

theorem enumKey_iff {L : Lib} (hL : Exact L) {ms : List (String × Json)} {j : Json} (R : Regular ms) :
    enumKey L ms j = true ↔ ∀ l, Member "enum" (.arr l) ms → j ∈ l := by
  unfold enumKey
  cases e : member ms "enum" with
  | none => simp [has_member, e]
  | some v =>
    obtain ⟨l, rfl, hl⟩ := R.enum v (has_member.2 e)
    simp only [List.any_eq_true, has_member, e]
    constructor
    · rintro ⟨x, hx, h⟩ l' e'
      cases e'
      rw [(hL j x (hl x hx)).1 h]
      exact hx
    · intro h
      exact ⟨j, h l rfl, (hL j j (hl j (h l rfl))).2 rfl⟩

theorem constKey_iff {L : Lib} (hL : Exact L) {ms : List (String × Json)} {j : Json} (R : Regular ms) :
    constKey L ms j = true ↔ ∀ v, Member "const" v ms → j = v := by
  unfold constKey
  cases e : member ms "const" with
  | none => simp [has_member, e]
  | some v => simp [has_member, e, hL j v (R.const v (has_member.2 e))]

theorem numberKeys_iff {ms : List (String × Json)} {x : Num} :
    numberKeys ms x = true ↔
      (∀ m, Member "minimum" (.num m) ms → AtMost m x) ∧ (∀ m, Member "maximum" (.num m) ms → AtMost x m) := by
  unfold numberKeys
  rw [Bool.and_eq_true]
  refine and_congr ?_ ?_
  · simp only [has_member]
    split
    · rename_i m e
      rw [e]
      simp [lt_false]
    · rename_i h
      simp only [true_iff]
      exact fun m e => absurd e (h m)
  · simp only [has_member]
    split
    · rename_i m e
      rw [e]
      simp [lt_false]
    · rename_i h
      simp only [true_iff]
      exact fun m e => absurd e (h m)

theorem int_size {n : Nat} (h : n < 2 ^ 31) : (Num.fin (n : Rat)).int = n := by
  simp only [Num.int, Rat.num_natCast, Rat.den_natCast, Int.natCast_one, Int.tdiv_one]
  omega

theorem sizeOfInt_nat {n : Nat} (h : n < 2 ^ 31) : sizeOfInt n = n := by
  unfold sizeOfInt
  omega

theorem number_iff {name : String} {ms : List (String × Json)} {n : Nat} (e : member ms name = some (.num (.fin n))) {P : Int → Prop} :
    (∀ k, Number name k ms → P k) ↔ P n := by
  constructor
  · exact fun h => h n ⟨_, has_member.2 e, trunc_natCast n⟩
  · rintro h k ⟨x, hx, ht⟩
    rw [has_member, e] at hx
    cases hx
    rw [trunc_natCast] at ht
    cases ht
    exact h

theorem number_none {name : String} {ms : List (String × Json)} (e : member ms name = none) {P : Int → Prop} :
    ∀ k, Number name k ms → P k := by
  rintro k ⟨x, hx, -⟩
  rw [has_member, e] at hx
  cases hx

theorem stringKeys_iff {ms : List (String × Json)} {s : String} (R : Regular ms) (hs : s.utf8ByteSize = s.length) :
    stringKeys ms s = true ↔
      (∀ k, Number "minLength" k ms → k ≤ s.length) ∧ (∀ k, Number "maxLength" k ms → s.length ≤ k) := by
  unfold stringKeys
  rw [Bool.and_eq_true, hs]
  refine and_congr ?_ ?_
  · cases e : member ms "minLength" with
    | none => simp only [true_iff]; exact number_none e
    | some v =>
      obtain ⟨n, hn, rfl⟩ := R.minLength v (has_member.2 e)
      rw [number_iff e]
      simp [int_size hn, sizeOfInt_nat hn]
  · cases e : member ms "maxLength" with
    | none => simp only [true_iff]; exact number_none e
    | some v =>
      obtain ⟨n, hn, rfl⟩ := R.maxLength v (has_member.2 e)
      rw [number_iff e]
      simp [int_size hn, sizeOfInt_nat hn]

theorem sizeKeys_iff {ms : List (String × Json)} {len : Nat} (R : Regular ms) :
    sizeKeys ms len = true ↔ (∀ k, Number "minItems" k ms → k ≤ len) ∧ (∀ k, Number "maxItems" k ms → len ≤ k) := by
  unfold sizeKeys
  rw [Bool.and_eq_true]
  refine and_congr ?_ ?_
  · cases e : member ms "minItems" with
    | none => simp only [true_iff]; exact number_none e
    | some v =>
      obtain ⟨n, hn, rfl⟩ := R.minItems v (has_member.2 e)
      rw [number_iff e]
      simp [int_size hn]
  · cases e : member ms "maxItems" with
    | none => simp only [true_iff]; exact number_none e
    | some v =>
      obtain ⟨n, hn, rfl⟩ := R.maxItems v (has_member.2 e)
      rw [number_iff e]
      simp [int_size hn]

theorem applies_of {ms : List (String × Json)} {j : Json} {names : List String}
    (h : ∀ t, Member "type" (.str t) ms → HasType t j) (hn : ∀ t, HasType t j → t ∈ names) : applies ms names = true := by
  unfold applies
  cases e : strMember ms "type" with
  | none => rfl
  | some t => simpa using hn t (h t (strMember_iff.1 e))

theorem isRequired_iff {ms : List (String × Json)} {k : String} :
    isRequired ms k = true ↔ ∃ l, Member "required" (.arr l) ms ∧ .str k ∈ l := by
  unfold isRequired
  split
  · rename_i l e
    rw [List.any_eq_true]
    constructor
    · rintro ⟨x, hx, h⟩
      split at h
      · rename_i s
        rw [decide_eq_true_iff] at h
        subst h
        exact ⟨l, has_member.2 e, hx⟩
      · cases h
    · rintro ⟨l', h1, h2⟩
      rw [has_member, e] at h1
      cases h1
      exact ⟨_, h2, by simp⟩
  · rename_i h
    simp only [Bool.false_eq_true, false_iff, not_exists, not_and]
    intro l hl
    exact absurd (has_member.1 hl) (h l)

theorem extraItems_iff {ms : List (String × Json)} {k n : Nat} :
    extraItems ms k n = true ↔ (Member "additionalItems" (.bool false) ms → n ≤ k) := by
  unfold extraItems
  split
  · rename_i e
    simp [has_member, e]
  · rename_i h
    simp only [true_iff]
    exact fun e => absurd (has_member.1 e) h

theorem hasItem_iff {ms : List (String × Json)} {k : String} (hp : ∀ v, Member "properties" v ms → ∃ ps, v = .obj ps)
    (hk : ∀ ps a s, Member "properties" (.obj ps) ms → (a, s) ∈ ps → lower a = lower k → a = k) :
    hasItem (member ms "properties") k = true ↔ ∃ ps w, Member "properties" (.obj ps) ms ∧ (k, w) ∈ ps := by
  unfold hasItem
  cases e : member ms "properties" with
  | none => simp [has_member, e]
  | some v =>
    obtain ⟨ps, rfl⟩ := hp v (has_member.2 e)
    simp only [List.any_eq_true, beq_iff_eq]
    constructor
    · rintro ⟨⟨a, w⟩, h1, h2⟩
      have := hk ps a w (has_member.2 e) h1 h2
      subst this
      exact ⟨ps, w, has_member.2 e, h1⟩
    · rintro ⟨ps', w, h1, h2⟩
      rw [has_member, e] at h1
      cases h1
      exact ⟨_, h2, rfl⟩

theorem extraMembers_iff {ms os : List (String × Json)} (hp : ∀ v, Member "properties" v ms → ∃ ps, v = .obj ps)
    (hk : ∀ ps a s k v, Member "properties" (.obj ps) ms → (a, s) ∈ ps → (k, v) ∈ os → lower a = lower k → a = k) :
    extraMembers ms os = true ↔ (Member "additionalProperties" (.bool false) ms →
      ∀ k v, (k, v) ∈ os → ∃ ps w, Member "properties" (.obj ps) ms ∧ (k, w) ∈ ps) := by
  unfold extraMembers
  split
  · rename_i e
    simp only [List.all_eq_true, has_member (name := "additionalProperties"), e, forall_const]
    constructor
    · intro h k v hv
      exact (hasItem_iff hp fun ps a s h1 h2 => hk ps a s k v h1 h2 hv).1 (h (k, v) hv)
    · rintro h ⟨k, v⟩ hv
      exact (hasItem_iff hp fun ps a s h1 h2 => hk ps a s k v h1 h2 hv).2 (h k v hv)
  · rename_i h
    simp only [true_iff]
    exact fun e => absurd (has_member.1 e) h

/-! ### The validator -/

theorem _root_.Ladder.Spec.Spelled.sub {s s' j j' : Json} (h : Spelled s j) (hs : ∀ a, Says a s' → Says a s) (hj : ∀ a, Says a j' → Says a j) :
    Spelled s' j' := fun a b ha hb => h a b (hs a ha) (hj b hb)

theorem mem_of_zip {α β : Type} {l : List α} {m : List β} {p : α × β} (h : p ∈ l.zip m) :
    ∃ i : Nat, l[i]? = some p.1 ∧ m[i]? = some p.2 := by
  obtain ⟨i, hi⟩ := List.getElem?_of_mem h
  exact ⟨i, List.getElem?_zip_eq_some.1 hi⟩

theorem of_keywords {ms : List (String × Json)} (only : ∀ k v, (k, v) ∈ ms → k ∈ keywords ∨ k ∈ notes) {k : String}
    (hk : k ∉ keywords ∧ k ∉ notes) {v : Json} (h : Member k v ms) : False := by
  rcases only k v (member_mem (has_member.1 h)) with h | h
  · exact hk.1 h
  · exact hk.2 h

theorem of_cond {ms : List (String × Json)} (only : ∀ k v, (k, v) ∈ ms → k = "if" ∨ k = "then" ∨ k ∈ notes) {k : String}
    (hk : k ≠ "if" ∧ k ≠ "then" ∧ k ∉ notes) {v : Json} (h : Member k v ms) : False := by
  rcases only k v (member_mem (has_member.1 h)) with h | h | h
  · exact hk.1 h
  · exact hk.2.1 h
  · exact hk.2.2 h

theorem valid_cond {ms : List (String × Json)} {a b j : Json} (only : ∀ k v, (k, v) ∈ ms → k = "if" ∨ k = "then" ∨ k ∈ notes)
    (ha : Member "if" a ms) (hb : Member "then" b ms) : Valid (.obj ms) j ↔ (Valid a j → Valid b j) := by
  have no := @of_cond ms only
  rw [Valid]
  constructor
  · rintro ⟨-, -, -, -, h, -⟩
    exact h a b ha hb
  · intro h
    refine ⟨?_, ?_, ?_, ?_, ?_, ?_, ?_, ?_, ?_, ?_, ?_⟩
    · constructor
      · exact fun _ hm => (no (by decide) hm).elim
      · exact fun _ hm => (no (by decide) hm).elim
      · exact fun _ hm => (no (by decide) hm).elim
      · exact fun _ hm => (no (by decide) hm).elim
      · exact fun _ _ _ hm => (no (by decide) hm).elim
      · exact fun _ _ _ hm => (no (by decide) hm).elim
      · exact fun _ _ _ ⟨_, hm, _⟩ => (no (by decide) hm).elim
      · exact fun _ _ _ ⟨_, hm, _⟩ => (no (by decide) hm).elim
      · exact fun _ _ _ ⟨_, hm, _⟩ => (no (by decide) hm).elim
      · exact fun _ _ _ ⟨_, hm, _⟩ => (no (by decide) hm).elim
      · exact fun _ _ _ _ hm => (no (by decide) hm).elim
    · exact fun _ hm => (no (by decide) hm).elim
    · exact fun _ hm => (no (by decide) hm).elim
    · exact fun _ hm => (no (by decide) hm).elim
    · intro a' b' h1 h2
      rw [has_member] at ha hb h1 h2
      rw [ha] at h1; rw [hb] at h2
      cases h1; cases h2
      exact h
    · exact fun _ _ _ hm => (no (by decide) hm).elim
    · exact fun _ _ _ hm => (no (by decide) hm).elim
    · exact fun _ _ _ hm => (no (by decide) hm).elim
    · exact fun _ _ _ _ hm => (no (by decide) hm).elim
    · exact fun _ _ _ hm => (no (by decide) hm).elim
    · exact fun _ _ _ hm => (no (by decide) hm).elim

/-- What the keywords of the kind of the value assert. -/
def Kind (ms : List (String × Json)) (j : Json) : Prop :=
  match j with
  | .num x => (∀ m, Member "minimum" (.num m) ms → AtMost m x) ∧ (∀ m, Member "maximum" (.num m) ms → AtMost x m)
  | .str s => (∀ k, Number "minLength" k ms → k ≤ s.length) ∧ (∀ k, Number "maxLength" k ms → s.length ≤ k)
  | .arr js =>
    ((∀ s, Member "items" s ms → (∀ l, s ≠ .arr l) → ∀ x ∈ js, Valid s x) ∧
      (∀ l, Member "items" (.arr l) ms → (∀ p ∈ l.zip js, Valid p.1 p.2) ∧
        (Member "additionalItems" (.bool false) ms → js.length ≤ l.length))) ∧
      ((∀ k, Number "minItems" k ms → k ≤ js.length) ∧ (∀ k, Number "maxItems" k ms → js.length ≤ k))
  | .obj os =>
    (∀ ps, Member "properties" (.obj ps) ms → ∀ p ∈ ps,
      (∀ v, Member p.1 v os → Valid p.2 v) ∧ (∀ l, Member "required" (.arr l) ms → .str p.1 ∈ l → ∃ v, Member p.1 v os)) ∧
    (Member "additionalProperties" (.bool false) ms → ∀ k v, (k, v) ∈ os → ∃ ps w, Member "properties" (.obj ps) ms ∧ (k, w) ∈ ps)
  | _ => True

theorem valid_obj {ms : List (String × Json)} {j : Json} (only : ∀ k v, (k, v) ∈ ms → k ∈ keywords ∨ k ∈ notes) (R : Regular ms) :
    Valid (.obj ms) j ↔ (∀ l, Member "allOf" (.arr l) ms → ∀ s ∈ l, Valid s j) ∧ (∀ t, Member "type" (.str t) ms → HasType t j) ∧
      ((∀ l, Member "enum" (.arr l) ms → j ∈ l) ∧ (∀ v, Member "const" v ms → j = v)) ∧ Kind ms j := by
  have no := @of_keywords ms only
  rw [Valid]
  constructor
  · rintro ⟨A, h1, -, -, -, -, h2, h3, h4, h5, h6⟩
    refine ⟨h1, A.type, ⟨A.enum, A.const⟩, ?_⟩
    cases j with
    | num x => exact ⟨fun m => A.minimum x m rfl, fun m => A.maximum x m rfl⟩
    | str s => exact ⟨fun m => A.minLength s m rfl, fun m => A.maxLength s m rfl⟩
    | arr js =>
      refine ⟨⟨fun s => h2 s js rfl, ?_⟩, fun m => A.minItems js m rfl, fun m => A.maxItems js m rfl⟩
      intro l hl
      constructor
      · intro p hp
        obtain ⟨i, e1, e2⟩ := mem_of_zip hp
        exact h3 l js rfl hl i _ _ e1 e2
      · intro hf
        refine Nat.le_of_not_lt fun hlt => ?_
        have := h4 l _ js rfl hl hf l.length (js[l.length]) (Nat.le_refl _) (List.getElem?_eq_getElem hlt)
        rw [Valid] at this
        cases this
    | obj os =>
      constructor
      · rintro ps hps ⟨k, s⟩ hp
        refine ⟨fun v hv => h5 ps os rfl hps k s v hp hv, fun l hl hk => ?_⟩
        obtain ⟨v, hv⟩ := A.required os l k rfl hl hk
        obtain ⟨w, hw⟩ := mem_member hv
        exact ⟨w, has_member.2 hw⟩
      · intro hf k v hv
        refine Classical.byContradiction fun hn => ?_
        have := h6 _ os rfl hf k v hv fun ps w h1 h2 => hn ⟨ps, w, h1, h2⟩
        rw [Valid] at this
        cases this
    | _ => trivial
  · rintro ⟨h1, h2, ⟨h3, h4⟩, hk⟩
    refine ⟨?_, h1, ?_, ?_, ?_, ?_, ?_, ?_, ?_, ?_, ?_⟩
    · constructor
      · exact h2
      · intro l hl
        obtain ⟨t, -, h⟩ := R.type _ hl
        cases h
      · exact h3
      · exact h4
      · rintro x m rfl; exact hk.1 m
      · rintro x m rfl; exact hk.2 m
      · rintro x m rfl; exact hk.1 m
      · rintro x m rfl; exact hk.2 m
      · rintro x m rfl; exact hk.2.1 m
      · rintro x m rfl; exact hk.2.2 m
      · rintro os l k rfl hl hkl
        obtain ⟨ps, s, hp, hm⟩ := R.required l k hl hkl
        obtain ⟨v, hv⟩ := (hk.1 ps hp (k, s) hm).2 l hl hkl
        exact ⟨v, member_mem (has_member.1 hv)⟩
    · exact fun _ hm => (no (by decide) hm).elim
    · exact fun _ hm => (no (by decide) hm).elim
    · exact fun _ _ hm => (no (by decide) hm).elim
    · exact fun _ _ hm => (no (by decide) hm).elim
    · rintro s js rfl; exact hk.1.1 s
    · rintro l js rfl hl i s x e1 e2
      exact (hk.1.2 l hl).1 (s, x) (List.mem_of_getElem? (List.getElem?_zip_eq_some.2 ⟨e1, e2⟩))
    · rintro l s js rfl hl hs i x hi hx
      obtain ⟨b, rfl⟩ := R.additionalItems s hs
      cases b with
      | true => rw [Valid]
      | false =>
        have := (hk.1.2 l hl).2 hs
        obtain ⟨h', -⟩ := List.getElem?_eq_some_iff.1 hx
        omega
    · rintro ps os rfl hp k s v h1 h2
      exact (hk.1 ps hp (k, s) h1).1 v h2
    · rintro s os rfl hs k v hv hn
      obtain ⟨b, rfl⟩ := R.additionalProperties s hs
      cases b with
      | true => rw [Valid]
      | false =>
        obtain ⟨ps, w, h1, h2⟩ := hk.2 hs k v hv
        exact absurd h2 (hn ps w h1)

theorem hasType_num {t : String} {x : Num} (h : HasType t (.num x)) : t ∈ ["number", "integer"] := by
  simp [HasType] at h
  rcases h with h | ⟨h, -⟩ <;> simp [h]

theorem hasType_str {t : String} {x : String} (h : HasType t (.str x)) : t ∈ ["string"] := by simpa [HasType] using h
theorem hasType_arr {t : String} {x : List Json} (h : HasType t (.arr x)) : t ∈ ["array"] := by simpa [HasType] using h
theorem hasType_obj {t : String} {x : List (String × Json)} (h : HasType t (.obj x)) : t ∈ ["object"] := by simpa [HasType] using h

/-- The validator decides the schemas it supports. -/
theorem validate_decides {L : Lib} (hL : Exact L) {s : Json} (hs : Supported s) :
    ∀ {j : Json}, Modest j → Spelled s j → Decides (validate L s j) (Valid s j) := by
  induction hs with
  | bool b =>
    intro j _ _
    rw [validate_bool, Valid]
    exact Decides.bool Iff.rfl
  | @cond ms a b only ha hb _ _ iha ihb =>
    intro j hj hn
    have ma := member_mem (has_member.1 ha)
    have mb := member_mem (has_member.1 hb)
    rw [validate_cond (has_member.1 ha) (has_member.1 hb)]
    obtain ⟨x, e, h1⟩ := iha hj (hn.sub (fun k => .value ma) fun _ h => h)
    rw [e]
    refine Decides.iff (P := Valid a j → Valid b j) ?_ (valid_cond only ha hb).symm
    cases x with
    | true => exact (ihb hj (hn.sub (fun k => .value mb) fun _ h => h)).iff (by simp [← h1])
    | false => exact Decides.bool (by simp [← h1])
  | @obj ms only R all each items tuple props prop iheach ihitems ihtuple ihprop =>
    intro j hj hn
    have no := @of_keywords ms only
    rw [validate_obj (by
      cases e : member ms "if" with
      | none => exact .inl rfl
      | some v => exact (no (by decide) (has_member.2 e)).elim)]
    refine Decides.iff ?_ (valid_obj only R).symm
    refine Decides.also ?_ fun _ => Decides.also (typeKey_decides R hj) fun ht =>
      Decides.also (Decides.bool (by rw [Bool.and_eq_true, enumKey_iff hL R, constKey_iff hL R])) fun _ => ?_
    · unfold allKey
      cases e : member ms "allOf" with
      | none => exact Decides.bool (by simp [has_member, e])
      | some v =>
        obtain ⟨l, rfl⟩ := all v (has_member.2 e)
        simp only
        refine Decides.iff (Decides.all fun s hs => iheach l (has_member.2 e) s hs hj
          (hn.sub (fun k h => .value (member_mem e) (.elem hs h)) fun _ h => h)) ?_
        constructor
        · intro h l' hl
          rw [has_member, e] at hl
          cases hl
          exact h
        · exact fun h => h l (has_member.2 e)
    · cases j with
      | null => exact Decides.bool (by simp [Kind])
      | bool b => exact Decides.bool (by simp [Kind])
      | num x =>
        unfold kindKeys
        rw [applies_of ht fun t => hasType_num]
        exact Decides.bool (by simpa [Kind] using numberKeys_iff)
      | str x =>
        unfold kindKeys
        rw [applies_of ht fun t => hasType_str]
        cases hj with
        | str _ hb => exact Decides.bool (by simpa [Kind] using stringKeys_iff R hb)
      | arr js =>
        unfold kindKeys
        simp only
        rw [if_pos (applies_of ht fun t => hasType_arr)]
        cases hj with
        | arr _ hj =>
          refine Decides.also ?_ fun _ => Decides.bool (sizeKeys_iff R)
          cases e : member ms "items" with
          | none => exact Decides.bool (by simp [has_member, e])
          | some v =>
            by_cases hv : ∃ l, v = .arr l
            · obtain ⟨l, rfl⟩ := hv
              simp only
              refine Decides.iff (Decides.also (Decides.all (P := fun p : Json × Json => Valid p.1 p.2) fun p hp => ?_)
                fun _ => Decides.bool extraItems_iff) ?_
              · obtain ⟨h1, h2⟩ := List.of_mem_zip (a := p.1) (b := p.2) hp
                exact ihtuple l (has_member.2 e) p.1 h1 (hj _ h2)
                  (hn.sub (fun k h => .value (member_mem e) (.elem h1 h)) fun k h => .elem h2 h)
              · constructor
                · intro h
                  refine ⟨?_, ?_⟩
                  · intro s hs hl
                    rw [has_member, e] at hs
                    cases hs
                    exact absurd rfl (hl l)
                  · intro l' hl
                    rw [has_member, e] at hl
                    cases hl
                    exact h
                · exact fun h => h.2 l (has_member.2 e)
            · have hv' : ∀ l, v ≠ .arr l := fun l h => hv ⟨l, h⟩
              have he : (match (some v : Option Json) with
                  | some (.arr l) => also (allOk (fun p => validate L p.1 p.2) (l.zip js)) (.ok (extraItems ms l.length js.length))
                  | some s => allOk (fun x => validate L s x) js
                  | none => .ok true) = allOk (fun x => validate L v x) js := by
                split
                · rename_i l h; cases h; exact absurd rfl (hv' l)
                · rename_i h; cases h; rfl
                · rename_i h; cases h
              rw [he]
              refine Decides.iff (Decides.all fun x hx => ihitems v (has_member.2 e) hv' (hj x hx)
                (hn.sub (fun k h => .value (member_mem e) h) fun k h => .elem hx h)) ?_
              constructor
              · intro h
                refine ⟨?_, ?_⟩
                · intro s hs _
                  rw [has_member, e] at hs
                  cases hs
                  exact h
                · intro l hl
                  rw [has_member, e] at hl
                  cases hl
                  exact absurd rfl (hv' l)
              · exact fun h => h.1 v (has_member.2 e) hv'
      | obj os =>
        unfold kindKeys
        simp only
        rw [if_pos (applies_of ht fun t => hasType_obj)]
        cases hj with
        | obj _ hj =>
          refine Decides.also ?_ fun _ => Decides.bool (extraMembers_iff props fun ps a s k v h1 h2 h3 =>
            hn a k (.value (member_mem (has_member.1 h1)) (.here h2)) (.here h3))
          cases e : member ms "properties" with
          | none => exact Decides.bool (by simp [has_member, e])
          | some v =>
            obtain ⟨ps, rfl⟩ := props v (has_member.2 e)
            simp only
            refine Decides.iff (Decides.all (P := fun p => (∀ v, Member p.1 v os → Valid p.2 v) ∧
              (∀ l, Member "required" (.arr l) ms → .str p.1 ∈ l → ∃ v, Member p.1 v os)) fun p hp => ?_) ?_
            · unfold propKey
              cases e' : member os p.1 with
              | none =>
                refine Decides.bool ?_
                simp only [has_member (ms := os), e', reduceCtorEq, exists_false, false_imp_iff, Bool.not_eq_true',
                  ← Bool.not_eq_true, isRequired_iff]
                constructor
                · exact fun h => ⟨fun _ => trivial, fun l h1 h2 => h ⟨l, h1, h2⟩⟩
                · exact fun h ⟨l, h1, h2⟩ => h.2 l h1 h2
              | some v =>
                have hm := member_mem e'
                refine Decides.iff (ihprop ps (has_member.2 e) p.1 p.2 hp (hj _ _ hm)
                  (hn.sub (fun k h => .value (member_mem e) (.value hp h)) fun k h => .value hm h)) ?_
                simp [has_member, e']
            · constructor
              · intro h ps' hps
                rw [has_member, e] at hps
                cases hps
                exact h
              · exact fun h => h ps (has_member.2 e)

end Ladder
