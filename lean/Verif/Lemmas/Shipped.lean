import Verif.Model.Shipped
import Verif.Spec.Form
import Verif.Lemmas.Schema

/-
What the validator accepts under the schema that comes with the library.
-/

set_option autoImplicit false

namespace Ladder

open Spec

theorem also_true {a b : Except UB Bool} : also a b = .ok true ↔ a = .ok true ∧ b = .ok true := by
  unfold also
  split <;> simp

theorem allOk_true {α : Type} {f : α → Except UB Bool} : ∀ {l : List α}, allOk f l = .ok true ↔ ∀ x ∈ l, f x = .ok true
  | [] => by simp [allOk]
  | x :: xs => by simp [allOk, also_true, allOk_true]

theorem ok_true {b : Bool} : (Except.ok b : Except UB Bool) = .ok true ↔ b = true := by simp

theorem validate_true {L : Lib} {ms : List (String × Json)} {j : Json} (h : member ms "if" = none ∨ member ms "then" = none) :
    validate L (.obj ms) j = .ok true ↔ allKey L ms j = .ok true ∧ typeKey ms j = .ok true ∧
      (enumKey L ms j = true ∧ constKey L ms j = true) ∧ kindKeys L ms j = .ok true := by
  rw [validate_obj h, also_true, also_true, also_true, ok_true, Bool.and_eq_true]

/-- One of the texts. -/
def Choice.names : Choice → List String
  | .among l => l
  | .just s => [s]

theorem choice_str {L : Lib} (hL : Exact L) {c : Choice} {s : String} :
    validate L (.obj [c.key]) (.str s) = .ok (decide (s ∈ c.names)) := by
  have e : ∀ v, L.compare (.str s) (.str v) = decide (s = v) := by
    intro v
    rw [Bool.eq_iff_iff, hL _ _ (.str v), decide_eq_true_iff]
    simp
  cases c with
  | just v =>
    rw [validate_obj (.inl (by simp [member, Choice.key]))]
    simp [allKey, typeKey, strMember, enumKey, constKey, kindKeys, applies, stringKeys, member, Choice.key, also, Choice.names, e]
    by_cases h : s = v <;> simp [h]
  | among l =>
    rw [validate_obj (.inl (by simp [member, Choice.key]))]
    have : (l.any fun v => decide (s = v)) = decide (s ∈ l) := by
      rw [Bool.eq_iff_iff, List.any_eq_true, decide_eq_true_iff]
      simp
    simp [allKey, typeKey, strMember, enumKey, constKey, kindKeys, applies, stringKeys, member, Choice.key, also, Choice.names, e,
      List.any_map, Function.comp_def, this]
    by_cases h : s ∈ l <;> simp [h]

theorem ofType_true {L : Lib} {t : String} {j : Json} (ht : t ≠ "array" ∧ t ≠ "object") :
    validate L (ofType t) j = .ok true ↔ typeOk t j = .ok true := by
  unfold ofType
  rw [validate_true (.inl (by simp [member]))]
  simp [allKey, typeKey, strMember, enumKey, constKey, kindKeys, applies, member]
  intro h
  cases j <;> simp [numberKeys, stringKeys, member]
  · intro e; exact absurd e ht.1
  · intro e; exact absurd e ht.2

theorem typed_true {L : Lib} (hL : Exact L) {l : List String} {j : Json} :
    validate L (.obj [("type", .str "string"), (Choice.among l).key]) j = .ok true ↔ ∃ s, j = .str s ∧ s ∈ l := by
  rw [validate_true (.inl (by simp [member, Choice.key]))]
  simp [allKey, typeKey, strMember, enumKey, constKey, member, Choice.key]
  constructor
  · rintro ⟨h1, ⟨x, h2, h3⟩, -⟩
    rw [hL _ _ (.str x)] at h3
    exact ⟨x, h3, h2⟩
  · rintro ⟨s, rfl, h⟩
    refine ⟨rfl, ⟨s, h, (hL _ _ (.str s)).2 rfl⟩, ?_⟩
    simp [kindKeys, applies, stringKeys, strMember, member]

theorem listOf_true {L : Lib} {ms : List (String × Json)} {j : Json} :
    validate L (listOf (.obj ms)) j = .ok true ↔ ∃ l, j = .arr l ∧ ∀ x ∈ l, validate L (.obj ms) x = .ok true := by
  unfold listOf
  rw [validate_true (.inl (by simp [member]))]
  simp [allKey, typeKey, strMember, enumKey, constKey, member]
  cases j <;> simp [typeOk, kindKeys, arrayKeys, applies, strMember, sizeKeys, member, also_true, allOk_true]

theorem required_map {ps ms : List (String × Json)} {k : String} {s : Json}
    (h : member ms "required" = some (.arr (ps.map fun p => .str p.1))) (hk : (k, s) ∈ ps) : isRequired ms k = true :=
  isRequired_iff.2 ⟨_, has_member.2 h, List.mem_map.2 ⟨_, hk, rfl⟩⟩

theorem record_keys {L : Lib} {ps ms : List (String × Json)} {os : List (String × Json)}
    (hp : member ms "properties" = some (.obj ps)) (hr : member ms "required" = some (.arr (ps.map fun p => .str p.1)))
    (ha : member ms "additionalProperties" = some (.bool false)) :
    objectKeys L ms os = .ok true ↔ (∀ k s, (k, s) ∈ ps → ∃ v, Member k v os ∧ validate L s v = .ok true) ∧
      Closed (ps.map (·.1)) os := by
  unfold objectKeys
  rw [also_true, hp]
  simp only [allOk_true, ok_true]
  refine and_congr ?_ ?_
  · constructor
    · intro h k s hk
      have := h (k, s) hk
      unfold propKey at this
      simp only at this
      split at this
      · rw [required_map hr hk] at this
        cases this
      · rename_i v e
        exact ⟨v, has_member.2 e, this⟩
    · rintro h ⟨k, s⟩ hk
      obtain ⟨v, h1, h2⟩ := h k s hk
      unfold propKey
      simp only [has_member.1 h1, h2]
  · unfold extraMembers
    rw [ha, hp]
    simp only [List.all_eq_true, hasItem, List.any_eq_true, beq_iff_eq, Closed, Prod.forall, List.mem_map]
    constructor
    · intro h k v hv
      obtain ⟨p, h1, h2⟩ := h k v hv
      exact ⟨p.1, ⟨p, h1, rfl⟩, h2⟩
    · intro h k v hv
      obtain ⟨_, ⟨p, h1, rfl⟩, h2⟩ := h k v hv
      exact ⟨p, h1, h2⟩

theorem record_any {L : Lib} {ps ms : List (String × Json)} {j : Json} (hi : member ms "if" = none)
    (ht : member ms "type" = some (.str "object")) (he : member ms "enum" = none) (hc : member ms "const" = none)
    (hp : member ms "properties" = some (.obj ps)) (hr : member ms "required" = some (.arr (ps.map fun p => .str p.1)))
    (ha : member ms "additionalProperties" = some (.bool false)) :
    validate L (.obj ms) j = .ok true ↔ allKey L ms j = .ok true ∧
      ∃ os, j = .obj os ∧ (∀ k s, (k, s) ∈ ps → ∃ v, Member k v os ∧ validate L s v = .ok true) ∧ Closed (ps.map (·.1)) os := by
  rw [validate_true (.inl hi)]
  refine and_congr_right fun _ => ?_
  have h1 : typeKey ms j = typeOk "object" j := by unfold typeKey strMember; rw [ht]
  have h2 : enumKey L ms j = true := by unfold enumKey; rw [he]
  have h3 : constKey L ms j = true := by unfold constKey; rw [hc]
  have h4 : applies ms ["object"] = true := by unfold applies strMember; rw [ht]; rfl
  rw [h1, h2, h3]
  cases j <;> simp [typeOk]
  rename_i os
  simp only [kindKeys]
  rw [if_pos h4, record_keys hp hr ha]

theorem record_true {L : Lib} {ps : List (String × Json)} {j : Json} :
    validate L (record ps []) j = .ok true ↔
      ∃ os, j = .obj os ∧ (∀ k s, (k, s) ∈ ps → ∃ v, Member k v os ∧ validate L s v = .ok true) ∧ Closed (ps.map (·.1)) os := by
  unfold record
  rw [record_any (ps := ps) rfl rfl rfl rfl rfl rfl rfl]
  exact ⟨fun h => h.2, fun h => ⟨rfl, h⟩⟩

theorem record_all {L : Lib} {ps : List (String × Json)} {l : List Json} {j : Json} :
    validate L (record ps [("allOf", .arr l)]) j = .ok true ↔
      (∀ s ∈ l, validate L s j = .ok true) ∧
      ∃ os, j = .obj os ∧ (∀ k s, (k, s) ∈ ps → ∃ v, Member k v os ∧ validate L s v = .ok true) ∧ Closed (ps.map (·.1)) os := by
  unfold record
  rw [record_any (ps := ps) rfl rfl rfl rfl rfl rfl rfl]
  refine and_congr_left fun _ => ?_
  rw [← allOk_true]
  rfl

/-! ### The rules -/

theorem within_eq {L : Lib} {name : String} {s v : Json} {os : List (String × Json)} (h : Member name v os) :
    validate L (within name s) (.obj os) = validate L s v := by
  unfold within
  rw [validate_obj (.inl rfl)]
  have : objectKeys L [("properties", .obj [(name, s)])] os = validate L s v := by
    show also (also (propKey L _ os (name, s)) (.ok true)) (.ok true) = _
    unfold propKey
    simp only [has_member.1 h]
    cases e : validate L s v with
    | error e => rfl
    | ok b => cases b <;> rfl
  rw [← this]
  rfl

theorem props_true {L : Lib} {ps os : List (String × Json)} :
    validate L (.obj [("properties", .obj ps)]) (.obj os) = .ok true ↔
      ∀ k s, (k, s) ∈ ps → ∀ v, Member k v os → validate L s v = .ok true := by
  rw [validate_true (.inl rfl)]
  have : kindKeys L [("properties", .obj ps)] (.obj os) = also (allOk (propKey L [("properties", .obj ps)] os) ps) (.ok true) := rfl
  rw [this, also_true, allOk_true]
  constructor
  · rintro ⟨-, -, -, h, -⟩ k s hk v hv
    have := h (k, s) hk
    unfold propKey at this
    simpa only [has_member.1 hv] using this
  · intro h
    refine ⟨rfl, rfl, ⟨rfl, rfl⟩, ?_, rfl⟩
    rintro ⟨k, s⟩ hk
    unfold propKey
    cases e : member os k with
    | none => simp [isRequired, member]
    | some v => simpa only [e] using h k s hk v (has_member.2 e)

theorem part_true {L : Lib} (hL : Exact L) {p : String × Choice} {os : List (String × Json)} {n t v : String}
    (hn : Member "name" (.str n) os) (ht : Member "type" (.str t) os) (hv : Member "value" (.str v) os) :
    validate L (partSchema p) (.obj os) = .ok true ↔ n = p.1 ∧ t ∈ p.2.names := by
  unfold partSchema
  rw [props_true]
  simp only [has_member] at hn ht hv ⊢
  simp only [List.mem_cons, List.not_mem_nil, or_false, Prod.mk.injEq]
  constructor
  · intro h
    have h1 := h _ _ (.inl ⟨rfl, rfl⟩) _ hn
    have h2 := h _ _ (.inr (.inl ⟨rfl, rfl⟩)) _ ht
    rw [choice_str hL, ok_true, decide_eq_true_iff] at h1 h2
    exact ⟨by simpa [Choice.names] using h1, h2⟩
  · rintro ⟨h1, h2⟩ k s (⟨rfl, rfl⟩ | ⟨rfl, rfl⟩ | ⟨rfl, rfl⟩) w hw
    · rw [hn] at hw
      cases hw
      rw [choice_str hL, ok_true, decide_eq_true_iff]
      simpa [Choice.names] using h1
    · rw [ht] at hw
      cases hw
      rw [choice_str hL, ok_true, decide_eq_true_iff]
      exact h2
    · rw [hv] at hw
      cases hw
      exact (ofType_true (by decide)).2 rfl

theorem data_true {L : Lib} {parts : List (String × Choice)} {l : List Json} (hp : parts.length < 2 ^ 31) :
    validate L (dataSchema parts) (.arr l) = .ok true ↔ l.length = parts.length ∧
      ∀ (i : Nat) p x, parts[i]? = some p → l[i]? = some x → validate L (partSchema p) x = .ok true := by
  have hs : ∀ ms, member ms "minItems" = some (.num (.fin parts.length)) → member ms "maxItems" = some (.num (.fin parts.length)) →
      (sizeKeys ms l.length = true ↔ l.length = parts.length) := by
    intro ms h1 h2
    unfold sizeKeys
    rw [h1, h2]
    simp only [int_size hp]
    simp only [Bool.and_eq_true, Bool.not_eq_true', decide_eq_false_iff_not]
    omega
  unfold dataSchema
  by_cases h0 : parts = []
  · subst h0
    rw [if_pos rfl, validate_true (.inl rfl)]
    have := hs ([("minItems", .num (.fin ([] : List (String × Choice)).length)), ("maxItems", .num (.fin ([] : List (String × Choice)).length))] ++ []) rfl rfl
    constructor
    · rintro ⟨-, -, -, h⟩
      have h : also (.ok true) (.ok (sizeKeys _ l.length)) = .ok true := h
      have h' := ok_true.1 (also_true.1 h).2
      exact ⟨this.1 h', fun i p x h => by cases h⟩
    · rintro ⟨h, -⟩
      exact ⟨rfl, rfl, ⟨rfl, rfl⟩, also_true.2 ⟨rfl, ok_true.2 (this.2 h)⟩⟩
  · rw [if_neg h0, validate_true (.inl rfl)]
    have := hs ([("minItems", .num (.fin parts.length)), ("maxItems", .num (.fin parts.length))] ++ [("items", .arr (parts.map partSchema))]) rfl rfl
    have key : (∀ q ∈ (parts.map partSchema).zip l, validate L q.1 q.2 = .ok true) ↔
        ∀ (i : Nat) p x, parts[i]? = some p → l[i]? = some x → validate L (partSchema p) x = .ok true := by
      constructor
      · intro h i p x e1 e2
        refine h (partSchema p, x) (List.mem_of_getElem? (i := i) (List.getElem?_zip_eq_some.2 ⟨?_, e2⟩))
        rw [List.getElem?_map, e1]
        rfl
      · intro h q hq
        obtain ⟨i, e1, e2⟩ := mem_of_zip hq
        rw [List.getElem?_map] at e1
        obtain ⟨p, e3, e4⟩ := Option.map_eq_some_iff.1 e1
        rw [← e4]
        exact h i p q.2 e3 e2
    constructor
    · rintro ⟨-, -, -, h⟩
      have h : also (also (allOk (fun p => validate L p.1 p.2) ((parts.map partSchema).zip l)) (.ok true)) (.ok (sizeKeys _ l.length)) = .ok true := h
      have h := also_true.1 h
      exact ⟨this.1 (ok_true.1 h.2), key.1 (allOk_true.1 (also_true.1 h.1).1)⟩
    · rintro ⟨h, h'⟩
      exact ⟨rfl, rfl, ⟨rfl, rfl⟩, also_true.2 ⟨also_true.2 ⟨allOk_true.2 (key.2 h'), rfl⟩, ok_true.2 (this.2 h)⟩⟩

theorem rule_true {L : Lib} (hL : Exact L) {r : Choice × List (String × Choice)} {os : List (String × Json)} {s : String} {l : List Json}
    (hs : Member "symbol" (.str s) os) (hd : Member "data" (.arr l) os) :
    validate L (ruleSchema r) (.obj os) = .ok true ↔ (s ∈ r.1.names → validate L (dataSchema r.2) (.arr l) = .ok true) := by
  unfold ruleSchema
  rw [validate_cond rfl rfl, within_eq hs, within_eq hd, choice_str hL]
  by_cases h : s ∈ r.1.names <;> simp [h]

/-- The rule for a symbol, as the description in words has it. -/
def ruleOk (s : String) : Bool :=
  match rules.filter fun r => decide (s ∈ r.1.names) with
  | [r] => formOf s = some (r.2.map fun p => (p.1, p.2.names)) && decide (r.2.length < 2 ^ 31)
  | _ => false

theorem rules_ok : ∀ s ∈ cellSymbols, ruleOk s = true := by decide +kernel

theorem rule_of {s : String} (h : s ∈ cellSymbols) : ∃ r ∈ rules, s ∈ r.1.names ∧ (∀ r' ∈ rules, s ∈ r'.1.names → r' = r) ∧
    formOf s = some (r.2.map fun p => (p.1, p.2.names)) ∧ r.2.length < 2 ^ 31 := by
  have := rules_ok s h
  unfold ruleOk at this
  split at this
  · rename_i r e
    have hr : ∀ r' ∈ rules, s ∈ r'.1.names ↔ r' = r := by
      intro r' h'
      have : r' ∈ rules.filter (fun r => decide (s ∈ r.1.names)) ↔ r' = r := by rw [e]; simp
      rw [← this, List.mem_filter, decide_eq_true_iff]
      exact ⟨fun h => ⟨h', h⟩, fun h => h.2⟩
    have hm : r ∈ rules := by
      have : r ∈ rules.filter (fun r => decide (s ∈ r.1.names)) := by rw [e]; simp
      exact (List.mem_filter.1 this).1
    simp only [Bool.and_eq_true, decide_eq_true_iff] at this
    exact ⟨r, hm, (hr r hm).2 rfl, fun r' h' => (hr r' h').1, this.1, this.2⟩
  · cases this

theorem symbol_of {s : String} {f : List (String × List String)} (h : formOf s = some f) : s ∈ cellSymbols := by
  unfold formOf at h
  split at h <;> first | (cases h; done) | decide

theorem types_ok : ∀ s ∈ cellSymbols, ∀ f ∈ formOf s, ∀ p ∈ f, ∀ t ∈ p.2, t ∈ operandTypes := by decide +kernel

theorem operand_true {L : Lib} (hL : Exact L) {j : Json} : validate L operandSchema j = .ok true ↔
    ∃ os n t v, j = .obj os ∧ Member "name" (.str n) os ∧ Member "type" (.str t) os ∧ t ∈ operandTypes ∧ Member "value" (.str v) os ∧
      Closed ["name", "type", "value"] os := by
  unfold operandSchema
  rw [record_true]
  have text : ∀ j, validate L (ofType "string") j = .ok true ↔ ∃ s, j = .str s := by
    intro j
    rw [ofType_true (by decide)]
    cases j <;> simp [typeOk]
  constructor
  · rintro ⟨os, rfl, h, hc⟩
    obtain ⟨n, h1, h2⟩ := h "name" _ (List.mem_cons_self ..)
    obtain ⟨t, h3, h4⟩ := h "type" _ (List.mem_cons_of_mem _ (List.mem_cons_self ..))
    obtain ⟨v, h5, h6⟩ := h "value" _ (List.mem_cons_of_mem _ (List.mem_cons_of_mem _ (List.mem_cons_self ..)))
    obtain ⟨n, rfl⟩ := (text _).1 h2
    obtain ⟨t, rfl, ht⟩ := (typed_true hL).1 h4
    obtain ⟨v, rfl⟩ := (text _).1 h6
    exact ⟨os, n, t, v, rfl, h1, h3, ht, h5, hc⟩
  · rintro ⟨os, n, t, v, rfl, h1, h3, ht, h5, hc⟩
    refine ⟨os, rfl, ?_, hc⟩
    intro k s hk
    simp only [List.mem_cons, List.not_mem_nil, or_false, Prod.mk.injEq] at hk
    rcases hk with ⟨rfl, rfl⟩ | ⟨rfl, rfl⟩ | ⟨rfl, rfl⟩
    · exact ⟨_, h1, (text _).2 ⟨n, rfl⟩⟩
    · exact ⟨_, h3, (typed_true hL).2 ⟨t, rfl, ht⟩⟩
    · exact ⟨_, h5, (text _).2 ⟨v, rfl⟩⟩

theorem same_member {os : List (String × Json)} {k : String} {v w : Json} (h : Member k v os) (h' : Member k w os) : v = w := by
  rw [has_member] at h h'
  rw [h] at h'
  cases h'
  rfl

theorem cell_true {L : Lib} (hL : Exact L) {j : Json} : validate L cellSchema j = .ok true ↔ CellForm j := by
  unfold cellSchema
  rw [record_all]
  have flag : ∀ j, validate L (ofType "boolean") j = .ok true ↔ ∃ b, j = .bool b := by
    intro j
    rw [ofType_true (by decide)]
    cases j <;> simp [typeOk]
  constructor
  · rintro ⟨hr, os, rfl, h, hc⟩
    obtain ⟨s, h1, h2⟩ := h "symbol" _ (List.mem_cons_self ..)
    obtain ⟨b, h3, h4⟩ := h "bar" _ (List.mem_cons_of_mem _ (List.mem_cons_self ..))
    obtain ⟨d, h5, h6⟩ := h "data" _ (List.mem_cons_of_mem _ (List.mem_cons_of_mem _ (List.mem_cons_self ..)))
    obtain ⟨s, rfl, hs⟩ := (typed_true hL).1 h2
    obtain ⟨b, rfl⟩ := (flag _).1 h4
    obtain ⟨l, rfl, hl⟩ := listOf_true.1 h6
    obtain ⟨r, r1, r2, r3, r4, r5⟩ := rule_of hs
    have h7 := hr (ruleSchema r) (List.mem_map.2 ⟨r, r1, rfl⟩)
    rw [rule_true hL h1 h5] at h7
    obtain ⟨h8, h9⟩ := (data_true r5).1 (h7 r2)
    refine ⟨os, s, b, l, _, rfl, h1, r4, h3, h5, hc, by simpa using h8, ?_⟩
    intro i p x e1 e2
    rw [List.getElem?_map] at e1
    obtain ⟨q, e3, rfl⟩ := Option.map_eq_some_iff.1 e1
    obtain ⟨os', n, t, v, rfl, g1, g2, g3, g4, g5⟩ := (operand_true hL).1 (hl x (List.mem_of_getElem? e2))
    obtain ⟨rfl, g6⟩ := (part_true hL g1 g2 g4).1 (h9 i q _ e3 e2)
    exact ⟨os', t, v, rfl, g1, g2, g6, g4, g5⟩
  · rintro ⟨os, s, b, l, f, rfl, h1, hf, h3, h5, hc, hlen, hp⟩
    have hs := symbol_of hf
    obtain ⟨r, r1, r2, r3, r4, r5⟩ := rule_of hs
    rw [hf] at r4
    cases r4
    have form : ∀ (i : Nat) q x, r.2[i]? = some q → l[i]? = some x → OperandForm (q.1, q.2.names) x := by
      intro i q x e1 e2
      refine hp i _ x ?_ e2
      rw [List.getElem?_map, e1]
      rfl
    refine ⟨?_, os, rfl, ?_, hc⟩
    · intro q hq
      obtain ⟨r', h', rfl⟩ := List.mem_map.1 hq
      rw [rule_true hL h1 h5]
      intro hn
      cases r3 r' h' hn
      rw [data_true r5]
      refine ⟨by simpa using hlen, ?_⟩
      intro i p x e1 e2
      obtain ⟨os', t, v, rfl, g1, g2, g3, g4, g5⟩ := form i p x e1 e2
      exact (part_true hL g1 g2 g4).2 ⟨rfl, g3⟩
    · intro k s' hk
      simp only [List.mem_cons, List.not_mem_nil, or_false, Prod.mk.injEq] at hk
      rcases hk with ⟨rfl, rfl⟩ | ⟨rfl, rfl⟩ | ⟨rfl, rfl⟩
      · exact ⟨_, h1, (typed_true hL).2 ⟨s, rfl, hs⟩⟩
      · exact ⟨_, h3, (flag _).2 ⟨b, rfl⟩⟩
      · refine ⟨_, h5, listOf_true.2 ⟨l, rfl, ?_⟩⟩
        intro x hx
        obtain ⟨i, hi⟩ := List.getElem?_of_mem hx
        have hi' : i < r.2.length := by
          obtain ⟨h, -⟩ := List.getElem?_eq_some_iff.1 hi
          simp only [List.length_map] at hlen
          omega
        obtain ⟨os', t, v, rfl, g1, g2, g3, g4, g5⟩ := form i _ x (List.getElem?_eq_getElem hi') hi
        refine (operand_true hL).2 ⟨os', _, t, v, rfl, g1, g2, ?_, g4, g5⟩
        exact types_ok s hs _ hf _ (List.mem_map.2 ⟨_, List.getElem_mem hi', rfl⟩) t g3

theorem integer_true {L : Lib} {j : Json} : validate L (ofType "integer") j = .ok true ↔
    ∃ k : Int, j = .num (.fin k) ∧ -2 ^ 31 ≤ k ∧ k < 2 ^ 31 := by
  rw [ofType_true (by decide)]
  cases j with
  | num x =>
    cases x with
    | fin q =>
      simp only [typeOk, isInteger]
      split
      · rename_i h
        rw [ok_true, decide_eq_true_iff]
        constructor
        · intro e
          exact ⟨_, by rw [← e], h⟩
        · rintro ⟨k, e, -⟩
          injection e with e
          injection e with e
          subst e
          simp
      · rename_i h
        simp only [reduceCtorEq, false_iff, not_exists, not_and]
        rintro k e h1 h2
        injection e with e
        injection e with e
        subst e
        simp at h
        omega
    | inf b => simp [typeOk, isInteger]
  | _ => simp [typeOk]

theorem net_true {L : Lib} (hL : Exact L) {j : Json} : validate L netSchema j = .ok true ↔ NetForm j := by
  unfold netSchema
  rw [record_true]
  have rows : ∀ j, validate L (listOf (listOf cellSchema)) j = .ok true ↔
      ∃ l, j = .arr l ∧ ∀ row ∈ l, ∃ cells, row = .arr cells ∧ ∀ x ∈ cells, CellForm x := by
    intro j
    rw [show listOf (listOf cellSchema) = listOf (.obj [("type", .str "array"), ("items", cellSchema)]) from rfl, listOf_true]
    refine exists_congr fun l => and_congr_right fun _ => forall_congr' fun row => imp_congr_right fun _ => ?_
    rw [show (.obj [("type", .str "array"), ("items", cellSchema)] : Json) = listOf cellSchema from rfl]
    unfold cellSchema record
    rw [listOf_true]
    refine exists_congr fun l => and_congr_right fun _ => forall_congr' fun x => imp_congr_right fun _ => ?_
    exact cell_true hL
  constructor
  · rintro ⟨os, rfl, h, hc⟩
    obtain ⟨a, h1, h2⟩ := h "id" _ (List.mem_cons_self ..)
    obtain ⟨b, h3, h4⟩ := h "rows" _ (List.mem_cons_of_mem _ (List.mem_cons_self ..))
    obtain ⟨c, h5, h6⟩ := h "cols" _ (List.mem_cons_of_mem _ (List.mem_cons_of_mem _ (List.mem_cons_self ..)))
    obtain ⟨d, h7, h8⟩ := h "networkData" _ (List.mem_cons_of_mem _ (List.mem_cons_of_mem _ (List.mem_cons_of_mem _ (List.mem_cons_self ..))))
    obtain ⟨i, rfl, i0⟩ := integer_true.1 h2
    obtain ⟨r, rfl, r0⟩ := integer_true.1 h4
    obtain ⟨k, rfl, k0⟩ := integer_true.1 h6
    obtain ⟨l, rfl, hl⟩ := (rows _).1 h8
    exact ⟨os, l, rfl, ⟨i, h1, i0⟩, ⟨r, h3, r0⟩, ⟨k, h5, k0⟩, h7, hc, hl⟩
  · rintro ⟨os, l, rfl, ⟨i, h1, i0⟩, ⟨r, h3, r0⟩, ⟨c, h5, c0⟩, h7, hc, hl⟩
    refine ⟨os, rfl, ?_, hc⟩
    intro k s' hk
    simp only [List.mem_cons, List.not_mem_nil, or_false, Prod.mk.injEq] at hk
    rcases hk with ⟨rfl, rfl⟩ | ⟨rfl, rfl⟩ | ⟨rfl, rfl⟩ | ⟨rfl, rfl⟩
    · exact ⟨_, h1, integer_true.2 ⟨i, rfl, i0⟩⟩
    · exact ⟨_, h3, integer_true.2 ⟨r, rfl, r0⟩⟩
    · exact ⟨_, h5, integer_true.2 ⟨c, rfl, c0⟩⟩
    · exact ⟨_, h7, (rows _).2 ⟨l, rfl, hl⟩⟩

/-- What the validator accepts under the schema that comes with the library. -/
theorem shipped_true {L : Lib} (hL : Exact L) {j : Json} : validate L shipped j = .ok true ↔ ProgramForm j := by
  unfold shipped
  rw [validate_true (.inl rfl)]
  cases j with
  | arr js =>
    have : kindKeys L [("$schema", .str "http://json-schema.org/draft-07/schema#"), ("type", .str "array"), ("items", netSchema)] (.arr js) =
      also (allOk (fun x => validate L netSchema x) js) (.ok true) := rfl
    rw [this, also_true, allOk_true]
    constructor
    · rintro ⟨-, -, -, h, -⟩
      exact ⟨js, rfl, fun x hx => (net_true hL).1 (h x hx)⟩
    · rintro ⟨l, e, h⟩
      cases e
      exact ⟨rfl, rfl, ⟨rfl, rfl⟩, fun x hx => (net_true hL).2 (h x hx), rfl⟩
  | _ =>
    constructor
    · rintro ⟨-, h, -⟩; cases h
    · rintro ⟨l, e, -⟩; cases e

end Ladder
