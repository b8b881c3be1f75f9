import Verif.Model.Shipped
import Verif.Lemmas.Schema

/-
A test for the schemas that the validator supports, applied to the schema that comes with the library.
-/

set_option autoImplicit false

namespace Ladder

open Spec

/-- Test of a value without numbers and parts. -/
def scalarTest : Json → Bool
  | .null | .bool _ | .str _ => true
  | _ => false

/-- Test of a size. -/
def sizedTest (name : String) (ms : List (String × Json)) : Bool :=
  match member ms name with
  | none => true
  | some (.num (.fin q)) => decide (q.den = 1 ∧ 0 ≤ q.num ∧ q.num < 2 ^ 31)
  | _ => false

/-- Test of a switch. -/
def switchTest (name : String) (ms : List (String × Json)) : Bool :=
  match member ms name with
  | none => true
  | some (.bool _) => true
  | _ => false

/-- Test of `Regular`. -/
def regularTest (ms : List (String × Json)) : Bool :=
  (match member ms "type" with
    | none => true
    | some (.str t) => typeNames.contains t
    | _ => false) &&
  (match member ms "enum" with
    | none => true
    | some (.arr l) => l.all scalarTest
    | _ => false) &&
  (match member ms "const" with
    | none => true
    | some v => scalarTest v) &&
  sizedTest "minLength" ms && sizedTest "maxLength" ms && sizedTest "minItems" ms && sizedTest "maxItems" ms &&
  switchTest "additionalItems" ms && switchTest "additionalProperties" ms &&
  (match member ms "required" with
    | some (.arr l) => l.all fun
      | .str k =>
        match member ms "properties" with
        | some (.obj ps) => ps.any fun p => p.1 == k
        | _ => false
      | _ => true
    | _ => true)

/-- The schemas in a schema. -/
def parts (ms : List (String × Json)) : List Json :=
  (match member ms "allOf" with
    | some (.arr l) => l
    | _ => []) ++
  (match member ms "items" with
    | some (.arr l) => l
    | some s => [s]
    | none => []) ++
  (match member ms "properties" with
    | some (.obj ps) => ps.map (·.2)
    | _ => [])

/-- Test of the kinds of `allOf` and `properties`. -/
def shapeTest (ms : List (String × Json)) : Bool :=
  (match member ms "allOf" with
    | none => true
    | some (.arr _) => true
    | _ => false) &&
  (match member ms "properties" with
    | none => true
    | some (.obj _) => true
    | _ => false)

/-- Test of `Supported`, to a depth. -/
def supportedTest : Nat → Json → Bool
  | 0, _ => false
  | _ + 1, .bool _ => true
  | n + 1, .obj ms =>
    match member ms "if", member ms "then" with
    | some a, some b => (ms.all fun p => p.1 == "if" || p.1 == "then" || notes.contains p.1) && supportedTest n a && supportedTest n b
    | _, _ => (ms.all fun p => keywords.contains p.1 || notes.contains p.1) && regularTest ms && shapeTest ms && (parts ms).all (supportedTest n)
  | _ + 1, _ => false

theorem scalar_of {j : Json} (h : scalarTest j = true) : Scalar j := by
  cases j <;> first | (cases h; done) | constructor

theorem sized_of {name : String} {ms : List (String × Json)} (h : sizedTest name ms = true) : SizeKey name ms := by
  intro v hv
  unfold sizedTest at h
  rw [has_member.1 hv] at h
  split at h
  · rename_i e; cases e
  · rename_i q e
    cases e
    rw [decide_eq_true_iff] at h
    obtain ⟨h1, h2, h3⟩ := h
    refine ⟨q.num.toNat, by omega, ?_⟩
    have : (q.num.toNat : Rat) = q := by
      rw [← Rat.intCast_natCast, Int.toNat_of_nonneg h2]
      exact Rat.ext (by simp) (by simp [h1])
    rw [this]
  · cases h

theorem switch_of {name : String} {ms : List (String × Json)} (h : switchTest name ms = true) : Switch name ms := by
  intro v hv
  unfold switchTest at h
  rw [has_member.1 hv] at h
  split at h
  · rename_i e; cases e
  · rename_i b e; cases e; exact ⟨b, rfl⟩
  · cases h

theorem regular_of {ms : List (String × Json)} (h : regularTest ms = true) : Regular ms := by
  unfold regularTest at h
  simp only [Bool.and_eq_true] at h
  obtain ⟨⟨⟨⟨⟨⟨⟨⟨⟨h1, h2⟩, h3⟩, h4⟩, h5⟩, h6⟩, h7⟩, h8⟩, h9⟩, h10⟩ := h
  refine ⟨?_, ?_, ?_, sized_of h4, sized_of h5, sized_of h6, sized_of h7, switch_of h8, switch_of h9, ?_⟩
  · intro v hv
    rw [has_member.1 hv] at h1
    split at h1
    · rename_i e; cases e
    · rename_i t e; cases e; exact ⟨t, by simpa using h1, rfl⟩
    · cases h1
  · intro v hv
    rw [has_member.1 hv] at h2
    split at h2
    · rename_i e; cases e
    · rename_i l e; cases e; exact ⟨l, rfl, fun x hx => scalar_of (List.all_eq_true.1 h2 x hx)⟩
    · cases h2
  · intro v hv
    rw [has_member.1 hv] at h3
    exact scalar_of h3
  · intro l k hl hk
    rw [has_member.1 hl] at h10
    have := List.all_eq_true.1 h10 _ hk
    simp only at this
    split at this
    · rename_i ps e
      rw [List.any_eq_true] at this
      obtain ⟨⟨a, s⟩, h1, h2⟩ := this
      simp only [beq_iff_eq] at h2
      subst h2
      exact ⟨ps, s, has_member.2 e, h1⟩
    · cases this

theorem supported_of : ∀ {n : Nat} {j : Json}, supportedTest n j = true → Supported j
  | 0, _, h => by cases h
  | n + 1, j, h => by
    cases j with
    | bool b => exact .bool b
    | obj ms =>
      unfold supportedTest at h
      split at h
      · rename_i a b ha hb
        simp only [Bool.and_eq_true] at h
        obtain ⟨⟨h1, h2⟩, h3⟩ := h
        refine .cond (fun k v hk => ?_) (has_member.2 ha) (has_member.2 hb) (supported_of h2) (supported_of h3)
        have := List.all_eq_true.1 h1 _ hk
        simp only [Bool.or_eq_true, beq_iff_eq, List.contains_iff_mem] at this
        rcases this with (h | h) | h
        · exact .inl h
        · exact .inr (.inl h)
        · exact .inr (.inr h)
      · simp only [Bool.and_eq_true] at h
        obtain ⟨⟨⟨h1, h2⟩, h3⟩, h4⟩ := h
        have sub : ∀ s ∈ parts ms, Supported s := fun s hs => supported_of (List.all_eq_true.1 h4 s hs)
        unfold parts at sub
        unfold shapeTest at h3
        rw [Bool.and_eq_true] at h3
        refine .obj (fun k v hk => ?_) (regular_of h2) ?_ ?_ ?_ ?_ ?_ ?_
        · have := List.all_eq_true.1 h1 _ hk
          simpa only [Bool.or_eq_true, List.contains_iff_mem] using this
        · intro v hv
          have := h3.1
          rw [has_member.1 hv] at this
          split at this
          · rename_i e; cases e
          · rename_i l e; cases e; exact ⟨l, rfl⟩
          · cases this
        · intro l hl s hs
          refine sub s (List.mem_append_left _ (List.mem_append_left _ ?_))
          rw [has_member.1 hl]
          exact hs
        · intro s hs hn
          refine sub s (List.mem_append_left _ (List.mem_append_right _ ?_))
          rw [has_member.1 hs]
          split
          · rename_i l e; cases e; exact absurd rfl (hn l)
          · rename_i e; cases e; simp
          · rename_i e; cases e
        · intro l hl s hs
          refine sub s (List.mem_append_left _ (List.mem_append_right _ ?_))
          rw [has_member.1 hl]
          exact hs
        · intro v hv
          have := h3.2
          rw [has_member.1 hv] at this
          split at this
          · rename_i e; cases e
          · rename_i l e; cases e; exact ⟨l, rfl⟩
          · cases this
        · intro ps hps k s hs
          refine sub s (List.mem_append_right _ ?_)
          rw [has_member.1 hps]
          exact List.mem_map.2 ⟨_, hs, rfl⟩
    | _ => cases h

theorem shipped_supported : Supported shipped := supported_of (n := 30) (by decide +kernel)

end Ladder
