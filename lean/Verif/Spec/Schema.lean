import Verif.Model.Schema
import Verif.Spec.Json

/-
JSON Schema (draft 7): when a value satisfies a schema, for the assertions and applicators that the validator or the schema of the
project mention; which schemas the validator of the project supports.
-/

set_option autoImplicit false

namespace Ladder.Spec

/-- The types of JSON Schema; an integer is a number without a fraction. -/
def HasType (t : String) (j : Json) : Prop :=
  (t = "null" ∧ j = .null) ∨ (t = "boolean" ∧ ∃ b, j = .bool b) ∨ (t = "number" ∧ ∃ x, j = .num x) ∨
    (t = "integer" ∧ ∃ k : Int, j = .num (.fin k)) ∨ (t = "string" ∧ ∃ s, j = .str s) ∨ (t = "array" ∧ ∃ l, j = .arr l) ∨
    (t = "object" ∧ ∃ os, j = .obj os)

/-- The order of numbers. -/
def AtMost : Num → Num → Prop
  | .fin a, .fin b => a ≤ b
  | .fin _, .inf neg => neg = false
  | .inf neg, .fin _ => neg = true
  | .inf a, .inf b => a = true ∨ b = false

/-- The assertions that use no other schema. -/
structure Asserts (ms : List (String × Json)) (j : Json) : Prop where
  type : ∀ t, Member "type" (.str t) ms → HasType t j
  types : ∀ l, Member "type" (.arr l) ms → ∃ t, .str t ∈ l ∧ HasType t j
  enum : ∀ l, Member "enum" (.arr l) ms → j ∈ l
  const : ∀ v, Member "const" v ms → j = v
  minimum : ∀ x m, j = .num x → Member "minimum" (.num m) ms → AtMost m x
  maximum : ∀ x m, j = .num x → Member "maximum" (.num m) ms → AtMost x m
  minLength : ∀ s k, j = .str s → Number "minLength" k ms → k ≤ s.length
  maxLength : ∀ s k, j = .str s → Number "maxLength" k ms → s.length ≤ k
  minItems : ∀ l k, j = .arr l → Number "minItems" k ms → k ≤ l.length
  maxItems : ∀ l k, j = .arr l → Number "maxItems" k ms → l.length ≤ k
  required : ∀ os l k, j = .obj os → Member "required" (.arr l) ms → .str k ∈ l → ∃ v, (k, v) ∈ os

theorem sizeOf_first {name : String} {v : Json} {ms : List (String × Json)} (h : Member name v ms) : sizeOf v < sizeOf ms := by
  induction h with
  | here ms => simp; omega
  | there _ _ ih => simp; omega

set_option linter.unusedVariables false in
/-- The value `j` satisfies the schema. -/
def Valid (schema j : Json) : Prop :=
  match schema with
  | .bool b => b = true
  | .obj ms =>
    Asserts ms j ∧
    (∀ l, (h : Member "allOf" (.arr l) ms) → ∀ s, (hs : s ∈ l) → Valid s j) ∧
    (∀ l, (h : Member "anyOf" (.arr l) ms) → ∃ s, ∃ hs : s ∈ l, Valid s j) ∧
    (∀ s, (h : Member "not" s ms) → ¬ Valid s j) ∧
    (∀ a b, (h : Member "if" a ms) → (h' : Member "then" b ms) → Valid a j → Valid b j) ∧
    (∀ a b, (h : Member "if" a ms) → (h' : Member "else" b ms) → ¬ Valid a j → Valid b j) ∧
    (∀ s js, j = .arr js → (h : Member "items" s ms) → (∀ l, s ≠ .arr l) → ∀ x ∈ js, Valid s x) ∧
    (∀ l js, j = .arr js → (h : Member "items" (.arr l) ms) → ∀ (i : Nat) s x, (hs : l[i]? = some s) → js[i]? = some x → Valid s x) ∧
    (∀ l s js, j = .arr js → Member "items" (.arr l) ms → (h : Member "additionalItems" s ms) →
      ∀ (i : Nat) x, l.length ≤ i → js[i]? = some x → Valid s x) ∧
    (∀ ps os, j = .obj os → (h : Member "properties" (.obj ps) ms) → ∀ k s v, (hs : (k, s) ∈ ps) → Member k v os → Valid s v) ∧
    (∀ s os, j = .obj os → (h : Member "additionalProperties" s ms) → ∀ k v, (k, v) ∈ os →
      (∀ ps w, Member "properties" (.obj ps) ms → (k, w) ∉ ps) → Valid s v)
  | _ => False
termination_by sizeOf schema
decreasing_by
  · have := sizeOf_first h; have := List.sizeOf_lt_of_mem hs; simp at *; omega
  · have := sizeOf_first h; have := List.sizeOf_lt_of_mem hs; simp at *; omega
  · have := sizeOf_first h; simp; omega
  · have := sizeOf_first h; simp; omega
  · have := sizeOf_first h'; simp; omega
  · have := sizeOf_first h; simp; omega
  · have := sizeOf_first h'; simp; omega
  · have := sizeOf_first h; simp; omega
  · have := sizeOf_first h; have := List.sizeOf_lt_of_mem (List.mem_of_getElem? hs); simp at *; omega
  · have := sizeOf_first h; simp; omega
  · have := sizeOf_first h; have := List.sizeOf_lt_of_mem hs; simp at *; omega
  · have := sizeOf_first h; simp; omega

/-! ### What the validator supports -/

/-- A value without numbers and without parts. -/
inductive Scalar : Json → Prop where
  | null : Scalar .null
  | bool (b : Bool) : Scalar (.bool b)
  | str (s : String) : Scalar (.str s)

/-- The comparison of the library recognises the scalars. -/
def Exact (L : Lib) : Prop := ∀ j v, Scalar v → (L.compare j v = true ↔ j = v)

/-- The keywords without effect on validity. -/
def notes : List String := ["$schema", "$id", "$comment", "title", "description", "default", "examples"]

/-- The keywords of the validator, except for the conditional. -/
def keywords : List String :=
  ["allOf", "type", "enum", "const", "minimum", "maximum", "minLength", "maxLength", "items", "additionalItems", "minItems", "maxItems",
    "properties", "required", "additionalProperties"]

/-- The names of types. -/
def typeNames : List String := ["null", "boolean", "number", "integer", "string", "array", "object"]

/-- A keyword whose value is a size. -/
def SizeKey (name : String) (ms : List (String × Json)) : Prop :=
  ∀ v, Member name v ms → ∃ n : Nat, n < 2 ^ 31 ∧ v = .num (.fin n)

/-- A keyword whose value is true or false. -/
def Switch (name : String) (ms : List (String × Json)) : Prop := ∀ v, Member name v ms → ∃ b, v = .bool b

/-- The keywords without other schemas are used as the validator expects them: one type by its name, scalars in `enum` and `const`,
sizes that fit, and in `required` only names that `properties` lists. -/
structure Regular (ms : List (String × Json)) : Prop where
  type : ∀ v, Member "type" v ms → ∃ t ∈ typeNames, v = .str t
  enum : ∀ v, Member "enum" v ms → ∃ l, v = .arr l ∧ ∀ x ∈ l, Scalar x
  const : ∀ v, Member "const" v ms → Scalar v
  minLength : SizeKey "minLength" ms
  maxLength : SizeKey "maxLength" ms
  minItems : SizeKey "minItems" ms
  maxItems : SizeKey "maxItems" ms
  additionalItems : Switch "additionalItems" ms
  additionalProperties : Switch "additionalProperties" ms
  required : ∀ l k, Member "required" (.arr l) ms → .str k ∈ l → ∃ ps s, Member "properties" (.obj ps) ms ∧ (k, s) ∈ ps

/-- A schema within the subset of the validator: conditionals stand alone, all other keywords are those of the validator. -/
inductive Supported : Json → Prop where
  | bool (b : Bool) : Supported (.bool b)
  | cond {ms : List (String × Json)} {a b : Json} (only : ∀ k v, (k, v) ∈ ms → k = "if" ∨ k = "then" ∨ k ∈ notes)
      (ha : Member "if" a ms) (hb : Member "then" b ms) (sa : Supported a) (sb : Supported b) : Supported (.obj ms)
  | obj {ms : List (String × Json)} (only : ∀ k v, (k, v) ∈ ms → k ∈ keywords ∨ k ∈ notes) (regular : Regular ms)
      (all : ∀ v, Member "allOf" v ms → ∃ l, v = .arr l) (each : ∀ l, Member "allOf" (.arr l) ms → ∀ s ∈ l, Supported s)
      (items : ∀ s, Member "items" s ms → (∀ l, s ≠ .arr l) → Supported s)
      (tuple : ∀ l, Member "items" (.arr l) ms → ∀ s ∈ l, Supported s)
      (props : ∀ v, Member "properties" v ms → ∃ ps, v = .obj ps)
      (prop : ∀ ps, Member "properties" (.obj ps) ms → ∀ k s, (k, s) ∈ ps → Supported s) : Supported (.obj ms)

/-- A document whose numbers are in the range of `int` and whose texts take one byte per character. -/
inductive Modest : Json → Prop where
  | null : Modest .null
  | bool (b : Bool) : Modest (.bool b)
  | num (q : Rat) (lo : -2 ^ 31 - 1 < q) (hi : q < 2 ^ 31) : Modest (.num (.fin q))
  | str (s : String) (h : s.utf8ByteSize = s.length) : Modest (.str s)
  | arr (l : List Json) (h : ∀ x ∈ l, Modest x) : Modest (.arr l)
  | obj (os : List (String × Json)) (h : ∀ k v, (k, v) ∈ os → Modest v) : Modest (.obj os)

/-- The name is that of a member somewhere in the value. -/
inductive Says (k : String) : Json → Prop where
  | here {ms : List (String × Json)} {v : Json} (h : (k, v) ∈ ms) : Says k (.obj ms)
  | elem {l : List Json} {x : Json} (h : x ∈ l) (s : Says k x) : Says k (.arr l)
  | value {ms : List (String × Json)} {n : String} {v : Json} (h : (n, v) ∈ ms) (s : Says k v) : Says k (.obj ms)

/-- No name in the document is a name of the schema except for upper and lower case. -/
def Spelled (schema j : Json) : Prop := ∀ a b, Says a schema → Says b j → lower a = lower b → a = b

end Ladder.Spec
