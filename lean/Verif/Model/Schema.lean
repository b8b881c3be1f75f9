import Verif.Model.Json

/-
Model of the validator of JSON documents, utils/ladder_program_json.c:263-599 (`validate_json`, used by
`ladder_validate_json_file`): whether a document satisfies a JSON Schema.

Not modelled: files and the text level, as in Verif.Model.Json, and the depth of the recursion (the C stack).
-/

set_option autoImplicit false

namespace Ladder

/-- What the library cJSON decides: `cJSON_Compare(a, b, 1)`. -/
structure Lib where
  compare : Json → Json → Bool

/-- `<` on `double` (there is no NaN in a document). -/
def Num.lt : Num → Num → Bool
  | .fin a, .fin b => decide (a < b)
  | .fin _, .inf neg => !neg
  | .inf neg, .fin _ => neg
  | .inf a, .inf b => a && !b

/-- `valueint` of a number: cJSON converts to `int` and saturates. -/
def Num.int (x : Num) : Int :=
  match x with
  | .fin q => max (-2 ^ 31) (min (2 ^ 31 - 1) (q.num.tdiv q.den))
  | .inf neg => if neg then -2 ^ 31 else 2 ^ 31 - 1

/-- `(size_t) n` (64 bits). -/
def sizeOfInt (n : Int) : Nat := (n % 2 ^ 64).toNat

/-- The second test unless the first one fails or is undefined. -/
def also (a b : Except UB Bool) : Except UB Bool :=
  match a with
  | .ok true => b
  | .ok false => .ok false
  | .error e => .error e

/-- The tests in turn until one fails. -/
def allOk {α : Type} (f : α → Except UB Bool) : List α → Except UB Bool
  | [] => .ok true
  | x :: xs => also (f x) (allOk f xs)

/-- `valuedouble == (double) ((int) valuedouble)`, ladder_program_json.c:312: undefined outside the range of `int`. -/
def isInteger (x : Num) : Except UB Bool :=
  match x with
  | .inf _ => .error .floatCast
  | .fin q =>
    if -2 ^ 31 ≤ q.num.tdiv q.den ∧ q.num.tdiv q.den < 2 ^ 31 then .ok (decide (q = (q.num.tdiv q.den : Int)))
    else .error .floatCast

/-- The test of one type name, ladder_program_json.c:303-322. -/
def typeOk (t : String) (j : Json) : Except UB Bool :=
  match t, j with
  | "null", .null => .ok true
  | "boolean", .bool _ => .ok true
  | "number", .num _ => .ok true
  | "integer", .num x => isInteger x
  | "string", .str _ => .ok true
  | "array", .arr _ => .ok true
  | "object", .obj _ => .ok true
  | _, _ => .ok false

/-- The keyword `type`, ladder_program_json.c:295-325: only a string counts. -/
def typeKey (ms : List (String × Json)) (j : Json) : Except UB Bool :=
  match strMember ms "type" with
  | some t => typeOk t j
  | none => .ok true

/-- The keyword `enum`, ladder_program_json.c:328-342. -/
def enumKey (L : Lib) (ms : List (String × Json)) (j : Json) : Bool :=
  match member ms "enum" with
  | some (.arr l) => l.any fun v => L.compare j v
  | _ => true

/-- The keyword `const`, ladder_program_json.c:344-349. -/
def constKey (L : Lib) (ms : List (String × Json)) (j : Json) : Bool :=
  match member ms "const" with
  | some v => L.compare j v
  | none => true

/-- The keywords for numbers, ladder_program_json.c:353-360 and 477-484. -/
def numberKeys (ms : List (String × Json)) (x : Num) : Bool :=
  (match member ms "minimum" with
    | some (.num m) => !x.lt m
    | _ => true) &&
  (match member ms "maximum" with
    | some (.num m) => !m.lt x
    | _ => true)

/-- The keywords for strings, ladder_program_json.c:364-371 and 489-496: the length in bytes. -/
def stringKeys (ms : List (String × Json)) (s : String) : Bool :=
  (match member ms "minLength" with
    | some (.num m) => !decide (s.utf8ByteSize < sizeOfInt m.int)
    | _ => true) &&
  (match member ms "maxLength" with
    | some (.num m) => !decide (sizeOfInt m.int < s.utf8ByteSize)
    | _ => true)

/-- The number of elements, ladder_program_json.c:411-418 and 536-543. -/
def sizeKeys (ms : List (String × Json)) (n : Nat) : Bool :=
  (match member ms "minItems" with
    | some (.num m) => !decide ((n : Int) < m.int)
    | _ => true) &&
  (match member ms "maxItems" with
    | some (.num m) => !decide (m.int < (n : Int))
    | _ => true)

/-- The keyword `additionalItems` beside a list of `k` schemas, for `n` elements, ladder_program_json.c:392-399 and 517-524. -/
def extraItems (ms : List (String × Json)) (k n : Nat) : Bool :=
  match member ms "additionalItems" with
  | some (.bool false) => decide (n ≤ k)
  | _ => true

/-- `is_required`, ladder_program_json.c:428-439 and 554-565. -/
def isRequired (ms : List (String × Json)) (key : String) : Bool :=
  match member ms "required" with
  | some (.arr l) => l.any fun
    | .str s => decide (s = key)
    | _ => false
  | _ => false

/-- `tolower` of every byte in the C locale. -/
def lower (s : String) : List Char := s.toList.map Char.toLower

/-- `cJSON_HasObjectItem`: without regard to upper and lower case. -/
def hasItem (props : Option Json) (key : String) : Bool :=
  match props with
  | some (.obj ps) => ps.any fun p => lower p.1 == lower key
  | _ => false

/-- The keyword `additionalProperties`, ladder_program_json.c:454-468 and 580-594. -/
def extraMembers (ms os : List (String × Json)) : Bool :=
  match member ms "additionalProperties" with
  | some (.bool false) => os.all fun o => hasItem (member ms "properties") o.1
  | _ => true

/-- The keywords of one kind are used when the type is one of those named or, without a type, the value is of that kind. -/
def applies (ms : List (String × Json)) (names : List String) : Bool :=
  match strMember ms "type" with
  | some t => names.contains t
  | none => true

theorem sizeOf_member {ms : List (String × Json)} {k : String} {v : Json} (h : member ms k = some v) : sizeOf v < sizeOf ms := by
  induction ms with
  | nil => cases h
  | cons p ms ih =>
    obtain ⟨a, b⟩ := p
    unfold member at h
    split at h
    · cases h; simp; omega
    · have := ih h; simp; omega

set_option linter.unusedVariables false in
/-- `validate_json`, ladder_program_json.c:263-599.  The keywords of each kind appear twice in the code, once under a type and once
without; the two copies are the same text. -/
def validate (L : Lib) (schema j : Json) : Except UB Bool :=
  match schema with
  | .bool b => .ok b
  | .obj ms =>
    match hi : member ms "if", ht : member ms "then" with
    | some a, some b =>
      match validate L a j with
      | .error e => .error e
      | .ok true => validate L b j
      | .ok false => .ok true
    | _, _ =>
      also
        (match ha : member ms "allOf" with
          | some (.arr l) => allOk (fun s : { x // x ∈ l } => validate L s.1 j) l.attach
          | _ => .ok true) <|
      also (typeKey ms j) <|
      also (.ok (enumKey L ms j && constKey L ms j)) <|
      match j with
      | .num x => .ok (!applies ms ["number", "integer"] || numberKeys ms x)
      | .str s => .ok (!applies ms ["string"] || stringKeys ms s)
      | .arr js =>
        if applies ms ["array"] then
          also
            (match hs : member ms "items" with
              | some (.arr l) =>
                also (allOk (fun p : { x // x ∈ l } × Json => validate L p.1.1 p.2) (l.attach.zip js))
                  (.ok (extraItems ms l.length js.length))
              | some s => allOk (fun x => validate L s x) js
              | none => .ok true)
            (.ok (sizeKeys ms js.length))
        else .ok true
      | .obj os =>
        if applies ms ["object"] then
          also
            (match hp : member ms "properties" with
              | some (.obj ps) => allOk (fun p : { x // x ∈ ps } =>
                  match member os p.1.1 with
                  | none => .ok (!isRequired ms p.1.1)
                  | some v => validate L p.1.2 v) ps.attach
              | _ => .ok true)
            (.ok (extraMembers ms os))
        else .ok true
      | _ => .ok true
  | _ => .ok false
termination_by sizeOf schema
decreasing_by
  · have := sizeOf_member hi; simp; omega
  · have := sizeOf_member ht; simp; omega
  · have := sizeOf_member ha; have := List.sizeOf_lt_of_mem s.2; simp at *; omega
  · have := sizeOf_member hs; have := List.sizeOf_lt_of_mem p.1.2; simp at *; omega
  · have := sizeOf_member hs; simp at *; omega
  · have := sizeOf_member hp; obtain ⟨⟨a, b⟩, hm⟩ := p; have := List.sizeOf_lt_of_mem hm; simp at *; omega

end Ladder
