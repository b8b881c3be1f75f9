import Verif.Model.Types

/-
Specification of cron expressions, written from the documentation in lwdtc.c:155-177 and independent of the parser:
which texts are elements of a field and which values each of them stands for.
-/

set_option autoImplicit false

namespace Ladder.Spec

/-- A decimal digit. -/
def Digit (c : Char) : Prop := '0' ≤ c ∧ c ≤ '9'

instance (c : Char) : Decidable (Digit c) := inferInstanceAs (Decidable ('0' ≤ c ∧ c ≤ '9'))

/-- Value of a decimal text. -/
def decimal (s : List Char) : Nat := s.foldl (fun a c => a * 10 + (c.toNat - 48)) 0

/-- `s` is a non-empty sequence of digits with value `n`. -/
structure Numeral (s : List Char) (n : Nat) : Prop where
  nonempty : s ≠ []
  digits   : ∀ c ∈ s, Digit c
  value    : decimal s = n

/-- `Element lo hi e S`: the text `e` is a documented element of a field with values `lo … hi`, and stands for the
set of values `S`. -/
inductive Element (lo hi : Nat) : List Char → (Nat → Prop) → Prop
  | all : Element lo hi ['*'] fun n => lo ≤ n ∧ n ≤ hi
  | one {s : List Char} {a : Nat} : Numeral s a → lo ≤ a → a ≤ hi → Element lo hi s fun n => n = a
  | range {s t : List Char} {a b : Nat} : Numeral s a → Numeral t b → lo ≤ a → a ≤ b → b ≤ hi →
      Element lo hi (s ++ '-' :: t) fun n => a ≤ n ∧ n ≤ b
  | around {s t : List Char} {a b : Nat} : Numeral s a → Numeral t b → lo ≤ b → b < a → a ≤ hi →
      Element lo hi (s ++ '-' :: t) fun n => (a ≤ n ∧ n ≤ hi) ∨ (lo ≤ n ∧ n ≤ b)
  | every {u : List Char} {k : Nat} : Numeral u k → 1 ≤ k →
      Element lo hi ('*' :: '/' :: u) fun n => n ≤ hi ∧ ∃ i, n = lo + i * k
  | since {s u : List Char} {a k : Nat} : Numeral s a → Numeral u k → lo ≤ a → a ≤ hi → 1 ≤ k →
      Element lo hi (s ++ '/' :: u) fun n => n ≤ hi ∧ ∃ i, n = a + i * k
  | stepped {s t u : List Char} {a b k : Nat} : Numeral s a → Numeral t b → Numeral u k → lo ≤ a → a ≤ b → b ≤ hi →
      1 ≤ k → Element lo hi (s ++ '-' :: t ++ '/' :: u) fun n => n ≤ b ∧ ∃ i, n = a + i * k

/-- Texts that the parser accepts although the documentation does not describe them, or not precisely:
a star as the start of a range, a start outside of the field before a step, and a step in a range that goes around. -/
inductive Oddity (lo hi : Nat) : List Char → Prop
  | starRange {t : List Char} {b : Nat} : Numeral t b → lo ≤ b → b ≤ hi → Oddity lo hi ('*' :: '-' :: t)
  | starRangeStep {t u : List Char} {b k : Nat} : Numeral t b → Numeral u k → lo ≤ b → b ≤ hi → 1 ≤ k →
      Oddity lo hi ('*' :: '-' :: t ++ '/' :: u)
  | beyond {s u : List Char} {a k : Nat} : Numeral s a → Numeral u k → hi < a → Oddity lo hi (s ++ '/' :: u)
  | aroundStep {s t u : List Char} {a b k : Nat} : Numeral s a → Numeral t b → Numeral u k → lo ≤ b → b < a → a ≤ hi →
      1 ≤ k → Oddity lo hi (s ++ '-' :: t ++ '/' :: u)

/-- Bit `n` of a bit map, eight values to a byte. -/
def Has (map : List Byte) (n : Nat) : Prop := (map[n / 8]?.any fun b => b.getLsbD (n % 8)) = true

instance (map : List Byte) (n : Nat) : Decidable (Has map n) := inferInstanceAs (Decidable (_ = true))

/-- The text of a field: its elements separated by commas. -/
def fieldText (es : List (List Char)) : List Char := [','].intercalate es

/-- The elements of a field: at least one, each without comma and space and of at most 18 characters (so that every number
in it is far below 2^64). -/
structure Elements (es : List (List Char)) : Prop where
  nonempty : es ≠ []
  plain    : ∀ e ∈ es, ',' ∉ e ∧ ' ' ∉ e ∧ e.length ≤ 18

/-- A field text is followed by the end of the expression or by a space. -/
def Ends (rest : List Char) : Prop := rest = [] ∨ ∃ r, rest = ' ' :: r

/-- The documented values of a field. -/
def Values (lo hi : Nat) (es : List (List Char)) (n : Nat) : Prop := ∃ e ∈ es, ∃ S, Element lo hi e S ∧ S n

/-- The seven fields of an expression, each a list of elements. -/
structure Expression where
  sec  : List (List Char)
  min  : List (List Char)
  hour : List (List Char)
  mday : List (List Char)
  mon  : List (List Char)
  wday : List (List Char)
  year : List (List Char)

/-- `n` spaces. -/
def spaces (n : Nat) : List Char := List.replicate n ' '

/-- The text of an expression, with `pad k` spaces (one more between two fields) before field `k`. -/
def Expression.text (x : Expression) (pad : Nat → Nat) : List Char :=
  spaces (pad 0) ++ fieldText x.sec ++ (spaces (pad 1 + 1) ++ fieldText x.min ++ (spaces (pad 2 + 1) ++ fieldText x.hour ++
  (spaces (pad 3 + 1) ++ fieldText x.mday ++ (spaces (pad 4 + 1) ++ fieldText x.mon ++ (spaces (pad 5 + 1) ++
  fieldText x.wday ++ (spaces (pad 6 + 1) ++ fieldText x.year))))))

/-- A field made of documented elements. -/
def DocField (lo hi : Nat) (es : List (List Char)) : Prop := Elements es ∧ ∀ e ∈ es, ∃ S, Element lo hi e S

/-- An expression made of documented elements. -/
structure Expression.Documented (x : Expression) : Prop where
  sec  : DocField 0 59 x.sec
  min  : DocField 0 59 x.min
  hour : DocField 0 23 x.hour
  mday : DocField 1 31 x.mday
  mon  : DocField 1 12 x.mon
  wday : DocField 0 6 x.wday
  year : DocField 0 100 x.year

/-- The broken-down time belongs to the documented values of every field (months are counted from 0 in a `struct tm` and
years from 1900; years of an expression from 2000). -/
def Expression.Fires (x : Expression) (tm : Tm) : Prop :=
  Values 0 59 x.sec tm.sec.toNat ∧ Values 0 59 x.min tm.min.toNat ∧ Values 0 23 x.hour tm.hour.toNat ∧
  Values 1 31 x.mday tm.mday.toNat ∧ Values 1 12 x.mon (tm.mon + 1).toNat ∧ Values 0 6 x.wday tm.wday.toNat ∧
  Values 0 100 x.year (tm.year - 100).toNat

/-- The bits of a parsed expression allow the time. -/
def Due (c : CronExpr) (tm : Tm) : Prop :=
  Has c.sec tm.sec.toNat ∧ Has c.min tm.min.toNat ∧ Has c.hour tm.hour.toNat ∧ Has c.mday tm.mday.toNat ∧
  Has c.mon (tm.mon + 1).toNat ∧ Has c.wday tm.wday.toNat ∧ Has c.year (tm.year - 100).toNat

instance (c : CronExpr) (tm : Tm) : Decidable (Due c tm) := by unfold Due; infer_instance

/-- A broken-down time as delivered by `localtime` (with leap second), in the years 2000 … 2103. -/
structure Calendar (tm : Tm) : Prop where
  sec  : 0 ≤ tm.sec ∧ tm.sec ≤ 60
  min  : 0 ≤ tm.min ∧ tm.min ≤ 59
  hour : 0 ≤ tm.hour ∧ tm.hour ≤ 23
  mday : 1 ≤ tm.mday ∧ tm.mday ≤ 31
  mon  : 0 ≤ tm.mon ∧ tm.mon ≤ 11
  wday : 0 ≤ tm.wday ∧ tm.wday ≤ 6
  year : 100 ≤ tm.year ∧ tm.year ≤ 203

/-- The bit maps have the sizes of `lwdtc_cron_ctx_t`. -/
structure Sized (c : CronExpr) : Prop where
  sec  : c.sec.length = 8
  min  : c.min.length = 8
  hour : c.hour.length = 3
  mday : c.mday.length = 4
  mon  : c.mon.length = 2
  wday : c.wday.length = 1
  year : c.year.length = 13

/-- A local time without leap seconds whose minutes start at multiples of 60 s and whose hours and days start at multiples
of half an hour of the time count, from 1970 on. -/
structure HalfHour (lt : Int → Tm) : Prop where
  tick   : ∀ t, 0 ≤ t → (lt t).sec < 59 → lt (t + 1) = { lt t with sec := (lt t).sec + 1 }
  minute : ∀ t s, 0 ≤ t → 0 ≤ s → t / 60 = s / 60 → (lt t).min = (lt s).min
  half   : ∀ t s, 0 ≤ t → 0 ≤ s → t / 1800 = s / 1800 →
    (lt t).hour = (lt s).hour ∧ (lt t).mday = (lt s).mday ∧ (lt t).wday = (lt s).wday

end Ladder.Spec
