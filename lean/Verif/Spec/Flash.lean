import Verif.Spec.Control

/-
What the application that comes with the library is for: two lamps that flash five times each, one after the other, and two outputs that
follow a key.
-/

set_option autoImplicit false

namespace Ladder.Spec

/-- What the keyboard makes of the digital inputs of a module, when some characters were typed: the last one, if it is one of 0 … 7, switches
the input of this number. -/
def Logic.pressed (typed : List Byte) : Logic.Field := fun ℓ x =>
  match ℓ with
  | .I _ p => if p < 8 ∧ typed.getLast? = some (BitVec.ofNat 8 (p + 48)) then (if x = 0 then 1 else 0) else x
  | _ => x

/-- The last of the characters typed is Q or q. -/
def Logic.quits (typed : List Byte) : Bool := decide (typed.getLast? = some 81 ∨ typed.getLast? = some 113)

end Ladder.Spec

namespace Ladder.Spec.Flash

open Logic

/-- A lamp is out, or it is in a pause that began at some time, or it is lit since some time, and the flash is over or not. -/
inductive Phase where
  | out
  | pause (since : Nat)
  | lit (since : Nat) (over : Bool)
  deriving DecidableEq, Repr

/-- A lamp, and how often it has flashed. -/
structure Lamp where
  phase : Phase := .out
  flashes : Nat := 0
  deriving DecidableEq, Repr

/-- The lamp is lit. -/
def Lamp.lit (l : Lamp) : Bool := match l.phase with | .lit _ _ => true | _ => false

/-- Five seconds have passed since some time. -/
def passed (now : W64) (since : Nat) : Bool := decide (5000 ≤ lapse now since)

/-- A pause since some time: after five seconds a flash begins. -/
def Lamp.wait (l : Lamp) (p f : Reading) (since : Nat) : Lamp :=
  if passed p.test since then ⟨.lit f.start.toNat (passed f.test f.start.toNat), l.flashes + 1⟩ else { l with phase := .pause since }

/-- One cycle of a lamp: while it is on and has not yet flashed five times, pauses and flashes of five seconds alternate, where a lamp whose
flash is over is out for one cycle before the pause begins; otherwise it is out.  `p` are the readings of the clock for the pause, `f` those for
the flash. -/
def Lamp.step (on : Bool) (p f : Reading) (l : Lamp) : Lamp :=
  if on && decide (l.flashes < 5) then
    match l.phase with
    | .out => l.wait p f p.start.toNat
    | .pause since => l.wait p f since
    | .lit since over => { l with phase := if over then .out else .lit since (passed f.test since) }
  else { l with phase := .out }

/-- Two lamps, and whether the key is down. -/
structure Panel where
  first : Lamp := {}
  second : Lamp := {}
  key : Bool := false
  deriving DecidableEq, Repr

/-- One cycle of the panel with the characters typed and the readings of the clock: the second lamp is on when the first one has flashed
five times, and each time the character 7 is sampled the key changes. -/
def Panel.step (s : Panel) (e : List Byte × List Reading) : Panel :=
  match e.2 with
  | [a, b, c, d] =>
    let l := s.first.step true a b
    ⟨l, s.second.step (decide (l.flashes = 5)) c d, s.key ^^ decide (e.1.getLast? = some 55)⟩
  | _ => s

/-- The panel after some cycles. -/
def after (es : List (List Byte × List Reading)) : Panel := es.foldl Panel.step {}

/-- The outputs: ports 0 and 1 are the lamps, ports 3 and 4 the key, the other ones of module 0 are zero. -/
def Panel.outputs (s : Panel) : Image
  | .Q 0 p => if p < 8 then some (match p with | 0 => s.first.lit.toNat | 1 => s.second.lit.toNat | 3 | 4 => s.key.toNat | _ => 0) else none
  | .QW 0 p => if p < 8 then some 0 else none
  | _ => none

/-- How often a lamp that was out goes on. -/
def rises : Bool → List Bool → Nat
  | _, [] => 0
  | was, b :: bs => (if b && !was then 1 else 0) + rises b bs

/-- Port `p` of module 0 is on in command number `k`. -/
def glows (cs : List (Nat × Image)) (p k : Nat) : Bool := decide ((cs[k]?.bind fun o => o.2 (.Q 0 p)) = some 1)

/-- How many flashes begin in cycles 0 … `k`−1. -/
def onsets (lit : Nat → Bool) (k : Nat) : Nat := rises false ((List.range k).map lit)

/-- When cycle `k` begins, where a last one would begin at instant `e`. -/
def begins (as : List (Nat × List Reading)) (e k : Nat) : Nat := (as.map (·.1) ++ [e]).getD k e

/-- A light flashes at most five times in `n` cycles, and only when it is on; a fifth flash lasts one cycle. -/
structure Fivefold (n : Nat) (on lit : Nat → Bool) : Prop where
  few : ∀ k, k ≤ n → onsets lit k ≤ 5
  last : ∀ k, k < n → onsets lit k = 5 → lit k = false
  only : ∀ k, k < n → lit k = true → on k = true

/-- The flashes of a light in `n` cycles, of which cycle `k` begins at time `c k`: cycles `i` … `j`−1 of a flash that is not the fifth last at least
five seconds, as do cycles `i` … `j` between two flashes or before the first one, where the next one begins in cycle `j`; and apart from two
cycles, neither lasts longer than five seconds, while the light is on and has not flashed five times. -/
structure Paced (n : Nat) (on lit : Nat → Bool) (c : Nat → Nat) : Prop where
  flash : ∀ i j, i < j → j < n → (i = 0 ∨ lit (i - 1) = false) → (∀ m, i ≤ m → m < j → lit m = true) → lit j = false → onsets lit j < 5 →
    c i + 5000 ≤ c j
  flash' : ∀ i j, i ≤ j → j + 1 < n → (i = 0 ∨ lit (i - 1) = false) → (∀ m, i ≤ m → m ≤ j + 1 → lit m = true) → c j < c (i + 1) + 5000
  gap : ∀ i j, i < j ∨ i = 0 → j < n → (i = 0 ∨ lit (i - 1) = true) → (∀ m, i ≤ m → m < j → lit m = false) → lit j = true → c i + 5000 ≤ c (j + 1)
  gap' : ∀ i j, i + 2 ≤ j → j < n → (∀ m, i ≤ m → m ≤ j → on m = true ∧ lit m = false) → onsets lit j < 5 → c j < c (i + 2) + 5000

end Ladder.Spec.Flash
