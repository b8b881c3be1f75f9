import Verif.Model.Monad

/-
The cron expression library `optional/cron/lwdtc/lwdtc.c`.
-/

namespace Ladder.Lwdtc

/-- `lwdtcr_t`, lwdtc.h. -/
inductive Res where
  | ok | err | errPar | errToken
  deriving DecidableEq, Repr

/-- `CHAR_IS_NUM`, lwdtc.c:54. -/
def isNum (c : Char) : Bool := decide ('0' ≤ c ∧ c ≤ '9')
/-- `CHAR_TO_NUM`, lwdtc.c:55. -/
def toNum (c : Char) : Nat := c.toNat - '0'.toNat

/-- `SIZE_MAX` for a 64-bit `size_t`. -/
def sizeMax : Nat := 2^64 - 1

/-- `BIT_IS_SET(map, pos)`, lwdtc.c:57: reading outside of the map is undefined. -/
def bitIsSet (map : List Byte) (pos : Nat) : Except UB Bool :=
  match map[pos >>> 3]? with
  | none => .error .oob
  | some b => .ok (b.getLsbD (pos &&& 7))

/-- `BIT_SET(map, pos)`, lwdtc.c:58. -/
def bitSet (map : List Byte) (pos : Nat) : Except UB (List Byte) :=
  if pos >>> 3 < map.length then .ok (map.modify (pos >>> 3) (· ||| (1#8 <<< (pos &&& 7))))
  else .error .oob

/-- Loop of `prv_parse_num`, lwdtc.c:92-95: value (in `size_t`) and the characters left.  (`max_len` is never
decremented; the token is followed by a space or NUL, so the loop ends inside it anyway.) -/
def parseDigits : Nat → List Char → Nat × List Char
  | acc, [] => (acc, [])
  | acc, c :: cs => if isNum c then parseDigits ((acc * 10 + toNum c) % 2^64) cs else (acc, c :: cs)

/-- `prv_parse_num`, lwdtc.c:85-98, on the rest of the token: `none` is lwdtcERRTOKEN. -/
def parseNum (s : List Char) : Option (Nat × List Char) :=
  match s with
  | [] => none
  | c :: _ => if isNum c then some (parseDigits 0 s) else none

/-- `prv_get_next_token`, lwdtc.c:105-126: the next token and the rest of the string (`none`: lwdtcERRTOKEN).
The string is the list of characters before the terminating NUL. -/
def nextToken (s : List Char) : Option (List Char × List Char) :=
  let s := s.dropWhile (· = ' ')
  if s.isEmpty then none else some (s.takeWhile (· ≠ ' '), s.dropWhile (· ≠ ' '))

/-- Outcome of the bit setting loops: undefined behaviour, non-termination, or the map and the final `bit`. -/
inductive LoopRes where
  | ub (e : UB)
  | diverges
  | done (map : List Byte) (bit : Nat)

/-- `for (bit = bit; bit <= last; bit += step) BIT_SET(map, bit)` on `size_t`, lwdtc.c:267-281.
A loop still running after `fuel` rounds with `fuel > last + 1` has revisited a value and never ends. -/
def bitLoop (step last : Nat) : Nat → Nat → List Byte → LoopRes
  | 0, _, _ => .diverges
  | fuel + 1, bit, map =>
    if bit ≤ last then
      match bitSet map bit with
      | .error e => .ub e
      | .ok map => bitLoop step last fuel ((bit + step) % 2^64) map
    else .done map bit

/-- Result of parsing a field or expression. -/
inductive Out (α : Type) where
  | ub (e : UB)
  | diverges
  | fail (r : Res)      -- an error code
  | ok (a : α)
  deriving DecidableEq

/-- One element of a field specification after its text has been scanned: start, end, step, flags. -/
structure Elem where
  start    : Nat
  stop     : Nat
  step     : Nat
  range    : Bool
  opposite : Bool
  deriving DecidableEq, Repr

/-- Scanning of one element, lwdtc.c:147-244: the element and the rest of the token. -/
def parseElem (vmin vmax : Nat) (s : List Char) : Except Res (Elem × List Char) :=
  match s with
  | [] => .error .err                                             -- line 153
  | c :: rest =>
    let first : Option (Nat × Nat × List Char) :=
      if c = '*' then some (vmin, vmax, rest)                      -- 179-189
      else (parseNum s).map fun (n, t) => (n, n, t)                -- 190-201
    match first with
    | none => .error .errToken
    | some (a, b, t) =>
      let second : Except Res (Elem × List Char) :=
        match t with
        | '-' :: t' =>                                             -- 209-229
          if t'.isEmpty then .error .err else
          match parseNum t' with
          | none => .error .errToken
          | some (n, u) =>
            if a > n then .ok ({ start := n, stop := a, step := 1, range := true, opposite := true }, u)
            else .ok ({ start := a, stop := n, step := 1, range := true, opposite := false }, u)
        | _ => .ok ({ start := a, stop := b, step := 1, range := false, opposite := false }, t)
      match second with
      | .error e => .error e
      | .ok (el, u) =>
        match u with
        | '/' :: u' =>                                             -- 238-251
          match parseNum u' with
          | none => .error .errToken
          | some (n, x) => .ok ({ el with step := n, stop := if el.range then el.stop else sizeMax }, x)
        | _ => .ok (el, u)

/-- Range check and bit setting of one element, lwdtc.c:253-281. -/
def applyElem (vmin vmax : Nat) (el : Elem) (map : List Byte) : Out (List Byte) :=
  if el.start < vmin then .fail .errToken
  else if el.stop > vmax ∧ el.stop ≠ sizeMax then .fail .errToken
  else
    let stop := if el.stop > vmax then vmax else el.stop
    if el.opposite then
      match bitLoop el.step vmax (vmax + 2) stop map with
      | .ub e => .ub e
      | .diverges => .diverges
      | .done map bit =>
        -- `bit % bit_step`: step 0 has already diverged above
        match bitLoop el.step el.start (vmax + 2) ((bit % el.step + vmin) % 2^64) map with
        | .ub e => .ub e
        | .diverges => .diverges
        | .done map _ => .ok map
    else
      match bitLoop el.step stop (vmax + 2) el.start map with
      | .ub e => .ub e
      | .diverges => .diverges
      | .done map _ => .ok map

/-- The do-while loop of `prv_get_and_parse_next_token`, lwdtc.c:145-297, on the rest of the token; every round
consumes at least one character, so `fuel` = token length + 1 is never exhausted. -/
def parseElems (vmin vmax : Nat) : Nat → List Char → List Byte → Out (List Byte)
  | 0, _, _ => .diverges
  | fuel + 1, s, map =>
    match parseElem vmin vmax s with
    | .error r => .fail r
    | .ok (el, rest) =>
      match applyElem vmin vmax el map with
      | .ok map =>
        match rest with
        | [] => .ok map
        | c :: rest => if c = ',' then parseElems vmin vmax fuel rest map else .fail .errToken
      | e => e

/-- `prv_get_and_parse_next_token`, lwdtc.c:137-298: the bit map (initially zero, `bytes` long) and the rest. -/
def parseField (vmin vmax bytes : Nat) (s : List Char) : Out (List Byte × List Char) :=
  match nextToken s with
  | none => .fail .err
  | some (tok, rest) =>
    match parseElems vmin vmax (tok.length + 1) tok (List.replicate bytes 0) with
    | .ok map => .ok (map, rest)
    | .ub e => .ub e
    | .diverges => .diverges
    | .fail r => .fail r

/-- Sequencing of the field parsers. -/
def Out.bind {α β : Type} (x : Out α) (f : α → Out β) : Out β :=
  match x with
  | .ok a => f a
  | .ub e => .ub e
  | .diverges => .diverges
  | .fail r => .fail r

/-- `lwdtc_cron_parse`, lwdtc.c:309-375 (limits from lwdtc.h:56-69).
Simplified: only the resulting context of a successful parse is given (on failure the fields parsed so far
have been stored by C in the caller's structure, which callers must not use). -/
def parse (str : List Char) : Out CronExpr :=
  if str.isEmpty then .fail .errPar else
  (parseField 0 59 8 str).bind fun (sec, s) =>
  (parseField 0 59 8 s).bind fun (min, s) =>
  (parseField 0 23 3 s).bind fun (hour, s) =>
  (parseField 1 31 4 s).bind fun (mday, s) =>
  (parseField 1 12 2 s).bind fun (mon, s) =>
  (parseField 0 6 1 s).bind fun (wday, s) =>
  (parseField 0 100 13 s).bind fun (year, _) =>
  .ok { sec, min, hour, mday, mon, wday, year }

/-- `(uint32_t) x` for a C `int`. -/
def u32 (x : Int) : Nat := (x % 2^32).toNat

/-- Short-circuit `||` of the negated bit tests. -/
def allBits : List (List Byte × Int) → Except UB Bool
  | [] => .ok true
  | (m, p) :: rest =>
    match bitIsSet m (u32 p) with
    | .error e => .error e
    | .ok false => .ok false
    | .ok true => allBits rest

/-- `lwdtc_cron_is_valid_for_time`, lwdtc.c:415-438 (true is lwdtcOK). -/
def isValid (tm : Tm) (c : CronExpr) : Except UB Bool :=
  allBits [(c.sec, tm.sec), (c.min, tm.min), (c.hour, tm.hour), (c.mday, tm.mday), (c.mon, tm.mon + 1),
    (c.wday, tm.wday), (c.year, tm.year - 100)]

/-- One round of the loop of `lwdtc_cron_next`, lwdtc.c:463-482, when the cron is not valid at `tm`:
the new time and broken-down time.  `lt` is `localtime`. -/
def nextStep (lt : Int → Tm) (c : CronExpr) (t : Int) (tm : Tm) : Except UB (Int × Tm) := do
  if !(← allBits [(c.mday, tm.mday), (c.wday, tm.wday), (c.hour, tm.hour)]) then
    let t' := t + (1800 - t.tmod 1800)
    .ok (t', lt t')
  else if !(← bitIsSet c.min (u32 tm.min)) then
    let t' := t + (60 - t.tmod 60)
    .ok (t', lt t')
  else
    if tm.sec + 1 ≤ 59 then .ok (t + 1, { tm with sec := tm.sec + 1 })
    else .ok (t + 1, lt (t + 1))

/-- Loop of `lwdtc_cron_next`, run for at most `fuel` rounds (`none`: still running). -/
def nextLoop (lt : Int → Tm) (c : CronExpr) : Nat → Int → Tm → Except UB (Option Int)
  | 0, _, _ => .ok none
  | fuel + 1, t, tm =>
    match isValid tm c with
    | .error e => .error e
    | .ok true => .ok (some t)
    | .ok false =>
      match nextStep lt c t tm with
      | .error e => .error e
      | .ok (t', tm') => nextLoop lt c fuel t' tm'

/-- `lwdtc_cron_next`, lwdtc.c:452-487, observed for `fuel` rounds. -/
def cronNext (lt : Int → Tm) (c : CronExpr) (fuel : Nat) (now : Int) : Except UB (Option Int) :=
  nextLoop lt c fuel (now + 1) (lt (now + 1))

/-- `lwdtc_cron_is_valid_for_time_multi_or`, lwdtc.c:498-511. -/
def multiOr (tm : Tm) (cs : List CronExpr) : Except UB Res :=
  let rec go : List CronExpr → Except UB Res
    | [] => .ok .err
    | c :: cs =>
      match isValid tm c with
      | .error e => .error e
      | .ok true => .ok .ok
      | .ok false => go cs
  if cs.isEmpty then .ok .errPar else go cs

/-- `lwdtc_cron_is_valid_for_time_multi_and`, lwdtc.c:522-535. -/
def multiAnd (tm : Tm) (cs : List CronExpr) : Except UB Res :=
  let rec go : List CronExpr → Except UB Res
    | [] => .ok .ok
    | c :: cs =>
      match isValid tm c with
      | .error e => .error e
      | .ok true => go cs
      | .ok false => .ok .err
  if cs.isEmpty then .ok .errPar else go cs

/-- `lwdtc_cron_parse_multi`, lwdtc.c:388-404: the parsed contexts or the index and code of the first failure. -/
def parseMulti (strs : List (List Char)) : Out (Except (Nat × Res) (List CronExpr)) :=
  let rec go (i : Nat) : List (List Char) → Out (Except (Nat × Res) (List CronExpr))
    | [] => .ok (.ok [])
    | s :: ss =>
      match parse s with
      | .ub e => .ub e
      | .diverges => .diverges
      | .fail r => .ok (.error (i, r))
      | .ok c => (go (i + 1) ss).bind fun
        | .ok l => .ok (.ok (c :: l))
        | .error x => .ok (.error x)
  if strs.isEmpty then .fail .errPar else go 0 strs

end Ladder.Lwdtc
