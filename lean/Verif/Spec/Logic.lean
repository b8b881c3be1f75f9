import Verif.Spec.Well

/-
The meaning of a ladder diagram of contacts, comparisons, coils, arithmetic, bit logic, shifts, moves, timers and counters: an image of
the registers, how power flows through rungs, and when the clock is read.
Nothing here refers to the model of the scan.
-/

set_option autoImplicit false

namespace Ladder.Spec.Logic

/-- Contents of the registers. -/
abbrev Image := Loc → Option Nat

/-- The value of an operand. -/
def now (m : Image) (v : Value) : W32 :=
  match v.type with
  | .NONE => v.raw
  | .S | .INV => 0
  | k => (((place v).bind m).bind (decode k)).getD 0

/-- The value of an operand at the end of the previous scan; constants have none. -/
def before (m : Image) (v : Value) : W32 := (((prevPlace v).bind m).bind (decode v.type)).getD 0

/-- The bits in the register an operand names, as a move sees them (those of the accumulator of a timer as its value). -/
def content (m : Image) (v : Value) : W32 :=
  match v.type with
  | .R => BitVec.ofNat 32 (((place v).bind m).getD 0)
  | _ => now m v

/-- Operand `i` of a cell. -/
def arg (x : Cell) (i : Nat) : Value := (at? x.data i).getD ⟨.NONE, 0, none⟩

/-- The image after storing a value to the operand, which is no change if it names no register that can be written. -/
def put (m : Image) (v : Value) (x : W32) : Image := fun ℓ =>
  if writableKind v.type = true ∧ place v = some ℓ ∧ (m ℓ).isSome = true then some (stored v.type x) else m ℓ

/-- A truth value as a number. -/
def bit (b : Bool) : W32 := if b then 1 else 0

/-- Relations of the comparisons, on signed numbers. -/
def holds (code : Ins) (a b : Int) : Bool :=
  match code with
  | .EQ => decide (a = b) | .NE => decide (a ≠ b) | .GT => decide (a > b) | .GE => decide (a ≥ b) | .LT => decide (a < b) | .LE => decide (a ≤ b)
  | _ => false

/-- A rotation to the left by `k` places. -/
def turned (x : W32) (k : Nat) : W32 := x.rotateLeft k

/-- Places of a shift: the distance modulo 32. -/
def places (x : W32) : Nat := (x.toInt % 32).toNat

/-- What a cell of one row does with power `p` from the left: the new image and whether it passes power on.  Shifts, rotations and moves
act with or without power.  A conjunction is that of truth values: 1 if both operands are 1, and 0 otherwise. -/
def simple (m : Image) (p : Bool) (x : Cell) : Image × Bool :=
  let v := arg x 0
  let on := decide (now m v ≠ 0)
  let was := decide (before m v ≠ 0)
  match x.code with
  | .CONN => (m, p)
  | .NEG => (m, !p)
  | .NO => (m, p && on)
  | .NC => (m, p && !on)
  | .RE => (m, p && on && !was)
  | .FE => (m, p && !on && was)
  | .COIL => (put m v (bit p), p)
  | .COILL => (put m v (bit (was || p)), was || p)
  | .COILU => (put m v (bit (was && !p)), was && !p)
  | .EQ | .NE | .GT | .GE | .LT | .LE => (m, p && holds x.code (now m v).toInt (now m (arg x 1)).toInt)
  | .AND => (if p then put m (arg x 2) (bit (decide (now m v = 1) && decide (now m (arg x 1) = 1))) else m, p)
  | .OR => (if p then put m (arg x 2) (now m v ||| now m (arg x 1)) else m, p)
  | .XOR => (if p then put m (arg x 2) (now m v ^^^ now m (arg x 1)) else m, p)
  | .NOT => (if p then put m (arg x 1) (~~~now m v) else m, p)
  | .ADD => (if p then put m (arg x 2) (.ofInt 32 ((now m v).toInt + (now m (arg x 1)).toInt)) else m, p)
  | .MUL => (if p then put m (arg x 2) (.ofInt 32 ((now m v).toInt * (now m (arg x 1)).toInt)) else m, p)
  | .DIV => (if p then put m (arg x 2) (.ofInt 32 ((now m v).toInt.tdiv (now m (arg x 1)).toInt)) else m, p)
  | .MOD => (if p then put m (arg x 2) (.ofInt 32 ((now m v).toInt.tmod (now m (arg x 1)).toInt)) else m, p)
  | .SHL => (put m v (now m v <<< places (now m (arg x 1))), p)
  | .SHR => (put m v (now m v >>> places (now m (arg x 1))), p)
  | .ROL => (put m v (turned (now m v) (places (now m (arg x 1)))), p)
  | .ROR => (put m v (turned (now m v) (32 - places (now m (arg x 1)))), p)
  | .MOVE => (put m (arg x 1) (content m v), p)
  | _ => (m, false)

/-- A number of 32 bits. -/
def narrow (x : Int) : Bool := decide (-2^31 ≤ x) && decide (x < 2^31)

/-- Whether the arithmetic of a cell has a result: sums, products and quotients must be numbers of 32 bits (a quotient by zero counts as
zero), remainders need a divisor other than zero, and rotations a distance that is no multiple of 32. -/
def defined (m : Image) (p : Bool) (x : Cell) : Bool :=
  let a := (now m (arg x 0)).toInt
  let b := (now m (arg x 1)).toInt
  match x.code with
  | .ADD => !p || narrow (a + b)
  | .MUL => !p || narrow (a * b)
  | .DIV => !p || narrow (a.tdiv b)
  | .MOD => !p || decide (b ≠ 0) && narrow (a.tdiv b)
  | .ROL | .ROR => decide (places (now m (arg x 1)) ≠ 0)
  | _ => true

/-! ### Timers and counters -/

/-- The readings of the clock by one execution of a timer: for its start, for its accumulator, and to test whether it is done. -/
structure Reading where
  start : W64
  update : W64
  test : W64

/-- Contents of the registers, the readings of the clock by the timers to come, and whether all arithmetic had a result up to now. -/
structure State where
  reg : Image
  time : Nat → Reading
  sure : Bool

/-- A timer. -/
structure Watch where
  running : Bool
  done : Bool
  acc : Nat
  stamp : Nat

/-- Timer `i`. -/
def watch (m : Image) (i : Nat) : Watch :=
  ⟨decide (m (.Tr i) = some 1), decide (m (.Td i) = some 1), (m (.acc i)).getD 0, (m (.stamp i)).getD 0⟩

/-- The image with timer `i` replaced. -/
def wound (m : Image) (i : Nat) (t : Watch) : Image
  | .Tr j => if j = i then some t.running.toNat else m (.Tr j)
  | .Td j => if j = i then some t.done.toNat else m (.Td j)
  | .acc j => if j = i then some t.acc else m (.acc j)
  | .stamp j => if j = i then some t.stamp else m (.stamp j)
  | ℓ => m ℓ

/-- Milliseconds from a time stamp to a reading of the 64-bit clock. -/
def lapse (now : W64) (stamp : Nat) : Nat := (now.toNat + 2^64 - stamp) % 2^64

/-- Milliseconds of one unit of a preset of the given kind: 1 ms, 10 ms, 100 ms, 1 s, 1 min. -/
def unit (k : Reg) : Nat := [1, 10, 100, 1000, 60000].getD k.code 1

/-- A timer that starts unless it is running or done. -/
def begun (q : Reading) (t : Watch) : Watch := if t.running || t.done then t else { t with running := true, stamp := q.start.toNat }

/-- A timer with preset `limit` units of `u` milliseconds (in 32 bits) moves on: if it is running, it is done when the preset has elapsed
and otherwise counts the whole units (in 16 bits). -/
def moved (limit u : Nat) (q : Reading) (t : Watch) : Watch :=
  if !t.running then t
  else if limit * u % 2^32 ≤ lapse q.test t.stamp then { t with running := false, done := true, acc := limit }
  else { t with acc := lapse q.update t.stamp / u % 2^16 }

/-- A cleared timer. -/
def rewound (t : Watch) : Watch := { t with running := false, done := false, acc := 0 }

/-- A timer after its instruction was executed with power `p`: an on-delay runs while powered, an off-delay while unpowered, a pulse
starts with power if its accumulator is 0. -/
def timed (code : Ins) (p : Bool) (limit u : Nat) (q : Reading) (t : Watch) : Watch :=
  match code with
  | .TON => if p then moved limit u q (begun q t) else rewound t
  | .TOF => if p then rewound t else moved limit u q (begun q t)
  | .TP => moved limit u q (if p && !t.running && decide (t.acc = 0) then { t with running := true, stamp := q.start.toNat } else t)
  | _ => t

/-- Whether the timer passes power on. -/
def passes (code : Ins) (p : Bool) (t : Watch) : Bool :=
  match code with
  | .TON => t.done
  | .TOF => p || t.running
  | .TP => t.running
  | _ => false

/-- A counter. -/
structure Tally where
  count : Nat
  counted : Bool
  done : Bool

/-- Counter `i`. -/
def tally (m : Image) (i : Nat) : Tally := ⟨(m (.C i)).getD 0, decide (m (.Cr i) = some 1), decide (m (.Cd i) = some 1)⟩

/-- The image with counter `i` replaced. -/
def noted (m : Image) (i : Nat) (t : Tally) : Image
  | .C j => if j = i then some t.count else m (.C j)
  | .Cr j => if j = i then some t.counted.toNat else m (.Cr j)
  | .Cd j => if j = i then some t.done.toNat else m (.Cd j)
  | ℓ => m ℓ

/-- A counter after a possible reset by power `q` left of the row below. -/
def fresh (code : Ins) (q : Bool) (limit : Nat) (t : Tally) : Tally :=
  if q then ⟨if code = .CTD then limit else 0, false, false⟩ else t

/-- Whether a counter with power `p` counts: a transition not yet counted, and not done. -/
def counts (p : Bool) (t : Tally) : Bool := p && !t.counted && !t.done

/-- The count after that, in 32 bits. -/
def counted (code : Ins) (p : Bool) (t : Tally) : Nat :=
  if counts p t then (if code = .CTD then t.count + 2^32 - 1 else t.count + 1) % 2^32 else t.count

/-- Whether the counter has reached its end: the preset, or zero. -/
def reached (code : Ins) (limit count : Nat) : Bool := if code = .CTD then decide (count = 0) else decide (limit ≤ count)

/-- The counter after its instruction was executed. -/
def advanced (code : Ins) (p : Bool) (limit : Nat) (t : Tally) : Tally :=
  ⟨counted code p t, p && (t.counted || counts p t), t.done || reached code limit (counted code p t)⟩

/-- What a cell does with power `p` from the left, power `q` left of the row below, and `d` coming down from the cell above: the new state,
whether it passes power on, and whether it lets power down to the cell below.  A cell covered by the instruction above passes on
what comes down. -/
def act (s : State) (p q d : Bool) (x : Cell) : State × Bool × Bool :=
  let i := (arg x 0).raw.toNat
  let limit := (arg x 1).raw.toNat
  match x.code with
  | .MULTI => (s, d, false)
  | .TON | .TOF | .TP =>
    let t := timed x.code p limit (unit (arg x 1).type) (s.time 0) (watch s.reg i)
    (⟨wound s.reg i t, fun k => s.time (k + 1), s.sure⟩, passes x.code p t, t.running)
  | .CTU | .CTD =>
    let t := fresh x.code q limit (tally s.reg i)
    (⟨noted s.reg i (advanced x.code p limit t), s.time, s.sure⟩, reached x.code limit (counted x.code p t), counts p t)
  | _ => (⟨(simple s.reg p x).1, s.time, s.sure && defined s.reg p x⟩, (simple s.reg p x).2, false)

/-- Instructions that reach to the row below. -/
def tall : Ins → Bool
  | .TON | .TOF | .TP | .CTU | .CTD => true
  | _ => false

/-! ### Rungs -/

/-- The cells of one column from top to bottom, the `i`-th one with power `p i` from the left, when `d` comes down from the cell above
them: the new state, the outputs, and what the lowest cell lets down. -/
def sweep (p : Nat → Bool) : Nat → List Cell → Bool → State → State × List Bool
  | _, [], d, s => (s, [d])
  | i, x :: xs, d, s =>
    let a := act s (p i) (p (i + 1)) d x
    let t := sweep p (i + 1) xs a.2.2 a.1
    (t.1, a.2.1 :: t.2)

/-- Rows `i` and `j` of a column are connected by vertical bars: each row below the upper one, down to the lower one, has a bar. -/
def linked (xs : List Cell) (i j : Nat) : Bool :=
  (List.range' (min i j + 1) (max i j - min i j)).all fun k => (xs[k]?.map (·.bar)).getD false

/-- Power on the wire right of row `i` of a column, or of the row below them: some row connected to it passes power. -/
def wire (xs : List Cell) (outs : List Bool) (i : Nat) : Bool :=
  (List.range (xs.length + 1)).any fun j => outs[j]?.getD false && linked xs i j

/-- Column `c` of some rows. -/
def column (rows : List (List Cell)) (c : Nat) : List Cell := rows.filterMap (·[c]?)

/-- Columns `c`, `c+1`, … (`k` of them) of a rung, where `p i` is the power on the wire left of its row `i`, and `above c` is what comes down
to column `c`: the new state, and what each column lets down to the row below the rung. -/
def columns (rows : List (List Cell)) (above : Nat → Bool) : Nat → Nat → State → (Nat → Bool) → State × List Bool
  | _, 0, s, _ => (s, [])
  | c, k + 1, s, p =>
    let a := sweep p 0 (column rows c) (above c) s
    let t := columns rows above (c + 1) k a.1 (wire (column rows c) a.2)
    (t.1, a.2[(column rows c).length]?.getD false :: t.2)

/-- A row that is connected to the one above it. -/
def joined (row : List Cell) : Bool := row.any (·.bar)

/-- The left end of a row belongs to an instruction above it. -/
def covered (row : List Cell) : Bool := (row.head?.map fun x => decide (x.code = .MULTI)).getD false

/-- The rungs from top to bottom, `k` rows at most: a row with the rows joined to it, all powered from the left rail. -/
def rungs (cols : Nat) : Nat → List (List Cell) → (Nat → Bool) → State → State
  | 0, _, _, s => s
  | _, [], _, s => s
  | k + 1, row :: rest, above, s =>
    if covered row then rungs cols k rest (fun _ => false) s
    else
      let a := columns (row :: rest.takeWhile joined) above 0 cols s fun _ => true
      rungs cols k (rest.dropWhile joined) (fun c => a.2[c]?.getD false) a.1

/-- One network. -/
def network (net : Network) (s : State) : State := rungs net.cols net.rows (net.cells.getD []) (fun _ => false) s

/-- The enabled networks in order. -/
def program (nets : List Network) (s : State) : State :=
  nets.foldl (fun s net => if net.enable then network net s else s) s

/-- What the cron jobs make of the flags at local time `tm`. -/
def calendar (tm : Tm) (jobs : List CronJob) (m : Image) : Image
  | .M i => (fired tm jobs (cleared jobs fun i => (m (.M i)).map (BitVec.ofNat 8)) i).map (·.toNat)
  | ℓ => m ℓ

/-- The cron jobs of a context that has no cron table or at least one job. -/
def Planned (c : Ctx) (jobs : List CronJob) : Prop := c.cron = none ∧ jobs = [] ∨ Jobs c jobs ∧ jobs ≠ []

/-- The left rail of the program `B` under the context `z` also resets the counters of the first column (they are reset while the controller is
in state RUNNING), or there are none. -/
def Railed (B z : Ctx) : Prop := z.state = .running ∨ ∀ n r x, cell? B n r 0 = some x → x.code ≠ .CTU ∧ x.code ≠ .CTD

/-- The instructions above, and the empty cell. -/
def logical : Ins → Bool
  | .NOP | .MULTI | .CONN | .NEG | .NO | .NC | .RE | .FE | .COIL | .COILL | .COILU | .EQ | .NE | .GT | .GE | .LT | .LE
  | .AND | .OR | .XOR | .NOT | .ADD | .MUL | .DIV | .MOD | .SHL | .SHR | .ROL | .ROR | .MOVE | .TON | .TOF | .TP | .CTU | .CTD => true
  | _ => false

/-- The operands such an instruction needs: those of a well-formed one, where operands of arithmetic and distances may be any. -/
def FormedCell (B : Ctx) (n r c : Nat) : Ins → Prop
  | .ADD | .MUL | .DIV | .MOD => Readable B n r c 0 ∧ Readable B n r c 1 ∧ Sink B n r c 2
  | .ROL | .ROR => Readable B n r c 0 ∧ Readable B n r c 1 ∧ Storable B false n r c 0
  | code => WellCell B n r c code

/-- A network that can be executed: a stored grid of at least one column, all of its cells with their operands. -/
structure FormedNet (B : Ctx) (n : Nat) (net : Network) : Prop where
  stored : net.cells.isSome
  rows : net.rows < 2^32
  cols : net.cols < 2^32
  width : 0 < net.cols
  cells : ∀ r c, r < net.rows → c < net.cols → ∃ cell, cell? B n r c = some cell ∧ FormedCell B n r c cell.code

/-- A program of such networks. -/
structure Formed (B : Ctx) : Prop where
  count : B.qty.networks < 2^32
  nets : ∀ n, n < B.qty.networks → ∃ net, at? B.network n = some net ∧ net.cells.isSome ∧
    (net.enable = true → FormedNet B n net)

/-- A row that hangs from the one above it: joined to it, but not at the left end. -/
def hung (row : List Cell) : Bool := joined row && !(row.head?.map (·.bar)).getD false

/-- Instructions that pass power on or not and do nothing else. -/
def wiring : Ins → Bool
  | .NOP | .CONN | .NO | .NC | .RE | .FE | .EQ | .NE | .GT | .GE | .LT | .LE => true
  | _ => false

/-- A network of such instructions with two kinds of branches.  Those from the left rail are joined at the left end, and are empty where
they are not joined.  Those that hang from the rung have a coil at the right end or nothing, to the left of it wiring where they are joined,
and nothing elsewhere.  A row is joined nowhere where the branch above it is not.  Below a timer or counter there is a cell that belongs
to it, and none below wiring that hangs. -/
structure Diagram (net : Network) : Prop where
  codes : ∀ r row, at? net.cells r = some row → ∀ x ∈ row, logical x.code = true
  top : ∀ row, at? net.cells 0 = some row → joined row = false
  below : ∀ r row row', at? net.cells r = some row → at? net.cells (r + 1) = some row' → joined row = false → covered row = true →
    joined row' = false
  stairs : ∀ r (row row' : List Cell) (c : Nat) (x x' : Cell), at? net.cells r = some row → at? net.cells (r + 1) = some row' → joined row = true →
    row[c]? = some x → row'[c]? = some x' → x'.bar = true → x.bar = true
  empty : ∀ r row, at? net.cells r = some row → joined row = true → hung row = false → ∀ x ∈ row, x.bar = false →
    x.code = .NOP ∨ x.code = .MULTI
  coil : ∀ r (row : List Cell) (x : Cell), at? net.cells r = some row → hung row = true → row[row.length - 1]? = some x →
    x.bar = false ∧ (x.code = .COIL ∨ x.code = .NOP)
  inner : ∀ r (row : List Cell) (c : Nat) (x : Cell), at? net.cells r = some row → hung row = true → c + 1 < row.length → row[c]? = some x →
    if x.bar then wiring x.code = true else x.code = .NOP
  under : ∀ r (row : List Cell) (c : Nat) (x : Cell), at? net.cells r = some row → row[c]? = some x → tall x.code = true →
    ∃ row' x', at? net.cells (r + 1) = some row' ∧ row'[c]? = some x' ∧ x'.code = .MULTI
  bare : ∀ r (row row' : List Cell) (c : Nat) (x x' : Cell), at? net.cells r = some row → at? net.cells (r + 1) = some row' → hung row = true →
    row[c]? = some x → x.bar = true → row'[c]? = some x' → x'.code ≠ .MULTI

/-- The work limit a network needs: a step per cell and row, and more if rows hang from rungs, because they are gone through again. -/
def effort (net : Network) : Nat :=
  if (net.cells.getD []).any hung then net.rows * (net.rows * net.cols + 1) else net.rows * (net.cols + 1)

/-- Register locations, as opposed to the power states of cells. -/
def register : Loc → Bool
  | .cell _ _ _ => false
  | _ => true

/-- Callbacks that leave the context alone, and a calendar. -/
structure Still (env : Env) : Prop where
  instruction : ∀ t c, env.instruction t c = c
  scanEnd : ∀ t c, env.scanEnd t c = c
  localtime : ∀ t, Calendar (env.localtime t)

/-- A work limit of `limit` steps leaves room for `e` steps.  Beyond four fifths of the limit panic is called, which must then leave the
context alone. -/
def Room (env : Env) (limit e : Nat) : Prop := e ≤ limit ∧ ((∀ t c, env.panic t c = c) ∨ 5 * e ≤ 4 * limit)

/-- The readings are values of the clock at the external calls from number `lo` to number `hi`, in order. -/
inductive Told (env : Env) : Nat → Nat → List Reading → Prop where
  | done {lo hi : Nat} : lo ≤ hi → Told env lo hi []
  | more {lo hi a b c : Nat} {qs : List Reading} : lo ≤ a → a ≤ b → b ≤ c → Told env c hi qs →
      Told env lo hi (⟨env.clock a, env.clock b, env.clock c⟩ :: qs)

/-- A log of scans, the last one first: the number of external calls at the start of each, and its readings of the clock. -/
inductive Kept (env : Env) : Nat → Nat → List (Nat × List Reading) → Prop where
  | none {lo hi : Nat} : lo ≤ hi → Kept env lo hi []
  | scan {lo hi t : Nat} {us : List Reading} {log : List (Nat × List Reading)} : Kept env lo t log → Told env t hi us →
      Kept env lo hi ((t, us) :: log)

/-- Some readings, and then others. -/
def prior : List Reading → (Nat → Reading) → Nat → Reading
  | [], rest => rest
  | q :: qs, rest => fun k => match k with | 0 => q | k + 1 => prior qs rest k

end Ladder.Spec.Logic
