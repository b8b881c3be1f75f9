import Verif.Spec.CronJobs

/-
Specification vocabulary for programs that cannot fault: what the operands of each instruction must designate.
-/

set_option autoImplicit false

namespace Ladder.Spec

/-- `c` has the same program, the same locations and the same configuration as the blueprint `B`; the contents of
the locations, the state and the error report may differ. -/
structure Alike (B c : Ctx) : Prop where
  fits : Fits c
  text : program c = program B
  places : ∀ ℓ, (load c ℓ).isSome = (load B ℓ).isSome
  networks : c.qty.networks = B.qty.networks
  millis : c.millis = B.millis
  cron : c.cron = B.cron
  foreign : c.foreignQty = B.foreignQty ∧ c.foreign = B.foreign

/-- The locations stored as C `bool`. -/
def isFlag : Loc → Bool
  | .Cd _ | .Cr _ | .Td _ | .Tr _ | .Cdh _ | .Crh _ | .Tdh _ | .Trh _ => true
  | _ => false

/-- Every `bool` holds 0 or 1. -/
def Flags (c : Ctx) : Prop := ∀ ℓ x, isFlag ℓ = true → load c ℓ = some x → x ≤ 1

/-- A location of the blueprint. -/
def Owns (B : Ctx) (ℓ : Loc) : Prop := (load B ℓ).isSome = true

/-- Operand `i` is a constant (or text) or names an existing register that is not a float. -/
def Readable (B : Ctx) (n r c i : Nat) : Prop :=
  ∃ v, operand? B n r c i = some v ∧ v.type ≠ .R ∧
    (v.type = .NONE ∨ v.type = .S ∨ v.type = .INV ∨ ∃ ℓ, place v = some ℓ ∧ Owns B ℓ)

/-- Operand `i` is a constant or names a digital register whose previous value is kept. -/
def Recalled (B : Ctx) (n r c i : Nat) : Prop :=
  ∃ v, operand? B n r c i = some v ∧ (v.type = .NONE ∨ ∃ ℓ, prevPlace v = some ℓ ∧ Owns B ℓ)

/-- Operand `i` names an existing register that may be written; `flag` tells whether it may be a `bool`. -/
def Storable (B : Ctx) (flag : Bool) (n r c i : Nat) : Prop :=
  ∃ v ℓ, operand? B n r c i = some v ∧ writableKind v.type = true ∧ (flag = false → isBoolKind v.type = false) ∧
    place v = some ℓ ∧ Owns B ℓ

/-- Operand `i` is there and no `bool`: a result can be stored in it, or is discarded when it cannot. -/
def Sink (B : Ctx) (n r c i : Nat) : Prop := ∃ v, operand? B n r c i = some v ∧ isBoolKind v.type = false

/-- A timer cell: an existing timer, a preset with one of the five time bases, a row below and a clock. -/
structure TimerWell (B : Ctx) (n r c : Nat) : Prop where
  timer : ∃ v, operand? B n r c 0 = some v ∧ v.type = .T ∧ v.raw.toNat < 2^31 ∧ Owns B (.acc v.raw.toNat) ∧
    Owns B (.Tr v.raw.toNat) ∧ Owns B (.Td v.raw.toNat)
  preset : ∃ v, operand? B n r c 1 = some v ∧ v.type.code ≤ 4
  below : Owns B (.cell n (r + 1) c)
  clock : B.millis = true

/-- A counter cell: an existing counter, a preset and a row below. -/
structure CounterWell (B : Ctx) (n r c : Nat) : Prop where
  counter : ∃ v, operand? B n r c 0 = some v ∧ v.raw.toNat < 2^31 ∧ Owns B (.C v.raw.toNat) ∧
    Owns B (.Cr v.raw.toNat) ∧ Owns B (.Cd v.raw.toNat)
  preset : ∃ v, operand? B n r c 1 = some v
  below : Owns B (.cell n (r + 1) c)
  left : c = 0 ∨ Owns B (.cell n (r + 1) (c - 1))

/-- Operand `i` is a constant, and `p` holds for it. -/
def Constant (B : Ctx) (n r c i : Nat) (p : W32 → Prop) : Prop :=
  ∃ v, operand? B n r c i = some v ∧ v.type = .NONE ∧ p v.raw

/-- Kinds of registers that hold 32-bit integers and can be written. -/
def integral : Reg → Bool
  | .D | .IW | .QW | .C => true
  | _ => false

/-- A move: from one integer register to another, or from one float register to another. -/
def MoveWell (B : Ctx) (n r c : Nat) : Prop :=
  ∃ s d ℓ ℓ', operand? B n r c 0 = some s ∧ operand? B n r c 1 = some d ∧ place s = some ℓ ∧ Owns B ℓ ∧ place d = some ℓ' ∧ Owns B ℓ' ∧
    ((integral s.type = true ∨ s.type = .T) ∧ integral d.type = true ∨ s.type = .R ∧ d.type = .R)

/-- A call of a foreign function that exists (functions 0 and 1: the others cannot be called). -/
def CallWell (B : Ctx) (n r c : Nat) : Prop :=
  Constant B n r c 0 fun x => x.toNat < 2 ∧ x.toNat < B.foreignQty ∧ (at? B.foreign x.toNat).isSome

/-- The operands instruction `code` at (r,c) of network `n` needs.  Quotients need a constant divisor other than −1, remainders one
other than 0 and −1, rotations a constant distance that is no multiple of 32.  Sums, differences, products and table moves are not
covered, and an invalid code is never well-formed. -/
def WellCell (B : Ctx) (n r c : Nat) : Ins → Prop
  | .NOP | .CONN | .NEG | .MULTI => True
  | .NO | .NC => Readable B n r c 0
  | .RE | .FE => Readable B n r c 0 ∧ Recalled B n r c 0
  | .COIL => Storable B true n r c 0
  | .COILL | .COILU => Storable B true n r c 0 ∧ Recalled B n r c 0
  | .TON | .TOF | .TP => TimerWell B n r c
  | .CTU | .CTD => CounterWell B n r c
  | .EQ | .GT | .GE | .LT | .LE | .NE => Readable B n r c 0 ∧ Readable B n r c 1
  | .AND | .OR | .XOR => Readable B n r c 0 ∧ Readable B n r c 1 ∧ Sink B n r c 2
  | .NOT => Readable B n r c 0 ∧ Sink B n r c 1
  | .SHL | .SHR => Readable B n r c 0 ∧ Readable B n r c 1 ∧ Storable B false n r c 0
  | .ROL | .ROR => Readable B n r c 0 ∧ Constant B n r c 1 (fun x => x.toNat % 32 ≠ 0) ∧ Storable B false n r c 0
  | .DIV => Readable B n r c 0 ∧ Constant B n r c 1 (· ≠ -1) ∧ Sink B n r c 2
  | .MOD => Readable B n r c 0 ∧ Constant B n r c 1 (fun x => x ≠ 0 ∧ x ≠ -1) ∧ Sink B n r c 2
  | .MOVE => MoveWell B n r c
  | .FOREIGN => CallWell B n r c
  | _ => False

/-- A network that can be executed: a stored grid of at least one column, all of its cells well-formed. -/
structure WellNet (B : Ctx) (n : Nat) (net : Network) : Prop where
  stored : net.cells.isSome
  rows : net.rows < 2^32
  cols : net.cols < 2^32
  width : 0 < net.cols
  cells : ∀ r c, r < net.rows → c < net.cols → ∃ cell, cell? B n r c = some cell ∧ WellCell B n r c cell.code

/-- A well-formed logic program. -/
structure Well (B : Ctx) : Prop where
  count : B.qty.networks < 2^32
  nets : ∀ n, n < B.qty.networks → ∃ net, at? B.network n = some net ∧ net.cells.isSome ∧
    (net.enable = true → WellNet B n net)
  some : B.network.isSome
  cron : B.cron = none ∨ ∃ jobs, Jobs B jobs

/-- A callback that may change register contents, state and error report, but neither the program nor the
configuration, and that leaves `bool`s valid. -/
def Mild (B : Ctx) (f : Nat → Ctx → Ctx) : Prop :=
  ∀ t c, Alike B c → Flags c → Alike B (f t c) ∧ Flags (f t c) ∧ (f t c).exec = c.exec

/-- The callbacks of a scan are mild, foreign functions also succeed, and the calendar is a calendar. -/
structure MildEnv (B : Ctx) (env : Env) : Prop where
  panic : Mild B env.panic
  instruction : Mild B env.instruction
  scanEnd : Mild B env.scanEnd
  foreign : ∀ id col row, Mild B (fun t c => (env.foreign t id col row c).2) ∧
    ∀ t c, Alike B c → Flags c → (env.foreign t id col row c).1 = .ok
  localtime : ∀ t, Calendar (env.localtime t)

/-- Nothing has gone wrong so far: the state is "running" or a request to end, and the limit of the scan, the watchdog and the pointer
to the delay function are those of the configuration. -/
structure Unhurt (B c : Ctx) : Prop where
  state : c.state = .running ∨ c.state = .exitTsk
  limit : c.scan.maxScanCycles = B.scan.maxScanCycles
  watchdog : c.qty.watchdogMs = B.qty.watchdogMs
  delay : c.delay = B.delay

/-- A callback that, for contexts that satisfy `p`, keeps what `Mild` asks for; if `z`, it may also rely on nothing having gone wrong,
and must keep it so. -/
def Gentle (z : Bool) (B : Ctx) (p : Ctx → Prop) (f : Nat → Ctx → Ctx) : Prop :=
  ∀ t c, Alike B c → Flags c → (z = true → Unhurt B c) → p c →
    Alike B (f t c) ∧ Flags (f t c) ∧ (f t c).exec = c.exec ∧ (z = true → Unhurt B (f t c))

/-- The callbacks of a scan.  If `z`, nothing is asked of the panic callback: it must then not be called at all. -/
structure Calls (z : Bool) (B : Ctx) (env : Env) : Prop where
  panic : z = false → Gentle z B (fun _ => True) env.panic
  instruction : Gentle z B (fun _ => True) env.instruction
  scanEnd : Gentle z B (fun _ => True) env.scanEnd
  foreign : ∀ n id col row, Owns B (.cell n row col) → (col = 0 ∨ Owns B (.cell n row (col - 1))) →
    Gentle z B (fun c => c.exec = some n) (fun t c => (env.foreign t id col row c).2) ∧
    ∀ t c, Alike B c → Flags c → (z = true → Unhurt B c) → c.exec = some n → (env.foreign t id col row c).1 = .ok
  localtime : ∀ t, Calendar (env.localtime t)

/-- A program whose scans stay below the limit at which the panic callback is called. -/
structure Roomy (B : Ctx) : Prop where
  nets : ∀ n net, at? B.network n = some net → net.enable = true →
    5 * (net.rows * (1 + net.cols * net.rows)) ≤ 4 * B.scan.maxScanCycles
  cron : ∀ jobs, Jobs B jobs → jobs ≠ []

/-- No instruction reported an error. -/
def Clean (t : List Event) : Prop := ∀ n r c e, .ret n r c e ∈ t → e = .ok

end Ladder.Spec
