/-
Data types of the ladderlib model: a Lean mirror of `ladder.h`.
-/

namespace Ladder

/-- Kinds of undefined behaviour of the C code; a distinct outcome of every modelled operation. -/
inductive UB where
  | nullDeref      -- dereference of a NULL pointer
  | oob            -- access outside an allocated block (or constant table)
  | signedOverflow -- signed integer overflow (also INT_MIN / -1)
  | divZero        -- integer division or remainder by zero
  | shiftRange     -- shift by an amount >= the width
  | floatCast      -- float to int32_t cast of a value out of range / NaN
  | trapBool       -- reading a `bool` object whose byte is neither 0 nor 1
  | uninit         -- reading an uninitialised object
  | diverges       -- the model ran out of fuel: no outcome is claimed (not undefined behaviour of the code)
  deriving DecidableEq, Repr

/-- `ladder_instruction_t`, ladder.h:77-118 (enumerators in order, codes 0..38).
Simplified: an enum-typed field holds one of its enumerators. -/
inductive Ins where
  | NOP | CONN | NEG | NO | NC | RE | FE | COIL | COILL | COILU
  | TON | TOF | TP | CTU | CTD | MOVE | SUB | ADD | MUL | DIV | MOD
  | SHL | SHR | ROL | ROR | AND | OR | XOR | NOT
  | EQ | GT | GE | LT | LE | NE | FOREIGN | TMOVE | INV | MULTI
  deriving DecidableEq, Repr

/-- Numeric code of an instruction (enum value), ladder.h:77-118. -/
def Ins.code : Ins → Nat
  | .NOP => 0 | .CONN => 1 | .NEG => 2 | .NO => 3 | .NC => 4 | .RE => 5 | .FE => 6
  | .COIL => 7 | .COILL => 8 | .COILU => 9 | .TON => 10 | .TOF => 11 | .TP => 12
  | .CTU => 13 | .CTD => 14 | .MOVE => 15 | .SUB => 16 | .ADD => 17 | .MUL => 18
  | .DIV => 19 | .MOD => 20 | .SHL => 21 | .SHR => 22 | .ROL => 23 | .ROR => 24
  | .AND => 25 | .OR => 26 | .XOR => 27 | .NOT => 28 | .EQ => 29 | .GT => 30
  | .GE => 31 | .LT => 32 | .LE => 33 | .NE => 34 | .FOREIGN => 35 | .TMOVE => 36
  | .INV => 37 | .MULTI => 38

/-- `ladder_state_t`, ladder.h:125-132. -/
inductive St where
  | stopped | running | error | exitTsk | nullFn | inv
  deriving DecidableEq, Repr

/-- `ladder_ins_err_t`, ladder.h:139-153. -/
inductive Err where
  | ok | getPrevVal | getDataVal | setDataVal | noForeign | noTable | outOfRange
  | divByZero | typeMismatch | overflow | null | fail
  deriving DecidableEq, Repr

/-- `ladder_register_t`, ladder.h:192-210.  The same field doubles as the time base of a timer preset
(`ladder_basetime_t`, ladder.h:179-185), through its numeric value. -/
inductive Reg where
  | NONE | M | Q | I | Cd | Cr | Td | Tr | IW | QW | C | T | D | S | R | INV
  deriving DecidableEq, Repr

/-- Numeric value of a register kind (enum value), ladder.h:192-210. -/
def Reg.code : Reg → Nat
  | .NONE => 0 | .M => 1 | .Q => 2 | .I => 3 | .Cd => 4 | .Cr => 5 | .Td => 6 | .Tr => 7
  | .IW => 8 | .QW => 9 | .C => 10 | .T => 11 | .D => 12 | .S => 13 | .R => 14 | .INV => 15

abbrev Byte := BitVec 8
abbrev W32 := BitVec 32
abbrev W64 := BitVec 64

/-- A pointer to an array: `none` is NULL, `some l` a block of exactly `l.length` elements. -/
abbrev Arr (α : Type) := Option (List α)

/-- `ladder_value_t`, ladder.h:241-255.  The union is kept as its 32 low bits `raw` (shared by
`i32`, `u32`, `real` and `mp`) and, separately, the string of `cstr`.
Simplified: the overlap of the pointer `cstr` with the integers is not modelled. -/
structure Value where
  type : Reg
  raw  : W32
  cstr : Option String := none
  deriving DecidableEq, Repr

/-- `value.mp.module`, ladder.h:231-234: the first byte of the union (little endian). -/
def Value.module (v : Value) : Nat := (v.raw.extractLsb' 0 8).toNat
/-- `value.mp.port`, ladder.h:231-234: the second byte of the union (little endian). -/
def Value.port (v : Value) : Nat := (v.raw.extractLsb' 8 8).toNat
/-- `value.i32` as a signed integer. -/
def Value.i32 (v : Value) : Int := v.raw.toInt

/-- `ladder_cell_t`, ladder.h:262-268. -/
structure Cell where
  state   : Bool := false
  bar     : Bool := false
  code    : Ins := .NOP
  dataQty : Nat := 0
  data    : Arr Value := none
  deriving DecidableEq, Repr

/-- `ladder_network_t`, ladder.h:275-280.  Simplified: the row pointers of a non-NULL matrix are not NULL. -/
structure Network where
  enable : Bool
  rows   : Nat
  cols   : Nat
  cells  : Arr (List Cell)
  deriving DecidableEq, Repr

/-- `ladder_timer_t`, ladder.h:287-290. -/
structure Timer where
  timeStamp : W64
  acc       : W32
  deriving DecidableEq, Repr

/-- `ladder_t.last`, ladder.h:300-306 (`err` and `instr` are stored in a byte wide enough for the enums). -/
structure Last where
  instr   : Ins := .NOP
  network : Nat := 0
  col     : Nat := 0
  row     : Nat := 0
  err     : Err := .ok
  deriving DecidableEq, Repr

/-- `ladder_t.quantity`, ladder.h:308-317. -/
structure Qty where
  m : Nat
  c : Nat
  t : Nat
  d : Nat
  r : Nat
  networks : Nat
  delayNotRun : Nat
  watchdogMs : Nat
  deriving DecidableEq, Repr

/-- `ladder_manage_t`, ladder.h:441-448: whether each callback is registered (not NULL). -/
structure On where
  scanEnd     : Bool := false
  instruction : Bool := false
  taskBefore  : Bool := false
  taskAfter   : Bool := false
  panic       : Bool := false
  endTask     : Bool := false
  deriving DecidableEq, Repr

/-- `ladder_hw_input_vals_t`, ladder.h:491-499 (`fn_id` is never used). -/
structure InMod where
  iQty  : Nat := 0
  iwQty : Nat := 0
  I     : Arr Byte := none
  IW    : Arr W32 := none
  Ih    : Arr Byte := none
  IWh   : Arr W32 := none
  deriving DecidableEq, Repr

/-- `ladder_hw_output_vals_t`, ladder.h:506-514. -/
structure OutMod where
  qQty  : Nat := 0
  qwQty : Nat := 0
  Q     : Arr Byte := none
  QW    : Arr W32 := none
  Qh    : Arr Byte := none
  QWh   : Arr W32 := none
  deriving DecidableEq, Repr

/-- `ladder_scan_internals_t`, ladder.h:521-532. -/
structure ScanInt where
  actualScanTime : W64
  startTime      : W64
  maxScanCycles  : Nat
  targetScanMs   : W32   -- int32_t
  minScanTime    : W64
  maxScanTime    : W64
  totalScanTime  : W64
  avgScanTime    : W64
  scanCount      : W32
  overrun        : Bool
  deriving DecidableEq, Repr

/-- `ladder_instructions_iocd_t`, ladder.h:217-222 (all `uint8_t`). -/
structure Iocd where
  inputs  : Nat
  outputs : Nat
  cells   : Nat
  dataQty : Nat
  deriving DecidableEq, Repr

/-- `ladder_foreign_function_t`, ladder.h:574-581: `exec` itself is a member of `Env`. -/
structure Foreign where
  id        : Nat
  desc      : Iocd
  hasDeinit : Bool
  deriving DecidableEq, Repr

/-- `struct tm` as used by lwdtc (fields are C `int`s). -/
structure Tm where
  sec  : Int
  min  : Int
  hour : Int
  mday : Int
  mon  : Int
  year : Int
  wday : Int
  deriving DecidableEq, Repr

/-- `lwdtc_cron_ctx_t`, lwdtc.h (bit maps; `flags` is never used). -/
structure CronExpr where
  sec  : List Byte
  min  : List Byte
  hour : List Byte
  mday : List Byte
  mon  : List Byte
  wday : List Byte
  year : List Byte
  deriving DecidableEq, Repr

/-- `ladderlib_cron_ctx_t`, ladderlib_cron.h:45-51. -/
structure CronJob where
  enabled   : Bool
  autoReset : Bool
  enableReg : Nat
  flagReg   : Nat
  cron      : CronExpr
  deriving DecidableEq, Repr

/-- `ladderlib_cron_t`, ladderlib_cron.h:58-62. -/
structure Cron where
  ctx  : Arr CronJob
  qty  : Nat
  used : Nat
  deriving DecidableEq, Repr

/-- `ladder_ctx_t`, ladder.h:598-615 (with `ladder_hw_t` 420-434, `ladder_memory_t` 454-460,
`ladder_prev_scan_vals_t` 467-473 and `ladder_registers_t` 480-484 flattened into it).  Function pointers are represented by whether they are set;
their behaviour is given by `Env`. -/
structure Ctx where
  state        : St
  writeOnFault : Bool
  last         : Last
  qty          : Qty
  fnReadQty    : Nat
  fnWriteQty   : Nat
  read         : Arr Bool      -- entry = function pointer is not NULL
  write        : Arr Bool
  initRead     : Arr Bool
  initWrite    : Arr Bool
  millis       : Bool
  delay        : Bool
  on           : On
  M            : Arr Byte      -- uint8_t
  Cr           : Arr Byte      -- `bool` arrays (Cr, Cd, Tr, Td) are kept as their bytes
  Cd           : Arr Byte
  Tr           : Arr Byte
  Td           : Arr Byte
  Mh           : Arr Byte
  Crh          : Arr Byte
  Cdh          : Arr Byte
  Trh          : Arr Byte
  Tdh          : Arr Byte
  input        : Arr InMod
  output       : Arr OutMod
  C            : Arr W32
  D            : Arr W32
  R            : Arr W32       -- float bit patterns
  timers       : Arr Timer
  scan         : ScanInt
  network      : Arr Network
  exec         : Option Nat    -- exec_network: NULL or &network[n]
  foreignQty   : Nat
  foreign      : Arr Foreign
  cron         : Option Cron
  deriving DecidableEq, Repr

/-- Observable events: callback invocations and, for `exec`, the (ghost) start of an instruction. -/
inductive Event where
  | panic
  | before
  | after
  | endTask
  | read (n : Nat)
  | write (n : Nat) (out : Arr OutMod)   -- with the outputs visible to the callback
  | delay (ms : Nat)
  | exec (network row col : Nat) (code : Ins)     -- start of an instruction (ghost)
  | ret (network row col : Nat) (err : Err)       -- its error code (ghost; also the verdict on an invalid code)
  | instr (last : Last)
  | scanEnd
  | foreign (id : Nat) (col row : Nat)
  deriving DecidableEq, Repr

/-- State of an execution: the context, the number of external calls made, and the events so far. -/
structure World where
  ctx   : Ctx
  tick  : Nat
  trace : List Event

/-- The environment: clock and callbacks.  Each is a function of the number of external calls made so far,
so a callback may act differently at every call; callbacks may change the context arbitrarily.
`delay` returning a changed context stands for other threads acting during the delay. -/
structure Env where
  clock       : Nat → W64
  panic       : Nat → Ctx → Ctx
  instruction : Nat → Ctx → Ctx
  scanEnd     : Nat → Ctx → Ctx
  before      : Nat → Ctx → Ctx
  after       : Nat → Ctx → Ctx
  endTask     : Nat → Ctx → Ctx
  delay       : Nat → Ctx → Ctx
  read        : Nat → Nat → Ctx → Ctx
  write       : Nat → Nat → Ctx → Ctx
  foreign     : Nat → Nat → Nat → Nat → Ctx → Err × Ctx   -- tick, id, column, row
  localtime   : Nat → Tm                                  -- localtime(time()) as used by cron

end Ladder
