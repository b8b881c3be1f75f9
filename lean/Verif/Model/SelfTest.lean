import Verif.Model.Task

/-
The test of the instructions with which the application begins, test/ladderlib_test_functions.c.

Not kept: what is printed and the count of tests.  All allocations succeed.  `test_deinit` only releases memory (C60); the next test initialises
the context anew.
-/

set_option autoImplicit false

namespace Ladder.SelfTest

open Op

/-- The arguments of `ladder_ctx_init`, ladderlib_test_functions.c:48-52 and 255. -/
def args : InitArgs :=
  { cols := 5, rows := 5, networks := 3, m := 18, c := 8, t := 8, d := 8, r := 8, delayNotRun := 10, watchdogMs := 0
    initNetwork := true, writeOnFault := true, maxScanCycles := 1000000, targetScanMs := 100 }

/-- `test_init_read` and `test_init_write`, ladderlib_test_functions.c:191-200. -/
def hook : InitHook := fun _ _ c => (true, c)

/-- `test_init`, ladderlib_test_functions.c:253-284, for a context that holds `old`; `none` if it reports an error. -/
def init (old : Ctx) : Except UB (Option Ctx) :=
  match ctxInit true old args with
  | .noMemory => .ok none
  | .returns false _ => .ok none
  | .returns true c =>
    match clearProgram c with
    | .error e => .error e
    | .ok c =>
      match addRead 3 c (some hook) with
      | (false, _) => .ok none
      | (true, c) =>
        match addWrite 3 c (some hook) with
        | (false, _) => .ok none
        | (true, c) => .ok (some { c with
            on := { scanEnd := true, instruction := true, taskBefore := true, taskAfter := true, panic := true, endTask := true }
            millis := true, delay := true, cron := none, state := .running })

/-- The callbacks, ladderlib_test_functions.c:164-251: `test_on_task_after` ends the task, `dummy_foreign_exec` energises its cell, the others
do nothing.  `clock` are the values of `test_millis`, and `zone` of `localtime`. -/
def env (clock : Nat → W64) (zone : Nat → Tm) : Env where
  clock := clock
  panic := fun _ c => c
  instruction := fun _ c => c
  scanEnd := fun _ c => c
  before := fun _ c => c
  after := fun _ c => { c with state := .exitTsk }
  endTask := fun _ c => c
  delay := fun _ c => c
  read := fun _ _ c => c
  write := fun _ _ c => c
  foreign := fun _ _ col row c => (.ok, match c.exec with
    | none => c
    | some n => c.modCell n row col fun cell => { cell with state := true })
  localtime := zone

/-- `dummy_foreign_fn_init`, ladderlib_test_functions.c:172-186. -/
def foreignInit (f : Foreign) : Bool × Foreign := (true, { f with id := 0, desc := ⟨1, 1, 1, 0⟩, hasDeinit := false })

/-- What a test does after `TEST_INIT`. -/
inductive Step where
  | assign (f : Ctx → Except UB Ctx)             -- assignments to the context
  | cell (row col : Nat) (code : Ins)            -- `CHECK_LADDER_FN_CELL(ladder_fn_cell(&ladder_ctx, 0, row, col, code, 0), …)`
  | foreign                                      -- `if (!ladder_add_foreign(&ladder_ctx, dummy_foreign_fn_init, NULL, 1)) …`
  | task                                         -- `ladder_task((void*) &ladder_ctx);`
  | check (p : Ctx → Except UB Bool)             -- `CHECK…`

/-- The steps of a test, each call of `ladder_task` observed for `n` iterations: the number of failures, `none` while a task runs. -/
def perform (env : Env) (n : Nat) : List Step → Op (Option Nat)
  | [] => pure (some 0)
  | .assign f :: k => do
    let ctx ← getCtx
    let ctx ← lift (f ctx)
    modCtx fun _ => ctx
    perform env n k
  | .cell row col code :: k => do
    let ctx ← getCtx
    let r ← lift (fnCell true ctx 0 row col code 0)
    modCtx fun _ => r.2
    if r.1 then perform env n k else pure (some 1)
  | .foreign :: k => do
    let ctx ← getCtx
    let r := addForeign true ctx foreignInit 1
    modCtx fun _ => r.2
    if r.1 then perform env n k else pure (some 1)
  | .task :: k => do
    let r ← Ladder.task env n
    if r = .running then pure none else perform env n k
  | .check p :: k => do
    let ctx ← getCtx
    let b ← lift (p ctx)
    let r ← perform env n k
    pure (r.map (· + if b then 0 else 1))

/-- A test: `TEST_INIT`, ladderlib_test_functions.c:138-146, and its steps. -/
def test (env : Env) (n : Nat) (steps : List Step) : Op (Option Nat) := do
  let ctx ← getCtx
  match ← lift (init ctx) with
  | none => pure (some 1)
  | some ctx => do
    modCtx fun _ => ctx
    perform env n steps

/-- `a[i] = x`. -/
def poke {α : Type} (a : Arr α) (i : Nat) (x : α) : Except UB (Arr α) :=
  match aget a i with
  | .error e => .error e
  | .ok _ => .ok (aset a i x)

/-- `SET_REG_D(i, x)`. -/
def setD (i : Nat) (x : W32) : Step := .assign fun c => (poke c.D i x).map fun a => { c with D := a }
/-- `SET_REG_M(i, x)`. -/
def setM (i : Nat) (x : Byte) : Step := .assign fun c => (poke c.M i x).map fun a => { c with M := a }
/-- `prev_scan_vals.Mh[i] = x`. -/
def setMh (i : Nat) (x : Byte) : Step := .assign fun c => (poke c.Mh i x).map fun a => { c with Mh := a }
/-- `registers.C[0] = x; memory.Cd[0] = false; memory.Cr[0] = false;` -/
def setCounter (x : W32) : Step := .assign fun c => do
  let a ← poke c.C 0 x
  let d ← poke c.Cd 0 0
  let r ← poke c.Cr 0 0
  .ok { c with C := a, Cd := d, Cr := r }
/-- `timers[0].acc = 0; memory.Tr[0] = false; memory.Td[0] = false;` -/
def setTimer : Step := .assign fun c => do
  let t ← aget c.timers 0
  let r ← poke c.Tr 0 0
  let d ← poke c.Td 0 0
  .ok { c with timers := aset c.timers 0 { t with acc := 0 }, Tr := r, Td := d }
/-- `memset(memory.M, 0, TEST_QTY_M * sizeof(uint8_t))`. -/
def clearFlags : Step := .assign fun c => (afill c.M 18 0).map fun a => { c with M := a }
/-- `ladder.state = LADDER_ST_RUNNING`. -/
def again : Step := .assign fun c => .ok { c with state := .running }
/-- A change of `network[n].cells[row][col]`. -/
def onCell (n row col : Nat) (f : Cell → Except UB Cell) : Step := .assign fun c =>
  match aget c.network n with
  | .error e => .error e
  | .ok net =>
    match net.cell row col with
    | .error e => .error e
    | .ok cell => (f cell).map fun cell => c.modCell n row col fun _ => cell
/-- `network[0].cells[row][col].data[i].type = t; ….data[i].value.i32 = x;` -/
def operand (row col i : Nat) (t : Reg) (x : W32) : Step := onCell 0 row col fun cell =>
  match aget cell.data i with
  | .error e => .error e
  | .ok v => .ok { cell with data := aset cell.data i { v with type := t, raw := x } }
/-- `network[0].cells[row][col].state = b`. -/
def setPower (row col : Nat) (b : Bool) : Step := onCell 0 row col fun cell => .ok { cell with state := b }
/-- `network[n].enable = b`. -/
def setEnable (n : Nat) (b : Bool) : Step := .assign fun c =>
  match aget c.network n with
  | .error e => .error e
  | .ok net => .ok { c with network := aset c.network n { net with enable := b } }
/-- `cells[0][0].data = calloc(1, …); data_qty = 1; data[0].type = LADDER_REGISTER_D; data[0].value.i32 = x;` in network `n`. -/
def table (n : Nat) (x : W32) : Step := onCell n 0 0 fun cell =>
  .ok { cell with data := some [{ type := .D, raw := x }], dataQty := 1 }
/-- `free(data); data = NULL; data_qty = 0;` in network `n`. -/
def dropTable (n : Nat) : Step := onCell n 0 0 fun cell => .ok { cell with data := none, dataQty := 0 }

/-- `CHECK_REG_D(i, x, …)`. -/
def hasD (i : Nat) (x : W32) : Step := .check fun c => (aget c.D i).map fun y => decide (y = x)
/-- `CHECK(memory.M[i] == x, …)`. -/
def hasM (i : Nat) (x : Byte) : Step := .check fun c => (aget c.M i).map fun y => decide (y = x)
/-- `CHECK_CELL_STATE(0, row, col, b, …)`. -/
def hasPower (row col : Nat) (b : Bool) : Step := .check fun c =>
  match aget c.network 0 with
  | .error e => .error e
  | .ok net => (net.cell row col).map fun cell => decide (cell.state = b)
/-- `CHECK(flags[0] == b, …)` for a `bool` array. -/
def hasFlag (sel : Ctx → Arr Byte) (b : Bool) : Step := .check fun c =>
  match aget (sel c) 0 with
  | .error e => .error e
  | .ok y => (boolOf y).map fun x => decide (x = b)

/-- Operands `D[0]`, `D[1]`, … (`n` of them) of the instruction at (0, 0). -/
def operandsD (n : Nat) : List Step := (List.range n).map fun i => operand 0 0 i .D (BitVec.ofNat 32 i)

/-- Tests of an instruction with the operands `D[0]`, `D[1]` and, if `n` is 3, `D[2]`, which leaves `z` in `D[i]`. -/
def calculates (code : Ins) (n : Nat) (sets : List Step) (power : Bool) (i : Nat) (z : W32) : List Step :=
  sets ++ [.cell 0 0 code] ++ operandsD n ++ [setEnable 0 true] ++ (if power then [setPower 0 0 true] else []) ++ [.task, hasD i z]

/-- Tests of a comparison: true for `x`, `y`, and false after the assignment `s`. -/
def compares (code : Ins) (x y : W32) (s : Step) : List Step :=
  [setD 0 x, setD 1 y, .cell 0 0 code] ++ operandsD 2 ++
  [setEnable 0 true, setPower 0 0 true, .task, hasPower 0 0 true, s, again, .task, hasPower 0 0 false]

/-- ladderlib_test_functions.c:293-322. -/
def testADD : List Step := calculates .ADD 3 [setD 0 10, setD 1 20, setD 2 0] false 2 30
/-- ladderlib_test_functions.c:324-345. -/
def testAND : List Step := calculates .AND 3 [setD 0 1, setD 1 1, setD 2 0] false 2 1
/-- ladderlib_test_functions.c:347-381. -/
def testCOIL : List Step :=
  [clearFlags, setM 1 0, .cell 0 0 .NO, operand 0 0 0 .M 1, .cell 0 1 .COIL, operand 0 1 0 .M 0, setEnable 0 true,
    setM 1 1, .task, hasM 0 1, setM 1 0, again, .task, hasM 0 0]
/-- ladderlib_test_functions.c:383-407. -/
def testCOILL : List Step :=
  [setM 0 0, .cell 0 0 .COILL, operand 0 0 0 .M 0, setEnable 0 true, setMh 0 0, setPower 0 0 true, .task, hasM 0 1,
    setMh 0 1, setPower 0 0 false, .task, hasM 0 1]
/-- ladderlib_test_functions.c:409-443. -/
def testCOILU : List Step :=
  [setM 1 0, .cell 0 0 .NO, operand 0 0 0 .M 1, .cell 0 1 .COILU, operand 0 1 0 .M 0, setEnable 0 true, setM 0 1,
    setM 1 0, setMh 0 1, .task, hasM 0 1, setM 1 1, setMh 0 1, again, .task, hasM 0 0]
/-- ladderlib_test_functions.c:445-457. -/
def testCONN : List Step := [.cell 0 0 .CONN, setEnable 0 true, setPower 0 0 true, .task, hasPower 0 0 true]
/-- ladderlib_test_functions.c:459-503. -/
def testCTD : List Step :=
  [setCounter 5, setM 2 0, .cell 0 0 .NO, operand 0 0 0 .M 2, .cell 0 1 .CTD, operand 0 1 0 .C 0, operand 0 1 1 .D 0, setD 0 5,
    setPower 1 1 false, setEnable 0 true] ++
  (List.replicate 3 [again, setM 2 1, .task, again, setM 2 0, .task]).flatten ++
  [.check fun c => (aget c.C 0).map fun y => decide (y = 2)]
/-- ladderlib_test_functions.c:505-537. -/
def testCTU : List Step :=
  [setCounter 0, .cell 0 1 .CTU, operand 0 1 0 .C 0, operand 0 1 1 .D 0, setD 0 5, setEnable 0 true] ++
  (List.replicate 5 [again, setPower 0 1 true, .task, again, setPower 0 1 false, .task]).flatten ++
  [hasFlag Ctx.Cd true]
/-- ladderlib_test_functions.c:539-568. -/
def testDIV : List Step := calculates .DIV 3 [setD 0 20, setD 1 4, setD 2 0] true 2 5 ++ [setD 1 0, again, .task, hasD 2 0]
/-- ladderlib_test_functions.c:570-595. -/
def testEQ : List Step := compares .EQ 5 5 (setD 1 6)
/-- ladderlib_test_functions.c:597-622. -/
def testFE : List Step :=
  [setM 0 0, setMh 0 1, .cell 0 0 .FE, operand 0 0 0 .M 0, setEnable 0 true, setPower 0 0 true, .task, hasPower 0 0 true,
    setMh 0 0, again, .task, hasPower 0 0 false]
/-- ladderlib_test_functions.c:624-640. -/
def testFOREIGN : List Step := [.foreign, .cell 0 0 .FOREIGN, setEnable 0 true, .task, hasPower 0 0 true]
/-- ladderlib_test_functions.c:642-667. -/
def testGE : List Step := compares .GE 5 3 (setD 0 2)
/-- ladderlib_test_functions.c:669-694. -/
def testGT : List Step := compares .GT 5 3 (setD 0 3)
/-- ladderlib_test_functions.c:696-721. -/
def testLE : List Step := compares .LE 3 5 (setD 0 6)
/-- ladderlib_test_functions.c:723-748. -/
def testLT : List Step := compares .LT 3 5 (setD 0 5)
/-- ladderlib_test_functions.c:750-773. -/
def testMOD : List Step := calculates .MOD 3 [setD 0 10, setD 1 3, setD 2 0] true 2 1
/-- ladderlib_test_functions.c:775-794. -/
def testMOVE : List Step := calculates .MOVE 2 [setD 0 42, setD 1 0] true 1 42
/-- ladderlib_test_functions.c:796-818. -/
def testMUL : List Step := calculates .MUL 3 [setD 0 5, setD 1 6, setD 2 0] true 2 30
/-- ladderlib_test_functions.c:820-842. -/
def testNC : List Step :=
  [setM 0 0, .cell 0 0 .NC, operand 0 0 0 .M 0, setEnable 0 true, setPower 0 0 true, .task, hasPower 0 0 true,
    setM 0 1, again, .task, hasPower 0 0 false]
/-- ladderlib_test_functions.c:844-869. -/
def testNE : List Step := compares .NE 5 3 (setD 1 5)
/-- ladderlib_test_functions.c:871-897. -/
def testNEG : List Step :=
  [setM 1 0, .cell 0 0 .NO, operand 0 0 0 .M 1, .cell 0 1 .NEG, setEnable 0 true, setM 1 1, .task, hasPower 0 1 false,
    setM 1 0, again, .task, hasPower 0 1 true]
/-- ladderlib_test_functions.c:899-921. -/
def testNO : List Step :=
  [setM 0 1, .cell 0 0 .NO, operand 0 0 0 .M 0, setEnable 0 true, setPower 0 0 true, .task, hasPower 0 0 true,
    setM 0 0, again, .task, hasPower 0 0 false]
/-- ladderlib_test_functions.c:923-934. -/
def testNOP : List Step := [.cell 0 0 .NOP, setEnable 0 true, .task, .check fun c => .ok (decide (c.last.err = .ok))]
/-- ladderlib_test_functions.c:936-955. -/
def testNOT : List Step := calculates .NOT 2 [setD 0 0x0F, setD 1 0] true 1 (~~~0x0F)
/-- ladderlib_test_functions.c:957-979. -/
def testOR : List Step := calculates .OR 3 [setD 0 0x0F, setD 1 0x30, setD 2 0] true 2 0x3F
/-- ladderlib_test_functions.c:981-1005. -/
def testRE : List Step :=
  [setM 0 1, setMh 0 0, .cell 0 0 .RE, operand 0 0 0 .M 0, setEnable 0 true, setPower 0 0 true, .task, hasPower 0 0 true,
    setMh 0 1, again, .task, hasPower 0 0 false]
/-- ladderlib_test_functions.c:1007-1026. -/
def testROL : List Step := calculates .ROL 2 [setD 0 0x80000001, setD 1 1] true 0 0x00000003
/-- ladderlib_test_functions.c:1030-1049. -/
def testROR : List Step := calculates .ROR 2 [setD 0 0x80000001, setD 1 1] true 0 (.ofInt 32 (-1073741824))
/-- ladderlib_test_functions.c:1051-1070. -/
def testSHL : List Step := calculates .SHL 2 [setD 0 0x0000000F, setD 1 2] true 0 0x0000003C
/-- ladderlib_test_functions.c:1072-1091. -/
def testSHR : List Step := calculates .SHR 2 [setD 0 0x0000000F, setD 1 2] true 0 0x00000003
/-- ladderlib_test_functions.c:1093-1115. -/
def testSUB : List Step := calculates .SUB 3 [setD 0 10, setD 1 3] true 2 7 ++ [hasPower 0 0 true]
/-- ladderlib_test_functions.c:1182-1208.  LADDER_BASETIME_MS has the code of LADDER_REGISTER_NONE.  The second call of the task finds the state EXIT_TSK. -/
def testTOF : List Step :=
  [setTimer, .cell 0 1 .TOF, operand 0 1 0 .T 0, operand 0 1 1 .NONE 10, setEnable 0 true, setPower 0 1 true, .task, hasFlag Ctx.Td false,
    setPower 0 1 false, .task, hasFlag Ctx.Tr true]
/-- ladderlib_test_functions.c:1210-1231. -/
def testTON : List Step :=
  [setTimer, .cell 0 1 .TON, operand 0 1 0 .T 0, operand 0 1 1 .NONE 10, setEnable 0 true, setPower 0 1 true, .task, hasFlag Ctx.Td false]
/-- ladderlib_test_functions.c:1233-1262. -/
def testTP : List Step :=
  [setTimer, setM 2 0, .cell 0 0 .NO, operand 0 0 0 .M 2, .cell 0 1 .TP, operand 0 1 0 .T 0, operand 0 1 1 .NONE 10, setEnable 0 true,
    setM 2 1, .task, hasFlag Ctx.Tr true]
/-- ladderlib_test_functions.c:1264-1286. -/
def testXOR : List Step := calculates .XOR 3 [setD 0 0x0F, setD 1 0x33, setD 2 0] true 2 0x3C
/-- ladderlib_test_functions.c:1117-1180. -/
def testTMOVE : List Step :=
  [setEnable 1 false, table 1 42, setEnable 2 false, table 2 0, .cell 0 0 .TMOVE, operand 0 0 0 .NONE 2, operand 0 0 1 .NONE 0,
    operand 0 0 2 .NONE 1, operand 0 0 3 .NONE 0, operand 0 0 4 .NONE 1, setEnable 0 true, setPower 0 0 true, again, .task,
    .check fun c => match aget c.network 2 with
      | .error e => .error e
      | .ok net => match net.cell 0 0 with
        | .error e => .error e
        | .ok cell => (aget cell.data 0).map fun v => decide (v.raw = 42),
    dropTable 1, dropTable 2]

/-- The tests in the order of `test_ladder_instructions`, ladderlib_test_functions.c:1293-1329. -/
def tests : List (List Step) :=
  [testADD, testAND, testCOIL, testCOILL, testCOILU, testCONN, testCTD, testCTU, testDIV, testEQ, testFE, testFOREIGN, testGE, testGT,
    testLE, testLT, testMOD, testMOVE, testMUL, testNC, testNE, testNEG, testNO, testNOP, testNOT, testOR, testRE, testROL, testROR,
    testSHL, testSHR, testSUB, testTOF, testTON, testTP, testXOR, testTMOVE]

/-- Tests one after the other: the number of failures, `none` while a task runs. -/
def suite (env : Env) (n : Nat) : List (List Step) → Op (Option Nat)
  | [] => pure (some 0)
  | t :: ts => do
    match ← test env n t with
    | none => pure none
    | some k => do
      let r ← suite env n ts
      pure (r.map (k + ·))

/-- `test_ladder_instructions`, ladderlib_test_functions.c:1290-1340: its result, `none` while a task runs. -/
def selfTest (env : Env) (n : Nat) : Op (Option Bool) := do
  let r ← suite env n tests
  pure (r.map fun k => decide (k = 0))

end Ladder.SelfTest
