import Verif.Model.Heap
import Verif.Model.SelfTest

/-
What the test of the instructions, test/ladderlib_test_functions.c, does with the heap.

Only the calls that allocate or release memory are kept: `ladder_ctx_init`, `ladder_clear_program`, the registration of modules, the placement of
instructions, the registration of the foreign function, the tables of the test of TMOVE and `ladder_ctx_deinit`.  `ladder_task` and the
assignments to operands, registers and flags neither allocate nor release.
-/

set_option autoImplicit false

namespace Ladder.Heap.SelfTest

/-- The arguments of `ladder_ctx_init`, ladderlib_test_functions.c:48-52 and 255. -/
def args : InitArgs :=
  { cols := 5, rows := 5, networks := 3, m := 18, c := 8, t := 8, d := 8, r := 8, initNetwork := true }

/-- The description of an instruction, `ladder_fn_iocd` in ladder_instructions.h; of the foreign function
`dummy_foreign_fn_init`, ladderlib_test_functions.c:172-186. -/
def desc (code : Ins) : Iocd :=
  if code = .FOREIGN then ⟨1, 1, 1, 0⟩
  else match Ladder.iocd code with
  | .ok d => d
  | .error _ => ⟨1, 1, 1, 0⟩

/-- What a test does with memory between `TEST_INIT` and its last `test_deinit`. -/
inductive Step where
  | cell (row col : Nat) (code : Ins)    -- `CHECK_LADDER_FN_CELL(ladder_fn_cell(&ladder_ctx, 0, row, col, code, 0), …)`
  | foreign                              -- `ladder_add_foreign(&ladder_ctx, dummy_foreign_fn_init, NULL, 1)`
  | table (n : Nat)                      -- `network[n].cells[0][0].data = calloc(1, …); ….data_qty = 1;`
  | drop (n : Nat)                       -- `free(network[n].cells[0][0].data); ….data = NULL; ….data_qty = 0;`

/-- `free(network[n].cells[0][0].data)` with the assignments after it, ladderlib_test_functions.c:1171-1177. -/
def dropTable (n : Nat) (x : Ctx) : H Ctx := do
  let (_, x) ← onCell n 0 0 (fun cell => do
    free (ptrOf cell.data)
    pure ((), { cell with qty := 0, data := none })) x
  pure x

/-- One step; `false` if the test gives up.  If the second table of the test of TMOVE cannot be allocated, the first is released,
ladderlib_test_functions.c:1136-1144. -/
def act (p : Policy) : Step → Ctx → H (Bool × Ctx)
  | .cell row col code, x => fnCell p (desc code) code 0 0 row col x
  | .foreign, x => addForeign p 1 true x
  | .table n, x => do
    match ← alloc p with
    | none =>
      if n = 2 then do
        let x ← dropTable 1 x
        pure (false, x)
      else pure (false, x)
    | some b => do
      let (_, x) ← onCell n 0 0 (fun cell => pure ((), { cell with qty := 1, data := some (b, [none]) })) x
      pure (true, x)
  | .drop n, x => do
    let x ← dropTable n x
    pure (true, x)

/-- The steps of a test and `test_deinit`, ladderlib_test_functions.c:286-289; the test ends with the first step that fails, after
`test_deinit`, ladderlib_test_functions.c:109-117. -/
def body (p : Policy) : List Step → Ctx → H Unit
  | [], x => do
    let _ ← deinit x
    pure ()
  | s :: k, x => do
    let (ok, x) ← act p s x
    if ok then body p k x
    else do
      let _ ← deinit x
      pure ()

/-- A test: `TEST_INIT`, ladderlib_test_functions.c:138-146, with `test_init`, 253-284, and its steps.  The result is that of
`test_init`.  If `test_init` fails, the test returns at once.  `test_init` ends with `ladder_ctx.cron = NULL`. -/
def test (p : Policy) (steps : List Step) : H Bool := do
  let (ok, x) ← ctxInit p {} args
  if !ok then pure false
  else do
    let x ← clearProgram x
    let (ok, x) ← addRead p true x
    if !ok then pure false
    else do
      let (ok, x) ← addWrite p true x
      if !ok then pure false
      else do
        body p steps (x.set .cron none)
        pure true

/-- Tests one after the other; the number of those whose `test_init` succeeds. -/
def suite (p : Policy) : List (List Step) → H Nat
  | [] => pure 0
  | t :: ts => do
    let ok ← test p t
    let n ← suite p ts
    pure (n + if ok then 1 else 0)

/-- The part of a step of a test that concerns memory. -/
def ofStep : Ladder.SelfTest.Step → Option Step
  | .cell row col code => some (.cell row col code)
  | .foreign => some .foreign
  | _ => none

/-- `test_fn_TMOVE`, ladderlib_test_functions.c:1117-1180. -/
def testTMOVE : List Step := [.table 1, .table 2, .cell 0 0 .TMOVE, .drop 1, .drop 2]

/-- The tests in the order of `test_ladder_instructions`, ladderlib_test_functions.c:1293-1329; that of TMOVE is the last. -/
def tests : List (List Step) := (Ladder.SelfTest.tests.take 36).map (·.filterMap ofStep) ++ [testTMOVE]

end Ladder.Heap.SelfTest
