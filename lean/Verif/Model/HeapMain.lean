import Verif.Model.HeapSave
import Verif.Model.HeapSelfTest

/-
What the application that comes with the library does with the heap: `main`, test/ladderlib_test.c:143-268.

Kept: the test of the instructions, the context of the application, the files it reads and writes, the buffers of `ladder_print`.  Not kept: `ladder_program_check` and
`ladder_task`, which neither allocate nor release; the blocks of the port's hooks (PortHeap.lean, C82); the operands that `ladder_print` reads (Print.lean).
`ladderlib_cron_add` does not allocate.
-/

set_option autoImplicit false

namespace Ladder.Heap.App

open Ladder (Json Host)

/-- The arguments of `ladder_ctx_init`, ladderlib_test.c:137-141 and 160. -/
def args : InitArgs :=
  { cols := 6, rows := 7, networks := 3, m := 18, c := 8, t := 8, d := 8, r := 8, initNetwork := true }

/-- What `main` finds: which requests are granted (`rows`: those for the tables of rows of a program file, `names`: those for the names of the
arrays of a saved one, `jobs`: that for the table of scheduled jobs, `others`: all others), whether the test of the instructions passes, the files, the result of the
comparison with the schema, which files can be written, and the verdict of `ladder_program_check`. -/
structure Setting where
  others : Policy
  rows : Policy
  names : Policy
  jobs : Policy
  pass : Bool
  host : Host
  file : File
  schema : File
  verdict : Json → Json → Bool
  saved : File
  canSave : Bool
  canCompact : Bool
  valid : Bool

/-- How `main` ends. -/
inductive Stage where
  | failed     -- the test of the instructions fails: `exit(1)`
  | abandoned  -- the context cannot be set up: `return 1` or `exit(1)` without a release
  | released   -- `ladder_ctx_deinit` has been called
  deriving DecidableEq, Repr

/-- The cells of a network in turn, ladder_print.c:410-422.  Without columns the rows are not looked at.  Simplified: the cells below a tall
instruction, which are skipped, are read as well. -/
def readCells (x : Net) : H (Option (Nat × List Row)) :=
  if x.cols = 0 then pure x.cells else each (fun row => each pure x.cols row) x.rows x.cells

/-- One network in `ladder_print`, ladder_print.c:390-444: the buffer, the cells, which are only read, and the release of the buffer.  A network that is too large or
whose buffer is refused is skipped. -/
def drawNet (p : Policy) (x : Net) : H Net := do
  if x.rows > 32 ∨ x.cols > 255 then pure x
  else
    match ← alloc p with
    | none => pure x
    | some b => do
      touch (some b)
      let cells ← readCells x
      free (some b)
      pure { x with cells := cells }

/-- `ladder_print`, ladder_print.c:385-446. -/
def draw (p : Policy) (x : Ctx) : H Ctx := do
  let nets ← each (drawNet p) x.networks x.nets
  pure { x with nets := nets }

/-- From the check of the schema to the label `end`, ladderlib_test.c:213-253: a step that fails skips the rest. -/
def work (s : Setting) (x : Ctx) : H Ctx := do
  let ok ← validateFile s.others s.verdict s.file s.schema
  if !ok then pure x
  else do
    let (ok, x) ← loadFile s.others s.rows s.host s.file x
    if !ok then pure x
    else do
      let ok ← saveFile s.others s.names s.canSave x
      if !ok then pure x
      else do
        let ok ← compactFile s.others s.canCompact s.saved
        if !ok then pure x
        else if !s.valid then pure x
        else draw s.others x

/-- The context, the modules, the table of three scheduled jobs and the foreign functions, ladderlib_test.c:160-211; `false` if `main` ends there. -/
def setUp (s : Setting) : H (Bool × Ctx) := do
  let (ok, x) ← ctxInit s.others {} args
  if !ok then pure (false, x)
  else do
    let (ok, x) ← addRead s.others true x
    if !ok then pure (false, x)
    else do
      let (ok, x) ← addWrite s.others true x
      if !ok then pure (false, x)
      else do
        let (ok, x) ← cronInit s.jobs 3 x
        if !ok then pure (false, x)
        else addForeign s.others 5 true x

/-- `main`, ladderlib_test.c:143-268. -/
def main (s : Setting) : H Stage := do
  let _ ← SelfTest.suite s.others SelfTest.tests
  if !s.pass then pure .failed
  else do
    let (ok, x) ← setUp s
    if !ok then pure .abandoned
    else do
      let x ← work s x
      let _ ← deinit x
      pure .released

end Ladder.Heap.App
