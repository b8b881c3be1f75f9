import Verif.Model.Check
import Verif.Model.Cron
import Verif.Model.Json
import Verif.Model.Port
import Verif.Model.Shipped
import Verif.Model.Task

/-
The application that comes with the library, test/ladderlib_test.c, and its program, ladder_networks.json.

Not kept: what is printed, the test of the instructions at the start (ladderlib_test.c:152-154, modelled in SelfTest.lean), the files: the documents are given as
trees, writing and compacting a file succeeds.  All allocations succeed.
-/

set_option autoImplicit false

namespace Ladder.App

/-- An operand in ladder_networks.json. -/
def item (name type value : String) : Json := .obj [("name", .str name), ("type", .str type), ("value", .str value)]

/-- A cell in ladder_networks.json. -/
def cellOf (symbol : String) (bar : Bool) (data : List Json) : Json :=
  .obj [("symbol", .str symbol), ("bar", .bool bar), ("data", .arr data)]

def nop : Json := cellOf "NOP" false []
def conn : Json := cellOf "CONN" false []
def occupied : Json := cellOf "occupied" false []

/-- A network in ladder_networks.json. -/
def netOf (id rows cols : Nat) (data : List (List Json)) : Json :=
  .obj [("id", .num (.fin id)), ("rows", .num (.fin rows)), ("cols", .num (.fin cols)), ("networkData", .arr (data.map .arr))]

/-- ladder_networks.json:2-284. -/
def net0 : Json := netOf 0 7 5 [
  [cellOf "NC" false [item "value" "M" "3"], cellOf "NC" false [item "value" "M" "2"],
    cellOf "TON" false [item "timer" "T" "0", item "basetime" "SEC" "5"], conn, cellOf "COIL" false [item "value" "M" "1"]],
  [nop, nop, occupied, nop, nop],
  [cellOf "NO" false [item "value" "M" "1"], conn,
    cellOf "TON" false [item "timer" "T" "1", item "basetime" "SEC" "5"], conn, cellOf "COIL" false [item "value" "M" "2"]],
  [nop, nop, occupied, nop, nop],
  [cellOf "NO" false [item "value" "M" "1"], conn, conn, conn, cellOf "COIL" false [item "value" "Q" "0.0"]],
  [cellOf "NO" false [item "value" "Q" "0.0"], conn,
    cellOf "CTU" false [item "counter" "C" "0", item "preset value" "NONE" "5"], conn,
    cellOf "COIL" false [item "value" "M" "3"]],
  [nop, nop, occupied, nop, nop]]

/-- ladder_networks.json:285-573. -/
def net1 : Json := netOf 1 7 5 [
  [cellOf "NO" false [item "value" "M" "3"], cellOf "NC" false [item "value" "M" "4"],
    cellOf "NC" false [item "value" "M" "5"], cellOf "TON" false [item "timer" "T" "2", item "basetime" "SEC" "5"],
    cellOf "COIL" false [item "value" "M" "6"]],
  [nop, nop, nop, occupied, conn],
  [cellOf "NO" false [item "value" "M" "6"], conn, conn,
    cellOf "TON" false [item "timer" "T" "3", item "basetime" "SEC" "5"], cellOf "COIL" false [item "value" "M" "5"]],
  [nop, nop, nop, occupied, nop],
  [cellOf "NO" false [item "value" "M" "6"], conn, conn, conn, cellOf "COIL" false [item "value" "Q" "0.1"]],
  [cellOf "NO" false [item "value" "Q" "0.1"], conn, conn,
    cellOf "CTU" false [item "counter" "C" "1", item "preset value" "NONE" "5"], cellOf "COIL" false [item "value" "M" "4"]],
  [nop, nop, nop, occupied, nop]]

/-- ladder_networks.json:574-804. -/
def net2 : Json := netOf 2 7 5 [
  [cellOf "NO" false [item "value" "I" "0.7"], conn, conn, conn, cellOf "COIL" false [item "value" "Q" "0.3"]],
  [nop, nop, nop, cellOf "NOP" true [], cellOf "COIL" false [item "value" "Q" "0.4"]],
  [nop, nop, nop, nop, nop],
  [nop, nop, nop, nop, nop],
  [nop, nop, nop, nop, nop],
  [nop, nop, nop, nop, nop],
  [cellOf "COIL" false [item "value" "M" "10"], cellOf "COIL" false [item "value" "M" "12"],
    cellOf "COIL" false [item "value" "M" "14"], conn, conn]]

/-- ladder_networks.json. -/
def doc : Json := .arr [net0, net1, net2]

/-- The arguments of `ladder_ctx_init`, ladderlib_test.c:137-141 and 160. -/
def args : InitArgs :=
  { cols := 6, rows := 7, networks := 3, m := 18, c := 8, t := 8, d := 8, r := 8, delayNotRun := 10, watchdogMs := 0
    initNetwork := true, writeOnFault := true, maxScanCycles := 1000000, targetScanMs := 100 }

/-- The assignments of callbacks, ladderlib_test.c:178-185. -/
def callbacks (c : Ctx) : Ctx :=
  { c with
    on := { scanEnd := true, instruction := true, taskBefore := true, taskAfter := true, panic := true, endTask := true }
    millis := true, delay := true }

/-- The three cron jobs, ladderlib_test.c:193-206. -/
def jobs : List (Nat × Nat × String) :=
  [(10, 11, "*/2 * * * * * *"), (12, 13, "*/10 * * * * * *"), (14, 15, "0 58 22 * * * *")]

/-- The calls of `ladderlib_cron_add`, ladderlib_test.c:193-206; `none` if the application exits with a message. -/
def addJobs : List (Nat × Nat × String) → Ctx → Except UB (Option Ctx)
  | [], c => .ok (some c)
  | (e, f, s) :: js, c =>
    match cronAdd c false e f s.toList with
    | .ub u => .error u
    | .diverges => .error .diverges
    | .done .ok c => addJobs js c
    | .done _ _ => .ok none

/-- `main` before the program is loaded, ladderlib_test.c:157-216, for a context that holds `old` before it is initialised;
`none` if the application exits with a message. -/
def prepare (old : Ctx) : Except UB (Option Ctx) :=
  match ctxInit true old args with
  | .noMemory => .ok none
  | .returns false _ => .ok none
  | .returns true c =>
    match addRead 3 c (some (Port.readHook 3)) with
    | (false, _) => .ok none
    | (true, c) =>
      match addWrite 3 c (some (Port.writeHook 3)) with
      | (false, _) => .ok none
      | (true, c) =>
        match cronInit (callbacks c) 3 with
        | .error u => .error u
        | .ok (.ok, c) =>
          match addJobs jobs c with
          | .error u => .error u
          | .ok none => .ok none
          | .ok (some c) =>
            match addForeign true { c with state := .running } Port.foreignInit 5 with
            | (false, _) => .ok none
            | (true, c) => .ok (some c)
        | .ok _ => .ok none

/-- The program: validating, loading, saving and checking it, ladderlib_test.c:218-249; `none` if the application ends early. -/
def load (L : Lib) (H : Host) (c : Ctx) : Except UB (Option Ctx) :=
  match validate L shipped doc with
  | .error u => .error u
  | .ok false => .ok none
  | .ok true =>
    match loadProgram H c doc with
    | .error u => .error u
    | .ok (.ok, c) =>
      match saveProgram H c with
      | .error u => .error u
      | .ok _ =>
        match programCheck c with
        | .error u => .error u
        | .ok none => .error .uninit
        | .ok (some s) => .ok (if s.error = .ok then some c else none)
    | .ok _ => .ok none

/-- `main` up to the start of the task, ladderlib_test.c:156-249. -/
def boot (L : Lib) (H : Host) (old : Ctx) : Except UB (Option Ctx) :=
  match prepare old with
  | .error u => .error u
  | .ok none => .ok none
  | .ok (some c) => load L H c

end Ladder.App
