import Verif.Model.Data

/-
`source/ladder_general.c`: scan time statistics, fault recovery, history, initialisation and registration.
-/

namespace Ladder

open Op

/-- `memcpy(dst, src, n * sizeof(elem))`. -/
def acopy {α : Type} (dst src : Arr α) (n : Nat) : Except UB (Arr α) :=
  match dst, src with
  | some d, some s => if n ≤ d.length ∧ n ≤ s.length then .ok (some (s.take n ++ d.drop n)) else .error .oob
  | _, _ => .error .nullDeref

/-- `memset(a, 0, n * sizeof(elem))`, and loops assigning the same value to the first `n` elements. -/
def afill {α : Type} (a : Arr α) (n : Nat) (x : α) : Except UB (Arr α) :=
  match a with
  | some l => if n ≤ l.length then .ok (some (List.replicate n x ++ l.drop n)) else .error .oob
  | none => .error .nullDeref

/-- A loop over the first `n` elements of an array, replacing each by `f` of it. -/
def mapFirst {α : Type} (f : α → Except UB α) : Nat → List α → Except UB (List α)
  | 0, l => .ok l
  | _ + 1, [] => .error .oob
  | n + 1, x :: xs =>
    match f x with
    | .error e => .error e
    | .ok y =>
      match mapFirst f n xs with
      | .error e => .error e
      | .ok ys => .ok (y :: ys)

/-- `mapFirst` on an array that has been tested not to be NULL (or is NULL, which skips the loop). -/
def amapFirst {α : Type} (f : α → Except UB α) (n : Nat) (a : Arr α) : Except UB (Arr α) :=
  match a with
  | none => .ok none
  | some l => (mapFirst f n l).map some

/-- `if (n > 0 && src != NULL && dst != NULL) memcpy(dst, src, n)`. -/
def acopyIf {α : Type} (dst src : Arr α) (n : Nat) : Except UB (Arr α) :=
  if n > 0 ∧ src.isSome ∧ dst.isSome then acopy dst src n else .ok dst

/-- Body of the output loop of `ladder_save_previous_values`, ladder_general.c:222-229. -/
def saveOut (o : OutMod) : Except UB OutMod := do
  let qh ← acopyIf o.Qh o.Q o.qQty
  let qwh ← acopyIf o.QWh o.QW o.qwQty
  .ok { o with Qh := qh, QWh := qwh }

/-- `ladder_save_previous_values`, ladder_general.c:200-231. -/
def savePrevious (ctx : Ctx) : Except UB Ctx := do
  let mh ← acopyIf ctx.Mh ctx.M ctx.qty.m
  let cdh ← acopyIf ctx.Cdh ctx.Cd ctx.qty.c
  let crh ← acopyIf ctx.Crh ctx.Cr ctx.qty.c
  let tdh ← acopyIf ctx.Tdh ctx.Td ctx.qty.t
  let trh ← acopyIf ctx.Trh ctx.Tr ctx.qty.t
  let out ← amapFirst saveOut ctx.fnWriteQty ctx.output
  .ok { ctx with Mh := mh, Cdh := cdh, Crh := crh, Tdh := tdh, Trh := trh, output := out }

/-- Scan metrics of `ladder_scan_time`, ladder_general.c:58-85, for the clock value `now`.
The two branches of lines 60-64 both compute the difference modulo 2^64. -/
def scanMetrics (s : ScanInt) (now : W64) : Except UB ScanInt :=
  let diff := now - s.startTime
  let cnt := s.scanCount + 1
  let total := s.totalScanTime + diff
  if cnt = 0 then .error .divZero else
  .ok { s with
    actualScanTime := diff
    startTime := now
    minScanTime := if s.scanCount = 0 then diff else if diff.toNat < s.minScanTime.toNat then diff else s.minScanTime
    maxScanTime := if s.maxScanTime.toNat < diff.toNat then diff else s.maxScanTime
    totalScanTime := total
    scanCount := cnt
    avgScanTime := total / cnt.setWidth 64
    overrun := decide (s.targetScanMs.toInt > 0 ∧ s.targetScanMs.toNat < diff.toNat) }

/-- `ladder_scan_time`, ladder_general.c:44-92. -/
def scanTime (env : Env) : Op Unit := do
  let ctx ← getCtx
  if !ctx.millis then do
    modCtx fun ctx => { ctx with state := .error }
    callPanic env
  else do
    let now ← callMillis env
    let s ← lift (scanMetrics ctx.scan now)
    modCtx fun ctx => { ctx with scan := s }
    if ctx.qty.watchdogMs > 0 ∧ s.actualScanTime.toNat > ctx.qty.watchdogMs then do
      modCtx fun ctx => { ctx with state := .error }
      callPanic env

/-- Error exits of `ladder_fault_clear`: state ERROR, panic callback, return false. -/
def faultAbort (env : Env) : Op Bool := do
  modCtx fun ctx => { ctx with state := .error }
  callPanic env
  pure false

/-- Body of the output loop of `ladder_fault_clear`, ladder_general.c:179-194. -/
def clearOut (o : OutMod) : Except UB OutMod := do
  let q ← (if o.qQty > 0 ∧ o.Q.isSome then afill o.Q o.qQty 0 else .ok o.Q)
  let qw ← (if o.qwQty > 0 ∧ o.QW.isSome then afill o.QW o.qwQty 0 else .ok o.QW)
  let qh ← (if o.Qh.isSome ∧ q.isSome then acopy o.Qh q o.qQty else .ok o.Qh)
  let qwh ← (if o.QWh.isSome ∧ qw.isSome then acopy o.QWh qw o.qwQty else .ok o.QWh)
  .ok { o with Q := q, QW := qw, Qh := qh, QWh := qwh }

/-- Zero `acc` of the first `n` timers. -/
def zeroAcc (n : Nat) (a : Arr Timer) : Except UB (Arr Timer) :=
  match a with
  | none => .error .nullDeref
  | some l => (mapFirst (fun t => .ok { t with acc := 0 }) n l).map some

/-- One block of `ladder_fault_clear`: an area with a quantity but no memory aborts, otherwise it is zeroed. -/
def clearArea {α : Type} (env : Env) (n : Nat) (a : Arr α) (z : α) (put : Arr α → Ctx → Ctx) (next : Op Bool) : Op Bool :=
  if n > 0 ∧ a.isNone then faultAbort env
  else if n > 0 then do
    let b ← lift (afill a n z)
    modCtx (put b)
    next
  else next

/-- Counters, registers and outputs of `ladder_fault_clear`, ladder_general.c:129-197. -/
def clearRest (env : Env) : Op Bool := do
  let ctx ← getCtx
  -- counters, lines 129-157
  clearArea env ctx.qty.c ctx.C 0 (fun a ctx => { ctx with C := a }) <|
  clearArea env ctx.qty.c ctx.Cd 0 (fun a ctx => { ctx with Cd := a }) <|
  clearArea env ctx.qty.c ctx.Cr 0 (fun a ctx => { ctx with Cr := a }) <|
  -- registers, lines 159-175
  clearArea env ctx.qty.d ctx.D 0 (fun a ctx => { ctx with D := a }) <|
  clearArea env ctx.qty.r ctx.R 0 (fun a ctx => { ctx with R := a }) <| do
  -- outputs, lines 177-195
  let out ← lift (amapFirst clearOut ctx.fnWriteQty ctx.output)
  modCtx fun ctx => { ctx with output := out }
  pure true

/-- Timers of `ladder_fault_clear`, ladder_general.c:115-127, and what follows.  The flag arrays are not tested. -/
def clearTimers (env : Env) : Op Bool := do
  let ctx ← getCtx
  if ctx.qty.t > 0 ∧ ctx.timers.isNone then faultAbort env
  else if ctx.qty.t > 0 then do
    let ts ← lift (zeroAcc ctx.qty.t ctx.timers)
    let td ← lift (afill ctx.Td ctx.qty.t 0)
    let tr ← lift (afill ctx.Tr ctx.qty.t 0)
    modCtx fun ctx => { ctx with timers := ts, Td := td, Tr := tr }
    clearRest env
  else clearRest env

/-- `ladder_fault_clear`, ladder_general.c:94-198, for a non-NULL context. -/
def faultClear (env : Env) : Op Bool := do
  let ctx ← getCtx
  if ctx.state ≠ .error then pure false else do
  modCtx fun ctx => { ctx with state := .running, scan := { ctx.scan with actualScanTime := 0 } }
  if !ctx.millis then do
    modCtx fun ctx => { ctx with scan := { ctx.scan with startTime := 0 } }
    callPanic env
    clearTimers env
  else do
    let now ← callMillis env
    modCtx fun ctx => { ctx with scan := { ctx.scan with startTime := now } }
    clearTimers env

/-- Program flags of `ladder_clear_memory`, ladder_general.c:234-237. -/
def clearM (ctx : Ctx) : Except UB Ctx :=
  if ctx.qty.m > 0 then do
    let mh ← afill ctx.Mh ctx.qty.m 0
    let m ← afill ctx.M ctx.qty.m 0
    .ok { ctx with Mh := mh, M := m }
  else .ok ctx

/-- Counter flags of `ladder_clear_memory`, ladder_general.c:239-244. -/
def clearC (ctx : Ctx) : Except UB Ctx :=
  if ctx.qty.c > 0 then do
    let cdh ← afill ctx.Cdh ctx.qty.c 0
    let cd ← afill ctx.Cd ctx.qty.c 0
    let crh ← afill ctx.Crh ctx.qty.c 0
    let cr ← afill ctx.Cr ctx.qty.c 0
    .ok { ctx with Cdh := cdh, Cd := cd, Crh := crh, Cr := cr }
  else .ok ctx

/-- Timer flags of `ladder_clear_memory`, ladder_general.c:246-251. -/
def clearT (ctx : Ctx) : Except UB Ctx :=
  if ctx.qty.t > 0 then do
    let tdh ← afill ctx.Tdh ctx.qty.t 0
    let td ← afill ctx.Td ctx.qty.t 0
    let trh ← afill ctx.Trh ctx.qty.t 0
    let tr ← afill ctx.Tr ctx.qty.t 0
    .ok { ctx with Tdh := tdh, Td := td, Trh := trh, Tr := tr }
  else .ok ctx

/-- `ladder_clear_memory`, ladder_general.c:233-252. -/
def clearMemory (ctx : Ctx) : Except UB Ctx := do
  let ctx ← clearM ctx
  let ctx ← clearC ctx
  clearT ctx

/-- Body of `ladder_clear_program`, ladder_general.c:258-273: one cell.  `data_qty` is only reset when there was
a data block; releasing the block touches `data_qty` entries. -/
def clearCell (cell : Cell) : Except UB Cell :=
  let cell := { cell with code := .NOP, bar := false, state := false }
  match cell.data with
  | none => .ok cell
  | some l => if cell.dataQty ≤ l.length then .ok { cell with data := none, dataQty := 0 } else .error .oob

/-- One network of `ladder_clear_program`, ladder_general.c:256-275. -/
def clearNetwork (net : Network) : Except UB Network :=
  match net.cells with
  | none => if net.rows = 0 ∨ net.cols = 0 then .ok net else .error .nullDeref
  | some rows =>
    if net.cols = 0 then .ok net else
    match mapFirst (mapFirst clearCell net.cols) net.rows rows with
    | .error e => .error e
    | .ok rows => .ok { net with cells := some rows }

/-- `ladder_clear_program`, ladder_general.c:254-276. -/
def clearProgram (ctx : Ctx) : Except UB Ctx :=
  if ctx.qty.networks = 0 then .ok ctx else
  match ctx.network with
  | none => .error .nullDeref
  | some nets =>
    match mapFirst clearNetwork ctx.qty.networks nets with
    | .error e => .error e
    | .ok nets => .ok { ctx with network := some nets }

/-- Arguments of `ladder_ctx_init`, ladder_general.c:278-280. -/
structure InitArgs where
  cols : Nat
  rows : Nat
  networks : Nat
  m : Nat
  c : Nat
  t : Nat
  d : Nat
  r : Nat
  delayNotRun : Nat
  watchdogMs : Nat
  initNetwork : Bool
  writeOnFault : Bool
  maxScanCycles : Nat
  targetScanMs : W32

/-- `LADDER_MAX_ROWS`, ladder.h. -/
def maxRows : Nat := 32

/-- Argument checks of `ladder_ctx_init`, ladder_general.c:281-286. -/
def InitArgs.valid (a : InitArgs) : Bool :=
  decide (a.rows ≤ maxRows ∧ 1 ≤ a.cols ∧ 1 ≤ a.rows ∧ 1 ≤ a.networks ∧ 1 ≤ a.m ∧ 1 ≤ a.c ∧ 1 ≤ a.t ∧ 1 ≤ a.d ∧ 1 ≤ a.r)

/-- The context built by a successful `ladder_ctx_init`, ladder_general.c:288-457.
Cells, flags and registers come zeroed from `calloc`; networks are created disabled. -/
def initCtx (a : InitArgs) : Ctx :=
  { state := .stopped
    writeOnFault := a.writeOnFault
    last := {}
    qty := { m := a.m, c := a.c, t := a.t, d := a.d, r := a.r, networks := a.networks
             delayNotRun := if a.delayNotRun = 0 then 1 else a.delayNotRun, watchdogMs := a.watchdogMs }
    fnReadQty := 0, fnWriteQty := 0, read := none, write := none, initRead := none, initWrite := none
    millis := false, delay := false, on := {}
    M := some (List.replicate a.m 0), Mh := some (List.replicate a.m 0)
    Cr := some (List.replicate a.c 0), Crh := some (List.replicate a.c 0)
    Cd := some (List.replicate a.c 0), Cdh := some (List.replicate a.c 0)
    Tr := some (List.replicate a.t 0), Trh := some (List.replicate a.t 0)
    Td := some (List.replicate a.t 0), Tdh := some (List.replicate a.t 0)
    input := none, output := none
    C := some (List.replicate a.c 0), D := some (List.replicate a.d 0), R := some (List.replicate a.r 0)
    timers := some (List.replicate a.t { timeStamp := 0, acc := 0 })
    scan := { actualScanTime := 0, startTime := 0, maxScanCycles := a.maxScanCycles, targetScanMs := a.targetScanMs
              minScanTime := BitVec.allOnes 64, maxScanTime := 0, totalScanTime := 0, avgScanTime := 0
              scanCount := 0, overrun := false }
    network := if a.initNetwork then
        some (List.replicate a.networks
          { enable := false, rows := a.rows, cols := a.cols
            cells := some (List.replicate a.rows (List.replicate a.cols {})) })
      else none
    exec := none
    foreignQty := 0, foreign := none
    cron := some { ctx := none, qty := 0, used := 0 } }

/-- Outcome of `ladder_ctx_init`: the boolean result with the context left behind.  What a failed allocation leaves behind
(the context passed through `ladder_ctx_deinit`) is not modelled. -/
inductive InitRes where
  | returns (ok : Bool) (ctx : Ctx)
  | noMemory

/-- `ladder_ctx_init`, ladder_general.c:278-464, for a non-NULL context with content `old`.  `allocOk` says whether all
allocations succeed. -/
def ctxInit (allocOk : Bool) (old : Ctx) (a : InitArgs) : InitRes :=
  if !a.valid then .returns false old
  else if !allocOk then .noMemory
  else .returns true (initCtx a)

/-- Result of registering a module: the boolean result and the context. -/
abbrev RegRes := Bool × Ctx

/-- `realloc` of a table to `n` entries in a rollback; size 0 frees the block (glibc). -/
def shrink {α : Type} (a : Arr α) (n : Nat) : Arr α :=
  if n = 0 then none else a.map fun l => l.take n

/-- `realloc` of a table of `n` entries to `n + 1` entries, then assignment of the new entry. -/
def grow {α : Type} (a : Arr α) (n : Nat) (x : α) : Arr α :=
  some ((a.getD []).take n ++ [x])

/-- An `_io_init` callback: called with the slot number and the `init_deinit` flag, returns its result and the changed
context. -/
abbrev InitHook := Nat → Bool → Ctx → Bool × Ctx

/-- `ladder_add_read_fn`, ladder_general.c:577-639, for a non-NULL context and function.  `alloc` is the number of
the three `realloc` calls that succeed (3 or more: all); those that shrink a table again are taken to succeed. -/
def addRead (alloc : Nat) (ctx : Ctx) (init : Option InitHook) : RegRes :=
  let n := ctx.fnReadQty
  if n ≥ 255 then (false, { ctx with last := { ctx.last with err := .outOfRange } })
  else if alloc = 0 then (false, { ctx with last := { ctx.last with err := .fail } })
  else if alloc = 1 then (false, { ctx with
    read := shrink (grow ctx.read n true) n
    last := { ctx.last with err := .fail } })
  else if alloc = 2 then (false, { ctx with
    read := shrink (grow ctx.read n true) n, initRead := shrink (grow ctx.initRead n true) n
    last := { ctx.last with err := .fail } })
  else
    let ctx := { ctx with
      read := grow ctx.read n true
      initRead := grow ctx.initRead n init.isSome
      input := grow ctx.input n {} }
    match init with
    | none => (true, { ctx with fnReadQty := n + 1 })
    | some h =>
      let (ok, ctx) := h n true ctx
      if ok then (true, { ctx with fnReadQty := n + 1 })
      else
        let (_, ctx) := h n false ctx
        (false, { ctx with
          read := shrink ctx.read n, initRead := shrink ctx.initRead n, input := shrink ctx.input n
          last := { ctx.last with err := .fail } })

/-- `ladder_add_write_fn`, ladder_general.c:641-703, for a non-NULL context and function.  `alloc` is the number of
the three `realloc` calls that succeed (3 or more: all); those that shrink a table again are taken to succeed. -/
def addWrite (alloc : Nat) (ctx : Ctx) (init : Option InitHook) : RegRes :=
  let n := ctx.fnWriteQty
  if n ≥ 255 then (false, { ctx with last := { ctx.last with err := .outOfRange } })
  else if alloc = 0 then (false, { ctx with last := { ctx.last with err := .fail } })
  else if alloc = 1 then (false, { ctx with
    write := shrink (grow ctx.write n true) n
    last := { ctx.last with err := .fail } })
  else if alloc = 2 then (false, { ctx with
    write := shrink (grow ctx.write n true) n, initWrite := shrink (grow ctx.initWrite n true) n
    last := { ctx.last with err := .fail } })
  else
    let ctx := { ctx with
      write := grow ctx.write n true
      initWrite := grow ctx.initWrite n init.isSome
      output := grow ctx.output n {} }
    match init with
    | none => (true, { ctx with fnWriteQty := n + 1 })
    | some h =>
      let (ok, ctx) := h n true ctx
      if ok then (true, { ctx with fnWriteQty := n + 1 })
      else
        let (_, ctx) := h n false ctx
        (false, { ctx with
          write := shrink ctx.write n, initWrite := shrink ctx.initWrite n, output := shrink ctx.output n
          last := { ctx.last with err := .fail } })

/-- `ladder_add_foreign`, ladder_general.c:705-742, for a non-NULL context and initialiser.  `init` is the user's
`_foreign_fn_init` applied to the zeroed descriptor with its id set. -/
def addForeign (allocOk : Bool) (ctx : Ctx) (init : Foreign → Bool × Foreign) (qty : Nat) : RegRes :=
  if qty = 0 ∨ (ctx.foreignQty + qty) % 2^32 > 100 then
    (false, { ctx with last := { ctx.last with err := .outOfRange } })
  else
    let (ok, f) := init { id := ctx.foreignQty, desc := ⟨0, 0, 0, 0⟩, hasDeinit := false }
    if !ok then (false, ctx)
    else if !allocOk then (false, ctx)
    else (true, { ctx with foreign := grow ctx.foreign ctx.foreignQty f, foreignQty := ctx.foreignQty + 1 })

/-- `ladder_fn_iocd[]`, fn_commons.c:39-78: 38 entries, none for MULTI. -/
def iocd (code : Ins) : Except UB Iocd :=
  match code with
  | .NOP | .CONN | .INV => .ok ⟨1, 1, 1, 0⟩
  | .NEG | .NO | .NC | .RE | .FE | .COIL | .COILL | .COILU => .ok ⟨1, 1, 1, 1⟩
  | .TON | .TOF | .TP => .ok ⟨1, 2, 2, 2⟩
  | .CTU | .CTD => .ok ⟨2, 2, 2, 2⟩
  | .MOVE => .ok ⟨1, 1, 2, 2⟩
  | .SUB => .ok ⟨1, 3, 3, 3⟩
  | .ADD | .MUL | .MOD => .ok ⟨1, 1, 3, 3⟩
  | .DIV => .ok ⟨1, 2, 3, 3⟩
  | .SHL | .SHR | .ROL | .ROR => .ok ⟨1, 1, 2, 2⟩
  | .AND | .OR | .XOR => .ok ⟨1, 1, 3, 3⟩
  | .NOT | .EQ | .GT | .GE | .LT | .LE | .NE => .ok ⟨1, 1, 2, 2⟩
  | .FOREIGN => .ok ⟨0, 0, 0, 0⟩
  | .TMOVE => .ok ⟨1, 1, 1, 5⟩
  | .MULTI => .error .oob

/-- Span check of `ladder_fn_cell`, ladder_general.c:783-789: rows `row, row+1, …` (`n` of them) of a column are NOP. -/
def spanFree (net : Network) (col : Nat) : Nat → Nat → Except UB Bool
  | _, 0 => .ok true
  | row, n + 1 =>
    match net.cell row col with
    | .error e => .error e
    | .ok cell => if cell.code = .NOP then spanFree net col (row + 1) n else .ok false

/-- Release of old operands in `ladder_fn_cell`, ladder_general.c:791-805 (one cell). -/
def dropData (cell : Cell) : Cell :=
  if cell.data.isSome then { cell with data := none, dataQty := 0 } else cell

/-- Apply `f` to rows `row, row+1, …` (`n` of them) of a column of network `nt`; `f` gets the offset. -/
def modSpan (f : Nat → Cell → Cell) (nt row col : Nat) : Nat → Ctx → Ctx
  | 0, ctx => ctx
  | n + 1, ctx => modSpan f nt row col n (ctx.modCell nt (row + n) col (f n))

/-- A zeroed operand (`calloc`). -/
def Value.zero : Value := { type := .NONE, raw := 0 }

/-- A refused call: error report and `return false`. -/
def refuse (ctx : Ctx) (e : Err) : RegRes := (false, { ctx with last := { ctx.last with err := e } })

/-- `ladder_fn_cell` after its checks, ladder_general.c:791-841: instruction `f` with descriptor `d` is written. -/
def occupy (allocOk : Bool) (ctx : Ctx) (nt row col : Nat) (f : Ins) (d : Iocd) : Except UB RegRes :=
  let ctx1 := modSpan (fun _ => dropData) nt row col d.cells ctx
  if d.dataQty = 0 then
    .ok (true, ctx1.modCell nt row col fun cell => { cell with code := f, dataQty := 0, data := none, bar := false })
  else if !allocOk then
    let ctx2 := ctx1.modCell nt row col fun cell => { cell with code := f, dataQty := d.dataQty }
    .ok (refuse (modSpan (fun _ cell => { cell with code := .INV, data := none, dataQty := 0, bar := false })
      nt row col d.cells ctx2) .fail)
  else
    let ctx2 := ctx1.modCell nt row col fun cell =>
      { cell with code := f, dataQty := d.dataQty, data := some (List.replicate d.dataQty Value.zero) }
    if d.cells = 0 then
      -- lines 834-839 with `cells == 0`: only `cells[row - 1].vertical_bar = false` (row 0: outside)
      if row = 0 then .error .oob
      else .ok (true, ctx2.modCell nt (row - 1) col fun cell => { cell with bar := false })
    else
      .ok (true, modSpan (fun k cell =>
        { cell with code := if k = 0 then cell.code else .MULTI, bar := decide (k + 1 < d.cells) }) nt row col d.cells ctx2)

/-- Descriptor of an instruction, ladder_general.c:768-775. -/
def descriptor (ctx : Ctx) (f : Ins) (foreignId : Nat) : Except UB Iocd :=
  if f = .FOREIGN then (aget ctx.foreign foreignId).map (·.desc) else iocd f

/-- `ladder_fn_cell`, ladder_general.c:744-842, for a non-NULL context.  `allocOk` says whether `calloc` succeeds. -/
def fnCell (allocOk : Bool) (ctx : Ctx) (nt row col : Nat) (f : Ins) (foreignId : Nat) : Except UB RegRes :=
  if nt ≥ ctx.qty.networks then .ok (refuse ctx .outOfRange) else
  match aget ctx.network nt with
  | .error e => .error e
  | .ok net =>
    if row ≥ net.rows then .ok (refuse ctx .outOfRange) else
    if col ≥ net.cols then .ok (refuse ctx .outOfRange) else
    if f = .FOREIGN ∧ foreignId ≥ ctx.foreignQty then .ok (refuse ctx .noForeign) else
    match descriptor ctx f foreignId with
    | .error e => .error e
    | .ok d =>
      if d.cells > net.rows - row then .ok (refuse ctx .outOfRange) else
      match spanFree net col row d.cells with
      | .error e => .error e
      | .ok false => .ok (refuse ctx .fail)
      | .ok true =>
        match net.cell row col with
        | .error e => .error e
        | .ok _ => occupy allocOk ctx nt row col f d

end Ladder
