import Verif.Model.Instr
import Verif.Model.Cron

/-
`ladder_scan`, source/ladder_scan.c:126-312.
-/

namespace Ladder

open Op

/-- `has_side_effects_on_false[code]`, ladder_scan.c:86-124: 37 entries, so code 37 (INV) reads outside. -/
def sideEffects (code : Ins) : Except UB Bool :=
  match code with
  | .NEG | .COIL | .TON | .TOF | .TP | .CTU | .CTD | .FOREIGN | .TMOVE => .ok true
  | .INV | .MULTI => .error .oob
  | _ => .ok false

/-- Number of rounds after which a loop over a `uint32_t` variable that increases each round has ended. -/
def u32Fuel : Nat := 2^32

/-- `for … for … cells[row][column].state = false`, ladder_scan.c:171-175: rows `row, row+1, …` (`n` of them)
of one column of the executing network. -/
def clearColumn (col : Nat) : Nat → Nat → Op Unit
  | _, 0 => pure ()
  | row, n + 1 => do
    setState row col false
    clearColumn col (row + 1) n

/-- Columns `col, col+1, …` (`n` of them) of the clearing loop. -/
def clearColumns (rows : Nat) : Nat → Nat → Op Unit
  | _, 0 => pure ()
  | col, n + 1 => do
    clearColumn col 0 rows
    clearColumns rows (col + 1) n

/-- `while (g + 1 < rows && cells[g + 1][col].vertical_bar) g++`, ladder_scan.c:203-205 and 223-225;
`fuel` is the number of rows below `g`. -/
def groupEnd (net : Network) (col : Nat) : Nat → Nat → Except UB Nat
  | 0, g => .ok g
  | fuel + 1, g =>
    if g + 1 < net.rows then
      match net.cell (g + 1) col with
      | .error e => .error e
      | .ok cell => if cell.bar then groupEnd net col fuel (g + 1) else .ok g
    else .ok g

/-- `is_lower`, ladder_scan.c:207-216: columns `c, c+1, …` (`n` of them). -/
def isLower (net : Network) (row : Nat) : Nat → Nat → Except UB Bool
  | _, 0 => .ok false
  | c, n + 1 =>
    match net.cell row c with
    | .error e => .error e
    | .ok cell =>
      if cell.bar then
        if row + 1 < net.rows then
          match net.cell (row + 1) c with
          | .error e => .error e
          | .ok below => if below.code = .MULTI then isLower net row (c + 1) n else .ok true
        else .ok true
      else isLower net row (c + 1) n

variable (env : Env)

/-- Watchdog test after incrementing the counter to `cnt`, ladder_scan.c:182-194 and 232-245: true when the scan must
be aborted.  The floating-point test `cnt > max * 0.8` is modelled as `5 * cnt > 4 * max` (they agree for
`max < 2^50`); it only decides an extra panic callback. -/
def watch (cnt : Nat) : Op Bool := do
  let ctx ← getCtx
  if 4 * ctx.scan.maxScanCycles < 5 * cnt then callPanic env
  let ctx ← getCtx
  if ctx.scan.maxScanCycles < cnt then do
    modCtx fun ctx => { ctx with state := .error, last := { ctx.last with err := .overflow } }
    callPanic env
    pure true
  else pure false

/-- `exec_network->cells[r][c]`. -/
def curCell (r c : Nat) : Op Cell := do
  let ctx ← getCtx
  lift (ctx.execCell r c)

/-- `*exec_network`: a NULL pointer is dereferenced here. -/
def curNet : Op Network := do
  let ctx ← getCtx
  match ctx.exec with
  | none => lift (.error .nullDeref)
  | some n => lift (aget ctx.network n)

/-- Result of the skip test: `none` = aborted by the watchdog, else `(skip_safe, cycle_count)`. -/
abbrev SkipRes := Option (Bool × Nat)

/-- Skip loop, ladder_scan.c:227-256: rows `gr, gr+1, …` (`n` of them) of column `col`. -/
def skipLoop (col : Nat) : Nat → Nat → Nat → Op SkipRes
  | _, 0, cnt => pure (some (true, cnt))
  | gr, n + 1, cnt => do
    if ← watch env (cnt + 1) then pure none else do
    let cell ← curCell gr col
    if cell.code = .MULTI then pure (some (false, cnt + 1)) else do
    if ← lift (sideEffects cell.code) then pure (some (false, cnt + 1))
    else skipLoop col (gr + 1) n (cnt + 1)

/-- `if (on.instruction != NULL) on.instruction(ctx)`, ladder_scan.c:286-287. -/
def callInstruction : Op Unit := fun w =>
  if w.ctx.on.instruction then external (fun ctx => .instr ctx.last) env.instruction w else .ok ((), w)

/-- `if (on.scan_end != NULL) on.scan_end(ctx)`, ladder_scan.c:306-307. -/
def callScanEnd : Op Unit := fun w =>
  if w.ctx.on.scanEnd then external (fun _ => .scanEnd) env.scanEnd w else .ok ((), w)

/-- Execution loop, ladder_scan.c:264-290: rows `gr, gr+1, …` (`n` of them) of column `col`; true is `group_error`. -/
def execLoop (network col : Nat) : Nat → Nat → Op Bool
  | _, 0 => pure false
  | gr, n + 1 => do
    let cell ← curCell gr col
    modCtx fun ctx => { ctx with last := { instr := cell.code, network := network, col := col, row := gr, err := .ok } }
    if cell.code = .INV then do
      modCtx fun ctx => { ctx with state := .inv, last := { ctx.last with err := .fail } }
      emit (.ret network gr col .fail)
      pure true
    else if cell.code = .MULTI then execLoop network col (gr + 1) n
    else do
      emit (.exec network gr col cell.code)
      let err ← execIns env cell.code gr col
      emit (.ret network gr col err)
      modCtx fun ctx => { ctx with last := { ctx.last with err := err } }
      if err ≠ .ok then pure true
      else do
        callInstruction env
        execLoop network col (gr + 1) n

/-- `group_output`, ladder_scan.c:297-300. -/
def orStates (col : Nat) : Nat → Nat → Bool → Op Bool
  | _, 0, acc => pure acc
  | gr, n + 1, acc => do
    let cell ← curCell gr col
    orStates col (gr + 1) n (acc || cell.state)

/-- Uniform group output, ladder_scan.c:302-304. -/
def setStates (col : Nat) (b : Bool) : Nat → Nat → Op Unit
  | _, 0 => pure ()
  | gr, n + 1 => do
    setState gr col b
    setStates col b (gr + 1) n

/-- Body of the column loop, ladder_scan.c:221-304: the new cycle count, or `none` when the scan returns. -/
def scanColumn (network gs : Nat) (power : Bool) (col cnt : Nat) : Op (Option Nat) := do
  let net ← curNet
  let ge ← lift (groupEnd net col (net.rows - gs) gs)
  let n := ge + 1 - gs
  match ← skipLoop env col gs n cnt with
  | none => pure none
  | some (safe, cnt) =>
    if !power && safe then pure (some cnt) else do
    if ← execLoop env network col gs n then do
      modCtx fun ctx => { ctx with state := .inv }
      pure none
    else do
      let out ← orStates col gs n false
      setStates col out gs n
      pure (some cnt)

/-- Column loop, ladder_scan.c:220. -/
def columnLoop (network gs : Nat) (power : Bool) : Nat → Nat → Nat → Op (Option Nat)
  | 0, _, _ => lift (.error .diverges)
  | fuel + 1, col, cnt => do
    let net ← curNet
    if col < net.cols then do
      match ← scanColumn env network gs power col cnt with
      | none => pure none
      | some cnt => columnLoop network gs power fuel (col + 1) cnt
    else pure (some cnt)

/-- Body of the row loop, ladder_scan.c:178-309: the next row and cycle count, or `none` when the scan returns. -/
def scanRow (network row cnt : Nat) : Op (Option (Nat × Nat)) := do
  if ← watch env (cnt + 1) then pure none else do
  let cell ← curCell row 0
  if cell.code = .MULTI then pure (some (row + 1, cnt + 1)) else do
  let net ← curNet
  let ge ← lift (groupEnd net 0 (net.rows - row) row)
  let lower ← lift (isLower net row 0 net.cols)
  match ← columnLoop env network row (!lower) u32Fuel 0 (cnt + 1) with
  | none => pure none
  | some cnt => do
    callScanEnd env
    pure (some (ge + 1, cnt))

/-- Row loop, ladder_scan.c:176-310: false when the scan returns early. -/
def rowLoop (network : Nat) : Nat → Nat → Nat → Op Bool
  | 0, _, _ => lift (.error .diverges)
  | fuel + 1, row, cnt => do
    let net ← curNet
    if row < net.rows then do
      match ← scanRow env network row cnt with
      | none => pure false
      | some (row', cnt') => rowLoop network fuel row' cnt'
    else pure true

/-- Body of the network loop, ladder_scan.c:154-311: false when the scan returns early. -/
def scanNetwork (n : Nat) : Op Bool := do
  let ctx ← getCtx
  let net ← lift (aget ctx.network n)
  if net.cells.isNone then do
    modCtx fun ctx => { ctx with state := .error }
    callPanic env
    pure false
  else if !net.enable then pure true
  else do
    modCtx fun ctx => { ctx with exec := some n }
    clearColumns net.rows 0 net.cols
    rowLoop env n u32Fuel 0 0

/-- Network loop, ladder_scan.c:153. -/
def networkLoop : Nat → Nat → Op Unit
  | 0, _ => lift (.error .diverges)
  | fuel + 1, n => do
    let ctx ← getCtx
    if n < ctx.qty.networks then do
      if ← scanNetwork env n then networkLoop fuel (n + 1) else pure ()
    else pure ()

/-- `ladder_scan`, ladder_scan.c:126-312. -/
def scan : Op Unit := do
  modCtx fun ctx => { ctx with exec := none }
  if ← cronPhase env then do
    let ctx ← getCtx
    if ctx.network.isNone then do
      modCtx fun ctx => { ctx with state := .error }
      callPanic env
    else networkLoop env u32Fuel 0
  else pure ()

end Ladder
