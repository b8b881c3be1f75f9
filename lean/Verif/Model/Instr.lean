import Verif.Model.Data

/-
The instruction functions `source/instructions/fn_*.c`.

Conventions: arguments are in the order (row, column).  Where C evaluates two calls of one expression in an
unspecified order they are modelled left to right.  `ladder_cell_data_exec(...)` is re-evaluated by the C code at each
use; no statement in between changes the operand, so the model fetches it once, at its first use.
Row arithmetic (`row + 1`, `row + 2`) is on `uint32_t` in C and does not wrap, since no network has 2^32-2 rows.
-/

namespace Ladder

open Op

/-- The four `bool` areas used by timers and counters. -/
inductive BArea where
  | Cd | Cr | Td | Tr
  deriving DecidableEq

def BArea.get (a : BArea) (ctx : Ctx) : Arr Byte :=
  match a with
  | .Cd => ctx.Cd | .Cr => ctx.Cr | .Td => ctx.Td | .Tr => ctx.Tr

def BArea.set (a : BArea) (ctx : Ctx) (x : Arr Byte) : Ctx :=
  match a with
  | .Cd => { ctx with Cd := x } | .Cr => { ctx with Cr := x }
  | .Td => { ctx with Td := x } | .Tr => { ctx with Tr := x }

/-- Reading `memory.<area>[i]` with an unchecked `int32_t` index. -/
def getB (a : BArea) (i : Int) : Op Bool := do
  let ctx ← getCtx
  let b ← lift (agetI (a.get ctx) i)
  lift (boolOf b)

/-- Assigning `memory.<area>[i] = b` with an unchecked `int32_t` index. -/
def setB (a : BArea) (i : Int) (b : Bool) : Op Unit := do
  let ctx ← getCtx
  let _ ← lift (agetI (a.get ctx) i)
  modCtx fun ctx => a.set ctx (aset (a.get ctx) i.toNat (byteOf b))

/-- Reading `timers[i]`. -/
def getTimer (i : Int) : Op Timer := do
  let ctx ← getCtx
  lift (agetI ctx.timers i)

/-- Assigning `timers[i].acc`. -/
def setAcc (i : Int) (x : W32) : Op Unit := do
  let ctx ← getCtx
  let t ← lift (agetI ctx.timers i)
  modCtx fun ctx => { ctx with timers := aset ctx.timers i.toNat { t with acc := x } }

/-- Assigning `timers[i].time_stamp`. -/
def setStamp (i : Int) (x : W64) : Op Unit := do
  let ctx ← getCtx
  let t ← lift (agetI ctx.timers i)
  modCtx fun ctx => { ctx with timers := aset ctx.timers i.toNat { t with timeStamp := x } }

/-- Reading `registers.C[i]`. -/
def getC (i : Int) : Op W32 := do
  let ctx ← getCtx
  lift (agetI ctx.C i)

/-- Assigning `registers.C[i]`. -/
def setC (i : Int) (x : W32) : Op Unit := do
  let ctx ← getCtx
  let _ ← lift (agetI ctx.C i)
  modCtx fun ctx => { ctx with C := aset ctx.C i.toNat x }

/-- `basetime_factor[]`, fn_commons.c:37, indexed by the type of the preset operand. -/
def basetimeFactor (r : Reg) : Except UB W32 :=
  match r.code with
  | 0 => .ok 1 | 1 => .ok 10 | 2 => .ok 100 | 3 => .ok 1000 | 4 => .ok 60000
  | _ => .error .oob

/-- `(uint16_t)((millis() - time_stamp) / factor)` widened to `uint32_t`. -/
def accOf (now stamp : W64) (factor : W32) : W32 :=
  BitVec.setWidth 32 (BitVec.setWidth 16 ((now - stamp) / BitVec.setWidth 64 factor))

/-- `millis() - time_stamp >= preset * factor`: the product is computed in `uint32_t`. -/
def elapsed (now stamp : W64) (preset factor : W32) : Bool :=
  decide ((BitVec.setWidth 64 (preset * factor)).toNat ≤ (now - stamp).toNat)

variable (env : Env)

/-- fn_NOP.c:41-43. -/
def fnNOP (_r _c : Nat) : Op Err := pure .ok

/-- fn_CONN.c:41-45. -/
def fnCONN (r c : Nat) : Op Err := do
  let l ← getLeft r c
  setState r c l
  pure .ok

/-- fn_NEG.c:41-45. -/
def fnNEG (r c : Nat) : Op Err := do
  let l ← getLeft r c
  setState r c (!l)
  pure .ok

/-- fn_NO.c:41-45. -/
def fnNO (r c : Nat) : Op Err := do
  let v ← getData env r c 0
  let s ← if v ≠ 0 then getLeft r c else pure false
  setState r c s
  pure .ok

/-- fn_NC.c:41-45. -/
def fnNC (r c : Nat) : Op Err := do
  let v ← getData env r c 0
  let s ← if v = 0 then getLeft r c else pure false
  setState r c s
  pure .ok

/-- fn_RE.c:41-47. -/
def fnRE (r c : Nat) : Op Err := do
  let v ← getData env r c 0
  let e ← if v ≠ 0 then (do let p ← getPrev r c 0; pure (decide (p = 0))) else pure false
  let s ← if e then getLeft r c else pure false
  setState r c s
  pure .ok

/-- fn_FE.c:41-48. -/
def fnFE (r c : Nat) : Op Err := do
  let v ← getData env r c 0
  let e ← if v = 0 then (do let p ← getPrev r c 0; pure (decide (p ≠ 0))) else pure false
  let s ← if e then getLeft r c else pure false
  setState r c s
  pure .ok

/-- fn_COIL.c:41-53: the error of the store is ignored. -/
def fnCOIL (r c : Nat) : Op Err := do
  let l ← getLeft r c
  setState r c l
  let s ← getState r c
  let _ ← setData r c 0 (if s then 1 else 0)
  pure .ok

/-- fn_COILL.c:41-53. -/
def fnCOILL (r c : Nat) : Op Err := do
  let s ← getLeft r c
  let p ← getPrev r c 0
  let val := decide (p ≠ 0) || s
  setState r c val
  let _ ← setData r c 0 (if val then 1 else 0)
  pure .ok

/-- fn_COILU.c:41-53. -/
def fnCOILU (r c : Nat) : Op Err := do
  let s ← getLeft r c
  let p ← getPrev r c 0
  let val := decide (p ≠ 0) && !s
  setState r c val
  let _ ← setData r c 0 (if val then 1 else 0)
  pure .ok

/-- "Timer is running, update acc value", fn_TON.c:58-63, fn_TOF.c:57-62, fn_TP.c:50-55. -/
def timerRun (r c : Nat) (i : Int) : Op Unit := do
  if ← getB .Tr i then
    let now ← callMillis env
    let t ← getTimer i
    let p ← getDataExec r c 1
    let f ← lift (basetimeFactor p.type)
    setAcc i (accOf now t.timeStamp f)

/-- "Timer done", fn_TON.c:65-76, fn_TOF.c:64-75, fn_TP.c:57-68. -/
def timerDone (r c : Nat) (i : Int) : Op Unit := do
  if ← getB .Tr i then
    let now ← callMillis env
    let t ← getTimer i
    let p ← getDataExec r c 1
    let f ← lift (basetimeFactor p.type)
    if elapsed now t.timeStamp p.raw f then
      setB .Tr i false
      setB .Td i true
      setAcc i p.raw

/-- fn_TON.c:41-84. -/
def fnTON (r c : Nat) : Op Err := do
  let l ← getLeft r c
  let d ← getDataExec r c 0
  let i := d.i32
  if !l then
    setAcc i 0
    setB .Tr i false
    setB .Td i false
  let start ← if l then (do
      let td ← getB .Td i
      if td then pure false else do
        let tr ← getB .Tr i
        pure (!tr)) else pure false
  if start then
    setB .Tr i true
    let now ← callMillis env
    setStamp i now
  timerRun env r c i
  timerDone env r c i
  let tr ← getB .Tr i
  setState (r + 1) c tr
  let td ← getB .Td i
  setState r c td
  pure .ok

/-- fn_TOF.c:41-85. -/
def fnTOF (r c : Nat) : Op Err := do
  let l ← getLeft r c
  let d ← getDataExec r c 0
  let i := d.i32
  if l then
    setAcc i 0
    setB .Tr i false
    setB .Td i false
  else
    let tr ← getB .Tr i
    let start ← if tr then pure false else (do
      let td ← getB .Td i
      pure (!td))
    if start then
      setB .Tr i true
      let now ← callMillis env
      setStamp i now
    timerRun env r c i
    timerDone env r c i
  let tr ← getB .Tr i
  setState (r + 1) c tr
  let l' ← getLeft r c
  let s ← if l' then pure true else getB .Tr i
  setState r c s
  pure .ok

/-- fn_TP.c:41-76. -/
def fnTP (r c : Nat) : Op Err := do
  let l ← getLeft r c
  let start ← if l then (do
      let p ← getPrev r c 0
      if p ≠ 0 then pure false else do
        let d ← getDataExec r c 0
        let tr ← getB .Tr d.i32
        pure (!tr)) else pure false
  let d ← getDataExec r c 0
  let i := d.i32
  if start then
    setB .Tr i true
    let now ← callMillis env
    setStamp i now
  timerRun env r c i
  timerDone env r c i
  let tr ← getB .Tr i
  setState (r + 1) c tr
  let tr' ← getB .Tr i
  setState r c tr'
  pure .ok

/-- Reset test of the counters, fn_CTU.c:43-52 and fn_CTD.c:43-53: at column 0 the program being RUNNING,
elsewhere the left state of the row below. -/
def ctReset (r c : Nat) : Op Bool :=
  if c = 0 then do
    let ctx ← getCtx
    pure (decide (ctx.state = .running))
  else getLeft (r + 1) c

/-- Counter reset, fn_CTU.c:44-50,52-58 (`x` is 0) and fn_CTD.c:44-51,53-60 (`x` is the preset). -/
def ctDoReset (r c : Nat) (i : Int) (x : W32) : Op Unit := do
  setC i x
  setB .Cd i false
  setB .Cr i false
  setState r c false
  setState (r + 1) c false

/-- Count and edge detection, fn_CTU.c:61-73 (`f` increments) and fn_CTD.c:63-75 (`f` decrements). -/
def ctCount (r c : Nat) (i : Int) (f : W32 → W32) : Op Unit := do
  let l ← getLeft r c
  let go ← if l then (do
      let cr ← getB .Cr i
      if cr then pure false else do
        let cd ← getB .Cd i
        pure (!cd)) else pure false
  if go then
    setB .Cr i true
    setState (r + 1) c true
    let v ← getC i
    setC i (f v)
  let l' ← getLeft r c
  if !l' then
    setB .Cr i false
    setState (r + 1) c false

/-- fn_CTU.c:41-83.  The comparison `C >= preset` is unsigned. -/
def fnCTU (r c : Nat) : Op Err := do
  let rst ← ctReset r c
  let d ← getDataExec r c 0
  let i := d.i32
  if rst then ctDoReset r c i 0
  ctCount r c i (· + 1)
  let v ← getC i
  let p ← getDataExec r c 1
  if p.raw.toNat ≤ v.toNat then
    setB .Cd i true
    setState r c true
  pure .ok

/-- fn_CTD.c:41-84. -/
def fnCTD (r c : Nat) : Op Err := do
  let rst ← ctReset r c
  let d ← getDataExec r c 0
  let i := d.i32
  if rst then
    let p ← getDataExec r c 1
    ctDoReset r c i p.raw
  ctCount r c i (· - 1)
  let v ← getC i
  if v = 0 then
    setB .Cd i true
    setState r c true
  pure .ok

/-- Integer register kinds accepted by MOVE, fn_MOVE.c:64-70 and 86-88. -/
def isIntReg : Reg → Bool
  | .D | .IW | .QW | .C | .T => true
  | _ => false

/-- End of fn_MOVE.c:98-112: store to operand 1 and propagate power. -/
def moveStore (r c : Nat) (x : W32) : Op Err := do
  let e ← setData r c 1 x
  let l ← getLeft r c
  setState r c l
  pure (if e = .ok then .ok else .setDataVal)

/-- fn_MOVE.c:41-113. -/
def fnMOVE (r c : Nat) : Op Err := do
  let ctx ← getCtx
  let cell ← lift (ctx.execCell r c)
  if cell.data.isNone ∨ cell.dataQty < 2 then pure .outOfRange else do
  let s ← lift (aget cell.data 0)
  let d ← lift (aget cell.data 1)
  match s.type with
  | .D | .IW | .QW | .C | .T => do
    let x ← getData env r c 0
    if isIntReg d.type then moveStore r c x else pure .typeMismatch
  | .R =>
    if s.raw.toNat ≥ ctx.qty.r then pure .outOfRange else do
    let x ← lift (aget ctx.R s.raw.toNat)
    if d.type = .R then moveStore r c x else pure .typeMismatch
  | _ => pure .typeMismatch

/-- A value fits `int32_t`. -/
def fitsI32 (x : Int) : Bool := decide (-2147483648 ≤ x ∧ x ≤ 2147483647)

/-- Result of a signed 32-bit computation; overflow is undefined. -/
def signed32 (x : Int) : Except UB W32 :=
  if fitsI32 x then .ok (BitVec.ofInt 32 x) else .error .signedOverflow

/-- C signed division. -/
def cDiv (a b : W32) : Except UB W32 :=
  if b.toInt = 0 then .error .divZero else signed32 (a.toInt.tdiv b.toInt)

/-- C signed remainder (undefined also when the quotient overflows). -/
def cMod (a b : W32) : Except UB W32 :=
  if b.toInt = 0 then .error .divZero
  else if fitsI32 (a.toInt.tdiv b.toInt) then .ok (BitVec.ofInt 32 (a.toInt.tmod b.toInt))
  else .error .signedOverflow

/-- fn_SUB.c:41-62. -/
def fnSUB (r c : Nat) : Op Err := do
  let l ← getLeft r c
  setState r c l
  let a ← getData env r c 0
  let b ← getData env r c 1
  let l' ← getLeft r c
  if l' then
    if a.toInt > b.toInt then setState r c true
    else if a = b then setState (r + 1) c true
    else setState (r + 2) c true
    let x ← lift (signed32 (a.toInt - b.toInt))
    let _ ← setData r c 2 x
  pure .ok

/-- Common shape of the three-operand instructions, fn_ADD.c, fn_MUL.c, fn_MOD.c, fn_AND.c, fn_OR.c, fn_XOR.c:41-52:
propagate power and, when powered, store `f op0 op1` to operand 2, ignoring the error of the store. -/
def binop (f : W32 → W32 → Except UB W32) (r c : Nat) : Op Err := do
  let l ← getLeft r c
  setState r c l
  let l' ← getLeft r c
  if l' then
    let a ← getData env r c 0
    let b ← getData env r c 1
    let x ← lift (f a b)
    let _ ← setData r c 2 x
  pure .ok

/-- fn_ADD.c:41-52. -/
def fnADD : Nat → Nat → Op Err := binop env fun a b => signed32 (a.toInt + b.toInt)
/-- fn_MUL.c:41-52. -/
def fnMUL : Nat → Nat → Op Err := binop env fun a b => signed32 (a.toInt * b.toInt)
/-- fn_MOD.c:41-52. -/
def fnMOD : Nat → Nat → Op Err := binop env cMod
/-- fn_AND.c:41-52. -/
def fnAND : Nat → Nat → Op Err := binop env fun a b => .ok (toInteger a &&& toInteger b)
/-- fn_OR.c:41-52. -/
def fnOR : Nat → Nat → Op Err := binop env fun a b => .ok (a ||| b)
/-- fn_XOR.c:41-52. -/
def fnXOR : Nat → Nat → Op Err := binop env fun a b => .ok (a ^^^ b)

/-- fn_DIV.c:41-57. -/
def fnDIV (r c : Nat) : Op Err := do
  let l ← getLeft r c
  setState r c l
  let l' ← getLeft r c
  if l' then
    let b ← getData env r c 1
    if b = 0 then
      let _ ← setData r c 2 0
    else
      let a ← getData env r c 0
      let x ← lift (cDiv a b)
      let _ ← setData r c 2 x
  pure .ok

/-- fn_NOT.c:41-52. -/
def fnNOT (r c : Nat) : Op Err := do
  let l ← getLeft r c
  setState r c l
  let l' ← getLeft r c
  if l' then
    let a ← getData env r c 0
    let _ ← setData r c 1 (~~~a)
  pure .ok

/-- `amount %= 32; if (amount < 0) amount += 32;`, fn_SHL.c:47-49. -/
def shiftAmount (a : W32) : Nat :=
  let m := a.toInt.tmod 32
  (if m < 0 then m + 32 else m).toNat

/-- Common shape of fn_SHL.c, fn_SHR.c, fn_ROL.c, fn_ROR.c:41-58: operand 0 is replaced by `f value amount`
(whether or not the rung is powered) and the error of the store is returned. -/
def shiftop (f : W32 → Nat → Except UB W32) (r c : Nat) : Op Err := do
  let a ← getData env r c 0
  let n ← getData env r c 1
  let x ← lift (f a (shiftAmount n))
  let e ← setData r c 0 x
  let l ← getLeft r c
  setState r c l
  pure e

/-- `x << n` / `x >> n` on `uint32_t` are undefined for n >= 32. -/
def cShl (x : W32) (n : Nat) : Except UB W32 := if n < 32 then .ok (x <<< n) else .error .shiftRange
def cShr (x : W32) (n : Nat) : Except UB W32 := if n < 32 then .ok (x >>> n) else .error .shiftRange

/-- fn_SHL.c:41-58. -/
def fnSHL : Nat → Nat → Op Err := shiftop env cShl
/-- fn_SHR.c:41-58. -/
def fnSHR : Nat → Nat → Op Err := shiftop env cShr
/-- fn_ROL.c:41-58. -/
def fnROL : Nat → Nat → Op Err := shiftop env fun x n => do
  let a ← cShl x n
  let b ← cShr x (32 - n)
  .ok (a ||| b)
/-- fn_ROR.c:41-58. -/
def fnROR : Nat → Nat → Op Err := shiftop env fun x n => do
  let a ← cShr x n
  let b ← cShl x (32 - n)
  .ok (a ||| b)

/-- Common shape of the comparisons fn_EQ.c, fn_GT.c, fn_GE.c, fn_LT.c, fn_LE.c, fn_NE.c:41-46. -/
def cmpop (p : Int → Int → Bool) (r c : Nat) : Op Err := do
  let l ← getLeft r c
  let s ← if l then (do
      let a ← getData env r c 0
      let b ← getData env r c 1
      pure (p a.toInt b.toInt)) else pure false
  setState r c s
  pure .ok

/-- fn_EQ.c:41-46. -/
def fnEQ : Nat → Nat → Op Err := cmpop env fun a b => decide (a = b)
/-- fn_GT.c:41-46. -/
def fnGT : Nat → Nat → Op Err := cmpop env fun a b => decide (a > b)
/-- fn_GE.c:41-46. -/
def fnGE : Nat → Nat → Op Err := cmpop env fun a b => decide (a ≥ b)
/-- fn_LT.c:41-46. -/
def fnLT : Nat → Nat → Op Err := cmpop env fun a b => decide (a < b)
/-- fn_LE.c:41-46. -/
def fnLE : Nat → Nat → Op Err := cmpop env fun a b => decide (a ≤ b)
/-- fn_NE.c:41-46. -/
def fnNE : Nat → Nat → Op Err := cmpop env fun a b => decide (a ≠ b)

/-- Calling the foreign function registered at index `id`: `foreign.fn[id].exec(ctx, column, row)`. -/
def callForeign (id r c : Nat) : Op Err := fun w =>
  match aget w.ctx.foreign id with
  | .error e => .error e
  | .ok _ =>
    let (err, ctx') := env.foreign w.tick id c r w.ctx
    .ok (err, { ctx := ctx', tick := w.tick + 1, trace := w.trace ++ [.foreign id c r] })

/-- fn_FOREIGN.c:41-46. -/
def fnFOREIGN (r c : Nat) : Op Err := do
  let v ← getData env r c 0
  let ctx ← getCtx
  if (toInteger v).toNat ≥ ctx.foreignQty then pure .noForeign else do
  let v' ← getData env r c 0
  callForeign env (toInteger v').toNat r c

/-- Size of a table: `rows * cols` in `uint32_t`. -/
def Network.size32 (net : Network) : Nat := (net.rows * net.cols) % 2^32

/-- Register kinds accepted as table entries, fn_TMOVE.c:60-61. -/
def isTableReg : Reg → Bool
  | .D | .IW | .QW => true
  | _ => false

/-- Location of table entry `pos`, common part of fn_TMOVE.c:41-66 and 68-93 (row, column and operand 0). -/
def tableEntry (ctx : Ctx) (net pos : W32) : Except UB (Except Err (Nat × Nat × Value)) :=
  if net.toNat ≥ ctx.qty.networks then .ok (.error .noTable) else
  match aget ctx.network net.toNat with
  | .error e => .error e
  | .ok nt =>
    if pos.toNat ≥ nt.size32 then .ok (.error .outOfRange) else
    let r := pos.toNat / nt.cols
    let c := pos.toNat % nt.cols
    if r ≥ nt.rows ∨ c ≥ nt.cols then .ok (.error .outOfRange) else
    match nt.cell r c with
    | .error e => .error e
    | .ok cell =>
      if cell.dataQty < 1 then .ok (.error .outOfRange) else
      match aget cell.data 0 with
      | .error e => .error e
      | .ok v => if isTableReg v.type then .ok (.ok (r, c, v)) else .ok (.error .typeMismatch)

/-- Read loop of fn_TMOVE.c:124-130: `n` entries from `pos`. -/
def tableRead (ctx : Ctx) (net : W32) : W32 → Nat → Except UB (Except Err (List W32))
  | _, 0 => .ok (.ok [])
  | pos, n + 1 =>
    match tableEntry ctx net pos with
    | .error e => .error e
    | .ok (.error err) => .ok (.error err)
    | .ok (.ok (_, _, v)) =>
      match tableRead ctx net (pos + 1) n with
      | .error e => .error e
      | .ok (.error err) => .ok (.error err)
      | .ok (.ok l) => .ok (.ok (v.raw :: l))

/-- Write loop of fn_TMOVE.c:136-142: entries written before an error stay written. -/
def tableWrite (net : W32) : W32 → List W32 → Ctx → Except UB (Err × Ctx)
  | _, [], ctx => .ok (.ok, ctx)
  | pos, x :: xs, ctx =>
    match tableEntry ctx net pos with
    | .error e => .error e
    | .ok (.error err) => .ok (err, ctx)
    | .ok (.ok (r, c, v)) =>
      tableWrite net (pos + 1) xs
        (ctx.modCell net.toNat r c fun cell => { cell with data := aset cell.data 0 { v with raw := x } })

/-- fn_TMOVE.c:95-153. -/
def fnTMOVE (r c : Nat) : Op Err := do
  let dnet ← getData env r c 0
  let dpos ← getData env r c 1
  let snet ← getData env r c 2
  let spos ← getData env r c 3
  let raw ← getData env r c 4
  let qty : Nat := if raw.toInt < 0 ∨ raw.toInt > 1024 then 0 else raw.toNat
  if qty = 0 then do
    let l ← getLeft r c
    setState r c l
    pure .ok
  else do
  let ctx ← getCtx
  let dn ← lift (agetI ctx.network dnet.toInt)
  let en ← if dn.enable then pure true else (do
    let sn ← lift (agetI ctx.network snet.toInt)
    pure sn.enable)
  if en then do
    setState r c false
    pure .noTable
  else do
  let sn ← lift (agetI ctx.network snet.toInt)
  if (dpos + BitVec.ofNat 32 qty).toNat > dn.size32 ∨ (spos + BitVec.ofNat 32 qty).toNat > sn.size32 then do
    setState r c false
    pure .outOfRange
  else do
  let rd ← lift (tableRead ctx snet spos qty)
  match rd with
  | .error err => do
    setState r c false
    pure err
  | .ok vals => do
    let (err, ctx') ← lift (tableWrite dnet dpos vals ctx)
    modCtx fun _ => ctx'
    if err ≠ .ok then do
      setState r c false
      pure err
    else do
      let l ← getLeft r c
      setState r c l
      pure .ok

/-- `ladder_function[code](ctx, column, row)`, ladder_scan.c:44-82 and 281; the table has 37 entries. -/
def execIns (code : Ins) (r c : Nat) : Op Err :=
  match code with
  | .NOP => fnNOP r c | .CONN => fnCONN r c | .NEG => fnNEG r c | .NO => fnNO env r c
  | .NC => fnNC env r c | .RE => fnRE env r c | .FE => fnFE env r c | .COIL => fnCOIL r c
  | .COILL => fnCOILL r c | .COILU => fnCOILU r c | .TON => fnTON env r c | .TOF => fnTOF env r c
  | .TP => fnTP env r c | .CTU => fnCTU r c | .CTD => fnCTD r c | .MOVE => fnMOVE env r c
  | .SUB => fnSUB env r c | .ADD => fnADD env r c | .MUL => fnMUL env r c | .DIV => fnDIV env r c
  | .MOD => fnMOD env r c | .SHL => fnSHL env r c | .SHR => fnSHR env r c | .ROL => fnROL env r c
  | .ROR => fnROR env r c | .AND => fnAND env r c | .OR => fnOR env r c | .XOR => fnXOR env r c
  | .NOT => fnNOT env r c | .EQ => fnEQ env r c | .GT => fnGT env r c | .GE => fnGE env r c
  | .LT => fnLT env r c | .LE => fnLE env r c | .NE => fnNE env r c | .FOREIGN => fnFOREIGN env r c
  | .TMOVE => fnTMOVE env r c
  | .INV | .MULTI => lift (.error .oob)

end Ladder
