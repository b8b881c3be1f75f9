import Verif.Model.Monad

/-
Cell and register access: `ladder_instructions.h` and `ladder_fn_commons.h`.
-/

namespace Ladder

open Op

/-- `net.cells[r][c]`: NULL matrix and indices outside of the allocated rows/columns are undefined. -/
def Network.cell (net : Network) (r c : Nat) : Except UB Cell :=
  match net.cells with
  | none => .error .nullDeref
  | some rows =>
    match rows[r]? with
    | none => .error .oob
    | some row =>
      match row[c]? with
      | none => .error .oob
      | some x => .ok x

/-- `*exec_network`, or an all-zero network when it is NULL (`exnet`, ladder_instructions.h:43). -/
def Ctx.exnet (ctx : Ctx) : Except UB Network :=
  match ctx.exec with
  | none => .ok { enable := false, rows := 0, cols := 0, cells := none }
  | some n => aget ctx.network n

/-- `exnet(lctx).cells[r][c]`, ladder_instructions.h:43-50. -/
def Ctx.execCell (ctx : Ctx) (r c : Nat) : Except UB Cell :=
  match ctx.exnet with
  | .error e => .error e
  | .ok net => net.cell r c

/-- `ladder_cell_data_exec(lctx, r, c, i)`, ladder_instructions.h:50. -/
def Ctx.execData (ctx : Ctx) (r c i : Nat) : Except UB Value :=
  match ctx.execCell r c with
  | .error e => .error e
  | .ok cell => aget cell.data i

/-- Update of the cell (r,c) of network `n` in place. -/
def Ctx.modCell (ctx : Ctx) (n r c : Nat) (f : Cell → Cell) : Ctx :=
  { ctx with network := ctx.network.map fun nets => nets.modify n fun net =>
      { net with cells := net.cells.map fun rows => rows.modify r fun row => row.modify c f } }

/-- Reading `CELL_STATE(lctx, c, r)`, ladder_instructions.h:77. -/
def getState (r c : Nat) : Op Bool := do
  let ctx ← getCtx
  let cell ← lift (ctx.execCell r c)
  pure cell.state

/-- Assigning `CELL_STATE(lctx, c, r) = b`, ladder_instructions.h:77. -/
def setState (r c : Nat) (b : Bool) : Op Unit := do
  let ctx ← getCtx
  let _ ← lift (ctx.execCell r c)
  modCtx fun ctx =>
    match ctx.exec with
    | none => ctx
    | some n => ctx.modCell n r c fun cell => { cell with state := b }

/-- `CELL_STATE_LEFT(lctx, c, r)`, ladder_instructions.h:84-85. -/
def getLeft (r c : Nat) : Op Bool :=
  if c = 0 then pure true else getState r (c - 1)

/-- `ladder_cell_data_exec(lctx, r, c, i)` as an operation. -/
def getDataExec (r c i : Nat) : Op Value := do
  let ctx ← getCtx
  lift (ctx.execData r c i)

/-- `(int32_t) f` for a float given by its bit pattern: truncation toward zero;
NaN, infinities and values outside the range of `int32_t` are undefined behaviour. -/
def floatToI32 (b : W32) : Except UB W32 :=
  let e := (b.extractLsb' 23 8).toNat
  let f := (b.extractLsb' 0 23).toNat
  let mag : Nat := if e < 127 then 0
    else if e < 150 then (f + 2^23) / 2^(150 - e) else (f + 2^23) * 2^(e - 150)
  let v : Int := if b.msb then -(mag : Int) else mag
  if e = 255 ∨ v < -2^31 ∨ v ≥ 2^31 then .error .floatCast else .ok (BitVec.ofInt 32 v)

/-- `to_integer`, ladder_fn_commons.h:43-51. -/
def toInteger (v : W32) : W32 := if v = 0 then v else if v = 1 then v else 0

/-- `safe_get_register_index`, ladder_fn_commons.h:53-139. -/
def safeIndex (ctx : Ctx) (type : Reg) (raw : Int) : Except Err Nat :=
  let chk (isNull : Bool) (qty : Nat) : Except Err Nat :=
    if isNull then .error .fail
    else if raw.toNat ≥ qty then .error .outOfRange
    else .ok raw.toNat
  if raw < 0 then .error .outOfRange else
  match type with
  | .M  => chk ctx.M.isNone ctx.qty.m
  | .Cd => chk ctx.Cd.isNone ctx.qty.c
  | .Cr => chk ctx.Cr.isNone ctx.qty.c
  | .C  => chk ctx.C.isNone ctx.qty.c
  | .Td => chk ctx.Td.isNone ctx.qty.t
  | .Tr => chk ctx.Tr.isNone ctx.qty.t
  | .T  => chk ctx.timers.isNone ctx.qty.t
  | .D  => chk ctx.D.isNone ctx.qty.d
  | .R  => chk ctx.R.isNone ctx.qty.r
  | _   => .error .typeMismatch

/-- `safe_check_module_port`, ladder_fn_commons.h:141-190: `.ok none` is success. -/
def safeModPort (ctx : Ctx) (type : Reg) (mod port : Nat) : Except UB (Option Err) :=
  let port? (q : Except UB Nat) : Except UB (Option Err) :=
    match q with
    | .error e => .error e
    | .ok qty => if port ≥ qty then .ok (some .outOfRange) else .ok none
  match type with
  | .Q =>
    if ctx.output.isNone then .ok (some .fail)
    else if mod ≥ ctx.fnWriteQty then .ok (some .outOfRange)
    else port? ((aget ctx.output mod).map (·.qQty))
  | .QW =>
    if ctx.output.isNone then .ok (some .fail)
    else if mod ≥ ctx.fnWriteQty then .ok (some .outOfRange)
    else port? ((aget ctx.output mod).map (·.qwQty))
  | .I =>
    if ctx.input.isNone then .ok (some .fail)
    else if mod ≥ ctx.fnReadQty then .ok (some .outOfRange)
    else port? ((aget ctx.input mod).map (·.iQty))
  | .IW =>
    if ctx.input.isNone then .ok (some .fail)
    else if mod ≥ ctx.fnReadQty then .ok (some .outOfRange)
    else port? ((aget ctx.input mod).map (·.iwQty))
  | _ => .ok (some .typeMismatch)

/-- A byte of a `bool` array, read as `int32_t`. -/
def boolW (b : Except UB Byte) : Except UB W32 :=
  match b with
  | .error e => .error e
  | .ok x => (boolOf x).map fun b => if b then 1 else 0

/-- A byte of a `uint8_t` array, read as `int32_t`. -/
def byteW (b : Except UB Byte) : Except UB W32 := b.map fun x => x.zeroExtend 32

/-- Inner switch of `ladder_get_data_value`, ladder_fn_commons.h:220-250: element `idx` of a register area. -/
def regAt (ctx : Ctx) (type : Reg) (idx : Nat) : Except UB W32 :=
  match type with
  | .M  => byteW (aget ctx.M idx)
  | .Cd => boolW (aget ctx.Cd idx)
  | .Cr => boolW (aget ctx.Cr idx)
  | .Td => boolW (aget ctx.Td idx)
  | .Tr => boolW (aget ctx.Tr idx)
  | .C  => aget ctx.C idx
  | .T  => (aget ctx.timers idx).map fun t => if t.acc.toNat > 2147483647 then 2147483647#32 else t.acc
  | .D  => aget ctx.D idx
  | .R  => match aget ctx.R idx with
           | .error e => .error e
           | .ok b => floatToI32 b
  | _   => .ok 0

/-- `switch (type)` of `ladder_get_data_value`, ladder_fn_commons.h:204-292. -/
def readValue (env : Env) (v : Value) : Op W32 := do
  let ctx ← getCtx
  match v.type with
  | .NONE => pure v.raw
  | .M | .Cd | .Cr | .Td | .Tr | .C | .T | .D | .R =>
    match safeIndex ctx v.type v.i32 with
    | .error err =>
      modCtx fun ctx => { ctx with last := { ctx.last with err := err } }
      if err = .fail ∨ err = .typeMismatch then
        modCtx fun ctx => { ctx with state := .error }
        callPanic env
      pure 0
    | .ok idx => lift (regAt ctx v.type idx)
  | .Q =>
    if v.module ≥ ctx.fnWriteQty then pure 0 else do
      let o ← lift (aget ctx.output v.module)
      lift (byteW (aget o.Q v.port))
  | .I =>
    if v.module ≥ ctx.fnReadQty then pure 0 else do
      let o ← lift (aget ctx.input v.module)
      lift (byteW (aget o.I v.port))
  | .IW =>
    if v.module ≥ ctx.fnReadQty then pure 0 else do
      let o ← lift (aget ctx.input v.module)
      lift (aget o.IW v.port)
  | .QW =>
    if v.module ≥ ctx.fnWriteQty then pure 0 else do
      let o ← lift (aget ctx.output v.module)
      lift (aget o.QW v.port)
  | .S => pure 0
  | .INV => pure 0

/-- Guard common to the value readers, ladder_fn_commons.h:193-201 and 296-304: `none` means "return 0". -/
def operandAt (ctx : Ctx) (r c i : Nat) : Except UB (Option Value) :=
  match ctx.exec with
  | none => .ok none
  | some n =>
    match aget ctx.network n with
    | .error e => .error e
    | .ok net =>
      if r ≥ net.rows ∨ c ≥ net.cols then .ok none else
      match net.cell r c with
      | .error e => .error e
      | .ok cell =>
        if i ≥ cell.dataQty then .ok none else
        match aget cell.data i with
        | .error e => .error e
        | .ok v => .ok (some v)

/-- `ladder_get_data_value`, ladder_fn_commons.h:192-293. -/
def getData (env : Env) (r c i : Nat) : Op W32 := do
  let ctx ← getCtx
  let v ← lift (operandAt ctx r c i)
  match v with
  | none => pure 0
  | some v => readValue env v

/-- `switch (type)` of `ladder_get_previous_value`, ladder_fn_commons.h:306-379. -/
def prevValue (ctx : Ctx) (v : Value) : Except UB W32 :=
  match v.type with
  | .M  => byteW (agetI ctx.Mh v.i32)
  | .Q  =>
    if v.module ≥ ctx.fnWriteQty then .ok 0 else
    match aget ctx.output v.module with
    | .error e => .error e
    | .ok o =>
      if o.Qh.isNone then .ok 0
      else if v.port ≥ o.qQty then .ok 0
      else byteW (aget o.Qh v.port)
  | .I  =>
    if v.module ≥ ctx.fnReadQty then .ok 0 else
    match aget ctx.input v.module with
    | .error e => .error e
    | .ok o =>
      if o.Ih.isNone then .ok 0
      else if v.port ≥ o.iQty then .ok 0
      else byteW (aget o.Ih v.port)
  | .Cd => boolW (agetI ctx.Cdh v.i32)
  | .Cr => boolW (agetI ctx.Crh v.i32)
  | .Td => boolW (agetI ctx.Tdh v.i32)
  | .Tr => boolW (agetI ctx.Trh v.i32)
  | .IW =>
    if v.module ≥ ctx.fnReadQty then .ok 0 else
    match aget ctx.input v.module with
    | .error e => .error e
    | .ok o => aget o.IW v.port
  | .QW =>
    if v.module ≥ ctx.fnWriteQty then .ok 0 else
    match aget ctx.output v.module with
    | .error e => .error e
    | .ok o => aget o.QW v.port
  | .C  => agetI ctx.C v.i32
  | .T  => (agetI ctx.timers v.i32).map (·.acc)
  | .D  => agetI ctx.D v.i32
  | .R  => match agetI ctx.R v.i32 with
           | .error e => .error e
           | .ok b => floatToI32 b
  | .S | .NONE | .INV => .ok 0

/-- `ladder_get_previous_value`, ladder_fn_commons.h:295-380. -/
def getPrev (r c i : Nat) : Op W32 := do
  let ctx ← getCtx
  let v ← lift (operandAt ctx r c i)
  match v with
  | none => pure 0
  | some v => lift (prevValue ctx v)

/-- Low byte of a value (`memcpy` of one byte from a 32-bit object, little endian). -/
def lowByte (x : W32) : Byte := x.extractLsb' 0 8

/-- Update of output module `m`. -/
def Ctx.modOut (ctx : Ctx) (m : Nat) (f : OutMod → OutMod) : Ctx :=
  { ctx with output := ctx.output.map fun l => l.modify m f }

/-- Update of input module `m`. -/
def Ctx.modIn (ctx : Ctx) (m : Nat) (f : InMod → InMod) : Ctx :=
  { ctx with input := ctx.input.map fun l => l.modify m f }

/-- Final switch of `ladder_set_data_value` for register areas, ladder_fn_commons.h:503-587
(the NULL tests repeat those of `safe_get_register_index`). -/
def storeReg (ctx : Ctx) (type : Reg) (idx : Nat) (x : W32) : Except UB (Err × Ctx) :=
  let chk {α : Type} (a : Arr α) (new : Ctx) : Except UB (Err × Ctx) :=
    match a with
    | none => .ok (.fail, ctx)
    | some l => if idx < l.length then .ok (.ok, new) else .error .oob
  match type with
  | .M  => chk ctx.M  { ctx with M  := aset ctx.M idx (lowByte x) }
  | .Cd => chk ctx.Cd { ctx with Cd := aset ctx.Cd idx (lowByte x) }
  | .Cr => chk ctx.Cr { ctx with Cr := aset ctx.Cr idx (lowByte x) }
  | .Td => chk ctx.Td { ctx with Td := aset ctx.Td idx (lowByte x) }
  | .Tr => chk ctx.Tr { ctx with Tr := aset ctx.Tr idx (lowByte x) }
  | .C  => chk ctx.C  { ctx with C  := aset ctx.C idx x }
  | .D  => chk ctx.D  { ctx with D  := aset ctx.D idx x }
  | .R  => chk ctx.R  { ctx with R  := aset ctx.R idx x }
  | _   => .ok (.setDataVal, ctx)

/-- Final switch of `ladder_set_data_value` for module ports, ladder_fn_commons.h:510-560. -/
def storePort (ctx : Ctx) (type : Reg) (mod port : Nat) (x : W32) : Except UB (Err × Ctx) :=
  let chk {α : Type} (a : Arr α) (new : Ctx) : Except UB (Err × Ctx) :=
    match a with
    | none => .ok (.fail, ctx)
    | some l => if port < l.length then .ok (.ok, new) else .error .oob
  match type with
  | .Q =>
    match aget ctx.output mod with
    | .error e => .error e
    | .ok o => chk o.Q (ctx.modOut mod fun o => { o with Q := aset o.Q port (lowByte x) })
  | .I =>
    match aget ctx.input mod with
    | .error e => .error e
    | .ok o => chk o.I (ctx.modIn mod fun o => { o with I := aset o.I port (lowByte x) })
  | .IW =>
    match aget ctx.input mod with
    | .error e => .error e
    | .ok o => chk o.IW (ctx.modIn mod fun o => { o with IW := aset o.IW port x })
  | .QW =>
    match aget ctx.output mod with
    | .error e => .error e
    | .ok o => chk o.QW (ctx.modOut mod fun o => { o with QW := aset o.QW port x })
  | _ => .ok (.setDataVal, ctx)

/-- Body of `ladder_set_data_value` after fetching the operand, ladder_fn_commons.h:453-590.
Simplified: `value` is never NULL in any caller, so lines 498-501 are not modelled. -/
def writeValue (ctx : Ctx) (v : Value) (x : W32) : Except UB (Err × Ctx) :=
  match v.type with
  | .S => .ok (.setDataVal, ctx)
  | .M | .Cd | .Cr | .Td | .Tr | .C | .D | .R =>
    match safeIndex ctx v.type v.i32 with
    | .error err => .ok (err, ctx)
    | .ok idx => storeReg ctx v.type idx x
  | .Q | .I | .IW | .QW =>
    match safeModPort ctx v.type v.module v.port with
    | .error e => .error e
    | .ok (some err) => .ok (err, ctx)
    | .ok none => storePort ctx v.type v.module v.port x
  | .NONE | .T | .INV => .ok (.setDataVal, ctx)

/-- `ladder_set_data_value`, ladder_fn_commons.h:445-590; returns the value left in `*error`
(every caller initialises it to OK). -/
def setData (r c i : Nat) (x : W32) : Op Err := do
  let v ← getDataExec r c i
  let ctx ← getCtx
  let (err, ctx') ← lift (writeValue ctx v x)
  modCtx fun _ => ctx'
  pure err

end Ladder
