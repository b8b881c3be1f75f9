import Verif.Model.General

/-
`ladder_program_check`, utils/ladder_program_check.c:46-355.
-/

namespace Ladder

/-- `ladder_err_prg_check_t`, ladder_program_check.h:44-64. -/
inductive ChkErr where
  | ok | iInvModule | iInvPort | qInvModule | qInvPort | iwInvModule | iwInvPort | qwInvModule | qwInvPort
  | noInputModules | noOutputModules | tInvType | tInvIndex | invBaseTime | missingMulti | multiHasData | danglingMulti
  | fail
  deriving DecidableEq, Repr

/-- `ladder_prg_check_t`, ladder_program_check.h:71-77. -/
structure ChkStatus where
  network : Nat
  row     : Nat
  column  : Nat
  code    : Ins
  error   : ChkErr
  deriving DecidableEq, Repr

/-- `code == TON || TOF || TP`, ladder_program_check.c:104. -/
def isTimer (code : Ins) : Bool := code = .TON || code = .TOF || code = .TP

/-- Timer operands, ladder_program_check.c:100-130: `none` when they pass.  The comparison of `i32` with the `uint32_t`
quantity is unsigned. -/
def checkTimer (ctx : Ctx) (dataQty d : Nat) (v : Value) : Option ChkErr :=
  if dataQty < 2 then some .fail
  else if d = 0 then
    if v.type ≠ .T then some .tInvType
    else if ctx.qty.t > 0 ∧ v.raw.toNat ≥ ctx.qty.t then some .tInvIndex
    else none
  else if d = 1 then
    if v.type.code > 4 then some .invBaseTime else none
  else none

/-- Number of ports of an input module for the kind of an operand, ladder_program_check.c:155-156. -/
def inPorts (k : Reg) (o : InMod) : Nat := if k = .I then o.iQty else o.iwQty

/-- Number of ports of an output module for the kind of an operand, ladder_program_check.c:157-158. -/
def outPorts (k : Reg) (o : OutMod) : Nat := if k = .Q then o.qQty else o.qwQty

/-- The checks of one entry of the table after it has been found, ladder_program_check.c:138-168: number of modules, the
module table as the number of its ports by module, and the three errors. -/
def checkPort (qty : Nat) (ports : Nat → Except UB Nat) (v : Value) (noMod invMod invPort : ChkErr) :
    Except UB (Option ChkErr) :=
  if qty = 0 then .ok (some noMod)
  else if v.module > qty then .ok (some invMod)
  else
    match ports v.module with
    | .error e => .error e
    | .ok n => if v.port ≥ n then .ok (some invPort) else .ok none

/-- Hardware operands, ladder_program_check.c:55-60 (table) and 132-168. -/
def checkIO (ctx : Ctx) (v : Value) : Except UB (Option ChkErr) :=
  let inp := fun m => (aget ctx.input m).map (inPorts v.type)
  let out := fun m => (aget ctx.output m).map (outPorts v.type)
  match v.type with
  | .I  => checkPort ctx.fnReadQty inp v .noInputModules .iInvModule .iInvPort
  | .IW => checkPort ctx.fnReadQty inp v .noInputModules .iwInvModule .iwInvPort
  | .Q  => checkPort ctx.fnWriteQty out v .noOutputModules .qInvModule .qInvPort
  | .QW => checkPort ctx.fnWriteQty out v .noOutputModules .qwInvModule .qwInvPort
  | _ => .ok none

/-- Register indices, ladder_program_check.c:170-232: kind R is excluded by the condition in front of the switch. -/
def checkIndex (ctx : Ctx) (v : Value) : Option ChkErr :=
  let below (qty : Nat) : Option ChkErr := if v.i32 < 0 ∨ v.raw.toNat ≥ qty then some .fail else none
  match v.type with
  | .NONE | .I | .IW | .Q | .QW | .S | .R => none
  | .M => below ctx.qty.m
  | .Cd | .Cr | .C => below ctx.qty.c
  | .Td | .Tr | .T => below ctx.qty.t
  | .D => below ctx.qty.d
  | .INV => some .fail

/-- Kinds accepted for an operand, ladder_program_check.c:234-320: `none` is an invalid instruction code. -/
def kindOk (code : Ins) (d : Nat) (k : Reg) : Option Bool :=
  match code with
  | .NO | .NC | .RE | .FE => some (d = 0 && (k = .NONE || k = .I || k = .Q || k = .M || k = .Cd || k = .Cr || k = .Td || k = .Tr))
  | .COIL | .COILL | .COILU => some (d = 0 && (k = .Q || k = .M))
  | .TON | .TOF | .TP => some true
  | .ADD | .SUB | .MUL | .DIV | .MOD | .SHL | .SHR | .ROL | .ROR | .AND | .OR | .XOR | .NOT
  | .EQ | .GT | .GE | .LT | .LE | .NE =>
    some (k = .D || k = .R || k = .NONE || k = .C || k = .IW || k = .QW)
  | .MOVE | .TMOVE => some (k = .D || k = .R || k = .NONE || k = .C || k = .IW || k = .QW || k = .S)
  | .CTU | .CTD => some ((d = 0 && k = .C) || (d = 1 && (k = .NONE || k = .D)))
  | .INV | .MULTI => none
  | .NOP | .CONN | .NEG | .FOREIGN => some true

/-- Body of the operand loop, ladder_program_check.c:98-321. -/
def checkOperand (ctx : Ctx) (code : Ins) (dataQty d : Nat) (v : Value) : Except UB (Option ChkErr) :=
  match (if isTimer code then checkTimer ctx dataQty d v else none) with
  | some e => .ok (some e)
  | none =>
    match (if isTimer code then .ok none else checkIO ctx v) with
    | .error e => .error e
    | .ok (some e) => .ok (some e)
    | .ok none =>
      match checkIndex ctx v with
      | some e => .ok (some e)
      | none =>
        match kindOk code d v.type with
        | some true => .ok none
        | _ => .ok (some .fail)

/-- Operand loop, ladder_program_check.c:98: operands `d, d+1, …` (`n` of them). -/
def checkOperands (ctx : Ctx) (cell : Cell) : Nat → Nat → Except UB (Option ChkErr)
  | _, 0 => .ok none
  | d, n + 1 =>
    match aget cell.data d with
    | .error e => .error e
    | .ok v =>
      match checkOperand ctx cell.code cell.dataQty d v with
      | .error e => .error e
      | .ok (some e) => .ok (some e)
      | .ok none => checkOperands ctx cell (d + 1) n

/-- Height of an instruction, ladder_program_check.c:323-349: an error, or the new `expected_multi` (`uint32_t`).
Simplified: `row + cells` does not wrap around `uint32_t`. -/
def checkSpan (ctx : Ctx) (rows row : Nat) (cell : Cell) : Except UB (ChkErr ⊕ Nat) :=
  let fits (d : Iocd) : Except UB (ChkErr ⊕ Nat) :=
    if row + d.cells > rows then .ok (.inl .fail) else .ok (.inr ((d.cells + (2^32 - 1)) % 2^32))
  match cell.code with
  | .NOP | .CONN | .INV | .MULTI => .ok (.inr 0)
  | .FOREIGN =>
    if cell.dataQty < 1 then .ok (.inl .fail) else
    match aget cell.data 0 with
    | .error e => .error e
    | .ok v =>
      if v.raw.toNat ≥ ctx.foreignQty then .ok (.inl .fail) else
      match aget ctx.foreign v.raw.toNat with
      | .error e => .error e
      | .ok f => fits f.desc
  | code =>
    match iocd code with
    | .error e => .error e
    | .ok d => fits d

/-- Body of the row loop, ladder_program_check.c:70-349, with `expected_multi` before and after. -/
def checkCell (ctx : Ctx) (rows row : Nat) (cell : Cell) (expected : Nat) : Except UB (ChkErr ⊕ Nat) :=
  if expected > 0 then
    if cell.code ≠ .MULTI then .ok (.inl .missingMulti)
    else if cell.dataQty ≠ 0 ∨ cell.data.isSome then .ok (.inl .multiHasData)
    else .ok (.inr (expected - 1))
  else if cell.code = .MULTI then .ok (.inl .danglingMulti)
  else
    match checkOperands ctx cell 0 cell.dataQty with
    | .error e => .error e
    | .ok (some e) => .ok (.inl e)
    | .ok none => checkSpan ctx rows row cell

/-- Progress of the nested loops: `goto end` with a status, or the status of the last cell seen (`none`: the local variable
has not been assigned yet). -/
inductive Walk where
  | stop (s : ChkStatus)
  | go (last : Option ChkStatus)
  deriving DecidableEq, Repr

/-- Row loop, ladder_program_check.c:69: rows `row, row+1, …` (`n` of them) of a column. -/
def checkRows (ctx : Ctx) (net : Network) (nt col : Nat) : Nat → Nat → Nat → Option ChkStatus → Except UB Walk
  | _, 0, _, last => .ok (.go last)
  | row, n + 1, expected, _ =>
    match net.cell row col with
    | .error e => .error e
    | .ok cell =>
      match checkCell ctx net.rows row cell expected with
      | .error e => .error e
      | .ok (.inl e) => .ok (.stop ⟨nt, row, col, cell.code, e⟩)
      | .ok (.inr expected) => checkRows ctx net nt col (row + 1) n expected (some ⟨nt, row, col, cell.code, .ok⟩)

/-- Column loop, ladder_program_check.c:64. -/
def checkCols (ctx : Ctx) (net : Network) (nt : Nat) : Nat → Nat → Option ChkStatus → Except UB Walk
  | _, 0, last => .ok (.go last)
  | col, n + 1, last =>
    match checkRows ctx net nt col 0 net.rows 0 last with
    | .ok (.go last) => checkCols ctx net nt (col + 1) n last
    | r => r

/-- Network loop, ladder_program_check.c:63. -/
def checkNets (ctx : Ctx) : Nat → Nat → Option ChkStatus → Except UB Walk
  | _, 0, last => .ok (.go last)
  | nt, n + 1, last =>
    match aget ctx.network nt with
    | .error e => .error e
    | .ok net =>
      match checkCols ctx net nt 0 net.cols last with
      | .ok (.go last) => checkNets ctx (nt + 1) n last
      | r => r

/-- `ladder_program_check`, ladder_program_check.c:46-355, for a non-NULL context: the status returned, `none` when it is an
uninitialised object. -/
def programCheck (ctx : Ctx) : Except UB (Option ChkStatus) :=
  match checkNets ctx 0 ctx.qty.networks none with
  | .error e => .error e
  | .ok (.stop s) => .ok (some s)
  | .ok (.go last) => .ok last

end Ladder
