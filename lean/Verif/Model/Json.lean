import Verif.Model.General

/-
Model of the JSON form of programs, utils/ladder_program_json.c: loading (`ladder_json_to_program`) and saving
(`ladder_program_to_json`).

Not modelled: files, the text level (`cJSON_Parse`, `cJSON_Print` belong to the library cJSON; the model starts from, and ends with,
the tree of values), and failing allocations (every `calloc`, `strdup` and `cJSON_Create…` succeeds, also with size 0).
-/

set_option autoImplicit false

namespace Ladder

/-- A `double` that a text in JSON can denote: a rational number or an infinity.  (Simplified: every rational number is allowed.) -/
inductive Num where
  | fin (q : Rat)
  | inf (neg : Bool)

/-- Truncation toward zero, `none` when there is no finite value. -/
def Num.trunc : Num → Option Int
  | .fin q => some (q.num.tdiv q.den)
  | .inf _ => none

/-- A cJSON value. -/
inductive Json where
  | null
  | bool (b : Bool)
  | num (x : Num)
  | str (s : String)
  | arr (l : List Json)
  | obj (members : List (String × Json))

/-- `cJSON_GetObjectItemCaseSensitive`: the first member of that name. -/
def member (ms : List (String × Json)) (name : String) : Option Json :=
  match ms with
  | [] => none
  | (k, v) :: ms => if k = name then some v else member ms name

/-- What the platform decides: the functions of the C library that convert floats, `strtof` and `snprintf` with `%f`, and the byte
at the place of the number of operands just after the end of the table `ladder_fn_iocd` (`none`: reading it is undefined behaviour,
as in the standard). -/
structure Host where
  strtof : String → W32
  fmtReal : W32 → String
  beyond : Option Nat

/-- `JSON_ERROR`, ladder_program_json.h:38-60: the outcomes of the two functions on trees. -/
inductive JsonErr where
  | ok | typeInv | fail
  deriving DecidableEq, Repr

/-! ### Tables -/

/-- `str_symbol[]`, ladder_program_json.c:49-88 (in the order of the enumeration). -/
def symbolOf : Ins → String
  | .NOP => "NOP" | .CONN => "CONN" | .NEG => "NEG" | .NO => "NO" | .NC => "NC" | .RE => "RE" | .FE => "FE"
  | .COIL => "COIL" | .COILL => "COILL" | .COILU => "COILU" | .TON => "TON" | .TOF => "TOFF" | .TP => "TP"
  | .CTU => "CTU" | .CTD => "CTD" | .MOVE => "MOV" | .SUB => "SUB" | .ADD => "ADD" | .MUL => "MUL" | .DIV => "DIV"
  | .MOD => "MOD" | .SHL => "SHL" | .SHR => "SHR" | .ROL => "ROL" | .ROR => "ROR" | .AND => "AND" | .OR => "OR"
  | .XOR => "XOR" | .NOT => "NOT" | .EQ => "EQ" | .GT => "GT" | .GE => "GE" | .LT => "LT" | .LE => "LE" | .NE => "NE"
  | .FOREIGN => "FOREIGN" | .TMOVE => "TMOV" | .INV => "INV" | .MULTI => "occupied"

/-- `get_instruction_code`, ladder_program_json.c:217-224: first entry of `str_symbol` equal to the string. -/
def insOf (s : String) : Ins :=
  if s = "NOP" then .NOP else if s = "CONN" then .CONN else if s = "NEG" then .NEG else if s = "NO" then .NO
  else if s = "NC" then .NC else if s = "RE" then .RE else if s = "FE" then .FE else if s = "COIL" then .COIL
  else if s = "COILL" then .COILL else if s = "COILU" then .COILU else if s = "TON" then .TON else if s = "TOFF" then .TOF
  else if s = "TP" then .TP else if s = "CTU" then .CTU else if s = "CTD" then .CTD else if s = "MOV" then .MOVE
  else if s = "SUB" then .SUB else if s = "ADD" then .ADD else if s = "MUL" then .MUL else if s = "DIV" then .DIV
  else if s = "MOD" then .MOD else if s = "SHL" then .SHL else if s = "SHR" then .SHR else if s = "ROL" then .ROL
  else if s = "ROR" then .ROR else if s = "AND" then .AND else if s = "OR" then .OR else if s = "XOR" then .XOR
  else if s = "NOT" then .NOT else if s = "EQ" then .EQ else if s = "GT" then .GT else if s = "GE" then .GE
  else if s = "LT" then .LT else if s = "LE" then .LE else if s = "NE" then .NE else if s = "FOREIGN" then .FOREIGN
  else if s = "TMOV" then .TMOVE else if s = "INV" then .INV else if s = "occupied" then .MULTI else .INV

/-- `str_types[]`, ladder_program_json.c:90-106. -/
def typeName : Reg → String
  | .NONE => "NONE" | .M => "M" | .Q => "Q" | .I => "I" | .Cd => "Cd" | .Cr => "Cr" | .Td => "Td" | .Tr => "Tr"
  | .IW => "IW" | .QW => "QW" | .C => "C" | .T => "T" | .D => "D" | .S => "CSTR" | .R => "REAL" | .INV => "INV"

/-- `str_basetime[]`, ladder_program_json.c:108-113, indexed by the type field of the operand (`LADDER_BASETIME_…` are its first
five values); `"INV"` beyond the table. -/
def baseName : Reg → String
  | .NONE => "MS" | .M => "10MS" | .Q => "100MS" | .I => "SEC" | .Cd => "MIN" | _ => "INV"

/-- Search of `str_basetime`, ladder_program_json.c:803-813 (`none`: `bt_idx` stays −1). -/
def baseOf (s : String) : Option Reg :=
  if s = "MS" then some .NONE else if s = "10MS" then some .M else if s = "100MS" then some .Q
  else if s = "SEC" then some .I else if s = "MIN" then some .Cd else none

/-- `get_register_code`, ladder_program_json.c:226-236: first the type names, then the base times. -/
def regOf (s : String) : Reg :=
  if s = "NONE" then .NONE else if s = "M" then .M else if s = "Q" then .Q else if s = "I" then .I
  else if s = "Cd" then .Cd else if s = "Cr" then .Cr else if s = "Td" then .Td else if s = "Tr" then .Tr
  else if s = "IW" then .IW else if s = "QW" then .QW else if s = "C" then .C else if s = "T" then .T
  else if s = "D" then .D else if s = "CSTR" then .S else if s = "REAL" then .R else if s = "INV" then .INV
  else (baseOf s).getD .INV

/-- `code == TON || code == TOF || code == TP`, ladder_program_json.c:801. -/
def timed : Ins → Bool
  | .TON | .TOF | .TP => true
  | _ => false

/-- `get_data_name`, ladder_program_json.c:115-198. -/
def dataName (code : Ins) (d : Nat) : String :=
  match code with
  | .NO | .NC | .RE | .FE | .COIL | .COILL | .COILU | .NEG => if d = 2 then "result" else "value"
  | .SHL | .SHR => if d = 1 then "n" else if d = 2 then "result" else "value"
  | .NOT | .ROL | .ROR => if d = 1 ∨ d = 2 then "result" else "value"
  | .TON | .TOF | .TP => if d = 0 then "timer" else if d = 1 then "basetime" else "value"
  | .CTU | .CTD => if d = 0 then "counter" else if d = 1 then "preset value" else "value"
  | .MOVE => if d = 1 then "to" else "value"
  | .SUB | .ADD | .MUL | .DIV | .MOD | .AND | .OR | .XOR =>
    if d = 0 then "value1" else if d = 1 then "value2" else if d = 2 then "result" else "value"
  | .EQ | .GT | .GE | .LT | .LE | .NE => if d = 0 then "value1" else if d = 1 then "value2" else "value"
  | .TMOVE => if d = 0 then "value1" else if d = 1 then "value2" else if d = 2 then "to" else "value"
  | _ => "value"

/-! ### Numbers in strings -/

/-- `isspace` in the C locale. -/
def isBlank (c : Char) : Bool := c = ' ' || (9 ≤ c.toNat && c.toNat ≤ 13)

/-- The value of a run of decimal digits at the front, and what follows it. -/
def readDigits (acc : Nat) : List Char → Nat × List Char
  | [] => (acc, [])
  | c :: cs => if 48 ≤ c.toNat ∧ c.toNat ≤ 57 then readDigits (acc * 10 + (c.toNat - 48)) cs else (acc, c :: cs)

/-- A decimal number converted to `unsigned long` (64 bits), saturating, negated modulo 2^64 after a minus sign. -/
def toUlong (neg : Bool) (v : Nat) : Nat :=
  if 2 ^ 64 ≤ v then 2 ^ 64 - 1 else if neg then (2 ^ 64 - v) % 2 ^ 64 else v

/-- The digits of a number, `none` when there is none (C standard, subject sequence of `strtoul` in base 10). -/
def scanDigits (neg : Bool) (s : List Char) : Option (Nat × List Char) :=
  match s with
  | [] => none
  | c :: cs => if 48 ≤ c.toNat ∧ c.toNat ≤ 57 then
      some (toUlong neg (readDigits (c.toNat - 48) cs).1, (readDigits (c.toNat - 48) cs).2)
    else none

/-- Optional sign, then digits. -/
def scanSigned (s : List Char) : Option (Nat × List Char) :=
  match s with
  | [] => none
  | c :: cs => if c = '-' then scanDigits true cs else if c = '+' then scanDigits false cs else scanDigits false (c :: cs)

/-- White space, optional sign, digits: what `strtoul` in base 10 and `%u` of `sscanf` accept. -/
def scanUlong (s : List Char) : Option (Nat × List Char) := scanSigned (s.dropWhile isBlank)

/-- `strtoul(s, &end, 10)` followed by the test `*end != '\0'` and the cast to `uint32_t`, ladder_program_json.c:815-821 and
847-853; `none` is the rejection.  Without digits `end` is the start of the string. -/
def numberOf (s : String) : Option W32 :=
  match scanUlong s.toList with
  | none => if s.toList = [] then some 0 else none
  | some (v, rest) => if rest = [] then some (BitVec.ofNat 32 v) else none

/-- `parse_module_port`, ladder_program_json.c:200-215: `sscanf(str, "%u.%u%n", …)`.  Simplified: a number above 2^32 − 1 is
truncated (the behaviour of glibc; undefined in the standard).  The result is the first two bytes of the union. -/
def modPortOf (s : String) : Option W32 :=
  match scanUlong s.toList with
  | none => none
  | some (m, rest) =>
    match rest with
    | [] => none
    | c :: cs =>
      if c = '.' then
        match scanUlong cs with
        | none => none
        | some (p, rest) =>
          if rest = [] ∧ m % 2 ^ 32 ≤ 255 ∧ p % 2 ^ 32 ≤ 255 then some (BitVec.ofNat 32 (m % 2 ^ 32 + 256 * (p % 2 ^ 32))) else none
      else none

/-- `(uint32_t) valuedouble`, ladder_program_json.c:637, 670, 677: undefined outside the range of the type. -/
def u32OfDouble (t : Option Int) : Except UB Nat :=
  match t with
  | none => .error .floatCast
  | some t => if 0 ≤ t ∧ t < 2 ^ 32 then .ok t.toNat else .error .floatCast

/-! ### Loading -/

/-- A string member. -/
def strMember (ms : List (String × Json)) (name : String) : Option String :=
  match member ms name with
  | some (.str s) => some s
  | _ => none

/-- The value of an operand of type `t` (not a time base), ladder_program_json.c:823-854.  The string is kept in `cstr`. -/
def operandOf (H : Host) (t : Reg) (v : String) : Option Value :=
  match t with
  | .INV => none
  | .S => some { type := .S, raw := 0, cstr := some v }
  | .R => some { type := .R, raw := H.strtof v }
  | .I | .Q => (modPortOf v).map fun raw => { type := t, raw := raw }
  | _ => (numberOf v).map fun raw => { type := t, raw := raw }

/-- One operand, ladder_program_json.c:773-855; `none` is `data_parse_ok = false`. -/
def loadValue (H : Host) (code : Ins) (d : Nat) (j : Json) : Option Value :=
  match j with
  | .obj ms =>
    match strMember ms "name", strMember ms "type", strMember ms "value" with
    | some _, some ty, some v =>
      if timed code = true ∧ d = 1 then
        match baseOf ty with
        | none => none
        | some t => (numberOf v).map fun raw => { type := t, raw := raw }
      else operandOf H (regOf ty) v
    | _, _, _ => none
  | _ => none

/-- The operands from number `d` on, ladder_program_json.c:772-856. -/
def loadValues (H : Host) (code : Ins) : Nat → List Json → Option (List Value)
  | _, [] => some []
  | d, j :: js =>
    match loadValue H code d j with
    | none => none
    | some v =>
      match loadValues H code (d + 1) js with
      | none => none
      | some vs => some (v :: vs)

/-- `ladder_fn_iocd[code].data_qty`, ladder_program_json.c:755: the table has no entry for MULTI. -/
def tableQty (H : Host) (code : Ins) : Except UB Nat :=
  match iocd code with
  | .ok i => .ok i.dataQty
  | .error e =>
    match H.beyond with
    | none => .error e
    | some q => .ok q

/-- The operands of a cell, ladder_program_json.c:754-868: their number is compared with the table `ladder_fn_iocd`, and there is no block when there are none.  The cast of the number to `uint8_t` is exact (at most 5). -/
def loadData (H : Host) (code : Ins) (bar : Bool) (l : List Json) : Except UB (Option Cell) :=
  match tableQty H code with
  | .error e => .error e
  | .ok q =>
    if l.length = q then
      if l.length = 0 then .ok (some { code := code, bar := bar })
      else .ok ((loadValues H code 0 l).map fun vs => { code := code, bar := bar, dataQty := l.length, data := some vs })
    else .ok none

/-- One cell, ladder_program_json.c:721-868; `none` is `parse_ok = false`. -/
def loadCell (H : Host) (j : Json) : Except UB (Option Cell) :=
  match j with
  | .obj ms =>
    match strMember ms "symbol" with
    | none => .ok none
    | some s =>
      if insOf s = .INV then .ok none else
      match member ms "bar" with
      | some (.bool bar) =>
        match member ms "data" with
        | some (.arr l) => loadData H (insOf s) bar l
        | _ => .ok none
      | _ => .ok none
  | _ => .ok none

/-- The elements of an array in turn until one is refused, ladder_program_json.c:713 and 720 (`… && parse_ok`). -/
def loadAll {α : Type} (f : Json → Except UB (Option α)) : List Json → Except UB (Option (List α))
  | [] => .ok (some [])
  | j :: js =>
    match f j with
    | .error e => .error e
    | .ok none => .ok none
    | .ok (some x) =>
      match loadAll f js with
      | .error e => .error e
      | .ok none => .ok none
      | .ok (some xs) => .ok (some (x :: xs))

/-- One row, ladder_program_json.c:714-869: an array with one element per column. -/
def loadRow (H : Host) (cols : Nat) (j : Json) : Except UB (Option (List Cell)) :=
  match j with
  | .arr l => if cols = l.length then loadAll (loadCell H) l else .ok none
  | _ => .ok none

/-- The network as it is left by the release of its old cells, ladder_program_json.c:644, 661-663 and 889-892. -/
def emptyNet : Network := { enable := true, rows := 0, cols := 0, cells := none }

/-- The rows of the network, ladder_program_json.c:679-893: allocation, parsing, and the release on a failure.
Simplified: the length of an array is less than 2^31 (`cJSON_GetArraySize` returns an `int`). -/
def loadGrid (H : Host) (rows cols : Nat) (data : Option Json) : Except UB (Bool × Network) :=
  match data with
  | some (.arr l) =>
    if rows = l.length then
      match loadAll (loadRow H cols) l with
      | .error e => .error e
      | .ok none => .ok (false, emptyNet)
      | .ok (some g) => .ok (true, { enable := true, rows := rows, cols := cols, cells := some g })
    else .ok (false, { emptyNet with rows := rows, cols := cols })
  | _ => .ok (false, { emptyNet with rows := rows, cols := cols })

/-- Dimensions and rows, ladder_program_json.c:665-893.  On a failure the network keeps what was already stored in it. -/
def loadShape (H : Host) (ms : List (String × Json)) : Except UB (Bool × Network) :=
  match member ms "rows" with
  | some (.num r) =>
    match u32OfDouble r.trunc with
    | .error e => .error e
    | .ok rows =>
      match member ms "cols" with
      | some (.num c) =>
        match u32OfDouble c.trunc with
        | .error e => .error e
        | .ok cols => loadGrid H rows cols (member ms "networkData")
      | _ => .ok (false, { emptyNet with rows := rows })
  | _ => .ok (false, emptyNet)

/-- One cell of the release loop: reading `data_qty` operands. -/
def releaseCell (cell : Cell) : Except UB Cell :=
  match cell.data with
  | none => .ok cell
  | some l => if cell.dataQty ≤ l.length then .ok cell else .error .oob

/-- Release of the old cells, ladder_program_json.c:647-663: every row pointer is read, even without columns. -/
def releaseNet (net : Network) : Except UB Unit :=
  match net.cells with
  | none => if net.rows = 0 then .ok () else .error .nullDeref
  | some rows =>
    match mapFirst (fun row => mapFirst releaseCell net.cols row) net.rows rows with
    | .error e => .error e
    | .ok _ => .ok ()

/-- One network of the document, ladder_program_json.c:626-893; false is `load_ok = false`. -/
def loadNet (H : Host) (ctx : Ctx) (j : Json) : Except UB (Bool × Ctx) :=
  match j with
  | .obj ms =>
    match member ms "id" with
    | some (.num t) =>
      match u32OfDouble t.trunc with
      | .error e => .error e
      | .ok n =>
        if ctx.qty.networks ≤ n then .ok (false, ctx) else
        match aget ctx.network n with
        | .error e => .error e
        | .ok net =>
          match releaseNet net with
          | .error e => .error e
          | .ok () =>
            match loadShape H ms with
            | .error e => .error e
            | .ok (good, net) => .ok (good, { ctx with network := ctx.network.map (·.set n net) })
    | _ => .ok (false, ctx)
  | _ => .ok (false, ctx)

/-- The networks in turn while `load_ok`, ladder_program_json.c:625-893. -/
def loadNets (H : Host) : Ctx → List Json → Except UB (Bool × Ctx)
  | ctx, [] => .ok (true, ctx)
  | ctx, j :: js =>
    match loadNet H ctx j with
    | .error e => .error e
    | .ok (false, ctx) => .ok (false, ctx)
    | .ok (true, ctx) => loadNets H ctx js

/-- `ladder_json_to_program` after a successful `cJSON_Parse`, ladder_program_json.c:615-900. -/
def loadProgram (H : Host) (ctx : Ctx) (doc : Json) : Except UB (JsonErr × Ctx) :=
  match doc with
  | .arr l =>
    match clearProgram ctx with
    | .error e => .error e
    | .ok ctx =>
      match loadNets H ctx l with
      | .error e => .error e
      | .ok (true, ctx) => .ok (.ok, ctx)
      | .ok (false, ctx) =>
        match clearProgram ctx with
        | .error e => .error e
        | .ok ctx => .ok (.fail, ctx)
  | _ => .ok (.typeInv, ctx)

/-! ### Saving -/

/-- The digit of a number below 10. -/
def digitChar (n : Nat) : Char := Char.ofNat (48 + n)

/-- `%lu` and `%u` of `snprintf`: the shortest decimal form. -/
def decimal (n : Nat) : List Char :=
  if n < 10 then [digitChar n] else decimal (n / 10) ++ [digitChar (n % 10)]
  termination_by n
  decreasing_by omega

/-- The type member of an operand, ladder_program_json.c:989-1003. -/
def typeStr (code : Ins) (d : Nat) (v : Value) : String :=
  if v.type = .NONE then if dataName code d = "preset value" then "NONE" else "K"
  else if timed code = true ∧ d = 1 then baseName v.type
  else typeName v.type

/-- `snprintf(value_str, …, "%lu", (unsigned long) val->value.u32)`. -/
def plainStr (v : Value) : String := String.ofList (decimal v.raw.toNat)

/-- `snprintf(value_str, …, "%u.%u", module, port)`. -/
def modPortStr (v : Value) : String := String.ofList (decimal v.module ++ '.' :: decimal v.port)

/-- The value members of an operand, ladder_program_json.c:1005-1029.  Except for time bases the member is added twice, and for
strings the second one reads `value_str`, which nothing has written. -/
def valueMembers (H : Host) (code : Ins) (d : Nat) (v : Value) : Except UB (List (String × Json)) :=
  if timed code = true ∧ d = 1 then .ok [("value", .str (plainStr v))]
  else
    match v.type with
    | .I | .Q => .ok [("value", .str (modPortStr v)), ("value", .str (modPortStr v))]
    | .S => .error .uninit
    | .R => .ok [("value", .str (H.fmtReal v.raw)), ("value", .str (H.fmtReal v.raw))]
    | _ => .ok [("value", .str (plainStr v)), ("value", .str (plainStr v))]

/-- One operand, ladder_program_json.c:973-1030. -/
def saveValue (H : Host) (code : Ins) (d : Nat) (v : Value) : Except UB Json :=
  match valueMembers H code d v with
  | .error e => .error e
  | .ok ms => .ok (.obj (("name", .str (dataName code d)) :: ("type", .str (typeStr code d v)) :: ms))

/-- Operands `d, d+1, …` (`n` of them), ladder_program_json.c:972-1031. -/
def saveValues (H : Host) (code : Ins) (data : Arr Value) : Nat → Nat → Except UB (List Json)
  | _, 0 => .ok []
  | d, n + 1 =>
    match aget data d with
    | .error e => .error e
    | .ok v =>
      match saveValue H code d v with
      | .error e => .error e
      | .ok j =>
        match saveValues H code data (d + 1) n with
        | .error e => .error e
        | .ok js => .ok (j :: js)

/-- One cell, ladder_program_json.c:946-1034. -/
def saveCell (H : Host) (cell : Cell) : Except UB Json :=
  match saveValues H cell.code cell.data 0 cell.dataQty with
  | .error e => .error e
  | .ok l => .ok (.obj [("symbol", .str (symbolOf cell.code)), ("bar", .bool cell.bar), ("data", .arr l)])

/-- Columns `c, c+1, …` (`n` of them) of row `r`, ladder_program_json.c:945-1035. -/
def saveRow (H : Host) (net : Network) (r : Nat) : Nat → Nat → Except UB (List Json)
  | _, 0 => .ok []
  | c, n + 1 =>
    match net.cell r c with
    | .error e => .error e
    | .ok cell =>
      match saveCell H cell with
      | .error e => .error e
      | .ok j =>
        match saveRow H net r (c + 1) n with
        | .error e => .error e
        | .ok js => .ok (j :: js)

/-- Rows `r, r+1, …` (`n` of them), ladder_program_json.c:935-1038. -/
def saveRows (H : Host) (net : Network) : Nat → Nat → Except UB (List Json)
  | _, 0 => .ok []
  | r, n + 1 =>
    match saveRow H net r 0 net.cols with
    | .error e => .error e
    | .ok l =>
      match saveRows H net (r + 1) n with
      | .error e => .error e
      | .ok js => .ok (.arr l :: js)

/-- One network, ladder_program_json.c:916-1041. -/
def saveNet (H : Host) (n : Nat) (net : Network) : Except UB Json :=
  match saveRows H net 0 net.rows with
  | .error e => .error e
  | .ok l => .ok (.obj [("id", .num (.fin n)), ("rows", .num (.fin net.rows)), ("cols", .num (.fin net.cols)),
      ("networkData", .arr l)])

/-- Networks `n, n+1, …` (`k` of them), ladder_program_json.c:915-1042. -/
def saveNets (H : Host) (ctx : Ctx) : Nat → Nat → Except UB (List Json)
  | _, 0 => .ok []
  | n, k + 1 =>
    match aget ctx.network n with
    | .error e => .error e
    | .ok net =>
      match saveNet H n net with
      | .error e => .error e
      | .ok j =>
        match saveNets H ctx (n + 1) k with
        | .error e => .error e
        | .ok js => .ok (j :: js)

/-- `ladder_program_to_json` up to `cJSON_Print`, ladder_program_json.c:903-1044. -/
def saveProgram (H : Host) (ctx : Ctx) : Except UB Json :=
  match saveNets H ctx 0 ctx.qty.networks with
  | .error e => .error e
  | .ok l => .ok (.arr l)

end Ladder
