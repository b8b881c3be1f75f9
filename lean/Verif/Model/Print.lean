import Verif.Model.Check
import Verif.Model.Json

/-
`ladder_print`, utils/ladder_print.c.

The result is the text written to the standard output.  Simplified: characters are those of the texts, not bytes.  `float` is IEEE-754
single precision, rounded to nearest with ties to even after every operation, and `powf(10.0f, 2)` is 100.
-/

set_option autoImplicit false

namespace Ladder.Print

/-- What is not modelled: the names of the foreign functions (a terminated text of at most six characters, ladder.h:576). -/
structure Host where
  name : Nat → List Char

/-- `snprintf((*cells)[i], 32, …)`: at most 31 characters are kept. -/
def fit (t : List Char) : List Char := t.take 31

/-- `fn_symbol[]`, ladder_print.c:50-89 (38 entries, none for MULTI). -/
def symbol : Ins → Except UB String
  | .NOP => .ok "   " | .CONN => .ok "---" | .NEG => .ok "(!)" | .NO => .ok "| |" | .NC => .ok "|/|" | .RE => .ok "-RE"
  | .FE => .ok "-FE" | .COIL => .ok "( )" | .COILL => .ok "(L)" | .COILU => .ok "(U)" | .TON => .ok "TON" | .TOF => .ok "TOF"
  | .TP => .ok "-TP" | .CTU => .ok "CTU" | .CTD => .ok "CTD" | .MOVE => .ok "MOV" | .SUB => .ok "SUB" | .ADD => .ok "ADD"
  | .MUL => .ok "MUL" | .DIV => .ok "DIV" | .MOD => .ok "MOD" | .SHL => .ok "SHL" | .SHR => .ok "SHR" | .ROL => .ok "ROL"
  | .ROR => .ok "ROR" | .AND => .ok "AND" | .OR => .ok "OR-" | .XOR => .ok "XOR" | .NOT => .ok "NOT" | .EQ => .ok "EQ-"
  | .GT => .ok "GT-" | .GE => .ok "GE-" | .LT => .ok "LT-" | .LE => .ok "LE-" | .NE => .ok "NE-" | .FOREIGN => .ok "FGN"
  | .TMOVE => .ok "TMV" | .INV => .ok "???" | .MULTI => .error .oob

/-- `dt_graph[]`, ladder_print.c:91-108. -/
def kind : Reg → String
  | .NONE => "--" | .M => " M" | .Q => " Q" | .I => " I" | .Cd => "Cd" | .Cr => "Cr" | .Td => "Td" | .Tr => "Tr" | .IW => "IW"
  | .QW => "QW" | .C => " C" | .T => " T" | .D => " D" | .S => "ST" | .R => "RE" | .INV => "??"

/-- `basetime_graph[]` and the test in front of it, ladder_print.c:143 and 255-258. -/
def base (k : Reg) : String :=
  match k.code with
  | 0 => "ms   "
  | 1 => "10ms "
  | 2 => "100ms"
  | 3 => "seg  "
  | 4 => "min  "
  | _ => "INV   "

/-- Zeros in front of a text, up to a width. -/
def zeros (w : Nat) (t : List Char) : List Char := List.replicate (w - t.length) '0' ++ t

/-- `%04d` for the 32 bits of an operand, taken as `int`. -/
def four (x : W32) : List Char :=
  if x.toInt < 0 then '-' :: zeros 3 (decimal (-x.toInt).toNat) else zeros 4 (decimal x.toInt.toNat)

/-- `%d.%d` of module and port, ladder_print.c:204-205. -/
def ports (v : Value) : List Char := decimal v.module ++ '.' :: decimal v.port

/-- A float is not a number. -/
def isNaN (x : W32) : Bool := decide (x.toNat / 2^23 % 2^8 = 255) && decide (x.toNat % 2^23 ≠ 0)

/-- The smallest positive float is 2^-149; all floats are multiples of it.  This is `1.0f` in that unit. -/
def oneF : Nat := 2^149

/-- `fabsf` in units of 2^-149. -/
def magnitude (x : W32) : Nat :=
  let e := x.toNat / 2^23 % 2^8
  if e = 0 then x.toNat % 2^23 else (x.toNat % 2^23 + 2^23) * 2^(e - 1)

/-- Rounding of a result to the nearest float, ties to even, in units of 2^-149, for results below the largest float. -/
def rnd (n : Nat) : Nat :=
  let u := 2 ^ (Nat.log2 n - 23)
  let q := n / u
  (if u < 2 * (n % u) ∨ 2 * (n % u) = u ∧ q % 2 = 1 then q + 1 else q) * u

/-- `f < 0`. -/
def negative (x : W32) : Bool := x.msb && decide (magnitude x ≠ 0)

/-- `frac *= g; frac += 0.5f`, ladder_print.c:129-130, for the fraction `fabsf(f - (float) ifl)` of 127. -/
def hundredths (m : Nat) : Nat := rnd (rnd (rnd (m - rnd (m / oneF * oneF)) * 100) + oneF / 2)

/-- `%d` of `ifl` with sign and magnitude given (no minus for zero), then `.`, `%02d`, and two blanks; `snprintf` keeps 11 characters,
ladder_print.c:136-138. -/
def fixed (neg : Bool) (whole part : Nat) : List Char :=
  ((if neg && decide (whole ≠ 0) then ['-'] else []) ++ decimal whole ++ '.' :: zeros 2 (decimal part) ++ [' ', ' ']).take 11

/-- `ftos(…, 12, 2)`, ladder_print.c:110-141: the conversion of a NaN to `int` (line 126) is undefined.  The constant `999999.99f` (111)
is 1000000, the nearest float.  `ifl` (126) is the truncated magnitude with the sign of `f`, so that the carry (133) adds 1 to the
magnitude. -/
def ftos (x : W32) : Except UB (List Char) :=
  if isNaN x then .error .floatCast
  else if magnitude x > 1000000 * oneF then .ok "OVF     ".toList
  else
    let frac := hundredths (magnitude x)
    if frac ≥ 100 * oneF then .ok (fixed (negative x) (magnitude x / oneF + 1) (rnd (frac - 100 * oneF) / oneF))
    else .ok (fixed (negative x) (magnitude x / oneF) (frac / oneF))

/-- `LADDER_VERTICAL_BAR`, ladder.h:627-630. -/
def verticalBar (ctx : Ctx) (n r c : Nat) : Except UB Bool :=
  if n < ctx.qty.networks then do
    let net ← aget ctx.network n
    if r < net.rows ∧ c < net.cols then do
      let row ← aget net.cells r
      let cell ← aget (some row) c
      .ok cell.bar
    else .ok false
  else .ok false

/-- The bar of the row below, as in the macros of ladder_print.c:45-48; `rows - 2` is unsigned. -/
def barBelow (ctx : Ctx) (n r c : Nat) : Except UB Bool := do
  let net ← aget ctx.network n
  if r > (net.rows + (2^32 - 2)) % 2^32 then .ok false else verticalBar ctx n (r + 1) c

/-- `PIN_OUT`, ladder_print.c:45-46. -/
def pinOut (ctx : Ctx) (n r c : Nat) : Except UB String := do
  let b ← verticalBar ctx n r c
  if b then .ok "-+" else do
    let b ← barBelow ctx n r c
    .ok (if b then "-+" else "--")

/-- `SPACE_BAR`, ladder_print.c:48. -/
def spaceBar (ctx : Ctx) (n r c : Nat) : Except UB String := do
  let b ← barBelow ctx n r c
  .ok (if b then "|" else " ")

/-- `%.10s` of an operand of kind S; printing NULL is undefined. -/
def textOf (v : Value) : Except UB (List Char) :=
  match v.cstr with
  | none => .error .nullDeref
  | some s => .ok (s.toList.take 10)

/-- The second line of a one-row instruction with operands, ladder_print.c:194-219.  The blank after a short module and port is put at
index 3 of a cleared buffer. -/
def flatLine (code : Ins) (v : Value) (bar : String) : Except UB (List Char) :=
  match v.type with
  | .S => do
    let t ← textOf v
    .ok (fit ("     ".toList ++ t ++ "   ".toList ++ bar.toList))
  | .I | .Q =>
    let t := ports v
    .ok (fit ("     ".toList ++ (kind v.type).toList ++ " ".toList ++ (if t.length = 3 then t ++ [' '] else t) ++ "      ".toList ++ bar.toList))
  | .R => do
    let t ← ftos v.raw
    .ok (fit ("     ".toList ++ (kind v.type).toList ++ " ".toList ++ (if t.length = 3 then t ++ [' '] else t) ++ "      ".toList ++ bar.toList))
  | _ =>
    if code = .CONN then .ok (fit ("                  ".toList ++ bar.toList))
    else .ok (fit ("     ".toList ++ (kind v.type).toList ++ " ".toList ++ four v.raw ++ "      ".toList ++ bar.toList))

/-- An operand in a box, between its two walls, ladder_print.c:228-250, 264-288, 302-321, 324-348 and 351-369: `gap` are the blanks
after a port or a float. -/
def boxed (gap : String) (v : Value) : Except UB (List Char) :=
  match v.type with
  | .S => do
    let t ← textOf v
    .ok ("| ".toList ++ t ++ " |".toList)
  | .I | .Q => .ok ("| ".toList ++ (kind v.type).toList ++ " ".toList ++ ports v ++ gap.toList ++ "|".toList)
  | .R => do
    let t ← ftos v.raw
    .ok ("| ".toList ++ (kind v.type).toList ++ " ".toList ++ t ++ gap.toList ++ "|".toList)
  | _ => .ok ("| ".toList ++ (kind v.type).toList ++ " ".toList ++ four v.raw ++ "    |".toList)

/-- The preset of a timer, between the walls, ladder_print.c:255-262. -/
def preset (v : Value) : List Char := "| ".toList ++ four v.raw ++ " ".toList ++ (base v.type).toList ++ " |".toList

/-- The second operand of an instruction of two rows, between the walls, ladder_print.c:252-289. -/
def second (code : Ins) (w : Value) : Except UB (List Char) := if isTimer code then .ok (preset w) else boxed "    " w

/-- Nineteen blanks. -/
def blank : List Char := "                   ".toList

/-- `actual_ioc.outputs < k ? "  " : PIN_OUT`, evaluated only when needed. -/
def rightPin (ctx : Ctx) (n r c : Nat) (none' : Bool) : Except UB String := if none' then .ok "  " else pinOut ctx n r c

/-- `case 1`, ladder_print.c:190-222: lines 1 to 5. -/
def flat (ctx : Ctx) (n r c : Nat) (cell : Cell) : Except UB (List (List Char)) :=
  if cell.dataQty > 0 then do
    let v ← aget cell.data 0
    let bar ← spaceBar ctx n r c
    let t ← flatLine cell.code v bar
    .ok [t, [], [], [], []]
  else do
    let bar ← spaceBar ctx n r c
    .ok [fit ("                  ".toList ++ bar.toList), [], [], [], []]

/-- `case 2`, ladder_print.c:223-296.  The test of the row (225) is unsigned and never fails for a row of the network.  The branch for
CONN (245) belongs to one-row instructions and is not reached. -/
def double (ctx : Ctx) (n r c : Nat) (cell : Cell) (d : Iocd) : Except UB (List (List Char)) := do
  let net ← aget ctx.network n
  if r > (net.rows + (2^32 - 1)) % 2^32 then .ok [[], [], [], [], []] else
  if cell.dataQty > 0 then do
    let v ← aget cell.data 0
    let a ← boxed "    " v
    let w ← aget cell.data 1
    let b ← second cell.code w
    let pin ← rightPin ctx n r c (decide (d.outputs = 1))
    let bar ← spaceBar ctx n r c
    .ok [fit ("   ".toList ++ a ++ "  ".toList), fit ((if d.inputs = 1 then "   " else "---").toList ++ b ++ pin.toList),
      fit ("   +------------+ ".toList ++ bar.toList), [], []]
  else do
    let bar ← spaceBar ctx n r c
    .ok [blank, blank, fit ("   +------------+ ".toList ++ bar.toList), [], []]

/-- The operands of an instruction of three rows, ladder_print.c:301-374. -/
def operands (ctx : Ctx) (n r c : Nat) (cell : Cell) (d : Iocd) : Except UB (List (List Char)) :=
  if cell.dataQty > 0 then do
    let u ← aget cell.data 0
    let a ← boxed "    " u
    let v ← aget cell.data 1
    let b ← boxed "    " v
    let pin ← rightPin ctx n r c (decide (d.outputs < 2))
    let w ← aget cell.data 2
    let e ← boxed " " w
    .ok [fit ("   ".toList ++ a ++ "  ".toList), fit ((if d.inputs < 2 then "   " else "---").toList ++ b ++ pin.toList),
      fit ("   ".toList ++ e ++ "  ".toList)]
  else .ok [blank, blank, blank]

/-- `case 3`, ladder_print.c:297-380; `rows - 3` is unsigned. -/
def triple (ctx : Ctx) (n r c : Nat) (cell : Cell) (d : Iocd) : Except UB (List (List Char)) := do
  let net ← aget ctx.network n
  if r > (net.rows + (2^32 - 3)) % 2^32 then .ok [[], [], [], [], []] else do
    let ls ← operands ctx n r c cell d
    let pin ← rightPin ctx n r c (decide (d.outputs < 3))
    let bar ← spaceBar ctx n r c
    .ok (ls ++ [fit ((if d.inputs < 3 then "   " else "---").toList ++ "|            |".toList ++ pin.toList),
      fit ("   +------------+ ".toList ++ bar.toList)])

/-- The lines below the first, by the height of the instruction, ladder_print.c:189-383. -/
def body (ctx : Ctx) (n r c : Nat) (cell : Cell) (d : Iocd) : Except UB (List (List Char)) :=
  match d.cells with
  | 1 => flat ctx n r c cell
  | 2 => double ctx n r c cell d
  | 3 => triple ctx n r c cell d
  | _ => .ok [[], [], [], [], []]

/-- `fn_to_str`, ladder_print.c:145-384: what is written to the output at once, and the six lines of the picture. -/
def picture (H : Host) (ctx : Ctx) (n r c : Nat) : Except UB (List Char × List (List Char)) := do
  let net ← aget ctx.network n
  let row ← aget net.cells r
  let cell ← aget (some row) c
  match cell.code with
  | .NOP => do
    let b ← verticalBar ctx n r c
    .ok ([], [fit ("                  ".toList ++ (if b then "+" else " ").toList), blank, [], [], [], []])
  | .MULTI => .ok ("MULTI\n".toList, ["---+-ERR MULTI--+--".toList, "---++++++++++++++--".toList, [], [], [], []])
  | .FOREIGN => do
    let v ← aget cell.data 0
    let f ← aget ctx.foreign v.raw.toNat
    let pin ← pinOut ctx n r c
    let name := if v.raw.toNat ≥ ctx.foreignQty then "FN?".toList else
      if (H.name v.raw.toNat).length = 0 then "FN?".toList else H.name v.raw.toNat
    let top := fit ("---+-".toList ++ name ++ "--------+".toList ++ pin.toList)
    if v.raw.toNat ≥ ctx.foreignQty then .ok ([], [top, [], [], [], [], []]) else do
      let ls ← body ctx n r c cell f.desc
      .ok ([], top :: ls)
  | code => do
    let d ← iocd code
    let s ← symbol code
    let pin ← pinOut ctx n r c
    let top := if d.cells ≠ 1 then fit ("---+-".toList ++ s.toList ++ "--------+".toList ++ pin.toList)
      else fit ("--------".toList ++ s.toList ++ "------".toList ++ pin.toList)
    let ls ← body ctx n r c cell d
    .ok ([], top :: ls)

/-- Index of a line of a cell in the buffer of a network, in units of 32 bytes: `NET_STR`, ladder_print.c:407. -/
def slot (cols r c l : Nat) : Nat := (r * (cols + 3) + c) * 2 + l

/-- One `strncpy` into the buffer, ladder_print.c:415-420. -/
def put (buf : List (List Char)) (i : Nat) (t : List Char) : Except UB (List (List Char)) :=
  if i < buf.length then .ok (buf.set i t) else .error .oob

/-- `NET_STR(r, c, l, 0)` and the text behind it. -/
def look (buf : List (List Char)) (i : Nat) : Except UB (List Char) := aget (some buf) i

/-- The body of the two loops, ladder_print.c:413-421: the output so far and the buffer. -/
def drawCell (H : Host) (ctx : Ctx) (n cols r c : Nat) (s : List Char × List (List Char)) :
    Except UB (List Char × List (List Char)) := do
  let t ← look s.2 (slot cols r c 0)
  if t ≠ [] then .ok s else do
    let p ← picture H ctx n r c
    let ls := p.2
    let b ← put s.2 (slot cols r c 0) (ls.getD 0 [])
    let b ← put b (slot cols r c 1) (ls.getD 1 [])
    let b ← put b (slot cols (r + 1) c 0) (ls.getD 2 [])
    let b ← put b (slot cols (r + 1) c 1) (ls.getD 3 [])
    let b ← put b (slot cols (r + 2) c 0) (ls.getD 4 [])
    let b ← put b (slot cols (r + 2) c 1) (ls.getD 5 [])
    .ok (s.1 ++ p.1, b)

/-- The cells in the order in which they are drawn, ladder_print.c:411-412. -/
def cells (rows cols : Nat) : List (Nat × Nat) := (List.range rows).flatMap fun r => (List.range cols).map fun c => (r, c)

/-- The two loops, ladder_print.c:411-423. -/
def drawAll (H : Host) (ctx : Ctx) (n cols : Nat) : List (Nat × Nat) → List Char × List (List Char) →
    Except UB (List Char × List (List Char))
  | [], s => .ok s
  | (r, c) :: ps, s => do
    let s ← drawCell H ctx n cols r c s
    drawAll H ctx n cols ps s

/-- What is written for line `l` of the cells `c, c + 1, …` (`k` of them) of row `r`, ladder_print.c:427-431 and 433-437. -/
def showCells (buf : List (List Char)) (cols r l : Nat) : Nat → Nat → Except UB (List Char)
  | _, 0 => .ok []
  | c, k + 1 => do
    let t ← look buf (slot cols r c l)
    let rest ← showCells buf cols r l (c + 1) k
    .ok ((if t = [] then blank else t) ++ rest)

/-- The rows `r, r + 1, …` (`k` of them), ladder_print.c:425-439. -/
def showRows (buf : List (List Char)) (cols : Nat) : Nat → Nat → Except UB (List Char)
  | _, 0 => .ok []
  | r, k + 1 => do
    let a ← showCells buf cols r 0 0 cols
    let b ← showCells buf cols r 1 0 cols
    let rest ← showRows buf cols (r + 1) k
    .ok ("    |".toList ++ a ++ "|\n    |".toList ++ b ++ "|\n".toList ++ rest)

/-- One network, ladder_print.c:391-443.  `alloc` tells whether `calloc` succeeds; the size does not wrap around 32 bits, because the
dimensions are small. -/
def network (H : Host) (alloc : Bool) (ctx : Ctx) (n : Nat) : Except UB (List Char) := do
  let net ← aget ctx.network n
  if net.rows > 32 ∨ net.cols > 255 then
    .ok ("Error: Network ".toList ++ decimal n ++ " dimensions (".toList ++ decimal net.rows ++ " rows, ".toList ++ decimal net.cols ++
      " cols) exceed maximum limits (32 rows, 255 cols). Skipping print.\n".toList)
  else if !alloc then
    .ok ("Error: Failed to allocate memory for network ".toList ++ decimal n ++ " print (size: ".toList ++
      decimal ((net.rows + 3) * (net.cols + 3) * 2 * 32) ++ " bytes). Skipping.\n".toList)
  else do
    let s ← drawAll H ctx n net.cols (cells net.rows net.cols) ([], List.replicate ((net.rows + 3) * (net.cols + 3) * 2) [])
    let t ← showRows s.2 net.cols 0 net.rows
    .ok ("[Network ".toList ++ decimal n ++ " (".toList ++ (if net.enable then "enabled" else "disabled").toList ++ ")]\n\n".toList ++
      s.1 ++ t ++ "\n\n".toList)

/-- The loop over the networks `n, n + 1, …` (`k` of them), ladder_print.c:390-445. -/
def networks (H : Host) (alloc : Nat → Bool) (ctx : Ctx) : Nat → Nat → Except UB (List Char)
  | _, 0 => .ok []
  | n, k + 1 => do
    let a ← network H (alloc n) ctx n
    let rest ← networks H alloc ctx (n + 1) k
    .ok (a ++ rest)

/-- `ladder_print`, ladder_print.c:386-446: the output. -/
def print (H : Host) (alloc : Nat → Bool) (ctx : Ctx) : Except UB (List Char) := networks H alloc ctx 0 ctx.qty.networks

end Ladder.Print
