import Verif.Spec.Check
import Verif.Spec.CronField

/-
Specification vocabulary for the drawing of a program.
-/

set_option autoImplicit false

namespace Ladder.Spec

/-- A number as opposed to the IEEE-754 singles that are not numbers. -/
def Numeric (x : W32) : Prop := ¬ (x.toNat / 2^23 % 256 = 255 ∧ x.toNat % 2^23 ≠ 0)

/-- An operand that has a text: strings are there and floats are numbers. -/
def Sayable (v : Value) : Prop := (v.type = .S → v.cstr.isSome) ∧ (v.type = .R → Numeric v.raw)

/-- The operands that the drawing of a cell shows are there and have a text. -/
structure Showable (c : Ctx) (x : Cell) : Prop where
  operands : 0 < x.dataQty → ∀ i, i < span c x.code (callee x) → i < 3 →
    ∃ v, at? x.data i = some v ∧ (timing x.code = true ∧ i = 1 ∨ Sayable v)
  foreign : x.code = .FOREIGN → (∃ v, at? x.data 0 = some v) ∧ (at? c.foreign (callee x)).isSome

/-- A program that can be drawn: its cells are stored, and everything that is shown is there. -/
structure Printable (c : Ctx) : Prop where
  grids : Grids c
  cells : ∀ n r k x, Within c n r k → cell? c n r k = some x → x.code ≠ .NOP → x.code ≠ .MULTI → Showable c x

/-- Every instruction has either no operands or as many as its picture has rows, and all of them have a text. -/
def Worded (c : Ctx) : Prop := ∀ n r k x, Within c n r k → cell? c n r k = some x → x.code ≠ .NOP → 0 < x.dataQty →
  (∀ i, i < span c x.code (callee x) → i < 3 → i < x.dataQty) ∧ ∀ i v, i < x.dataQty → at? x.data i = some v → Sayable v

/-- The table of foreign functions has no spare entries, and foreign functions cover one to three rows. -/
def Low (c : Ctx) : Prop := ∀ i g, at? c.foreign i = some g → i < c.foreignQty ∧ 1 ≤ g.desc.cells ∧ g.desc.cells ≤ 3

/-- There is a vertical bar at (r,k) of network `n`. -/
def barAt (c : Ctx) (n r k : Nat) : Bool :=
  match at? c.network n, cell? c n r k with
  | some net, some x => decide (r < net.rows) && decide (k < net.cols) && x.bar
  | _, _ => false

/-- The instruction at (i,k) covers row `j`. -/
def Covers (c : Ctx) (n i j k : Nat) : Prop :=
  ∃ x, cell? c n i k = some x ∧ x.code ≠ .MULTI ∧ i ≤ j ∧ j < i + span c x.code (callee x)

/-- The sign of an instruction. -/
def glyph : Ins → String
  | .NOP => "   " | .CONN => "---" | .NEG => "(!)" | .NO => "| |" | .NC => "|/|" | .RE => "-RE" | .FE => "-FE" | .COIL => "( )"
  | .COILL => "(L)" | .COILU => "(U)" | .TON => "TON" | .TOF => "TOF" | .TP => "-TP" | .CTU => "CTU" | .CTD => "CTD" | .MOVE => "MOV"
  | .SUB => "SUB" | .ADD => "ADD" | .MUL => "MUL" | .DIV => "DIV" | .MOD => "MOD" | .SHL => "SHL" | .SHR => "SHR" | .ROL => "ROL"
  | .ROR => "ROR" | .AND => "AND" | .OR => "OR-" | .XOR => "XOR" | .NOT => "NOT" | .EQ => "EQ-" | .GT => "GT-" | .GE => "GE-"
  | .LT => "LT-" | .LE => "LE-" | .NE => "NE-" | .FOREIGN => "FGN" | .TMOVE => "TMV" | .INV => "???" | .MULTI => "   "

/-- The sign of a kind of registers. -/
def label : Reg → String
  | .NONE => "--" | .M => " M" | .Q => " Q" | .I => " I" | .Cd => "Cd" | .Cr => "Cr" | .Td => "Td" | .Tr => "Tr" | .IW => "IW"
  | .QW => "QW" | .C => " C" | .T => " T" | .D => " D" | .S => "ST" | .R => "RE" | .INV => "??"

/-- The end of a wire, joined to a vertical bar or not. -/
def wire (joined : Bool) : List Char := if joined then ['-', '+'] else ['-', '-']

/-- Line `i` of a picture. -/
def line (ls : List (List Char)) (i : Nat) : List Char := ls.getD i []

/-- 2^149 times the value of an IEEE-754 single that is a number: all of them are multiples of 2^-149. -/
def units (x : W32) : Int :=
  (if x.toNat / 2^31 = 0 then 1 else -1) *
    if x.toNat / 2^23 % 256 = 0 then (x.toNat % 2^23 : Nat) else ((2^23 + x.toNat % 2^23) * 2^(x.toNat / 2^23 % 256 - 1) : Nat)

/-- The text of a number of hundredths, with its sign. -/
def Cents (t : List Char) (neg : Bool) (h : Nat) : Prop := ∃ a b k, t = (if neg then ['-'] else []) ++ a ++ '.' :: b ++ List.replicate k ' ' ∧
  b.length = 2 ∧ Numeral a (h / 100) ∧ Numeral b (h % 100)

/-- The magnitude of a float is that number of hundredths, up to half a hundredth and an error of arithmetic below 1/65536 hundredth. -/
def Nearly (x : W32) (h : Nat) : Prop := (100 * ((units x).natAbs : Int) - h * 2^149).natAbs ≤ 2^148 + 2^133

/-- The text of a float of magnitude up to one million: its hundredths, rounded, and a minus for the negative ones from -1 down. -/
def Amount (t : List Char) (x : W32) : Prop := ∃ neg h, Cents t neg h ∧ Nearly x h ∧ (neg = true ↔ units x < 0 ∧ 100 ≤ h)

/-- The picture `ls` of the instruction `x` at (r,k): its sign with its wires, joined to a bar that starts here or below; and its first
operand, when that is a register with a number below 10000, a port of a module, or a float of magnitude up to one million. -/
structure Depicts (c : Ctx) (n r k : Nat) (x : Cell) (ls : List (List Char)) : Prop where
  lines : ls.length = 6
  nop : x.code = .NOP → line ls 0 = List.replicate 18 ' ' ++ [if barAt c n r k then '+' else ' ']
  flat : x.code ≠ .NOP → x.code ≠ .FOREIGN → span c x.code (callee x) = 1 →
    line ls 0 = "--------".toList ++ (glyph x.code).toList ++ "------".toList ++ wire (barAt c n r k || barAt c n (r + 1) k)
  box : x.code ≠ .FOREIGN → 1 < span c x.code (callee x) →
    line ls 0 = "---+-".toList ++ (glyph x.code).toList ++ "--------+".toList ++ wire (barAt c n r k || barAt c n (r + 1) k)
  number : ∀ v, x.code ≠ .NOP → x.code ≠ .CONN → 0 < x.dataQty → at? x.data 0 = some v → v.type ∉ [.S, .I, .Q, .R] →
    v.raw.toNat < 10000 → ∃ t, t.length = 4 ∧ Numeral t v.raw.toNat ∧
      (span c x.code (callee x) = 1 → line ls 1 = "     ".toList ++ (label v.type).toList ++ ' ' :: t ++ "      ".toList ++
        [if barAt c n (r + 1) k then '|' else ' ']) ∧
      (1 < span c x.code (callee x) → line ls 1 = "   | ".toList ++ (label v.type).toList ++ ' ' :: t ++ "    |  ".toList)
  port : ∀ v, x.code ≠ .NOP → 0 < x.dataQty → at? x.data 0 = some v → v.type = .I ∨ v.type = .Q →
    span c x.code (callee x) = 1 → v.raw.toNat % 256 < 10 → v.raw.toNat / 256 % 256 < 10 →
    ∃ m p, Numeral [m] (v.raw.toNat % 256) ∧ Numeral [p] (v.raw.toNat / 256 % 256) ∧
      line ls 1 = "     ".toList ++ (label v.type).toList ++ [' ', m, '.', p] ++ "       ".toList ++
        [if barAt c n (r + 1) k then '|' else ' ']
  real : ∀ v, x.code ≠ .NOP → 0 < x.dataQty → at? x.data 0 = some v → v.type = .R → (units v.raw).natAbs ≤ 1000000 * 2^149 →
    ∃ t, Amount t v.raw ∧
      (span c x.code (callee x) = 1 → line ls 1 = "     RE ".toList ++ t ++ "      ".toList ++ [if barAt c n (r + 1) k then '|' else ' ']) ∧
      (1 < span c x.code (callee x) → line ls 1 = "   | RE ".toList ++ t ++ "    |  ".toList)

/-- What is shown of a line: an empty one is filled with blanks. -/
def solid (t : List Char) : List Char := if t = [] then List.replicate 19 ' ' else t

/-- The drawing of a network from what is shown of each cell: upper (0) and lower (1) line. -/
def sheet (n : Nat) (enabled : Bool) (rows cols : Nat) (shown : Nat → Nat → Nat → List Char) : List Char :=
  "[Network ".toList ++ (toString n).toList ++ (if enabled then " (enabled)]\n\n" else " (disabled)]\n\n").toList ++
    ((List.range rows).flatMap fun r => [0, 1].flatMap fun l =>
      "    |".toList ++ ((List.range cols).flatMap fun k => shown r k l) ++ "|\n".toList) ++ "\n\n".toList

/-- An operand that takes four characters: a register with a number between −999 and 9999. -/
def Brief (v : Value) : Prop := v.type ∉ [.S, .I, .Q, .R] ∧ -1000 < v.i32 ∧ v.i32 < 10000

/-- A port that takes three or four characters with its module. -/
def BriefPort (v : Value) : Prop :=
  (v.type = .I ∨ v.type = .Q) ∧ (v.raw.toNat % 256 < 10 ∧ v.raw.toNat / 256 % 256 < 100 ∨ v.raw.toNat % 256 < 100 ∧ v.raw.toNat / 256 % 256 < 10)

/-- All operands shown of a cell are brief, and timers have one of the five time bases. -/
def Slim (c : Ctx) (x : Cell) : Prop :=
  x.code ≠ .FOREIGN ∧ (0 < x.dataQty → ∀ i v, i < span c x.code (callee x) → at? x.data i = some v →
    (timing x.code = true ∧ i = 1 ∧ v.type.code ≤ 4 ∧ -1000 < v.i32 ∧ v.i32 < 10000) ∨ ¬ (timing x.code = true ∧ i = 1) ∧ Brief v ∨
    span c x.code (callee x) = 1 ∧ BriefPort v)

end Ladder.Spec
