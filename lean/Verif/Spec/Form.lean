import Verif.Model.Schema
import Verif.Spec.Json

/-
What the schema that comes with the library asks of a document, in words.
-/

set_option autoImplicit false

namespace Ladder.Spec

/-- Every member has one of these names, without regard to upper and lower case. -/
def Closed (names : List String) (os : List (String × Json)) : Prop := ∀ k v, (k, v) ∈ os → ∃ a ∈ names, lower a = lower k

/-- The operands of an instruction: names and possible types, by the symbol of the instruction. -/
def formOf : String → Option (List (String × List String))
  | "CONN" | "occupied" | "NOP" => some []
  | "NO" | "NC" | "RE" | "FE" => some [("value", ["I", "M", "Q"])]
  | "COIL" | "COILL" | "COILU" => some [("value", ["M", "Q"])]
  | "TON" | "TOF" | "TP" => some [("timer", ["T"]), ("basetime", ["MS", "10MS", "100MS", "SEC", "MIN"])]
  | "CTU" | "CTD" => some [("counter", ["C"]), ("preset value", ["NONE"])]
  | "MOV" => some [("from", ["D"]), ("to", ["D"])]
  | "ADD" | "SUB" | "MUL" | "DIV" | "MOD" | "AND" | "OR" | "XOR" => some [("value1", ["D"]), ("value2", ["D"]), ("result", ["D"])]
  | "EQ" | "NE" | "GT" | "GE" | "LT" | "LE" => some [("value1", ["D"]), ("value2", ["D"])]
  | "TMOV" => some [("value1", ["D"]), ("value2", ["D"]), ("to", ["D"])]
  | "NOT" | "NEG" => some [("value", ["D"]), ("result", ["D"])]
  | "SHL" | "SHR" | "ROL" | "ROR" => some [("value", ["D"]), ("n", ["D"]), ("result", ["D"])]
  | _ => none

/-- An operand with this name and one of these types. -/
def OperandForm (p : String × List String) (j : Json) : Prop :=
  ∃ os t v, j = .obj os ∧ Member "name" (.str p.1) os ∧ Member "type" (.str t) os ∧ t ∈ p.2 ∧ Member "value" (.str v) os ∧
    Closed ["name", "type", "value"] os

/-- A cell: symbol, bar, and the operands of the instruction. -/
def CellForm (j : Json) : Prop :=
  ∃ os s bar l f, j = .obj os ∧ Member "symbol" (.str s) os ∧ formOf s = some f ∧ Member "bar" (.bool bar) os ∧ Member "data" (.arr l) os ∧
    Closed ["symbol", "bar", "data"] os ∧ l.length = f.length ∧ ∀ (i : Nat) p x, f[i]? = some p → l[i]? = some x → OperandForm p x

/-- A member that is a whole number in the range of `int`. -/
def WholeNumber (name : String) (os : List (String × Json)) : Prop := ∃ k : Int, Member name (.num (.fin k)) os ∧ -2 ^ 31 ≤ k ∧ k < 2 ^ 31

/-- A network: its number, its dimensions, and rows of cells. -/
def NetForm (j : Json) : Prop :=
  ∃ os l, j = .obj os ∧ WholeNumber "id" os ∧ WholeNumber "rows" os ∧ WholeNumber "cols" os ∧ Member "networkData" (.arr l) os ∧
    Closed ["id", "rows", "cols", "networkData"] os ∧ ∀ row ∈ l, ∃ cells, row = .arr cells ∧ ∀ x ∈ cells, CellForm x

/-- A program: a list of networks. -/
def ProgramForm (j : Json) : Prop := ∃ l, j = .arr l ∧ ∀ x ∈ l, NetForm x

/-! ### Forms and the loader -/

/-- The symbols for which the schema and the loader differ, in the name or in the number of operands. -/
def divergent : List String := ["TOF", "NEG", "SHL", "SHR", "ROL", "ROR", "TMOV"]

/-- What a network still has to satisfy beyond its form: its number is one of the `n` networks, its dimensions are those of its
rows, its symbols are not divergent, and for continuation cells a zero byte lies behind the table of instructions. -/
def Consistent (H : Host) (n : Nat) (j : Json) : Prop :=
  ∃ ms id rows cols l, j = .obj ms ∧ Number "id" id ms ∧ Number "rows" rows ms ∧ Number "cols" cols ms ∧
    Member "networkData" (.arr l) ms ∧ 0 ≤ id ∧ id < n ∧ 0 ≤ cols ∧ (l.length : Int) = rows ∧
    ∀ cells, .arr cells ∈ l → (cells.length : Int) = cols ∧
      ∀ os s, .obj os ∈ cells → Member "symbol" (.str s) os → s ∉ divergent ∧ (s = "occupied" → H.beyond = some 0)

/-- The operands that an instruction must have to be saved in a form that the schema knows; none if there is no such form. -/
def kinds : Ins → Option (List (List Reg))
  | .NOP | .CONN | .MULTI => some []
  | .NO | .NC | .RE | .FE => some [[.I, .M, .Q]]
  | .COIL | .COILL | .COILU => some [[.M, .Q]]
  | .TON | .TP => some [[.T], [.M, .Q, .I, .Cd]]
  | .CTU | .CTD => some [[.C], [.NONE]]
  | .SUB | .ADD | .MUL | .DIV | .MOD | .AND | .OR | .XOR | .SHL | .SHR | .TMOVE => some [[.D], [.D], [.D]]
  | .EQ | .GT | .GE | .LT | .LE | .NE | .NOT => some [[.D], [.D]]
  | .NEG | .TOF | .MOVE | .ROL | .ROR | .FOREIGN | .INV => none

/-- A cell that is saved in a form that the schema knows. -/
def Portable (x : Cell) : Prop :=
  ∃ ks, kinds x.code = some ks ∧ x.dataQty = ks.length ∧ ∀ d k, ks[d]? = some k → ∃ v, at? x.data d = some v ∧ v.type ∈ k

/-- A network all of whose cells are such, with dimensions in the range of `int`. -/
def NetPortable (net : Network) : Prop :=
  net.rows < 2 ^ 31 ∧ net.cols < 2 ^ 31 ∧
    ∀ (r k : Nat) (row : List Cell) (x : Cell), r < net.rows → k < net.cols → at? net.cells r = some row → row[k]? = some x → Portable x

/-- A program made of such networks, not too many. -/
def ProgramPortable (c : Ctx) : Prop :=
  c.qty.networks ≤ 2 ^ 31 ∧ ∀ n net, n < c.qty.networks → at? c.network n = some net → NetPortable net

end Ladder.Spec
