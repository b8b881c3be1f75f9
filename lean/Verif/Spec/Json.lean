import Verif.Model.Json
import Verif.Spec.Mem

/-
Specification vocabulary for programs in JSON form: which programs keep their meaning, and which documents describe a program.
-/

set_option autoImplicit false

namespace Ladder.Spec

/-- The context can receive a program: every configured network exists, its cells are where its dimensions say, and a network
without cells has no rows. -/
def Receptive (c : Ctx) : Prop :=
  ∃ l, c.network = some l ∧ l.length = c.qty.networks ∧ ∀ net ∈ l, GridFits net ∧ (net.cells = none → net.rows = 0)

/-- Number of operands of an instruction in the JSON form. -/
def operands : Ins → Nat
  | .NOP | .CONN | .FOREIGN | .INV | .MULTI => 0
  | .NEG | .NO | .NC | .RE | .FE | .COIL | .COILL | .COILU => 1
  | .TON | .TOF | .TP | .CTU | .CTD | .MOVE | .SHL | .SHR | .ROL | .ROR | .NOT | .EQ | .GT | .GE | .LT | .LE | .NE => 2
  | .SUB | .ADD | .MUL | .DIV | .MOD | .AND | .OR | .XOR => 3
  | .TMOVE => 5

/-- Operand `d` of `code` is the preset of a timer, whose type is its time base. -/
def IsBase (code : Ins) (d : Nat) : Prop := (code = .TON ∨ code = .TOF ∨ code = .TP) ∧ d = 1

/-- Operand `d` of `code` is the preset of a counter. -/
def IsPreset (code : Ins) (d : Nat) : Prop := (code = .CTU ∨ code = .CTD) ∧ d = 1

/-- An operand that the JSON form can express: no text, no constant except a counter preset, no time base of 1 ms, for digital
ports nothing besides module and port, and for floats a value that the decimal form determines. -/
structure Expressible (H : Host) (code : Ins) (d : Nat) (v : Value) : Prop where
  text : v.cstr = none
  base : IsBase code d → v.type = .M ∨ v.type = .Q ∨ v.type = .I ∨ v.type = .Cd
  kind : ¬ IsBase code d → v.type ≠ .S ∧ v.type ≠ .INV ∧ (v.type = .NONE → IsPreset code d)
  port : ¬ IsBase code d → v.type = .I ∨ v.type = .Q → v.raw.toNat < 2 ^ 16
  real : ¬ IsBase code d → v.type = .R → H.strtof (H.fmtReal v.raw) = v.raw

/-- A cell that the JSON form can express.  For continuation cells this depends on what lies behind the table of
instructions. -/
structure CellExpressible (H : Host) (cell : Cell) : Prop where
  code : cell.code ≠ .INV
  multi : cell.code = .MULTI → H.beyond = some 0
  qty : cell.dataQty = operands cell.code
  bare : cell.dataQty = 0 → cell.data = none
  block : cell.dataQty ≠ 0 → ∃ l, cell.data = some l ∧ l.length = cell.dataQty
  data : ∀ d v, at? cell.data d = some v → Expressible H cell.code d v

/-- A network that the JSON form can express: enabled, complete, and made of such cells. -/
structure NetExpressible (H : Host) (net : Network) : Prop where
  enable : net.enable = true
  bounds : net.rows < 2 ^ 32 ∧ net.cols < 2 ^ 32
  shape : ∃ g, net.cells = some g ∧ g.length = net.rows ∧ ∀ row ∈ g, row.length = net.cols ∧ ∀ cell ∈ row, CellExpressible H cell

/-- A program that the JSON form can express. -/
def ProgramExpressible (H : Host) (c : Ctx) : Prop :=
  c.qty.networks < 2 ^ 32 ∧ ∃ l, c.network = some l ∧ l.length = c.qty.networks ∧ ∀ net ∈ l, NetExpressible H net

/-! ### Documents -/

/-- The first member called `name` of an object is `v`. -/
inductive Member (name : String) (v : Json) : List (String × Json) → Prop where
  | here (ms : List (String × Json)) : Member name v ((name, v) :: ms)
  | there {k : String} {w : Json} {ms : List (String × Json)} (h : k ≠ name) (m : Member name v ms) : Member name v ((k, w) :: ms)

/-- The first member called `name` of an object is a number whose whole part is `k`. -/
def Number (name : String) (k : Int) (ms : List (String × Json)) : Prop := ∃ x, Member name (.num x) ms ∧ x.trunc = some k

/-- The names of instructions. -/
def symbols : List (String × Ins) :=
  [("NOP", .NOP), ("CONN", .CONN), ("NEG", .NEG), ("NO", .NO), ("NC", .NC), ("RE", .RE), ("FE", .FE), ("COIL", .COIL),
    ("COILL", .COILL), ("COILU", .COILU), ("TON", .TON), ("TOFF", .TOF), ("TP", .TP), ("CTU", .CTU), ("CTD", .CTD),
    ("MOV", .MOVE), ("SUB", .SUB), ("ADD", .ADD), ("MUL", .MUL), ("DIV", .DIV), ("MOD", .MOD), ("SHL", .SHL), ("SHR", .SHR),
    ("ROL", .ROL), ("ROR", .ROR), ("AND", .AND), ("OR", .OR), ("XOR", .XOR), ("NOT", .NOT), ("EQ", .EQ), ("GT", .GT), ("GE", .GE),
    ("LT", .LT), ("LE", .LE), ("NE", .NE), ("FOREIGN", .FOREIGN), ("TMOV", .TMOVE), ("occupied", .MULTI)]

/-- The names of time bases. -/
def bases : List String := ["MS", "10MS", "100MS", "SEC", "MIN"]

/-- The names of data types. -/
def types : List String := ["NONE", "M", "Q", "I", "Cd", "Cr", "Td", "Tr", "IW", "QW", "C", "T", "D", "CSTR", "REAL"]

/-- A well-formed description of operand `d` of `code`. -/
def OperandDoc (code : Ins) (d : Nat) (j : Json) : Prop :=
  ∃ ms name ty v, j = .obj ms ∧ Member "name" (.str name) ms ∧ Member "type" (.str ty) ms ∧ Member "value" (.str v) ms ∧
    (IsBase code d → ty ∈ bases) ∧ (¬ IsBase code d → ty ∈ types ∨ ty ∈ bases)

/-- A well-formed description of a cell. -/
def CellDoc (H : Host) (j : Json) : Prop :=
  ∃ ms s code bar l, j = .obj ms ∧ Member "symbol" (.str s) ms ∧ (s, code) ∈ symbols ∧ Member "bar" (.bool bar) ms ∧
    Member "data" (.arr l) ms ∧ (code = .MULTI → H.beyond = some l.length) ∧ (code ≠ .MULTI → l.length = operands code) ∧
    ∀ d x, l[d]? = some x → OperandDoc code d x

/-- A well-formed description of a row. -/
def RowDoc (H : Host) (cols : Nat) (j : Json) : Prop := ∃ l, j = .arr l ∧ l.length = cols ∧ ∀ x ∈ l, CellDoc H x

/-- A well-formed description of one of `n` networks. -/
def NetDoc (H : Host) (n : Nat) (j : Json) : Prop :=
  ∃ ms id rows cols l, j = .obj ms ∧ Number "id" id ms ∧ 0 ≤ id ∧ id < n ∧ Number "rows" rows ms ∧
    Number "cols" cols ms ∧ Member "networkData" (.arr l) ms ∧ (l.length : Int) = rows ∧ 0 ≤ cols ∧
    ∀ x ∈ l, RowDoc H cols.toNat x

/-- A well-formed document for a context with `n` networks. -/
def ProgramDoc (H : Host) (n : Nat) (j : Json) : Prop := ∃ l, j = .arr l ∧ ∀ x ∈ l, NetDoc H n x

/-! ### The program a document describes -/

/-- The time bases by name. -/
def baseTable : List (String × Reg) := [("MS", .NONE), ("10MS", .M), ("100MS", .Q), ("SEC", .I), ("MIN", .Cd)]

/-- The data types by name. -/
def typeTable : List (String × Reg) :=
  [("NONE", .NONE), ("M", .M), ("Q", .Q), ("I", .I), ("Cd", .Cd), ("Cr", .Cr), ("Td", .Td), ("Tr", .Tr), ("IW", .IW), ("QW", .QW),
    ("C", .C), ("T", .T), ("D", .D), ("CSTR", .S), ("REAL", .R)]

/-- `v` is the operand that `j` describes: its type is the named one, and its value the text, the float, the module and port or the
number that the value member spells. -/
def OperandOf (H : Host) (code : Ins) (d : Nat) (j : Json) (v : Value) : Prop :=
  ∃ ms ty w, j = .obj ms ∧ Member "type" (.str ty) ms ∧ Member "value" (.str w) ms ∧
    (IsBase code d → (ty, v.type) ∈ baseTable) ∧
    (¬ IsBase code d → (ty, v.type) ∈ typeTable ∨ (ty ∉ types ∧ (ty, v.type) ∈ baseTable)) ∧
    (¬ IsBase code d → v.type = .S → v.cstr = some w) ∧
    (¬ IsBase code d → v.type = .R → v.raw = H.strtof w) ∧
    (¬ IsBase code d → v.type = .I ∨ v.type = .Q → ∀ m p, m < 256 → p < 256 → w = toString m ++ "." ++ toString p →
      v.raw.toNat = m + 256 * p) ∧
    (IsBase code d ∨ (v.type ≠ .S ∧ v.type ≠ .R ∧ v.type ≠ .I ∧ v.type ≠ .Q) → ∀ k, k < 2 ^ 32 → w = toString k → v.raw.toNat = k)

/-- `x` is the cell that `j` describes. -/
def CellOf (H : Host) (j : Json) (x : Cell) : Prop :=
  ∃ ms s l, j = .obj ms ∧ Member "symbol" (.str s) ms ∧ (s, x.code) ∈ symbols ∧ Member "bar" (.bool x.bar) ms ∧ x.state = false ∧
    Member "data" (.arr l) ms ∧ x.dataQty = l.length ∧ (x.code ≠ .MULTI → l.length = operands x.code) ∧ (x.data = none ↔ l = []) ∧
    ∀ d y, l[d]? = some y → ∃ v, at? x.data d = some v ∧ OperandOf H x.code d y v

/-- The network number in a description. -/
def Names (n : Nat) (j : Json) : Prop := ∃ ms, j = .obj ms ∧ Number "id" n ms

/-- `net` is the network that `j` describes. -/
def NetOf (H : Host) (j : Json) (net : Network) : Prop :=
  ∃ (ms : List (String × Json)) (l : List Json) (g : List (List Cell)), j = .obj ms ∧ Number "rows" net.rows ms ∧
    Number "cols" net.cols ms ∧ Member "networkData" (.arr l) ms ∧ net.rows < 2 ^ 32 ∧ net.cols < 2 ^ 32 ∧
    net.enable = true ∧ net.cells = some g ∧ g.length = net.rows ∧ l.length = net.rows ∧
    ∀ (r : Nat) (row : List Cell), g[r]? = some row → row.length = net.cols ∧
      ∃ cells : List Json, l[r]? = some (.arr cells) ∧ cells.length = net.cols ∧
      ∀ (k : Nat) (x : Cell), row[k]? = some x → ∃ y, cells[k]? = some y ∧ CellOf H y x

/-- `net` is what is left of `old` after its program was deleted. -/
def Erased (old net : Network) : Prop :=
  net.enable = old.enable ∧ net.rows = old.rows ∧ net.cols = old.cols ∧ net.cells.isSome = old.cells.isSome ∧
    ∀ g, net.cells = some g → ∀ row ∈ g, ∀ x ∈ row, x.code = .NOP ∧ x.bar = false ∧ x.state = false ∧ x.data = none

/-- A number that is in the range of `uint32_t`, if it is one. -/
def Ranged (name : String) (ms : List (String × Json)) : Prop := ∀ x, Member name (.num x) ms → ∃ k : Int, x.trunc = some k ∧ 0 ≤ k ∧ k < 2 ^ 32

/-- A description of a network whose numbers are in range and that, if it announces cells, comes with as many rows as it
announces; the rows may contain anything, except continuation cells where reading behind the table is undefined. -/
def Sturdy (H : Host) (j : Json) : Prop :=
  ∀ ms, j = .obj ms → Ranged "id" ms ∧ Ranged "rows" ms ∧ Ranged "cols" ms ∧
    (∀ rows, Number "rows" rows ms → 0 < rows → (∃ k, 0 < k ∧ Number "cols" k ms) →
      (∃ l, Member "networkData" (.arr l) ms ∧ (l.length : Int) = rows)) ∧
    (∀ l row cells x, Member "networkData" (.arr l) ms → row ∈ l → row = .arr cells → x ∈ cells →
      ∀ xs, x = .obj xs → Member "symbol" (.str "occupied") xs → H.beyond ≠ none)

/-! ### Values that can be read -/

/-- A number in the range of `uint32_t`, in its usual form. -/
def NumberText (w : String) : Prop := ∃ k, k < 2 ^ 32 ∧ w = toString k

/-- A module and a port, in their usual form. -/
def PortText (w : String) : Prop := ∃ m p, m < 256 ∧ p < 256 ∧ w = toString m ++ "." ++ toString p

/-- The value of operand `d` of `code` is written as its type asks for: a number, a module and a port, or any text for texts and
floats. -/
def Legible (code : Ins) (d : Nat) (j : Json) : Prop :=
  ∀ ms ty w, j = .obj ms → Member "type" (.str ty) ms → Member "value" (.str w) ms →
    (IsBase code d → NumberText w) ∧
    (¬ IsBase code d → ∀ t, (ty, t) ∈ typeTable ∨ (ty ∉ types ∧ (ty, t) ∈ baseTable) →
      (t = .I ∨ t = .Q → PortText w) ∧ (t ≠ .S ∧ t ≠ .R ∧ t ≠ .I ∧ t ≠ .Q → NumberText w))

/-- Every value in the description of a cell can be read. -/
def LegibleCell (j : Json) : Prop :=
  ∀ ms s code l, j = .obj ms → Member "symbol" (.str s) ms → (s, code) ∈ symbols → Member "data" (.arr l) ms →
    ∀ d x, l[d]? = some x → Legible code d x

/-- Every value in the description of a network can be read. -/
def LegibleNet (j : Json) : Prop :=
  ∀ ms l cells x, j = .obj ms → Member "networkData" (.arr l) ms → .arr cells ∈ l → x ∈ cells → LegibleCell x

/-- The dimensions in the description of a network are in the range of `uint32_t`. -/
def Sizes (j : Json) : Prop := ∀ ms, j = .obj ms → Ranged "id" ms ∧ Ranged "rows" ms ∧ Ranged "cols" ms

end Ladder.Spec
