import Verif.Model.Schema

/-
The schema of programs that comes with the library, ladder_networks_schema.json, as a tree of values.  Repeated patterns of the
file are written as functions; the tree is the one of the file, member by member and in its order.
-/

set_option autoImplicit false

namespace Ladder

/-- `{"type": t}`. -/
def ofType (t : String) : Json := .obj [("type", .str t)]

/-- `"enum": [...]` or `"const": ...` for texts. -/
inductive Choice where
  | among (l : List String)
  | just (s : String)
  deriving DecidableEq

/-- The keyword and its value. -/
def Choice.key : Choice → String × Json
  | .among l => ("enum", .arr (l.map .str))
  | .just s => ("const", .str s)

/-- An object with these members and no others. -/
def record (ps : List (String × Json)) (more : List (String × Json)) : Json :=
  .obj ([("type", .str "object"), ("properties", .obj ps), ("required", .arr (ps.map fun p => .str p.1)),
    ("additionalProperties", .bool false)] ++ more)

/-- Types of operands, ladder_networks_schema.json:78-91. -/
def operandTypes : List String := ["I", "M", "T", "MS", "C", "D", "NONE", "Q", "SEC", "10MS", "100MS", "MIN"]

/-- An operand, ladder_networks_schema.json:70-103. -/
def operandSchema : Json :=
  record [("name", ofType "string"), ("type", .obj [("type", .str "string"), (Choice.among operandTypes).key]), ("value", ofType "string")] []

/-- One operand of a rule: its name and its types. -/
def partSchema (p : String × Choice) : Json :=
  .obj [("properties", .obj [("name", .obj [(Choice.just p.1).key]), ("type", .obj [p.2.key]), ("value", ofType "string")])]

/-- The operands of a rule: their number and each of them. -/
def dataSchema (parts : List (String × Choice)) : Json :=
  .obj ([("minItems", .num (.fin parts.length)), ("maxItems", .num (.fin parts.length))] ++
    if parts = [] then [] else [("items", .arr (parts.map partSchema))])

/-- `{"properties": {name: s}}`. -/
def within (name : String) (s : Json) : Json := .obj [("properties", .obj [(name, s)])]

/-- `{"if": symbol, "then": data}`. -/
def ruleSchema (r : Choice × List (String × Choice)) : Json :=
  .obj [("if", within "symbol" (.obj [r.1.key])), ("then", within "data" (dataSchema r.2))]

/-- The rules for the operands of each instruction, ladder_networks_schema.json:112-650. -/
def rules : List (Choice × List (String × Choice)) :=
  [(.among ["CONN", "occupied", "NOP"], []),
    (.among ["NO", "NC", "RE", "FE"], [("value", .among ["I", "M", "Q"])]),
    (.among ["COIL", "COILL", "COILU"], [("value", .among ["M", "Q"])]),
    (.among ["TON", "TOF", "TP"], [("timer", .just "T"), ("basetime", .among ["MS", "10MS", "100MS", "SEC", "MIN"])]),
    (.among ["CTU", "CTD"], [("counter", .just "C"), ("preset value", .just "NONE")]),
    (.just "MOV", [("from", .just "D"), ("to", .just "D")]),
    (.among ["ADD", "SUB", "MUL", "DIV", "MOD", "AND", "OR", "XOR"], [("value1", .just "D"), ("value2", .just "D"), ("result", .just "D")]),
    (.among ["EQ", "NE", "GT", "GE", "LT", "LE"], [("value1", .just "D"), ("value2", .just "D")]),
    (.just "TMOV", [("value1", .just "D"), ("value2", .just "D"), ("to", .just "D")]),
    (.among ["NOT", "NEG"], [("value", .just "D"), ("result", .just "D")]),
    (.among ["SHL", "SHR", "ROL", "ROR"], [("value", .just "D"), ("n", .just "D"), ("result", .just "D")])]

/-- The names of instructions, ladder_networks_schema.json:25-63. -/
def cellSymbols : List String :=
  ["CONN", "NEG", "NO", "NC", "RE", "FE", "COIL", "COILL", "TON", "TOF", "TP", "CTU", "occupied", "NOP", "CTD", "MOV", "SUB", "ADD", "MUL",
    "NE", "TMOV", "DIV", "MOD", "SHL", "SHR", "ROL", "ROR", "AND", "OR", "XOR", "NOT", "EQ", "GT", "GE", "LT", "LE", "COILU"]

/-- `{"type": "array", "items": s}`. -/
def listOf (s : Json) : Json := .obj [("type", .str "array"), ("items", s)]

/-- A cell, ladder_networks_schema.json:20-651. -/
def cellSchema : Json :=
  record [("symbol", .obj [("type", .str "string"), (Choice.among cellSymbols).key]), ("bar", ofType "boolean"), ("data", listOf operandSchema)]
    [("allOf", .arr (rules.map ruleSchema))]

/-- A network, ladder_networks_schema.json:4-662. -/
def netSchema : Json :=
  record [("id", ofType "integer"), ("rows", ofType "integer"), ("cols", ofType "integer"), ("networkData", listOf (listOf cellSchema))] []

/-- The schema, ladder_networks_schema.json. -/
def shipped : Json :=
  .obj [("$schema", .str "http://json-schema.org/draft-07/schema#"), ("type", .str "array"), ("items", netSchema)]

end Ladder
