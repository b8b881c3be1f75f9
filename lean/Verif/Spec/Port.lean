import Verif.Model.Types
import Verif.Model.Heap

/-
Specification vocabulary for the shipped port: names, inputs and outputs of modules, what a block must hold.
-/

set_option autoImplicit false

namespace Ladder.Spec

/-- What a state is called, ladder.h:125-132 without the prefix. -/
def stateName : St → String
  | .stopped => "STOPPED" | .running => "RUNNING" | .error => "ERROR" | .exitTsk => "EXIT_TSK" | .nullFn => "NULLFN"
  | .inv => "INVALID"

/-- What an instruction is called, ladder.h:77-118 without the prefix. -/
def insName : Ins → String
  | .NOP => "NOP" | .CONN => "CONN" | .NEG => "NEG" | .NO => "NO" | .NC => "NC" | .RE => "RE" | .FE => "FE"
  | .COIL => "COIL" | .COILL => "COILL" | .COILU => "COILU" | .TON => "TON" | .TOF => "TOF" | .TP => "TP"
  | .CTU => "CTU" | .CTD => "CTD" | .MOVE => "MOVE" | .SUB => "SUB" | .ADD => "ADD" | .MUL => "MUL" | .DIV => "DIV"
  | .MOD => "MOD" | .SHL => "SHL" | .SHR => "SHR" | .ROL => "ROL" | .ROR => "ROR" | .AND => "AND" | .OR => "OR"
  | .XOR => "XOR" | .NOT => "NOT" | .EQ => "EQ" | .GT => "GT" | .GE => "GE" | .LT => "LT" | .LE => "LE" | .NE => "NE"
  | .FOREIGN => "FOREIGN" | .TMOVE => "TMOVE" | .INV => "INV" | .MULTI => "MULTI"

/-- What an error is called, ladder.h:139-153 without the prefix. -/
def errName : Err → String
  | .ok => "OK" | .getPrevVal => "GETPREVVAL" | .getDataVal => "GETDATAVAL" | .setDataVal => "SETDATAVAL"
  | .noForeign => "NOFOREIGN" | .noTable => "NOTABLE" | .outOfRange => "OUTOFRANGE" | .divByZero => "DIVBYZERO"
  | .typeMismatch => "TYPEMISMATCH" | .overflow => "OVERFLOW" | .null => "NULL" | .fail => "FAIL"

/-- A block holds at least `n` elements. -/
def Holds {α : Type} (a : Arr α) (n : Nat) : Prop := ∃ l, a = some l ∧ n ≤ l.length

/-- Element of a block. -/
def elem {α : Type} (a : Arr α) (n : Nat) : Option α := a.bind fun l => l[n]?

/-- The module record of an input module. -/
def inMod (c : Ctx) (id : Nat) : Option InMod := elem c.input id

/-- The module record of an output module. -/
def outMod (c : Ctx) (id : Nat) : Option OutMod := elem c.output id

/-- Digital input `k` of module `id`. -/
def inBit (c : Ctx) (id k : Nat) : Option Byte := (inMod c id).bind fun m => elem m.I k

/-- The context without its digital inputs and its state. -/
def besides (c : Ctx) : Ctx :=
  { c with state := .stopped, input := c.input.map fun l => l.map fun m => { m with I := none } }

/-- `c` and `c'` have input modules with the same ports. -/
def SamePorts (c c' : Ctx) : Prop := ∀ id k, (inBit c id k).isSome = (inBit c' id k).isSome

/-- The first `n` entries of a block of C `bool`s are 0 or 1. -/
def Booleans (a : Arr Byte) (n : Nat) : Prop := ∀ k, k < n → ∀ b, elem a k = some b → b = 0 ∨ b = 1

/-- The cell of a network. -/
def cellAt (net : Network) (r c : Nat) : Option Cell := (elem net.cells r).bind fun row => row[c]?

/-- Every cell of every network of the program exists. -/
def Drawn (c : Ctx) : Prop :=
  ∀ n, n < c.qty.networks → ∃ net, elem c.network n = some net ∧
    ∀ r, r < net.rows → ∀ k, k < net.cols → ∃ cell, cellAt net r k = some cell

/-- Time of day in microseconds. -/
def micros (sec usec : Int) : Int := sec * 1000000 + usec

end Ladder.Spec
