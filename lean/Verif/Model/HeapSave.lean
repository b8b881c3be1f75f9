import Verif.Model.HeapJson

/-
Allocation behaviour of the writer `ladder_program_to_json`, utils/ladder_program_json.c:903-1056: the tree of cJSON that it
builds node by node, the text printed from it, and the open file.

A tree under construction is the list of its blocks, its root first: nodes, names of members and texts.  The open file is a
block that `fopen` obtains and `fclose` gives back.  The allocator `k` decides about the two requests whose refusal the writer
does not notice (the names "data" and "networkData"), `p` about all the others.

Simplified: an operand is of type text exactly if it has a text; the vertical bars and the values of the operands are not kept,
as they only decide what is written into the blocks.
-/

set_option autoImplicit false

namespace Ladder.Heap

open Ladder (Ins)

/-- A tree of cJSON. -/
abbrev Tree := List Nat

/-- `cJSON_CreateArray`, `cJSON_CreateObject`: one node. -/
def newNode (p : Policy) : H (Option Tree) := do
  let q ← alloc p
  pure (q.map fun b => [b])

/-- `n` requests in turn; if one is refused those granted before are given back. -/
def requests (p : Policy) : Nat → H (Option Tree)
  | 0 => pure (some [])
  | n + 1 => do
    match ← alloc p with
    | none => pure none
    | some b =>
      match ← requests p n with
      | none => do free (some b); pure none
      | some bs => pure (some (b :: bs))

/-- Use of the root of a tree. -/
def touchRoot (t : Tree) : H Unit := touch t.head?

/-- `cJSON_AddNumberToObject`, `cJSON_AddBoolToObject` (node and name: `n` = 2), `cJSON_AddStringToObject` (node, text and name:
`n` = 3).  Without memory the member is left out; the callers do not look at the result. -/
def addMember (p : Policy) (n : Nat) (t : Tree) : H Tree := do
  match ← requests p n with
  | none => pure t
  | some bs => do touchRoot t; pure (t ++ bs)

/-- `cJSON_AddItemToArray`: no request. -/
def addItem (t u : Tree) : H Tree := do
  touchRoot t
  touchRoot u
  pure (t ++ u)

/-- `cJSON_AddItemToObject`: the name is duplicated; if that is refused the item is not attached (the callers do not look at the
result). -/
def addNamed (k : Policy) (t u : Tree) : H Tree := do
  match ← alloc k with
  | none => pure t
  | some b => do
    touchRoot t
    touchRoot u
    pure (t ++ b :: u)

/-- `cJSON_Delete`. -/
def deleteTree : Tree → H Unit
  | [] => pure ()
  | b :: bs => do free (some b); deleteTree bs

/-- The loops of the writer: for each of the first `n` elements an item is made and appended to the array `t`.  If one cannot be
made, `t` is deleted. -/
def collect {α : Type} (f : α → H (Option Tree)) : Nat → List α → Tree → H (Option Tree)
  | 0, _, t => pure (some t)
  | _ + 1, [], _ => fault .outOfBounds
  | n + 1, x :: xs, t => do
    match ← f x with
    | none => do deleteTree t; pure none
    | some u => do
      let t ← addItem t u
      collect f n xs t

/-- The same loop over an array through its pointer: each turn uses its block. -/
def gather {α : Type} (f : α → H (Option Tree)) (n : Nat) (a : Option (Nat × List α)) (t : Tree) : H (Option Tree) :=
  if n = 0 then pure (some t)
  else match a with
    | none => fault .nullDeref
    | some (b, xs) => collect (fun x => do touch (some b); f x) n xs t

/-- The preset of a timer: its base of time is written as the type, and its value only once, ladder_program_json.c:989-995,
1000-1001. -/
def timerPreset (code : Ins) (d : Nat) : Bool := (code = .TON || code = .TOF || code = .TP) && d == 1

/-- The value, written once in the `switch`, ladder_program_json.c:1009-1026, but not for the preset of a timer. -/
def addValue (p : Policy) (code : Ins) (d : Nat) (t : Tree) : H Tree :=
  if timerPreset code d then pure t else addMember p 3 t

/-- One operand, ladder_program_json.c:973-1030.  For a text the buffer `value_str`, used at 1029, has never been written. -/
def saveOperand (p : Policy) (code : Ins) (x : Ptr × Nat) : H (Option Tree) := do
  match ← newNode p with
  | none => pure none
  | some t => do
    let t ← addMember p 3 t
    let t ← addMember p 3 t
    let t ← addValue p code x.2 t
    if x.1.isSome && !timerPreset code x.2 then fault .undefined
    else do
      let t ← addMember p 3 t
      pure (some t)

/-- One cell, ladder_program_json.c:946-1034. -/
def saveCell (p k : Policy) (x : Cell) : H (Option Tree) := do
  match ← newNode p with
  | none => pure none
  | some t => do
    let t ← addMember p 3 t
    let t ← addMember p 2 t
    match ← newNode p with
    | none => do deleteTree t; pure none
    | some u => do
      match ← gather (saveOperand p x.code) x.qty (x.data.map fun d => (d.1, d.2.zipIdx)) u with
      | none => do deleteTree t; pure none
      | some u => do
        let t ← addNamed k t u
        pure (some t)

/-- One row, ladder_program_json.c:935-1035. -/
def saveRow (p k : Policy) (cols : Nat) (row : Row) : H (Option Tree) := do
  match ← newNode p with
  | none => pure none
  | some t => gather (saveCell p k) cols row t

/-- One network, ladder_program_json.c:916-1041.  The rows of a network without columns are not looked at. -/
def saveNet (p k : Policy) (x : Net) : H (Option Tree) := do
  match ← newNode p with
  | none => pure none
  | some t => do
    let t ← addMember p 2 t
    let t ← addMember p 2 t
    let t ← addMember p 2 t
    match ← newNode p with
    | none => do deleteTree t; pure none
    | some u => do
      match ← (if x.cols = 0 then collect (fun _ : Unit => newNode p) x.rows (List.replicate x.rows ()) u
        else gather (saveRow p k x.cols) x.rows x.cells u) with
      | none => do deleteTree t; pure none
      | some u => do
        let t ← addNamed k t u
        pure (some t)

/-- `fopen`: the file if it can be opened.  The request is not one of the counted ones. -/
def openFile (writable : Bool) : H Ptr :=
  if writable then alloc ⟨fun _ => true, fun _ => true⟩ else pure none

/-- `ladder_program_to_json`, ladder_program_json.c:903-1056: its verdict. -/
def saveFile (p k : Policy) (writable : Bool) (x : Ctx) : H Bool := do
  match ← openFile writable with
  | none => pure false
  | some file => do
    match ← newNode p with
    | none => do free (some file); pure false
    | some t => do
      match ← gather (saveNet p k) x.networks x.nets t with
      | none => do free (some file); pure false
      | some t => do
        match ← alloc p with
        | none => do deleteTree t; free (some file); pure false
        | some text => do
          touchRoot t
          touch (some file)
          touch (some text)
          free (some text)
          deleteTree t
          free (some file)
          pure true

end Ladder.Heap
