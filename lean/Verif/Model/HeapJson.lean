import Verif.Model.Heap
import Verif.Model.Json

/-
Allocation behaviour of the loader, utils/ladder_program_json.c: which heap blocks `ladder_json_to_program`,
`ladder_compact_json_file` and `ladder_validate_json_file` allocate, use and free.  What a document decides (which members are
there, which texts are numbers) is taken from the model of the JSON form (`member`, `insOf`, `loadValue`, `tableQty`, …).

Simplified: a tree of cJSON is one block; a step of the loader that uses a block uses it at least once per turn of its loop.
-/

set_option autoImplicit false

namespace Ladder.Heap

open Ladder (Ins Json Host UB member strMember insOf tableQty u32OfDouble loadValue)

/-- A conversion that may be undefined behaviour without concerning the heap. -/
def ofUB {α : Type} : Except UB α → H α
  | .ok a => pure a
  | .error _ => fault .undefined

/-- `for (i = 0; i < n && ok; i++) … a[i] …`: the elements of an array in turn, each with its description, until one is
refused. -/
def walkWhile {ι α : Type} (f : ι → α → H (Bool × α)) : List ι → List α → H (Bool × List α)
  | [], xs => pure (true, xs)
  | _ :: _, [] => fault .outOfBounds
  | j :: js, x :: xs => do
    let (ok, y) ← f j x
    if ok then
      let (r, ys) ← walkWhile f js xs
      pure (r, y :: ys)
    else pure (false, y :: xs)

/-- The same loop through the pointer to the array: each turn uses its block. -/
def eachWhile {ι α : Type} (f : ι → α → H (Bool × α)) (js : List ι) (a : Option (Nat × List α)) :
    H (Bool × Option (Nat × List α)) :=
  if js = [] then pure (true, a)
  else match a with
    | none => fault .nullDeref
    | some (b, xs) => do
      let (r, ys) ← walkWhile (fun j x => do touch (some b); f j x) js xs
      pure (r, some (b, ys))

/-- One operand, ladder_program_json.c:773-855: a text is duplicated, and the operand refused if that fails.  Before, `calloc`
has set the pointer to NULL. -/
def loadOperand (p : Policy) (host : Host) (code : Ins) (j : Json × Nat) (q : Ptr) : H (Bool × Ptr) :=
  match loadValue host code j.2 j.1 with
  | none => pure (false, q)
  | some v =>
    if v.type = .S then do
      let q ← alloc p
      pure (q.isSome, q)
    else pure (true, q)

/-- The operands of a cell, ladder_program_json.c:754-868, for a cell whose pointer is NULL. -/
def loadOperands (p : Policy) (host : Host) (l : List Json) (x : Cell) : H (Bool × Cell) := do
  let q ← ofUB (tableQty host x.code)
  if l.length ≠ q then pure (false, x)
  else
    let x := { x with qty := l.length }
    if l.length = 0 then pure (true, x)
    else
      match ← alloc p with
      | none => pure (false, { x with data := none })
      | some b =>
        let (ok, data) ← eachWhile (loadOperand p host x.code) l.zipIdx (some (b, List.replicate l.length none))
        let x := { x with data := data }
        if ok then pure (true, x)
        else
          let x ← dropData x
          pure (false, x)

/-- One cell, ladder_program_json.c:721-868.  Vertical bars are not kept. -/
def loadCell (p : Policy) (host : Host) (j : Json) (x : Cell) : H (Bool × Cell) :=
  match j with
  | .obj ms =>
    match strMember ms "symbol" with
    | none => pure (false, x)
    | some s =>
      if insOf s = .INV then pure (false, x)
      else
        let x := { x with code := insOf s }
        match member ms "bar" with
        | some (.bool _) =>
          match member ms "data" with
          | some (.arr l) => loadOperands p host l x
          | _ => pure (false, x)
        | _ => pure (false, x)
  | _ => pure (false, x)

/-- One row, ladder_program_json.c:714-869. -/
def loadRow (p : Policy) (host : Host) (cols : Nat) (j : Json) (row : Row) : H (Bool × Row) :=
  match j with
  | .arr l => if cols = l.length then eachWhile (loadCell p host) l row else pure (false, row)
  | _ => pure (false, row)

/-- One cell of the two release loops, ladder_program_json.c:649-656 and 876-883: a block whose number of operands is 0 is not
freed. -/
def releaseCell (x : Cell) : H Cell := if x.qty > 0 then dropData x else pure x

/-- Release of a network, ladder_program_json.c:647-663 and 874-890. -/
def releaseNet (x : Net) : H Net := do
  let cells ← each (fun row => do
    let row ← each releaseCell x.cols row
    free (ptrOf row)
    pure row) x.rows x.cells
  free (ptrOf cells)
  pure {}

/-- `net->cells[r] = calloc(cols, …)`, ladder_program_json.c:693-696. -/
def newRow (p : Policy) (cols : Nat) : Unit → Row → H (Bool × Row) := fun _ _ => do
  let q ← alloc p
  pure (q.isSome, q.map fun b => (b, List.replicate cols {}))

/-- The parsing of the rows of a network with all its blocks, ladder_program_json.c:712-892. -/
def fillGrid (p : Policy) (host : Host) (l : List Json) (x : Net) : H (Bool × Net) := do
  let (ok, cells) ← eachWhile (loadRow p host x.cols) l x.cells
  let x := { x with cells := cells }
  if ok then pure (true, x)
  else
    let x ← releaseNet x
    pure (false, x)

/-- The rows of a network, ladder_program_json.c:679-892.  The allocator `t` decides about the array of the rows; when it refuses,
the dimensions stay as they are (687). -/
def loadGrid (p t : Policy) (host : Host) (rows cols : Nat) (data : Option Json) : H (Bool × Net) :=
  match data with
  | some (.arr l) =>
    if rows ≠ l.length then pure (false, { rows := rows, cols := cols })
    else do
      match ← alloc t with
      | none => pure (false, { rows := rows, cols := cols })
      | some b =>
        let (ok, cells) ← eachWhile (newRow p cols) (List.replicate rows ()) (some (b, List.replicate rows none))
        if ok then fillGrid p host l { rows := rows, cols := cols, cells := cells }
        else
          let cells ← each (fun row => do free (ptrOf row); pure row) rows cells
          free (ptrOf cells)
          pure (false, {})
  | _ => pure (false, { rows := rows, cols := cols })

/-- Dimensions and rows, ladder_program_json.c:665-892, for a network that has been released. -/
def loadShape (p t : Policy) (host : Host) (ms : List (String × Json)) (x : Net) : H (Bool × Net) :=
  match member ms "rows" with
  | some (.num r) => do
    let rows ← ofUB (u32OfDouble r.trunc)
    match member ms "cols" with
    | some (.num c) => do
      let cols ← ofUB (u32OfDouble c.trunc)
      loadGrid p t host rows cols (member ms "networkData")
    | _ => pure (false, { x with rows := rows })
  | _ => pure (false, x)

/-- One network of the document, ladder_program_json.c:626-892. -/
def loadNet (p t : Policy) (host : Host) (j : Json) (x : Ctx) : H (Bool × Ctx) :=
  match j with
  | .obj ms =>
    match member ms "id" with
    | some (.num v) => do
      let n ← ofUB (u32OfDouble v.trunc)
      if n ≥ x.networks then pure (false, x)
      else onNet n (fun net => do
        let net ← releaseNet net
        loadShape p t host ms net) x
    | _ => pure (false, x)
  | _ => pure (false, x)

/-- The networks in turn while `load_ok`, ladder_program_json.c:625-893. -/
def loadNets (p t : Policy) (host : Host) : List Json → Ctx → H (Bool × Ctx)
  | [], x => pure (true, x)
  | j :: js, x => do
    let (ok, x) ← loadNet p t host j x
    if ok then loadNets p t host js x else pure (false, x)

/-- The part of `ladder_json_to_program` between the test of the tree and its release, ladder_program_json.c:620-897. -/
def loadList (p t : Policy) (host : Host) (l : List Json) (x : Ctx) : H (Bool × Ctx) := do
  let x ← clearProgram x
  let (ok, x) ← loadNets p t host l x
  if ok then pure (true, x)
  else
    let x ← clearProgram x
    pure (false, x)

/-- What is found under a path: no file, a file that is not JSON, or a file with a tree. -/
inductive File where
  | missing
  | broken
  | tree (doc : Json)

/-- `read_file`, ladder_program_json.c:238-252. -/
def readFile (p : Policy) : File → H Ptr
  | .missing => pure none
  | _ => do
    let q ← alloc p
    if q.isSome then touch q
    pure q

/-- `cJSON_Parse` of the content of a file: a tree, if there is one and memory for it. -/
def parse (p : Policy) (buf : Ptr) : File → H (Option (Nat × Json))
  | .tree doc => do
    touch buf
    let q ← alloc p
    pure (q.map fun b => (b, doc))
  | _ => do
    touch buf
    pure none

/-- `ladder_json_to_program`, ladder_program_json.c:603-901: true is `JSON_ERROR_OK`. -/
def loadFile (p t : Policy) (host : Host) (file : File) (x : Ctx) : H (Bool × Ctx) := do
  let buf ← readFile p file
  if buf.isNone then pure (false, x)
  else
    let root ← parse p buf file
    free buf
    match root with
    | none => pure (false, x)
    | some (b, .arr l) =>
      touch (some b)
      let (ok, x) ← loadList p t host l x
      free (some b)
      pure (ok, x)
    | some (b, _) =>
      touch (some b)
      free (some b)
      pure (false, x)

/-- `cleanup:` of `ladder_compact_json_file`, ladder_program_json.c:1089-1093. -/
def compactEnd (text root buf : Ptr) (status : Bool) : H Bool := do
  free text
  free root
  free buf
  pure status

/-- `ladder_compact_json_file`, ladder_program_json.c:1058-1094: true is `JSON_ERROR_OK`.  `writable` says whether the other file
can be opened (`write_file`, 254-261). -/
def compactFile (p : Policy) (writable : Bool) (file : File) : H Bool := do
  let buf ← readFile p file
  if buf.isNone then compactEnd none none none false
  else
    match ← parse p buf file with
    | none => compactEnd none none buf false
    | some (b, _) =>
      touch (some b)
      let text ← alloc p
      if text.isNone then compactEnd none (some b) buf false
      else if writable then
        touch text
        compactEnd text (some b) buf true
      else compactEnd text (some b) buf false

/-- `ladder_validate_json_file`, ladder_program_json.c:1096-1127; `verdict` is the result of `validate_json` on the two trees. -/
def validateFile (p : Policy) (verdict : Json → Json → Bool) (file schema : File) : H Bool := do
  let buf ← readFile p file
  if buf.isNone then pure false
  else
    let buf' ← readFile p schema
    if buf'.isNone then
      free buf
      pure false
    else
      let json ← parse p buf file
      free buf
      match json with
      | none =>
        free buf'
        pure false
      | some (b, j) =>
        let tree ← parse p buf' schema
        free buf'
        match tree with
        | none =>
          free (some b)
          pure false
        | some (b', s) =>
          touch (some b)
          touch (some b')
          free (some b)
          free (some b')
          pure (verdict j s)

end Ladder.Heap
