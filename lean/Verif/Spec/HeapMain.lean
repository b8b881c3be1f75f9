import Verif.Model.HeapJson

/-
Program files without texts.
-/

set_option autoImplicit false

namespace Ladder.Heap

open Ladder (Json member strMember)

/-- An operand whose type is not that of a text. -/
def wordlessOp : Json → Bool
  | .obj ms => decide (strMember ms "type" ≠ some "CSTR")
  | _ => true

/-- A cell without an operand that is a text. -/
def wordlessCell : Json → Bool
  | .obj ms => match member ms "data" with
    | some (.arr l) => l.all wordlessOp
    | _ => true
  | _ => true

/-- A row of such cells. -/
def wordlessRow : Json → Bool
  | .arr l => l.all wordlessCell
  | _ => true

/-- A network of such rows. -/
def wordlessNet : Json → Bool
  | .obj ms => match member ms "networkData" with
    | some (.arr l) => l.all wordlessRow
    | _ => true
  | _ => true

/-- A file that is not a program, or a program without texts. -/
def wordlessFile : File → Bool
  | .tree (.arr l) => l.all wordlessNet
  | _ => true

end Ladder.Heap
