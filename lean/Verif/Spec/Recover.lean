import Verif.Spec.Fault

/-
Specification vocabulary for the clearing operations.
-/

set_option autoImplicit false

namespace Ladder.Spec

/-- Every area that has a quantity is allocated, and an output history only exists beside the outputs. -/
structure Whole (c : Ctx) : Prop where
  timers : 0 < c.qty.t → c.timers.isSome ∧ c.Td.isSome ∧ c.Tr.isSome
  counters : 0 < c.qty.c → c.C.isSome ∧ c.Cd.isSome ∧ c.Cr.isSome
  D : 0 < c.qty.d → c.D.isSome
  R : 0 < c.qty.r → c.R.isSome
  output : ∀ l, c.output = some l → ∀ o ∈ l, (o.Qh.isSome → o.Q.isSome) ∧ (o.QWh.isSome → o.QW.isSome)

/-- The locations that clearing a fault resets: timers, counters and their flags, D and R registers, all outputs and
their history. -/
def Recovers : Loc → Bool
  | .acc _ | .Td _ | .Tr _ | .C _ | .Cd _ | .Cr _ | .D _ | .R _ => true
  | .Q _ _ | .QW _ _ | .Qh _ _ | .QWh _ _ => true
  | _ => false

/-- The flags of the program, counters and timers, present and previous. -/
def Flag : Loc → Bool
  | .M _ | .Cd _ | .Cr _ | .Td _ | .Tr _ | .Mh _ | .Cdh _ | .Crh _ | .Tdh _ | .Trh _ => true
  | _ => false

/-- Every flag area that has a quantity is allocated. -/
structure FlagsWhole (ctx : Ctx) : Prop where
  m : 0 < ctx.qty.m → ctx.M.isSome ∧ ctx.Mh.isSome
  c : 0 < ctx.qty.c → ctx.Cd.isSome ∧ ctx.Cdh.isSome ∧ ctx.Cr.isSome ∧ ctx.Crh.isSome
  t : 0 < ctx.qty.t → ctx.Td.isSome ∧ ctx.Tdh.isSome ∧ ctx.Tr.isSome ∧ ctx.Trh.isSome

/-- The networks are allocated, with their cells, and there are as many as configured. -/
def NetsWhole (c : Ctx) : Prop :=
  ∃ l, c.network = some l ∧ l.length = c.qty.networks ∧ ∀ net ∈ l, net.cells.isSome

/-- A network whose cells are all empty, otherwise like `net`. -/
def emptied (net : Network) : Network :=
  { net with cells := some (List.replicate net.rows (List.replicate net.cols {})) }

end Ladder.Spec
