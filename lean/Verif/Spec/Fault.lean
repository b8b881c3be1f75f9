import Verif.Spec.History

/-
Specification vocabulary for faulted cycles.
-/

set_option autoImplicit false

namespace Ladder.Spec

/-- An existing output port whose module has a digital history (and, for an analog port, also an analog one). -/
def Held (c : Ctx) : Loc → Prop
  | .Q m p => m < c.fnWriteQty ∧ ∃ o, at? c.output m = some o ∧ p < o.qQty ∧ o.Q.isSome ∧ o.Qh.isSome
  | .QW m p => m < c.fnWriteQty ∧ ∃ o, at? c.output m = some o ∧ p < o.qwQty ∧ o.QW.isSome ∧ o.QWh.isSome ∧
      0 < o.qQty ∧ o.Q.isSome ∧ o.Qh.isSome
  | _ => False

/-- An existing output port whose module has digital ports. -/
def Cleared (c : Ctx) : Loc → Prop
  | .Q m p => m < c.fnWriteQty ∧ ∃ o, at? c.output m = some o ∧ p < o.qQty ∧ o.Q.isSome
  | .QW m p => m < c.fnWriteQty ∧ ∃ o, at? c.output m = some o ∧ p < o.qwQty ∧ o.QW.isSome ∧ 0 < o.qQty ∧ o.Q.isSome
  | _ => False

/-- The value that a write callback finds at `ℓ` when handed the outputs `outs`. -/
def shown (outs : Arr OutMod) : Loc → Option Nat
  | .Q m p => (at? outs m).bind fun o => (at? o.Q p).map (·.toNat)
  | .QW m p => (at? outs m).bind fun o => (at? o.QW p).map (·.toNat)
  | _ => none

/-- What a scan must not change for a fault to be undone: number and sizes of output modules, history, fault mode. -/
def plant (c : Ctx) : Nat × Bool × Arr (Nat × Nat × Option Nat × Option Nat × Arr Byte × Arr W32) :=
  (c.fnWriteQty, c.writeOnFault,
    c.output.map (·.map fun o => (o.qQty, o.qwQty, o.Q.map (·.length), o.QW.map (·.length), o.Qh, o.QWh)))

/-- A register within the configured quantities. -/
def RegIn (c : Ctx) : Loc → Prop
  | .C i => i < c.qty.c
  | .acc i => i < c.qty.t
  | .D i => i < c.qty.d
  | .R i => i < c.qty.r
  | _ => False

/-- The values of flags and registers. -/
def memory (c : Ctx) : List (Arr Byte) × List (Arr W32) × Arr Timer :=
  ([c.M, c.Cd, c.Cr, c.Td, c.Tr], [c.C, c.D, c.R], c.timers)

end Ladder.Spec
