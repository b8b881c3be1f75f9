import Verif.Spec.Mem
import Verif.Spec.Cycle

/-
Specification vocabulary for the previous-value history.
-/

set_option autoImplicit false

namespace Ladder.Spec

/-- The location keeping the previous value of a flag or port. -/
def prior : Loc → Option Loc
  | .M i => some (.Mh i) | .Cd i => some (.Cdh i) | .Cr i => some (.Crh i) | .Td i => some (.Tdh i) | .Tr i => some (.Trh i)
  | .I m p => some (.Ih m p) | .IW m p => some (.IWh m p) | .Q m p => some (.Qh m p) | .QW m p => some (.QWh m p)
  | _ => none

/-- A flag within the configured quantities. -/
def FlagIn (c : Ctx) : Loc → Prop
  | .M i => i < c.qty.m
  | .Cd i | .Cr i => i < c.qty.c
  | .Td i | .Tr i => i < c.qty.t
  | _ => False

/-- An output port within the configured quantities. -/
def OutputIn (c : Ctx) : Loc → Prop
  | .Q m p => m < c.fnWriteQty ∧ ∃ o, at? c.output m = some o ∧ p < o.qQty
  | .QW m p => m < c.fnWriteQty ∧ ∃ o, at? c.output m = some o ∧ p < o.qwQty
  | _ => False

/-- An input port within the configured quantities; analog ports only of modules that have digital ones. -/
def InputIn (c : Ctx) : Loc → Prop
  | .I m p => m < c.fnReadQty ∧ ∃ o, at? c.input m = some o ∧ p < o.iQty
  | .IW m p => m < c.fnReadQty ∧ ∃ o, at? c.input m = some o ∧ p < o.iwQty ∧ 0 < o.iQty ∧ o.I.isSome ∧ o.Ih.isSome
  | _ => False

/-- The history of `c` at the flag or port `ℓ` is the value in `c₀`, if both exist. -/
def Recalls (c c₀ : Ctx) (ℓ : Loc) : Prop :=
  ∀ h, prior ℓ = some h → (load c₀ ℓ).isSome → (load c h).isSome → load c h = load c₀ ℓ

/-- The history areas. -/
def history (c : Ctx) : List (Arr Byte) × Arr (Arr Byte × Arr W32) × Arr (Arr Byte × Arr W32) :=
  ([c.Mh, c.Cdh, c.Crh, c.Tdh, c.Trh], c.input.map (·.map fun o => (o.Ih, o.IWh)), c.output.map (·.map fun o => (o.Qh, o.QWh)))

end Ladder.Spec
