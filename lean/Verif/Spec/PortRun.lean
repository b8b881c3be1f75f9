import Verif.Spec.Port
import Verif.Spec.Well

/-
Specification vocabulary for tasks that run with the shipped port.
-/

set_option autoImplicit false

namespace Ladder.Spec

/-- A configuration with the memory the shipped port shows: eight ports per module, 18 markers, seven timers and seven counters. -/
structure Fitted (B : Ctx) : Prop where
  inputs : ∀ n, n < B.fnReadQty → ∀ k, k < 8 → Owns B (.I n k)
  outputs : ∀ n, n < B.fnWriteQty → ∀ k, k < 8 → Owns B (.Q n k)
  markers : ∀ k, k < 18 → Owns B (.M k)
  timers : ∀ k, k < 7 → Owns B (.acc k) ∧ Owns B (.Td k) ∧ Owns B (.Tr k)
  counters : ∀ k, k < 7 → Owns B (.C k) ∧ Owns B (.Cd k) ∧ Owns B (.Cr k)

/-- What undefined behaviour of a callback may do to the context: anything but to the table of modules and to the number of scans. -/
def Wild (f : Ctx → Ctx) : Prop :=
  ∀ c, (f c).fnReadQty = c.fnReadQty ∧ (f c).fnWriteQty = c.fnWriteQty ∧ (f c).read = c.read ∧ (f c).write = c.write ∧
    (f c).scan.scanCount = c.scan.scanCount

end Ladder.Spec
