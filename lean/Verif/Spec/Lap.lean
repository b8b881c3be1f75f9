import Verif.Spec.Control
import Verif.Model.Task

/-
The cycles of a controller with the instants at which its clock is read.
-/

set_option autoImplicit false

namespace Ladder.Spec.Logic

/-- A cycle: the clock is read at instant `start`, the inputs are sampled from instant `sample` on, the timers take the `readings`, and the clock
is read again at instant `finish`. -/
structure Lap where
  start : Nat
  sample : Nat
  finish : Nat
  readings : List Reading

/-- What the cycle computes with. -/
def Lap.entry (c : Lap) : Nat × List Reading := (c.sample, c.readings)

/-- The cycle took longer than the limit (0: there is none) by the clock of the task. -/
def Lap.overdue (env : Env) (limit : Nat) (c : Lap) : Bool :=
  decide (0 < limit ∧ limit < (env.clock c.finish - env.clock c.start).toNat)

/-- Cycles with `k` input modules take place one after the other between instants `s` and `e`. -/
def Laps (env : Env) (k s : Nat) : List Lap → Nat → Prop
  | [], e => s ≤ e
  | c :: cs, e => s ≤ c.start ∧ c.start < c.sample ∧ c.sample + k ≤ c.finish ∧ Told env (c.sample + k) c.finish c.readings ∧
    Laps env k (c.finish + 1) cs e

/-- As many of `n` cycles as are performed: the first ones, up to and including the first for which `last` holds. -/
structure Halted {α : Type} (last : α → Bool) (n : Nat) (cs : List α) : Prop where
  length : cs.length ≤ n
  before : ∀ c ∈ cs.dropLast, last c = false
  ended : cs.length < n → ∃ c, cs.getLast? = some c ∧ last c = true

/-- Giving up: 1000 waits in state ERROR, a report, and state EXIT_TSK. -/
def givenUp (env : Env) (w : World) : World := inState (panicked env (inState (afterWaits env w 1000) .error)) .exitTsk

/-- How a task stands `n` iterations after its last cycle: it ended with the end hook; but if that cycle took too long, it gave up first. -/
def parted (env : Env) (late : Bool) : Nat → World → TaskRes × World
  | 0, w => (.running, w)
  | n + 1, w => if !late then (.ended, endHook env w) else if n = 0 then (.running, givenUp env w) else (.ended, endHook env (givenUp env w))

/-- The context with state ERROR, if so. -/
def failed (b : Bool) (c : Ctx) : Ctx := if b then { c with state := .error } else c

end Ladder.Spec.Logic
