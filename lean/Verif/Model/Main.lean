import Verif.Model.App
import Verif.Model.SelfTest

/-
The application that comes with the library from its first line to its last: `main`, test/ladderlib_test.c:143-268.

Not kept: what is printed, and the memory (HeapSelfTest.lean, and C60 for the release at the end; `ladder_ctx_deinit` returns true,
ladder_general.c:574).  The test works on a context of its own, a global variable (ladderlib_test_functions.c:119), so that nothing but time passes
between the beginning of `main` and the initialisation of its context.
-/

set_option autoImplicit false

namespace Ladder.App

/-- How far `main` has come. -/
inductive Course where
  | testing                        -- a task of the self-test runs
  | exits (status : Nat)           -- ended without having called `ladder_task`
  | runs (w : World)               -- in the main loop of `ladder_task`
  | ends (w : World) (status : Nat) -- ended after `ladder_task` has returned

/-- The surroundings of the application: `clock`, `keys` and `localtime` say what the clock, the keyboard and the calendar give at the external call
with a number, counted from the beginning of `main`. -/
structure Site where
  clock : Nat → W64
  keys : Nat → List Byte
  localtime : Nat → Tm

/-- The surroundings after `k` external calls. -/
def Site.from (S : Site) (k : Nat) : Site := ⟨fun t => S.clock (k + t), fun t => S.keys (k + t), fun t => S.localtime (k + t)⟩

/-- `main`, ladderlib_test.c:143-268, with each task observed for `n` iterations; `wild` is what a callback with undefined behaviour leaves (Port.lean),
`test` and `old` are what the context of the self-test and the context of `main` hold before. -/
def main (L : Lib) (H : Host) (S : Site) (wild : Ctx → Ctx) (n : Nat) (test old : Ctx) : Except UB Course :=
  match SelfTest.selfTest (SelfTest.env S.clock S.localtime) n ⟨test, 0, []⟩ with
  | .error u => .error u
  | .ok (none, _) => .ok .testing
  | .ok (some false, _) => .ok (.exits 1)
  | .ok (some true, w) =>
    match prepare old with
    | .error u => .error u
    | .ok none => .ok (.exits 1)
    | .ok (some c) =>
      match load L H c with
      | .error u => .error u
      | .ok none => .ok (.exits 0)
      | .ok (some c) =>
        match task (Port.env wild (S.from w.tick).clock (S.from w.tick).keys (S.from w.tick).localtime) n ⟨c, 0, []⟩ with
        | .error u => .error u
        | .ok (.running, w') => .ok (.runs w')
        | .ok (_, w') => .ok (.ends w' 0)

end Ladder.App
