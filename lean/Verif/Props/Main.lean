import Verif.Model.Main
import Verif.Props.AppRun
import Verif.Props.SelfTest

/-
C98: the application that comes with the library, from its first line to its last.
-/

set_option autoImplicit false

namespace Ladder

namespace Props

open Spec Op Ladder.Demo Demo App
open Spec.Logic hiding program
open Shipped Spec.Flash

variable {L : Lib} {H : Host} {S : Site} {wild : Ctx → Ctx} {n : Nat} {test old : Ctx}

theorem main_of_slow {w : World} (h : SelfTest.selfTest (SelfTest.env S.clock S.localtime) n ⟨test, 0, []⟩ = .ok (some false, w)) :
    App.main L H S wild n test old = .ok (.exits 1) := by
  unfold App.main
  rw [h]

theorem main_of_quick {w : World} (h : SelfTest.selfTest (SelfTest.env S.clock S.localtime) n ⟨test, 0, []⟩ = .ok (some true, w)) :
    App.main L H S wild n test old = match App.boot L H old with
      | .error u => .error u
      | .ok none => .ok (.exits 0)
      | .ok (some c) =>
        match task (Port.env wild (S.from w.tick).clock (S.from w.tick).keys (S.from w.tick).localtime) n ⟨c, 0, []⟩ with
        | .error u => .error u
        | .ok (.running, w') => .ok (.runs w')
        | .ok (_, w') => .ok (.ends w' 0) := by
  unfold App.main App.boot
  rw [h, prepare_eq]
  rfl

/-- **C98**: whether the application comes to run its program.  It does so exactly if its clock is quick at the two places of the self-test - in the test
of TOF, which begins where the first 32 tests have ended, and in the test of TP, which begins where the first 34 have ended - and the byte behind the
table of instructions is zero; otherwise it ends, with status 1 in the first case and with status 0 in the second.  There is no undefined behaviour. -/
theorem C98_course (hL : Exact L) {k : Nat} (hH : H.beyond = some k) (ht : ∀ t, Calendar (S.localtime t)) (hn : n + 2 < 2^32) : ∃ j w1 w2,
    SelfTest.suite (SelfTest.env S.clock S.localtime) (n + 2) (SelfTest.tests.take 32) ⟨test, 0, []⟩ = .ok (some 0, w1) ∧
    SelfTest.suite (SelfTest.env S.clock S.localtime) (n + 2) (SelfTest.tests.take 34) ⟨test, 0, []⟩ = .ok (some j, w2) ∧
    (Slow S.clock w1.tick ∨ Slow S.clock w2.tick → App.main L H S wild (n + 2) test old = .ok (.exits 1)) ∧
    (¬ Slow S.clock w1.tick ∧ ¬ Slow S.clock w2.tick → k ≠ 0 → App.main L H S wild (n + 2) test old = .ok (.exits 0)) ∧
    (¬ Slow S.clock w1.tick ∧ ¬ Slow S.clock w2.tick → k = 0 →
      ∃ w', App.main L H S wild (n + 2) test old = .ok (.runs w') ∨ App.main L H S wild (n + 2) test old = .ok (.ends w' 0)) := by
  obtain ⟨j, w1, w2, w', h1, h2, h⟩ := C96_exact (clock := S.clock) (zone := S.localtime) n ⟨test, 0, []⟩
  refine ⟨j, w1, w2, h1, h2, fun hs => main_of_slow (w := w') ?_, fun hq hk => ?_, fun hq hk => ?_⟩
  · rw [h, decide_eq_false fun hq => hs.elim hq.1 hq.2]
  · rw [decide_eq_true hq] at h
    rw [main_of_quick h, (C85_starts hL hH old).2 hk]
  · rw [decide_eq_true hq] at h
    rw [main_of_quick h]
    obtain ⟨c, hc⟩ := (C85_starts hL hH old).1 hk
    obtain ⟨r, v, as, hr, -⟩ := C89_run hL hc wild (S.from w'.tick).clock (S.from w'.tick).keys (localtime := (S.from w'.tick).localtime)
      (fun t => ht _) (n + 2) hn
    simp only [hc, hr]
    refine ⟨v, ?_⟩
    cases r
    · exact .inr rfl
    · exact .inl rfl
    · exact .inr rfl

/-- **C98** (the program is run): on a host whose clock never advances by 10 ms between two of three consecutive readings, and where the byte behind the
table of instructions is zero, the application passes its self-test and runs its program from then on, one cycle after the other, until q or Q is typed,
and then ends with status 0; in this time no instruction reports an error, panic is never called, the program is the one in the file, one command per
cycle goes to the output module, the first lamp flashes at most five times, and so does the second, but not before the fifth flash of the first has begun. -/
theorem C98_runs_partial (hL : Exact L) (hH : H.beyond = some 0) (hq : ∀ t, (S.clock (t + 2) - S.clock t).toNat < 10)
    (ht : ∀ t, Calendar (S.localtime t)) (hn : n + 2 < 2^32) : ∃ w0 c r w' as,
    SelfTest.selfTest (SelfTest.env S.clock S.localtime) (n + 2) ⟨test, 0, []⟩ = .ok (some true, w0) ∧ App.boot L H old = .ok (some c) ∧
    App.main L H S crash (n + 2) test old = .ok (if r = .running then .runs w' else .ends w' 0) ∧
    Halts (fun e => quits (S.keys (w0.tick + e.1))) (n + 2) r as ∧
    Timely (Port.env crash (S.from w0.tick).clock (S.from w0.tick).keys (S.from w0.tick).localtime) 1 0 as w'.tick ∧
    (commands w'.trace).length = as.length ∧ Fivefold as.length (fun _ => true) (glows (commands w'.trace) 0) ∧
    Fivefold as.length (fun k => decide (onsets (glows (commands w'.trace) 0) (k + 1) = 5)) (glows (commands w'.trace) 1) ∧
    Clean w'.trace ∧ Event.panic ∉ w'.trace ∧ program w'.ctx = program c := by
  obtain ⟨w0, h0⟩ := C96_passes_partial (clock := S.clock) (zone := S.localtime) hq n ⟨test, 0, []⟩
  obtain ⟨c, r, w', hb, hr, -, h1, h2, -, -, h3⟩ := C85_run_partial hL hH old (S.from w0.tick).clock (S.from w0.tick).keys
    (localtime := (S.from w0.tick).localtime) (fun t => ht _) (n + 2) hn
  obtain ⟨r', v, as, hr', h4, h5, h6, h7, h8, -⟩ := C89_lamps hL hb crash (S.from w0.tick).clock (S.from w0.tick).keys
    (localtime := (S.from w0.tick).localtime) (fun t => ht _) (n + 2) hn
  rw [hr] at hr'
  cases hr'
  refine ⟨w0, c, r, w', as, h0, hb, ?_, h4, h5, h6, h7, h8, h1, h2, h3⟩
  rw [main_of_quick h0]
  simp only [hb, hr]
  cases r <;> rfl

/-- **C98 is violated** (slow hosts): where an external call takes 5 ms the application ends before it has looked at its program, with an implementation of
the instructions that is as it should be. -/
theorem C98_refuted (hc : S.clock = fun t => .ofNat 64 (5 * t)) : App.main L H S wild (n + 2) test old = .ok (.exits 1) := by
  obtain ⟨w', h⟩ := C96_refuted (zone := S.localtime) n ⟨test, 0, []⟩
  rw [← hc] at h
  exact main_of_slow h

/-- **C98 is violated** (the status): where the byte behind the table of instructions is not zero the application reports success without having run
its program, on every host with a quick clock. -/
theorem C98_refuted_status (hL : Exact L) {k : Nat} (hH : H.beyond = some k) (hk : k ≠ 0) (hq : ∀ t, (S.clock (t + 2) - S.clock t).toNat < 10) :
    App.main L H S wild (n + 2) test old = .ok (.exits 0) := by
  obtain ⟨w0, h0⟩ := C96_passes_partial (clock := S.clock) (zone := S.localtime) hq n ⟨test, 0, []⟩
  rw [main_of_quick h0, (C85_starts hL hH old).2 hk]

/-- **C98 is violated** (undefined behaviour): where reading the byte behind the table of instructions has no meaning, neither has the application, on
every host with a quick clock. -/
theorem C98_refuted_ub (hL : Exact L) (hH : H.beyond = none) (hq : ∀ t, (S.clock (t + 2) - S.clock t).toNat < 10) :
    App.main L H S wild (n + 2) test old = .error .oob := by
  obtain ⟨w0, h0⟩ := C96_passes_partial (clock := S.clock) (zone := S.localtime) hq n ⟨test, 0, []⟩
  rw [main_of_quick h0, C85_refuted hL hH old]

/-- The hypotheses are met: a clock of one millisecond per call, nothing typed, and the first of January. -/
example (hL : Exact L) (f : String → W32) (g : W32 → String) : ∃ w', App.main L ⟨f, g, some 0⟩ ⟨fun t => .ofNat 64 t, fun _ => [], fun _ => ⟨0, 0, 0, 1, 0, 126, 4⟩⟩
    crash 1000 test old = .ok (.runs w') := by
  obtain ⟨w0, c, r, w', as, -, -, h, ⟨-, hr⟩, -⟩ := C98_runs_partial (n := 998) (test := test) (old := old)
    (S := ⟨fun t => .ofNat 64 t, fun _ => [], fun _ => ⟨0, 0, 0, 1, 0, 126, 4⟩⟩) (H := ⟨f, g, some 0⟩) hL rfl
    (fun t => by simp only [BitVec.toNat_sub, BitVec.toNat_ofNat]; omega) (fun _ => by constructor <;> simp) (by omega)
  rcases hr with ⟨rfl, -⟩ | ⟨-, -, e, -, he⟩
  · exact ⟨w', h⟩
  · simp [quits] at he

end Props
end Ladder
