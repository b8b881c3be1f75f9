import Verif.Spec.Halt
import Verif.Props.Watchdog

/-
C90: a stop requested while the inputs are sampled.
-/

set_option autoImplicit false

namespace Ladder

open Spec Op Logic

theorem load_stopped (b : Bool) (c : Ctx) (ℓ : Loc) : load (stopped b c) ℓ = load c ℓ := by cases b <;> cases ℓ <;> rfl

theorem shell_stopped (b : Bool) (c : Ctx) : shell (stopped b c) = stopped b (shell c) := by cases b <;> rfl

theorem Spec.Alike.stopped {B c : Ctx} (h : Alike B c) (b : Bool) : Alike B (Logic.stopped b c) := by
  cases b
  · exact h
  · exact ⟨by cases h.fits; constructor <;> assumption, h.text, fun ℓ => (congrArg _ (load_stopped true c ℓ)).trans (h.places ℓ), h.networks, h.millis, h.cron, h.foreign⟩

namespace Props

/-- **C90** (partial): a controller that is asked to stop while it samples its inputs finishes the cycle and then ends.  As C73, for hardware that
at some instants requests the end by state EXIT_TSK when a module is read.  The task performs its cycles one after the other, each as the diagram
says, up to and including the first one in which a stop is requested: this cycle computes with the inputs just sampled, sends every output
module what it computed, and is the last one.  The hook at the end is called once, after all commands, nothing else is sent, and the
task returns.

Missing: what C73 misses; and counters in the first column (their reset input depends on the state) if there are requests at all. -/
theorem C90_stop_partial {B : Ctx} {env : Env} {field : Nat → Field} {stop : Nat → Bool} {jobs : List CronJob} {nets : List Network} {w : World}
    (hB : Well B) (hF : Fits B) (hp : Paired (load B)) (hk : Attended B env field stop) (hj : Planned B jobs) (hnets : B.network = some nets)
    (hd : ∀ net ∈ nets, net.enable = true → Diagram net ∧ Room env w.ctx.scan.maxScanCycles (effort net))
    (hrail : ∀ t, stop t = true → ∀ n r x, cell? B n r 0 = some x → x.code ≠ .CTU ∧ x.code ≠ .CTD)
    (ha : Mounted B w.ctx) (hc : Clean w.trace) (hw : Wired w.ctx) (ht : Tables w.ctx) (hn : ¬ Missing w.ctx)
    (hq : w.ctx.fnReadQty < 2^32 ∧ w.ctx.fnWriteQty < 2^32) (hst : w.ctx.state = .running) (hwd : w.ctx.qty.watchdogMs = 0)
    (hs : Settled (load w.ctx)) (n : Nat) (hcnt : w.ctx.scan.scanCount.toNat + n < 2^32) :
    ∃ r w1 w' as, task env n w = .ok (r, w') ∧ Halts (fun e => asked stop e.1 w.ctx.fnReadQty) n r as ∧ Timely env w.ctx.fnReadQty w.tick as w'.tick ∧
      w' = (if r = .ended ∧ w.ctx.on.endTask = true then { ctx := env.endTask w1.tick w1.ctx, tick := w1.tick + 1, trace := w1.trace ++ [.endTask] } else w1) ∧
      w1.ctx.state = (if as.any fun e => asked stop e.1 w.ctx.fnReadQty then .exitTsk else .running) ∧
      ∀ rest, let f := turn w.ctx.fnReadQty field env.localtime jobs (nets.take B.qty.networks) rest
        (∀ ℓ, register ℓ = true → load w1.ctx ℓ = as.foldl f (load w.ctx) ℓ) ∧
        commands (news w w') = ((successive f (load w.ctx) as).flatMap fun m => (List.range w.ctx.fnWriteQty).map fun j => (j, orders m)) ∧
        Exhausts (computed w.ctx.fnReadQty field env.localtime jobs (nets.take B.qty.networks) rest) rest (load w.ctx) as := by
  obtain ⟨w1, cs, e, h2, hh, h3, hon, -, hall⟩ := C93_watchdog_partial hB hF hp hk hj hnets hd hrail ha hc hw ht hn hq hst (.inl hwd) hs n hcnt
  have hno : ∀ c : Lap, c.overdue env w.ctx.qty.watchdogMs = false := fun c => by simp [Lap.overdue, hwd]
  simp only [hno, Bool.false_or, show (cs.any fun _ => false) = false by simp, Bool.false_eq_true, if_false] at e hh h3 hall
  have hany : ((cs.map Lap.entry).any fun e => asked stop e.1 w.ctx.fnReadQty) = cs.any fun c => asked stop c.sample w.ctx.fnReadQty := by
    rw [List.any_map]; rfl
  have hlast : ∀ c ∈ (cs.map Lap.entry).dropLast, asked stop c.1 w.ctx.fnReadQty = false := fun c hc => by
    rw [← List.map_dropLast] at hc
    obtain ⟨x, hx, rfl⟩ := List.mem_map.1 hc
    exact hh.before x hx
  by_cases hlt : cs.length < n
  · obtain ⟨j, hj⟩ : ∃ j, n - cs.length = j + 1 := ⟨n - cs.length - 1, by omega⟩
    rw [hj] at e hall
    refine ⟨.ended, w1, endHook env w1, cs.map Lap.entry, e, ⟨hlast, .inr ⟨rfl, by simpa using hlt, ?_⟩⟩, ?_, ?_, by rw [hany]; exact h3, fun rest => hall rest⟩
    · obtain ⟨c, h4, h5⟩ := hh.ended hlt
      exact ⟨c.entry, by rw [List.getLast?_map, h4]; rfl, h5⟩
    · refine h2.timely.mono ?_
      unfold endHook; split <;> simp
    · unfold endHook
      rw [hon]
      simp
  · have hlen : cs.length = n := Nat.le_antisymm hh.length (Nat.le_of_not_lt hlt)
    rw [hlen, Nat.sub_self] at e hall
    exact ⟨.running, w1, w1, cs.map Lap.entry, e, ⟨hlast, .inl ⟨rfl, by simpa using hlen⟩⟩, h2.timely, by simp, by rw [hany]; exact h3, fun rest => hall rest⟩

/-! ### A controller that is asked to stop -/

open _root_.Ladder.Demo

/-- The hardware of C73, which requests the end at instant 5000. -/
def switchedOff : Env := { wiredUp with read := fun t n c => stopped (decide (t = 5000)) (upd c (.I n 0) (t % 2)) }

theorem switchedOff_attended : Attended hourly switchedOff supply (fun t => decide (t = 5000)) where
  toStill := ⟨wiredUp_plugged.instruction, wiredUp_plugged.scanEnd, wiredUp_plugged.localtime⟩
  before := fun _ _ => rfl
  after := fun _ _ => rfl
  delay := fun _ _ => rfl
  write := fun _ _ _ _ _ => rfl
  read := fun t n c hn h => by
    obtain ⟨h1, h2, h3, h4⟩ := wiredUp_plugged.read t n c hn h
    refine ⟨h1.stopped _, fun ℓ x hf hl => h2 ℓ x hf ((load_stopped _ _ ℓ).symm.trans hl), ?_, fun ℓ => (load_stopped _ _ ℓ).trans (h4 ℓ)⟩
    exact (shell_stopped _ _).trans ((congrArg (stopped _) h3).trans (shell_stopped _ _).symm)

/-- The hypotheses of `C90_stop_partial` can be met. -/
example : ∃ r w' as, task switchedOff 1000000 ⟨hourly, 0, []⟩ = .ok (r, w') ∧ Halts (fun e => asked (fun t => decide (t = 5000)) e.1 1) 1000000 r as ∧
    commands (news ⟨hourly, 0, []⟩ w') = (successive (turn hourly.fnReadQty supply wiredUp.localtime [always] [sealed] fun _ => ⟨0, 0, 0⟩) (load hourly) as).flatMap
      fun m => (List.range hourly.fnWriteQty).map fun j => (j, orders m) := by
  have ha : Alike hourly hourly := ⟨fits_of rfl, rfl, fun _ => rfl, rfl, rfl, rfl, rfl, rfl⟩
  obtain ⟨r, w1, w', as, h1, h2, -, -, -, h4⟩ := C90_stop_partial (w := ⟨hourly, 0, []⟩) sealed_well ha.fits hourly_paired switchedOff_attended planned rfl
    (fun net hn _ => by
      rw [List.mem_singleton.1 hn]
      exact ⟨diagram_of (by decide), by decide, .inl fun _ _ => rfl⟩)
    (fun t _ n r x hx => by
      match n, r, hx with
      | 0, 0, hx => cases hx; decide
      | 0, 1, hx => cases hx; decide
      | 0, 2, hx => cases hx; decide
      | 0, 3, hx => cases hx; decide
      | 0, r + 4, hx => cases hx
      | n + 1, r, hx => cases hx) ⟨ha, flags_demo [sealed], rfl, rfl, rfl⟩ (fun _ _ _ _ h => by cases h)
    ⟨rfl, fun n hn => by cases Nat.lt_one_iff.1 hn; rfl, fun n hn => by cases Nat.lt_one_iff.1 hn; rfl, fun _ => rfl, fun _ => rfl⟩ ⟨fun l h => by cases h; decide, fun l h => by cases h; decide⟩
    (fun h => by have := h.one; simp [hourly, ctx, at?] at this) ⟨by decide, by decide⟩ rfl rfl hourly_settled 1000000 (by decide)
  exact ⟨r, w', as, h1, h2, (h4 _).2.1⟩

/-- Requests do take effect: asked at instant 9 at the latest, this controller has ended after ten iterations. -/
example : (match task { wiredUp with read := fun t n c => stopped (decide (9 ≤ t)) (upd c (.I n 0) (t % 2)) } 10 ⟨hourly, 0, []⟩ with
    | .ok (.ended, w) => decide (1 < (commands w.trace).length ∧ (commands w.trace).length < 9) | _ => false) = true := by decide +kernel

/-! ### What the full statement misses -/

/-- A counter at the left rail. -/
def railCounter : Ctx := ctx [net [[ins .CTU [op .C 0, op .NONE 2]], [ins .MULTI []]]]

/-- Hardware that asks for the end at instant 1, or not. -/
def calling (b : Bool) : Env := { env with read := fun t _ c => stopped (b && decide (t = 1)) c }

/-- **C90 is violated** by counters in the first column: the diagram says that such a counter starts anew in each cycle and counts one, and without
a request it does; but in the cycle in which a stop is requested it goes on counting, from 4 to 5. -/
theorem C90_refuted_counter : Diagram (net [[ins .CTU [op .C 0, op .NONE 2]], [ins .MULTI []]]) ∧
    turn railCounter.fnReadQty (fun _ _ x => x) env.localtime [] [net [[ins .CTU [op .C 0, op .NONE 2]], [ins .MULTI []]]] (fun _ => ⟨0, 0, 0⟩)
      (load railCounter) (1, []) (.C 0) = some 1 ∧
    (∃ w, task (calling false) 1 ⟨railCounter, 0, []⟩ = .ok (.running, w) ∧ load w.ctx (.C 0) = some 1) ∧
    ∃ w, task (calling true) 1 ⟨railCounter, 0, []⟩ = .ok (.running, w) ∧ load w.ctx (.C 0) = some 5 :=
  ⟨diagram_of (by decide +kernel), by decide +kernel, of_runsTo (by decide +kernel), of_runsTo (by decide +kernel)⟩

end Props

end Ladder
