import Verif.Props.Watchdog
import Verif.Props.TaskTime

/-
C94: how long a controller can run.
-/

set_option autoImplicit false

namespace Ladder

open Spec Op Logic

namespace Props

/-- **C94, other programs**: no execution with defined behaviour performs 2³² cycles.  For every program, also one that is no diagram, fails, or
changes its own networks, and for every hardware that leaves the statistics and the table of callbacks alone: the cycles the task has
completed, as the hook after each of them can count, number less than 2³² less those counted before. -/
theorem C94_cycles {env : Env} {w w' : World} {r : TaskRes} {n : Nat} (hk : TaskHooks env fun c c' => clockwork c' = clockwork c)
    (hm : w.ctx.millis = true) (ha : w.ctx.on.taskAfter = true) (h : task env n w = .ok (r, w')) :
    w.ctx.scan.scanCount.toNat + (news w w').count .after < 2^32 := by
  have fin : ∀ {w1 : World} {q : TaskRes}, taskLoop env n w = .ok (q, w1) → w.ctx.scan.scanCount.toNat + (news w w1).count .after < 2^32 := by
    intro w1 q h
    obtain ⟨l, e, hl⟩ := taskLoop_count hk n h hm ha
    have : news w w1 = l := by unfold news; rw [e]; simp
    rw [this, ← hl]
    exact w1.ctx.scan.scanCount.isLt
  unfold task at h
  rw [bind_getCtx] at h
  obtain ⟨b, v, h1, h⟩ := bind_eq_ok.1 h
  cases hb : taskRefuses w.ctx with
  | error e => rw [hb] at h1; cases h1
  | ok x =>
    rw [hb] at h1
    cases h1
    cases b with
    | true =>
      cases h
      have := w.ctx.scan.scanCount.isLt
      simpa [news] using this
    | false => exact fin h

/-- The iteration that should count cycle number 2³² of a diagram: the division by zero, unless some arithmetic of the diagram had no result in
that cycle or before. -/
theorem last_count {B : Ctx} {env : Env} {field : Nat → Field} {jobs : List CronJob} {nets : List Network} {w : World} (hB : Formed B)
    (hF : Fits B) (hp : Paired (load B)) (hk : Plugged B env field) (hj : Planned B jobs) (hnets : B.network = some nets)
    (hd : ∀ net ∈ nets, net.enable = true → Diagram net ∧ Room env w.ctx.scan.maxScanCycles (effort net))
    (ha : Mounted B w.ctx) (hc : Clean w.trace) (hw : Wired w.ctx) (ht : Tables w.ctx) (hn : ¬ Missing w.ctx)
    (hq : w.ctx.fnReadQty < 2^32 ∧ w.ctx.fnWriteQty < 2^32) (hst : w.ctx.state = .running) (hwd : w.ctx.qty.watchdogMs = 0)
    (hs : Settled (load w.ctx)) (n : Nat) (hcnt : 2^32 ≤ w.ctx.scan.scanCount.toNat + n) :
    ∃ (as : List (Nat × List Reading)) (e : UB), task env n w = .error e ∧ (e = .divZero ∨ ∃ t, Steady.Fails env field jobs (nets.take B.qty.networks) w.ctx.fnReadQty t
      (as.foldl (turn w.ctx.fnReadQty field env.localtime jobs (nets.take B.qty.networks) fun _ => ⟨0, 0, 0⟩) (load w.ctx)) e) := by
  have hR : Steady.Rig B w.ctx.scan.maxScanCycles env field (fun _ => false) jobs nets (plain w.ctx) :=
    ⟨hB, hF, hp, ⟨hk.toStill, hk.before, hk.after, hk.delay, hk.write, hk.read⟩, hj, hnets, hd, hw.millis, .inl hwd, hw.read, hw.write, hq.1, hq.2, hst,
      ⟨ha.reads, ha.writes, ha.delay⟩, fun _ h => by cases h⟩
  have hlt := w.ctx.scan.scanCount.isLt
  obtain ⟨n0, hn0⟩ : ∃ n0, w.ctx.scan.scanCount.toNat + n0 + 1 = 2^32 := ⟨2^32 - 1 - w.ctx.scan.scanCount.toNat, by omega⟩
  obtain ⟨j, rfl⟩ : ∃ j, n = n0 + (j + 1) := ⟨n - n0 - 1, by omega⟩
  obtain ⟨w1, cs, m', ms, -, hr, hall, h3, -⟩ := Steady.taskLoop hR n0 w.ctx.scan.scanCount.toNat (fun _ => True) (load w.ctx) w (by omega) hs
    ⟨⟨ha.alike, ha.flags, hc, by simp, by simp⟩, rfl, fun _ _ => rfl, rfl, rfl, trivial⟩
  have hna : ∀ c : Lap, asked (fun _ => false) c.sample w.ctx.fnReadQty = false := fun c => by simp [asked]
  have hno : ∀ c : Lap, c.overdue env w.ctx.qty.watchdogMs = false := fun c => by simp [Lap.overdue, hwd]
  rw [show (plain w.ctx).fnReadQty = w.ctx.fnReadQty from rfl, show (plain w.ctx).qty.watchdogMs = w.ctx.qty.watchdogMs from rfl] at *
  simp only [hna, hno, Bool.or_self] at hr h3
  rw [show (cs.any fun _ => false) = false by simp] at h3
  have hstart : ∀ j, task env j w = taskLoop env j w := fun j => by
    obtain ⟨b, eb, hb⟩ := taskRefuses_iff ht
    unfold task
    rw [bind_getCtx, eb, bind_lift_ok]
    cases b with
    | true => exact absurd (hb.1 rfl) hn
    | false => rfl
  have hfold := (hall fun _ => ⟨0, 0, 0⟩).1
  refine ⟨cs.map Lap.entry, ?_⟩
  rw [hfold]
  rcases hr with ⟨e, hh⟩ | ⟨hlt2, -, e, u, e2, hf⟩
  · have hlen : cs.length = n0 := by
      rcases Nat.lt_or_ge cs.length n0 with h | h
      · obtain ⟨_, -, h⟩ := hh.ended h; cases h
      · exact Nat.le_antisymm hh.length h
    have e := e (.running, w1) (by rw [hlen, Nat.sub_self]; rfl)
    rw [hlen] at h3
    have hset : Settled m' := by
      rw [← hfold]
      rcases List.eq_nil_or_concat (cs.map Lap.entry) with h | ⟨as, a, h⟩
      · rw [h]; exact hs
      · rw [h, List.concat_eq_append, List.foldl_append]
        exact settled_recall _
    have hrun : w1.ctx.state = .running := (h3.setup Ctx.state fun _ => rfl).trans hst
    have fin : ∀ u, Ladder.cycle env w1 = .error u → task env (n0 + (j + 1)) w = .error u := fun u hu => by
      rw [hstart, taskLoop_add n0 (j + 1) e, taskLoop, bind_getCtx, if_neg (by rw [hrun]; decide), bind_apply]
      have : taskIter env w1 = .error u := by
        rw [taskIter, bind_apply]
        unfold maxWait waitLoop
        rw [bind_getCtx, if_pos hrun]
        exact hu
      rw [this]
    rcases h3.cycle_last hR (by omega) hset with ⟨u, hu, hf⟩ | hu
    · exact ⟨u, fin u hu, .inr ⟨_, hf⟩⟩
    · exact ⟨_, fin _ hu, .inl rfl⟩
  · refine ⟨u, ?_, .inr ⟨_, hf⟩⟩
    obtain ⟨i, hi⟩ : ∃ i, n0 + (j + 1) = cs.length + (i + 1) := ⟨n0 + j - cs.length, by omega⟩
    rw [hstart, hi, taskLoop_add _ _ e, e2]

/-- **C94, every diagram**: no controller runs for ever.  Whatever its diagram calculates and whatever its inputs are, a task without a watchdog that
nobody stops ends in undefined behaviour, at the latest in the cycle its counter cannot count. -/
theorem C94_doomed {B : Ctx} {env : Env} {field : Nat → Field} {jobs : List CronJob} {nets : List Network} {w : World} (hB : Formed B)
    (hF : Fits B) (hp : Paired (load B)) (hk : Plugged B env field) (hj : Planned B jobs) (hnets : B.network = some nets)
    (hd : ∀ net ∈ nets, net.enable = true → Diagram net ∧ Room env w.ctx.scan.maxScanCycles (effort net))
    (ha : Mounted B w.ctx) (hc : Clean w.trace) (hw : Wired w.ctx) (ht : Tables w.ctx) (hn : ¬ Missing w.ctx)
    (hq : w.ctx.fnReadQty < 2^32 ∧ w.ctx.fnWriteQty < 2^32) (hst : w.ctx.state = .running) (hwd : w.ctx.qty.watchdogMs = 0)
    (hs : Settled (load w.ctx)) (n : Nat) (hcnt : 2^32 ≤ w.ctx.scan.scanCount.toNat + n) :
    task env n w = .error .signedOverflow ∨ task env n w = .error .divZero ∨ task env n w = .error .shiftRange := by
  obtain ⟨as, e, h, rfl | ⟨t, hf, -⟩⟩ := last_count hB hF hp hk hj hnets hd ha hc hw ht hn hq hst hwd hs n hcnt
  · exact .inr (.inl h)
  · rw [h]
    cases e <;> simp [arithmetic] at hf ⊢

/-- **C94** (partial): how long a controller can run.  Under the hypotheses of C73 -- a ladder diagram, hardware that only delivers inputs, no
watchdog, no stop -- the behaviour of the task over `n` iterations is defined exactly if its scan counter can count them. -/
theorem C94_exact_partial {B : Ctx} {env : Env} {field : Nat → Field} {jobs : List CronJob} {nets : List Network} {w : World} (hB : Well B)
    (hF : Fits B) (hp : Paired (load B)) (hk : Plugged B env field) (hj : Planned B jobs) (hnets : B.network = some nets)
    (hd : ∀ net ∈ nets, net.enable = true → Diagram net ∧ Room env w.ctx.scan.maxScanCycles (effort net))
    (ha : Mounted B w.ctx) (hc : Clean w.trace) (hw : Wired w.ctx) (ht : Tables w.ctx) (hn : ¬ Missing w.ctx)
    (hq : w.ctx.fnReadQty < 2^32 ∧ w.ctx.fnWriteQty < 2^32) (hst : w.ctx.state = .running) (hwd : w.ctx.qty.watchdogMs = 0)
    (hs : Settled (load w.ctx)) (n : Nat) :
    (w.ctx.scan.scanCount.toNat + n < 2^32 → ∃ w', task env n w = .ok (.running, w')) ∧
    (2^32 ≤ w.ctx.scan.scanCount.toNat + n → task env n w = .error .divZero) := by
  refine ⟨fun hcnt => ?_, fun hcnt => ?_⟩
  · obtain ⟨w', as, h1, -⟩ := C73_controller_partial hB hF hp hk hj hnets hd ha hc hw ht hn hq hst hwd hs n hcnt
    exact ⟨w', h1⟩
  obtain ⟨as, e, h, rfl | ⟨t, hf⟩⟩ := last_count (Formed.of_well hB) hF hp hk hj hnets hd ha hc hw ht hn hq hst hwd hs n hcnt
  · exact h
  · exact (hf.absurd hB hF hnets).elim

/-! ### Controllers that meet the hypotheses -/

open _root_.Ladder.Demo

/-- **C94 is violated**: the rungs of C73, begun with all counters at zero, divide by zero in their cycle number 2³², after some fifty
days at one cycle per millisecond; until then their behaviour is defined. -/
theorem C94_refuted_forever : hourly.scan.scanCount = 0 ∧ (∃ w', task wiredUp (2^32 - 1) ⟨hourly, 0, []⟩ = .ok (.running, w')) ∧
    ∀ n, 2^32 ≤ n → task wiredUp n ⟨hourly, 0, []⟩ = .error .divZero := by
  have ha : Alike hourly hourly := ⟨fits_of rfl, rfl, fun _ => rfl, rfl, rfl, rfl, rfl, rfl⟩
  have h := C94_exact_partial (w := ⟨hourly, 0, []⟩) sealed_well ha.fits hourly_paired wiredUp_plugged planned rfl
    (fun net hn _ => by
      rw [List.mem_singleton.1 hn]
      exact ⟨diagram_of (by decide), by decide, .inl fun _ _ => rfl⟩) ⟨ha, flags_demo [sealed], rfl, rfl, rfl⟩ (fun _ _ _ _ h => by cases h)
    ⟨rfl, fun n hn => by cases Nat.lt_one_iff.1 hn; rfl, fun n hn => by cases Nat.lt_one_iff.1 hn; rfl, fun _ => rfl, fun _ => rfl⟩ ⟨fun l h => by cases h; decide, fun l h => by cases h; decide⟩
    (fun h => by have := h.one; simp [hourly, ctx, at?] at this) ⟨by decide, by decide⟩ rfl rfl hourly_settled
  exact ⟨rfl, (h _).1 (by decide), fun n hn => (h n).2 (Nat.le_trans hn (Nat.le_add_left _ _))⟩

/-- The hypotheses of `C94_cycles` can be met: one cycle with the hook after it. -/
example : ∃ w', task wrapEnv 1 cycleDemo = .ok (.running, w') ∧ (news cycleDemo w').count .after = 1 ∧
    cycleDemo.ctx.scan.scanCount.toNat + (news cycleDemo w').count .after < 2^32 := by
  have key : (match task wrapEnv 1 cycleDemo with
      | .ok (r, w') => decide (r = .running ∧ (news cycleDemo w').count .after = 1) | .error _ => false) = true := by decide +kernel
  split at key
  · rename_i r w' h
    rw [decide_eq_true_iff] at key
    obtain ⟨rfl, k2⟩ := key
    exact ⟨w', h, k2, C94_cycles (wrapHooks _ fun _ => rfl) rfl rfl h⟩
  · cases key

end Props

end Ladder
