import Lean.Elab.Tactic.ElabTerm
import Verif.Model.SelfTest
import Verif.Lemmas.Task

/-
The test of the instructions: evaluating a test for every clock.
-/

set_option autoImplicit false

namespace Ladder.SelfTest

open Op

section tactics

open Lean Meta Elab Tactic

/-- Closes `a = b` by letting the kernel compute both sides. -/
elab "kernel_rfl" : tactic => do
  let g ← getMainGoal
  match (← instantiateMVars (← g.getType)).eq? with
  | some (α, a, _) =>
    g.assign (mkApp2 (mkConst ``Eq.refl [← getLevel α]) α a)
    setGoals []
  | none => throwError "kernel_rfl: not an equation"

/-- What the kernel's evaluation of `e` waits for: the instance of `Decidable`, and `e` as a function of it. -/
partial def waitsFor (e : Expr) : MetaM (Expr × (Expr → Expr)) := do
  let e ← ofExceptKernelException (Kernel.whnf (← getEnv) (← getLCtx) e)
  let .const n _ := e.getAppFn | throwError "kernel_case: evaluation ends"
  let some (.recInfo r) := (← getEnv).find? n | throwError "kernel_case: evaluation ends"
  let args := e.getAppArgs
  let i := r.getMajorIdx
  if n == ``Decidable.rec then return (args[i]!, fun d => mkAppN e.getAppFn (args.set! i d))
  let (d, f) ← waitsFor args[i]!
  return (d, fun x => mkAppN e.getAppFn (args.set! i (f x)))

/-- In a goal `a = b` where the kernel's evaluation of `a` waits for a decision: decides it by the hypothesis. -/
elab "kernel_case " h:term : tactic => withMainContext do
  let g ← getMainGoal
  let some (α, a, b) := (← instantiateMVars (← g.getType)).eq? | throwError "kernel_case: not an equation"
  let (d, f) ← waitsFor a
  let p ← inferType d
  let hn ← elabTerm h none
  let side := if (← whnfR (← instantiateMVars (← inferType hn))).isAppOf ``Not then ``Decidable.isFalse else ``Decidable.isTrue
  let d' := mkApp2 (mkConst side) p.appArg! hn
  let u ← getLevel α
  let goal (x : Expr) : Expr := mkApp3 (mkConst ``Eq [u]) α (f x) b
  let motive ← withLocalDeclD `d p fun x => mkLambdaFVars #[x] (goal x)
  let eq := mkAppN (mkConst ``Subsingleton.elim [1]) #[p, mkApp (mkConst ``instSubsingletonDecidable) p.appArg!, d, d']
  let new ← mkFreshExprSyntheticOpaqueMVar (goal d')
  g.assign (mkAppN (mkConst ``Eq.mpr [0]) #[goal d, goal d', mkAppN (mkConst ``congrArg [1, 1]) #[p, mkSort 0, d, d', motive, eq], new])
  setGoals [new.mvarId!]

end tactics

/-- The part of a cycle between the two readings of the clock that measure it; false if the cycle is given up or has failed. -/
def core (env : Env) : Op Bool := do
  callBefore env
  if !(← readPhase env) then pure false else do
  if !(← outHistPhase env) then pure false else do
  scan env
  let ctx ← getCtx
  if ctx.state = .inv then pure false else do
    let ctx' ← lift (savePrevious ctx)
    modCtx fun _ => ctx'
    doWrites env
    pure true

/-- What is not known about the state before a call of the task: the statistics after it, the number of external calls and the events before. -/
structure Stamp where
  scan : ScanInt
  tick : Nat
  trace : List Event

/-- The statistics after a cycle: `s`, with the limits and the counter of `b`. -/
def stamped (s b : ScanInt) : ScanInt :=
  { s with maxScanCycles := b.maxScanCycles, targetScanMs := b.targetScanMs, scanCount := b.scanCount + 1 }

/-- The state in which a cycle ends with the callback after it. -/
def ending (c : Ctx) : Bool := c.millis && decide (c.qty.watchdogMs = 0) && !decide (c.scan.scanCount + 1 = 0) && c.on.taskAfter

/-- The steps of a test, with one cycle for each call of the task and stamps for what is not known: the number of failures, `none` if this
does not say what happens. -/
def rehearse (env : Env) : List Step → (Nat → Stamp) → Ctx → Except UB (Option Nat)
  | [], _, _ => .ok (some 0)
  | .assign f :: k, s, c =>
    match f c with
    | .error e => .error e
    | .ok c => rehearse env k s c
  | .cell row col code :: k, s, c =>
    match fnCell true c 0 row col code 0 with
    | .error e => .error e
    | .ok (true, c) => rehearse env k s c
    | .ok (false, _) => .ok none
  | .foreign :: k, s, c =>
    match addForeign true c foreignInit 1 with
    | (true, c) => rehearse env k s c
    | (false, _) => .ok none
  | .task :: k, s, c =>
    match taskRefuses c with
    | .ok false =>
      match c.state with
      | .exitTsk => rehearse env k (fun i => s (i + 1)) c
      | .running =>
        match c.millis with
        | true =>
          match core env ⟨{ c with scan := { c.scan with startTime := env.clock (s 0).tick } }, (s 0).tick + 1, (s 0).trace⟩ with
          | .error e => .error e
          | .ok (b, w) =>
            match b && ending w.ctx with
            | true => rehearse env k (fun i => s (i + 1)) { w.ctx with scan := stamped (s 0).scan w.ctx.scan, state := .exitTsk }
            | false => .ok none
        | false => .ok none
      | _ => .ok none
    | _ => .ok none
  | .check p :: k, s, c =>
    match p c with
    | .error e => .error e
    | .ok b => (rehearse env k s c).map fun r => r.map (· + if b then 0 else 1)

variable {env : Env}

/-- The end of a cycle. -/
theorem cycle_core {w w2 : World} (hm : w.ctx.millis = true)
    (h : core env ⟨{ w.ctx with scan := { w.ctx.scan with startTime := env.clock w.tick } }, w.tick + 1, w.trace⟩ = .ok (true, w2)) :
    cycle env w = (do scanTime env; pad env; callAfter env; pure .again : Op IterRes) w2 := by
  unfold core at h
  obtain ⟨u, w3, hb, h⟩ := bind_eq_ok.1 h
  obtain ⟨b, w4, hr, h⟩ := bind_eq_ok.1 h
  cases b with
  | false => simp at h
  | true =>
    simp only [Bool.not_true, Bool.false_eq_true, if_false] at h
    obtain ⟨b, w5, ho, h⟩ := bind_eq_ok.1 h
    cases b with
    | false => simp at h
    | true =>
      simp only [Bool.not_true, Bool.false_eq_true, if_false] at h
      obtain ⟨u, w6, hs, h⟩ := bind_eq_ok.1 h
      rw [bind_getCtx] at h
      split at h
      · simp at h
      · rename_i hi
        rw [bind_lift_eq_ok] at h
        obtain ⟨c, hp, h⟩ := h
        rw [bind_modCtx] at h
        obtain ⟨u, w7, hw, h⟩ := bind_eq_ok.1 h
        simp at h
        subst h
        unfold cycle
        rw [bind_getCtx]
        simp only [hm, Bool.not_true, Bool.false_eq_true, if_false]
        have e1 : callMillis env w = .ok (env.clock w.tick, { w with tick := w.tick + 1 }) := by
          unfold callMillis
          rw [if_pos hm]
        rw [bind_ok e1, bind_modCtx, bind_ok hb, bind_ok hr]
        simp only [Bool.not_true, Bool.false_eq_true, if_false]
        rw [bind_ok ho]
        simp only [Bool.not_true, Bool.false_eq_true, if_false]
        rw [bind_ok hs, bind_getCtx, if_neg hi, hp, bind_lift_ok, bind_modCtx, bind_ok hw]

variable {clock : Nat → W64} {zone : Nat → Tm}

/-- A cycle of the self-test, with the statistics it leaves. -/
theorem cycle_ends {w w2 : World} (hm : w.ctx.millis = true)
    (h : core (SelfTest.env clock zone) ⟨{ w.ctx with scan := { w.ctx.scan with startTime := clock w.tick } }, w.tick + 1, w.trace⟩ = .ok (true, w2))
    (he : ending w2.ctx = true) :
    ∃ S t tr, cycle (SelfTest.env clock zone) w = .ok (.again, ⟨{ w2.ctx with scan := stamped S w2.ctx.scan, state := .exitTsk }, t, tr⟩) := by
  rw [cycle_core (env := SelfTest.env clock zone) hm h]
  simp only [ending, Bool.and_eq_true, decide_eq_true_eq, Bool.not_eq_true', decide_eq_false_iff_not] at he
  obtain ⟨⟨⟨hm2, hd⟩, hc⟩, ha⟩ := he
  have e1 : ∃ S, scanMetrics w2.ctx.scan (clock w2.tick) = .ok (stamped S w2.ctx.scan) := by
    obtain ⟨S, hS⟩ : ∃ S, scanMetrics w2.ctx.scan (clock w2.tick) = .ok S := by
      unfold scanMetrics
      simp only [if_neg hc]
      exact ⟨_, rfl⟩
    refine ⟨S, hS.trans (congrArg _ ?_)⟩
    unfold scanMetrics at hS
    simp only [if_neg hc] at hS
    cases hS
    rfl
  obtain ⟨S, e1⟩ := e1
  refine ⟨S, ?_⟩
  have e2 : scanTime (SelfTest.env clock zone) w2 = .ok ((), { w2 with ctx := { w2.ctx with scan := stamped S w2.ctx.scan }, tick := w2.tick + 1 }) := by
    unfold scanTime
    rw [bind_getCtx, if_neg (by rw [hm2]; simp)]
    have e : callMillis (SelfTest.env clock zone) w2 = .ok (clock w2.tick, { w2 with tick := w2.tick + 1 }) := by
      unfold callMillis
      rw [if_pos hm2]
      rfl
    rw [bind_ok e, e1, bind_lift_ok, bind_modCtx, if_neg (by omega)]
    rfl
  rw [bind_ok e2]
  have e3 : ∃ t tr, pad (SelfTest.env clock zone) { w2 with ctx := { w2.ctx with scan := stamped S w2.ctx.scan }, tick := w2.tick + 1 } =
      .ok ((), ⟨{ w2.ctx with scan := stamped S w2.ctx.scan }, t, tr⟩) := by
    rw [pad_apply]
    split
    · exact ⟨_, _, rfl⟩
    · exact ⟨_, _, rfl⟩
  obtain ⟨t, tr, e3⟩ := e3
  rw [bind_ok e3]
  have e4 : callAfter (SelfTest.env clock zone) ⟨{ w2.ctx with scan := stamped S w2.ctx.scan }, t, tr⟩ =
      .ok ((), ⟨{ w2.ctx with scan := stamped S w2.ctx.scan, state := .exitTsk }, t + 1, tr ++ [.after]⟩) := by
    rw [callAfter_apply, if_pos ha]
    rfl
  rw [bind_ok e4]
  exact ⟨_, _, rfl⟩

/-- A task asked to end. -/
theorem task_over {c : Ctx} (hr : taskRefuses c = .ok false) (hs : c.state = .exitTsk) (n t : Nat) (tr : List Event) :
    ∃ t' tr', task (SelfTest.env clock zone) (n + 1) ⟨c, t, tr⟩ = .ok (.ended, ⟨c, t', tr'⟩) := by
  unfold task
  rw [bind_getCtx, hr, bind_lift_ok]
  simp only [Bool.false_eq_true, if_false]
  unfold taskLoop
  rw [bind_getCtx, if_pos hs]
  have e : ∃ t' tr', callEndTask (SelfTest.env clock zone) ⟨c, t, tr⟩ = .ok ((), ⟨c, t', tr'⟩) := by
    rw [callEndTask_apply]
    split
    · exact ⟨_, _, rfl⟩
    · exact ⟨_, _, rfl⟩
  obtain ⟨t', tr', e⟩ := e
  rw [bind_ok e]
  exact ⟨_, _, rfl⟩

/-- A task of one cycle. -/
theorem task_once {c : Ctx} {w2 : World} (t : Nat) (tr : List Event) (hr : taskRefuses c = .ok false) (hs : c.state = .running) (hm : c.millis = true)
    (h : core (SelfTest.env clock zone) ⟨{ c with scan := { c.scan with startTime := clock t } }, t + 1, tr⟩ = .ok (true, w2))
    (he : ending w2.ctx = true) (n : Nat) :
    ∃ S t' tr', task (SelfTest.env clock zone) (n + 2) ⟨c, t, tr⟩ =
      .ok (.ended, ⟨{ w2.ctx with scan := stamped S w2.ctx.scan, state := .exitTsk }, t', tr'⟩) := by
  obtain ⟨S, t1, tr1, hc⟩ := cycle_ends (w := ⟨c, t, tr⟩) hm h he
  refine ⟨S, ?_⟩
  unfold task
  rw [bind_getCtx, hr, bind_lift_ok]
  simp only [Bool.false_eq_true, if_false]
  unfold taskLoop
  rw [bind_getCtx, if_neg (by rw [hs]; simp)]
  have hi : taskIter (SelfTest.env clock zone) ⟨c, t, tr⟩ = .ok (.again, ⟨{ w2.ctx with scan := stamped S w2.ctx.scan, state := .exitTsk }, t1, tr1⟩) := by
    unfold taskIter
    have hw : waitLoop (SelfTest.env clock zone) maxWait ⟨c, t, tr⟩ = .ok (.ready, ⟨c, t, tr⟩) := by
      unfold maxWait waitLoop
      rw [bind_getCtx, if_pos hs]
      rfl
    rw [bind_ok hw]
    exact hc
  rw [bind_ok hi]
  simp only
  unfold taskLoop
  rw [bind_getCtx, if_pos rfl]
  have e : ∃ t' tr', callEndTask (SelfTest.env clock zone) ⟨{ w2.ctx with scan := stamped S w2.ctx.scan, state := .exitTsk }, t1, tr1⟩ =
      .ok ((), ⟨{ w2.ctx with scan := stamped S w2.ctx.scan, state := .exitTsk }, t', tr'⟩) := by
    rw [callEndTask_apply]
    split
    · exact ⟨_, _, rfl⟩
    · exact ⟨_, _, rfl⟩
  obtain ⟨t', tr', e⟩ := e
  rw [bind_ok e]
  exact ⟨_, _, rfl⟩

theorem rehearse_task {steps : List Step} {s : Nat → Stamp} {c : Ctx} {t : Nat} {tr : List Event} (hr : taskRefuses c = .ok false)
    (hs : c.state = .running) (hm : c.millis = true) (ht : (s 0).tick = t) (htr : (s 0).trace = tr) :
    rehearse (SelfTest.env clock zone) (.task :: steps) s c =
      match core (SelfTest.env clock zone) ⟨{ c with scan := { c.scan with startTime := clock t } }, t + 1, tr⟩ with
      | .error e => .error e
      | .ok (b, w) =>
        match b && ending w.ctx with
        | true => rehearse (SelfTest.env clock zone) steps (fun i => s (i + 1)) { w.ctx with scan := stamped (s 0).scan w.ctx.scan, state := .exitTsk }
        | false => .ok none := by
  obtain ⟨⟩ := c
  simp only at hs hm
  subst hs hm ht htr
  rw [rehearse, hr]
  rfl

/-- What the rehearsal of a test says for all stamps that begin at the present time is what its performance does. -/
theorem perform_of (n : Nat) : ∀ (steps : List Step) (c : Ctx) (t : Nat) (tr : List Event), ∃ s : Nat → Stamp, (s 0).tick = t ∧
    ∀ k, rehearse (SelfTest.env clock zone) steps s c = .ok (some k) →
      ∃ w, perform (SelfTest.env clock zone) (n + 2) steps ⟨c, t, tr⟩ = .ok (some k, w) := by
  intro steps
  induction steps with
  | nil =>
    intro c t tr
    refine ⟨fun _ => ⟨c.scan, t, tr⟩, rfl, fun k h => ?_⟩
    cases h
    exact ⟨_, rfl⟩
  | cons st steps ih =>
    intro c t tr
    cases st with
    | assign f =>
      cases hf : f c with
      | error e => exact ⟨fun _ => ⟨c.scan, t, tr⟩, rfl, fun k h => by simp [rehearse, hf] at h⟩
      | ok c' =>
        obtain ⟨s, hs, h⟩ := ih c' t tr
        refine ⟨s, hs, fun k hk => ?_⟩
        simp only [rehearse, hf] at hk
        obtain ⟨w, hw⟩ := h k hk
        refine ⟨w, ?_⟩
        unfold perform
        rw [bind_getCtx, hf, bind_lift_ok, bind_modCtx]
        exact hw
    | cell row col code =>
      cases hf : fnCell true c 0 row col code 0 with
      | error e => exact ⟨fun _ => ⟨c.scan, t, tr⟩, rfl, fun k h => by simp [rehearse, hf] at h⟩
      | ok r =>
        obtain ⟨b, c'⟩ := r
        cases b with
        | false => exact ⟨fun _ => ⟨c.scan, t, tr⟩, rfl, fun k h => by simp [rehearse, hf] at h⟩
        | true =>
          obtain ⟨s, hs, h⟩ := ih c' t tr
          refine ⟨s, hs, fun k hk => ?_⟩
          simp only [rehearse, hf] at hk
          obtain ⟨w, hw⟩ := h k hk
          refine ⟨w, ?_⟩
          unfold perform
          rw [bind_getCtx, hf, bind_lift_ok, bind_modCtx]
          exact hw
    | foreign =>
      cases hf : addForeign true c foreignInit 1 with
      | mk b c' =>
        cases b with
        | false => exact ⟨fun _ => ⟨c.scan, t, tr⟩, rfl, fun k h => by simp [rehearse, hf] at h⟩
        | true =>
          obtain ⟨s, hs, h⟩ := ih c' t tr
          refine ⟨s, hs, fun k hk => ?_⟩
          simp only [rehearse, hf] at hk
          obtain ⟨w, hw⟩ := h k hk
          refine ⟨w, ?_⟩
          unfold perform
          rw [bind_getCtx]
          simp only [hf, bind_modCtx, if_true]
          exact hw
    | check p =>
      cases hf : p c with
      | error e => exact ⟨fun _ => ⟨c.scan, t, tr⟩, rfl, fun k h => by simp [rehearse, hf] at h⟩
      | ok b =>
        obtain ⟨s, hs, h⟩ := ih c t tr
        refine ⟨s, hs, fun k hk => ?_⟩
        simp only [rehearse, hf] at hk
        cases hr : rehearse (SelfTest.env clock zone) steps s c with
        | error e => rw [hr] at hk; cases hk
        | ok r =>
          rw [hr] at hk
          cases r with
          | none => cases hk
          | some j =>
            obtain ⟨w, hw⟩ := h j hr
            refine ⟨w, ?_⟩
            unfold perform
            rw [bind_getCtx, hf, bind_lift_ok, bind_ok hw]
            cases hk
            rfl
    | task =>
      have bad (h : ∀ s k, (s 0).tick = t → (s 0).trace = tr → rehearse (SelfTest.env clock zone) (.task :: steps) s c ≠ .ok (some k)) :
          ∃ s : Nat → Stamp, (s 0).tick = t ∧ ∀ k, rehearse (SelfTest.env clock zone) (.task :: steps) s c = .ok (some k) →
            ∃ w, perform (SelfTest.env clock zone) (n + 2) (.task :: steps) ⟨c, t, tr⟩ = .ok (some k, w) :=
        ⟨fun _ => ⟨c.scan, t, tr⟩, rfl, fun k hk => absurd hk (h _ k rfl rfl)⟩
      cases hr : taskRefuses c with
      | error e => exact bad fun s k _ _ => by simp [rehearse, hr]
      | ok b =>
        cases b with
        | true => exact bad fun s k _ _ => by simp [rehearse, hr]
        | false =>
          by_cases hx : c.state = .exitTsk
          · obtain ⟨t', tr', ht⟩ := task_over (clock := clock) (zone := zone) hr hx (n + 1) t tr
            obtain ⟨s, hs, h⟩ := ih c t' tr'
            refine ⟨fun i => match i with | 0 => ⟨c.scan, t, tr⟩ | i + 1 => s i, rfl, fun k hk => ?_⟩
            simp only [rehearse, hr, hx] at hk
            obtain ⟨w, hw⟩ := h k hk
            refine ⟨w, ?_⟩
            unfold perform
            rw [bind_ok ht, if_neg (by simp)]
            exact hw
          · by_cases hrun : c.state = .running
            · cases hm : c.millis with
              | false => exact bad fun s k _ _ => by simp [rehearse, hr, hrun, hm]
              | true =>
                cases hc : core (SelfTest.env clock zone) ⟨{ c with scan := { c.scan with startTime := clock t } }, t + 1, tr⟩ with
                | error e =>
                  exact bad fun s k e1 e2 => by
                    rw [rehearse_task hr hrun hm e1 e2, hc]
                    simp
                | ok r =>
                  obtain ⟨b, w2⟩ := r
                  cases hb : b && ending w2.ctx with
                  | false =>
                    exact bad fun s k e1 e2 => by
                      rw [rehearse_task hr hrun hm e1 e2, hc]
                      simp [hb]
                  | true =>
                    obtain ⟨b1, he⟩ := Bool.and_eq_true_iff.1 hb
                    subst b1
                    obtain ⟨S, t', tr', ht⟩ := task_once t tr hr hrun hm hc he n
                    obtain ⟨s, hs, h⟩ := ih { w2.ctx with scan := stamped S w2.ctx.scan, state := .exitTsk } t' tr'
                    refine ⟨fun i => match i with | 0 => ⟨S, t, tr⟩ | i + 1 => s i, rfl, fun k hk => ?_⟩
                    rw [rehearse_task hr hrun hm rfl rfl, hc] at hk
                    simp only [hb] at hk
                    obtain ⟨w, hw⟩ := h k hk
                    refine ⟨w, ?_⟩
                    unfold perform
                    rw [bind_ok ht, if_neg (by simp)]
                    exact hw
            · exact bad fun s k _ _ => by
                simp only [rehearse, hr]
                cases hst : c.state <;> simp_all

end Ladder.SelfTest
