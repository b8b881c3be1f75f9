import Verif.Props.Control

/-
C93: a controller whose cycle takes longer than its watchdog allows.
-/

set_option autoImplicit false

namespace Ladder

open Spec Op Logic

theorem any_last {α : Type} {last : α → Bool} {as : List α} (h : ∀ e ∈ as.dropLast, last e = false) (ha : as.any last = true) :
    ∃ e, as.getLast? = some e ∧ last e = true := by
  rcases List.eq_nil_or_concat as with rfl | ⟨bs, e, rfl⟩
  · cases ha
  · rw [List.concat_eq_append] at h ha ⊢
    rw [List.dropLast_concat] at h
    refine ⟨e, List.getLast?_concat .., ?_⟩
    obtain ⟨x, hx, hx'⟩ := List.any_eq_true.1 ha
    rcases List.mem_append.1 hx with hx | hx
    · rw [h x hx] at hx'; cases hx'
    · rw [List.mem_singleton.1 hx] at hx'; exact hx'

theorem last_any {α : Type} {f : α → Bool} {as : List α} {e : α} (h : as.getLast? = some e) (he : f e = true) : as.any f = true :=
  List.any_eq_true.2 ⟨e, List.mem_of_getLast? h, he⟩

variable {env : Env}

theorem afterWaits_idle (hd : ∀ t c, env.delay t c = c) (w : World) : ∀ k, (afterWaits env w k).ctx = w.ctx
  | 0 => rfl
  | k + 1 => (hd _ _).trans (afterWaits_idle hd w k)

theorem afterWaits_sent (hd : ∀ t c, env.delay t c = c) (w : World) : ∀ k, Sent w (afterWaits env w k) []
  | 0 => Sent.refl rfl
  | k + 1 => (afterWaits_sent hd w k).trans (y := []) ⟨_, rfl, rfl⟩

theorem panicked_sent (w : World) : Sent w (panicked env w) [] := by
  unfold panicked; split
  · exact ⟨_, rfl, rfl⟩
  · exact Sent.refl rfl

theorem endHook_sent (w : World) : Sent w (endHook env w) [] := by
  unfold endHook; split
  · exact ⟨_, rfl, rfl⟩
  · exact Sent.refl rfl

theorem givenUp_sent (hd : ∀ t c, env.delay t c = c) (w : World) : Sent w (givenUp env w) [] :=
  (afterWaits_sent hd w 1000).trans (y := []) (panicked_sent (env := env) (inState (afterWaits env w 1000) .error) : Sent _ _ [])

theorem parted_sent (hd : ∀ t c, env.delay t c = c) (b : Bool) (n : Nat) (w : World) : Sent w (parted env b n w).2 [] := by
  cases n with
  | zero => exact Sent.refl rfl
  | succ n =>
    simp only [parted]
    split
    · exact endHook_sent w
    · split
      · exact givenUp_sent hd w
      · exact (givenUp_sent hd w).trans (endHook_sent _)

/-- The iterations after the last cycle. -/
theorem taskLoop_parted (hd : ∀ t c, env.delay t c = c) {w : World} {b : Bool} (hdl : w.ctx.delay = true)
    (n : Nat) (hs : 0 < n → w.ctx.state = if b then .error else .exitTsk) : taskLoop env n w = .ok (parted env b n w) := by
  cases n with
  | zero => rfl
  | succ n =>
    have hs := hs (Nat.succ_pos n)
    have leave : ∀ (v : World) (n : Nat), v.ctx.state = .exitTsk → taskLoop env (n + 1) v = .ok (.ended, endHook env v) := by
      intro v n hv
      unfold taskLoop
      rw [bind_getCtx, if_pos hv, bind_ok (callEndTask_apply v)]
      rfl
    cases b with
    | false => exact leave w n hs
    | true =>
      have hi : ∀ i, i < 1000 → Props.Idle (afterWaits env w i) := fun i _ => by
        unfold Props.Idle
        rw [afterWaits_idle hd, hs]
        exact ⟨by decide, by decide⟩
      have e : taskLoop env (n + 1) w = taskLoop env n (givenUp env w) := by
        rw [taskLoop]
        rw [bind_getCtx, if_neg (by rw [hs]; decide), bind_ok (Props.taskIter_timeout (fun t c h => by rw [hd]; exact h) hdl hi)]
        rfl
      rw [e]
      cases n with
      | zero => rfl
      | succ n => exact leave _ n rfl

theorem load_givenUp (hd : ∀ t c, env.delay t c = c) (hp : ∀ t c, env.panic t c = c) (w : World) (ℓ : Loc) : load (givenUp env w).ctx ℓ = load w.ctx ℓ := by
  have e : ∀ (v : World) (s : St), load (inState v s).ctx ℓ = load v.ctx ℓ := fun v s => by cases ℓ <;> rfl
  have e' : ∀ v : World, (panicked env v).ctx = v.ctx := fun v => by
    unfold panicked; split
    · exact hp _ _
    · rfl
  unfold givenUp
  rw [e, e', e, afterWaits_idle hd]

namespace Props

theorem taskLoop_add {env : Env} : ∀ (a b : Nat) {w w1 : World}, taskLoop env a w = .ok (.running, w1) → taskLoop env (a + b) w = taskLoop env b w1
  | 0, b, w, w1, h => by cases h; rw [Nat.zero_add]
  | a + 1, b, w, w1, h => by
    rw [show a + 1 + b = (a + b) + 1 by omega]
    rw [taskLoop, bind_getCtx] at h ⊢
    split at h
    · rename_i hs
      rw [bind_ok (callEndTask_apply w)] at h
      cases h
    · rename_i hs
      rw [if_neg hs]
      obtain ⟨r, v, h1, h2⟩ := bind_eq_ok.1 h
      rw [bind_ok h1]
      cases r with
      | again => exact taskLoop_add a b h2
      | exit =>
        change (callEndTask env >>= fun _ => pure TaskRes.ended) v = _ at h2
        rw [bind_ok (callEndTask_apply v)] at h2
        cases h2
      | leave => cases h2

/-- C95 with a watchdog and requests to stop: a controller that calculates.  The task performs its cycles one after the other, each as the diagram
says, and they end in one of two ways.  Either, as in C93, the last one took longer than the limit or was the one in which a stop was requested, and
the end of the task is the one described there (or all `n` were performed); or none of them was of that sort and in the next one
arithmetic of the diagram has no result, which makes the behaviour undefined from there on, and nothing else does. -/
theorem C95_guarded {B : Ctx} {env : Env} {field : Nat → Field} {stop : Nat → Bool} {jobs : List CronJob} {nets : List Network} {w : World}
    (hB : Formed B) (hF : Fits B) (hp : Paired (load B)) (hk : Attended B env field stop) (hj : Planned B jobs) (hnets : B.network = some nets)
    (hd : ∀ net ∈ nets, net.enable = true → Diagram net ∧ Room env w.ctx.scan.maxScanCycles (effort net))
    (hrail : ∀ t, stop t = true → ∀ n r x, cell? B n r 0 = some x → x.code ≠ .CTU ∧ x.code ≠ .CTD)
    (ha : Mounted B w.ctx) (hc : Clean w.trace) (hw : Wired w.ctx) (ht : Tables w.ctx) (hn : ¬ Missing w.ctx)
    (hq : w.ctx.fnReadQty < 2^32 ∧ w.ctx.fnWriteQty < 2^32) (hst : w.ctx.state = .running)
    (hwd : w.ctx.qty.watchdogMs = 0 ∨ ∀ t c, env.panic t c = c)
    (hs : Settled (load w.ctx)) (n : Nat) (hcnt : w.ctx.scan.scanCount.toNat + n < 2^32) :
    ∃ (w1 : World) (cs : List Lap), let late := cs.any fun c => c.overdue env w.ctx.qty.watchdogMs
      let last := fun c : Lap => c.overdue env w.ctx.qty.watchdogMs || asked stop c.sample w.ctx.fnReadQty
      Laps env w.ctx.fnReadQty w.tick cs w1.tick ∧
      w1.ctx.state = (if late then .error else if cs.any fun c => asked stop c.sample w.ctx.fnReadQty then .exitTsk else .running) ∧
      w1.ctx.on = w.ctx.on ∧ (late = true → ∀ ℓ, load (givenUp env w1).ctx ℓ = load w1.ctx ℓ) ∧
      (∀ rest, let f := turn w.ctx.fnReadQty field env.localtime jobs (nets.take B.qty.networks) rest
        (∀ ℓ, register ℓ = true → load w1.ctx ℓ = (cs.map Lap.entry).foldl f (load w.ctx) ℓ) ∧
        commands (news w w1) =
          ((successive f (load w.ctx) (cs.map Lap.entry)).flatMap fun m => (List.range w.ctx.fnWriteQty).map fun j => (j, orders m)) ∧
        Exhausts (computed w.ctx.fnReadQty field env.localtime jobs (nets.take B.qty.networks) rest) rest (load w.ctx) (cs.map Lap.entry)) ∧
      (task env n w = .ok (parted env late (n - cs.length) w1) ∧ Halted last n cs ∧
          commands (news w (parted env late (n - cs.length) w1).2) = commands (news w w1) ∨
        cs.length < n ∧ (∀ c ∈ cs, last c = false) ∧ task env cs.length w = .ok (.running, w1) ∧
          ∃ e a us hi, (∀ j, cs.length < j → task env j w = .error e) ∧ (e = .signedOverflow ∨ e = .divZero ∨ e = .shiftRange) ∧
            w1.tick < a ∧ Told env (a + w.ctx.fnReadQty) hi us ∧
            ∀ rest, (computed w.ctx.fnReadQty field env.localtime jobs (nets.take B.qty.networks) rest
              ((cs.map Lap.entry).foldl (turn w.ctx.fnReadQty field env.localtime jobs (nets.take B.qty.networks) rest) (load w.ctx)) (a, us)).sure = false) := by
  have hR : Steady.Rig B w.ctx.scan.maxScanCycles env field stop jobs nets (plain w.ctx) :=
    ⟨hB, hF, hp, hk, hj, hnets, hd, hw.millis, hwd, hw.read, hw.write, hq.1, hq.2, hst, ⟨ha.reads, ha.writes, ha.delay⟩, hrail⟩
  obtain ⟨w1, cs, m', ms, h2, hr, hall, h3, hsent⟩ := Steady.taskLoop hR n w.ctx.scan.scanCount.toNat (fun _ => True) (load w.ctx) w hcnt hs
    ⟨⟨ha.alike, ha.flags, hc, by simp, by simp⟩, rfl, fun _ _ => rfl, rfl, rfl, trivial⟩
  rw [show (plain w.ctx).fnReadQty = w.ctx.fnReadQty from rfl, show (plain w.ctx).qty.watchdogMs = w.ctx.qty.watchdogMs from rfl] at *
  rw [show (plain w.ctx).fnWriteQty = w.ctx.fnWriteQty from rfl] at hsent
  have keep : ∀ {α : Type} (f : Ctx → α), (∀ c, f (plain c) = f c) → (∀ c s, f { c with state := s } = f c) → f w1.ctx = f w.ctx := by
    intro α f h4 h5
    rw [h3.setup f h4]
    unfold failed stopped
    split <;> split <;> simp only [h5, h4]
  have hon : w1.ctx.on = w.ctx.on := keep Ctx.on (fun _ => rfl) fun _ _ => rfl
  have hdl : w1.ctx.delay = true := (keep Ctx.delay (fun _ => rfl) fun _ _ => rfl).trans (Classical.byContradiction fun h => hn ⟨.inr (.inl (by simpa using h))⟩)
  have hstate : w1.ctx.state = (if cs.any fun c => c.overdue env w.ctx.qty.watchdogMs then .error
      else if cs.any fun c => asked stop c.sample w.ctx.fnReadQty then .exitTsk else .running) := by
    rw [h3.setup Ctx.state fun _ => rfl]
    unfold failed stopped
    split
    · rfl
    · split
      · rfl
      · exact hst
  have hstart : ∀ j, task env j w = taskLoop env j w := fun j => by
    obtain ⟨b, eb, hb⟩ := taskRefuses_iff ht
    unfold task
    rw [bind_getCtx, eb, bind_lift_ok]
    cases b with
    | true => exact absurd (hb.1 rfl) hn
    | false => rfl
  refine ⟨w1, cs, h2, hstate, hon, fun hl => load_givenUp hk.delay (hwd.resolve_left fun h0 => ?_) w1, fun rest => ?_, ?_⟩
  · obtain ⟨c, -, hc⟩ := List.any_eq_true.1 hl
    simp [Lap.overdue, h0] at hc
  · obtain ⟨h6, h7, h8⟩ := hall rest
    refine ⟨fun ℓ hl => (h3.image ℓ hl).trans (congrFun h6.symm ℓ), ?_, h8⟩
    obtain ⟨new, h4, h5⟩ := hsent
    have : news w w1 = new := by unfold news; rw [h4]; simp
    rw [this, h5, ← h7]
  · rcases hr with ⟨e, hh⟩ | ⟨hlt, hno, hrun, e, e2, hf, a, us, hi, h6, h7, h8⟩
    · refine .inl ⟨?_, hh, ?_⟩
      · rw [hstart]
        refine e _ (taskLoop_parted hk.delay hdl _ fun hpos => ?_)
        obtain ⟨c, hc1, hc2⟩ := hh.ended (by omega)
        rw [hstate]
        split
        · rfl
        · rename_i hnl
          have : asked stop c.sample w.ctx.fnReadQty = true := (Bool.or_eq_true_iff.1 hc2).resolve_left fun h => hnl (last_any hc1 h)
          rw [if_pos (last_any hc1 this)]
      · obtain ⟨new, h4, h5⟩ := hsent
        obtain ⟨new', h4', h5'⟩ := parted_sent hk.delay (cs.any fun c => c.overdue env w.ctx.qty.watchdogMs) (n - cs.length) w1
        unfold news
        rw [h4', h4, List.append_assoc, List.drop_left, List.drop_left]
        unfold commands at h5' ⊢
        rw [List.filterMap_append, h5', List.append_nil]
    · refine .inr ⟨hlt, hno, (hstart _).trans hrun, e, a, us, hi, fun j hj => ?_, ?_, h6, h7, fun rest => ?_⟩
      · obtain ⟨i, rfl⟩ : ∃ i, j = cs.length + (i + 1) := ⟨j - cs.length - 1, by omega⟩
        rw [hstart, taskLoop_add _ _ hrun, e2]
      · cases e <;> simp [arithmetic] at hf ⊢
      · rw [(hall rest).1]
        exact h8 rest

/-- **C93** (partial): a controller whose cycle takes longer than its watchdog allows.  As C73 and C90, for a task with a watchdog.  The task performs
its cycles one after the other, each as the diagram says, up to and including the first one that takes longer than the limit by the clock of
the task, or in which a stop is requested.  This cycle, too, sends every output module what it computed.  If it took too long the task is
then in state ERROR, also if a stop was requested: it waits 1000 times, reports, and ends.  Nothing more is ever sent to an output
module, so each is left with what the last cycle computed.

Missing: what C90 misses.  The reports (`on.panic`) must leave the context alone, otherwise they may as well restart the task. -/
theorem C93_watchdog_partial {B : Ctx} {env : Env} {field : Nat → Field} {stop : Nat → Bool} {jobs : List CronJob} {nets : List Network} {w : World}
    (hB : Well B) (hF : Fits B) (hp : Paired (load B)) (hk : Attended B env field stop) (hj : Planned B jobs) (hnets : B.network = some nets)
    (hd : ∀ net ∈ nets, net.enable = true → Diagram net ∧ Room env w.ctx.scan.maxScanCycles (effort net))
    (hrail : ∀ t, stop t = true → ∀ n r x, cell? B n r 0 = some x → x.code ≠ .CTU ∧ x.code ≠ .CTD)
    (ha : Mounted B w.ctx) (hc : Clean w.trace) (hw : Wired w.ctx) (ht : Tables w.ctx) (hn : ¬ Missing w.ctx)
    (hq : w.ctx.fnReadQty < 2^32 ∧ w.ctx.fnWriteQty < 2^32) (hst : w.ctx.state = .running)
    (hwd : w.ctx.qty.watchdogMs = 0 ∨ ∀ t c, env.panic t c = c)
    (hs : Settled (load w.ctx)) (n : Nat) (hcnt : w.ctx.scan.scanCount.toNat + n < 2^32) :
    ∃ (w1 : World) (cs : List Lap), let late := cs.any fun c => c.overdue env w.ctx.qty.watchdogMs
      task env n w = .ok (parted env late (n - cs.length) w1) ∧ Laps env w.ctx.fnReadQty w.tick cs w1.tick ∧
      Halted (fun c => c.overdue env w.ctx.qty.watchdogMs || asked stop c.sample w.ctx.fnReadQty) n cs ∧
      w1.ctx.state = (if late then .error else if cs.any fun c => asked stop c.sample w.ctx.fnReadQty then .exitTsk else .running) ∧
      w1.ctx.on = w.ctx.on ∧ (late = true → ∀ ℓ, load (givenUp env w1).ctx ℓ = load w1.ctx ℓ) ∧
      ∀ rest, let f := turn w.ctx.fnReadQty field env.localtime jobs (nets.take B.qty.networks) rest
        (∀ ℓ, register ℓ = true → load w1.ctx ℓ = (cs.map Lap.entry).foldl f (load w.ctx) ℓ) ∧
        commands (news w (parted env late (n - cs.length) w1).2) =
          ((successive f (load w.ctx) (cs.map Lap.entry)).flatMap fun m => (List.range w.ctx.fnWriteQty).map fun j => (j, orders m)) ∧
        Exhausts (computed w.ctx.fnReadQty field env.localtime jobs (nets.take B.qty.networks) rest) rest (load w.ctx) (cs.map Lap.entry) := by
  obtain ⟨w1, cs, h1, h2, h3, h4, h5, h6⟩ := C95_guarded (Formed.of_well hB) hF hp hk hj hnets hd hrail ha hc hw ht hn hq hst hwd hs n hcnt
  rcases h6 with ⟨h6, h7, h8⟩ | ⟨-, -, -, _, a, us, _, -, -, -, -, h⟩
  · refine ⟨w1, cs, h6, h1, h7, h2, h3, h4, fun rest => ?_⟩
    obtain ⟨h9, h10, h11⟩ := h5 rest
    exact ⟨h9, h8.trans h10, h11⟩
  · have := h fun _ => ⟨0, 0, 0⟩
    unfold computed at this
    rw [total_program hB hF hnets] at this
    cases this

/-! ### Controllers with a watchdog -/

open _root_.Ladder.Demo

/-- The rungs of C71 with a watchdog. -/
def guarded (limit : Nat) : Ctx := { hourly with qty := { hourly.qty with watchdogMs := limit } }

/-- The hardware of C73, whose clock advances by 1 ms per call, and once, at instant 5000, by an hour. -/
def jolted : Env := { wiredUp with clock := fun t => BitVec.ofNat 64 (if t < 5000 then t else t + 3600000) }

theorem jolted_attended : Attended hourly jolted supply (fun _ => false) where
  toStill := ⟨wiredUp_plugged.instruction, wiredUp_plugged.scanEnd, wiredUp_plugged.localtime⟩
  before := fun _ _ => rfl
  after := fun _ _ => rfl
  delay := fun _ _ => rfl
  write := fun _ _ _ _ _ => rfl
  read := wiredUp_plugged.read

theorem guarded_mounted (limit : Nat) : Mounted hourly (guarded limit) :=
  ⟨⟨fits_of rfl, rfl, fun ℓ => by cases ℓ <;> rfl, rfl, rfl, rfl, rfl, rfl⟩, fun ℓ x hf hl => flags_demo [sealed] ℓ x hf (by rw [← hl]; cases ℓ <;> rfl), rfl, rfl, rfl⟩

/-- The hypotheses of `C93_watchdog_partial` can be met. -/
example : ∃ (w1 : World) (cs : List Lap), task jolted 1000000 ⟨guarded 100, 0, []⟩ =
      .ok (parted jolted (cs.any fun c => c.overdue jolted 100) (1000000 - cs.length) w1) ∧
    Halted (fun c => c.overdue jolted 100 || asked (fun _ => false) c.sample 1) 1000000 cs := by
  obtain ⟨w1, cs, h1, -, h2, -⟩ := C93_watchdog_partial (w := ⟨guarded 100, 0, []⟩) sealed_well (fits_of rfl) hourly_paired jolted_attended planned rfl
    (fun net hn _ => by
      rw [List.mem_singleton.1 hn]
      exact ⟨diagram_of (by decide), by decide, .inl fun _ _ => rfl⟩)
    (fun _ h => by cases h) (guarded_mounted 100) (fun _ _ _ _ h => by cases h)
    ⟨rfl, fun n hn => by cases Nat.lt_one_iff.1 hn; rfl, fun n hn => by cases Nat.lt_one_iff.1 hn; rfl, fun _ => rfl, fun _ => rfl⟩ ⟨fun l h => by cases h; decide, fun l h => by cases h; decide⟩
    (fun h => by have := h.one; simp [guarded, hourly, ctx, at?] at this) ⟨by decide, by decide⟩ rfl (.inr fun _ _ => rfl)
    (fun n p => hourly_settled n p) 1000000 (by decide)
  exact ⟨w1, cs, h1, h2⟩

theorem givenUp_on {env : Env} (hd : ∀ t c, env.delay t c = c) (hp : ∀ t c, env.panic t c = c) (w : World) : (givenUp env w).ctx.on = w.ctx.on := by
  have e' : ∀ v : World, (panicked env v).ctx = v.ctx := fun v => by
    unfold panicked; split
    · exact hp _ _
    · rfl
  unfold givenUp
  generalize 1000 = k
  show (panicked env (inState (afterWaits env w k) .error)).ctx.on = w.ctx.on
  rw [e']
  show (afterWaits env w k).ctx.on = w.ctx.on
  rw [afterWaits_idle hd]

/-- The task runs after one iteration, in state ERROR, and its outcome is as tested. -/
def lateWith (x : Except UB (TaskRes × World)) (p : World → Bool) : Bool :=
  match x with | .ok (.running, w) => decide (w.ctx.state = .error) && w.ctx.delay && p w | _ => false

theorem of_lateWith {x : Except UB (TaskRes × World)} {p : World → Bool} (h : lateWith x p = true) :
    ∃ w, x = .ok (.running, w) ∧ w.ctx.state = .error ∧ w.ctx.delay = true ∧ p w = true := by
  rcases x with e | ⟨r, w⟩
  · cases h
  · cases r with
    | running =>
      simp only [lateWith, Bool.and_eq_true, decide_eq_true_eq] at h
      exact ⟨w, rfl, h.1.1, h.1.2, h.2⟩
    | refused => cases h
    | ended => cases h

theorem task_loop {env : Env} {limit : Nat} (n : Nat) : task env n ⟨guarded limit, 0, []⟩ = taskLoop env n ⟨guarded limit, 0, []⟩ := by
  unfold task
  rw [bind_getCtx, show taskRefuses (guarded limit) = .ok false from rfl, bind_lift_ok]
  rfl

/-- The outputs of the last command. -/
def lastOrder (l : List Event) (ℓ : Loc) : Option (Option Nat) := (commands l).getLast?.map fun c => c.2 ℓ

/-- **C93, outputs**: a task that ends because of its watchdog leaves the outputs switched on.  Unlike after an invalid instruction nothing is
reset: output 0.1 is on in the last command its module gets, and in the context when the task has ended. -/
theorem C93_refuted_outputs : ∃ w', task wiredUp 3 ⟨guarded 5, 0, []⟩ = .ok (.ended, w') ∧ w'.ctx.state = .exitTsk ∧
    lastOrder w'.trace (.Q 0 1) = some (some 1) ∧ load w'.ctx (.Q 0 1) = some 1 := by
  obtain ⟨w, h1, h2, h3, h4⟩ := of_lateWith (x := task wiredUp 1 ⟨guarded 5, 0, []⟩)
    (p := fun w => !w.ctx.on.endTask && decide (lastOrder w.trace (.Q 0 1) = some (some 1)) && decide (load w.ctx (.Q 0 1) = some 1)) (by decide +kernel)
  simp only [Bool.and_eq_true, Bool.not_eq_true', decide_eq_true_eq] at h4
  obtain ⟨⟨h5, h6⟩, h7⟩ := h4
  rw [task_loop] at h1
  have e : taskLoop wiredUp 3 ⟨guarded 5, 0, []⟩ = .ok (parted wiredUp true 2 w) :=
    (taskLoop_add 1 2 h1).trans (taskLoop_parted (fun _ _ => rfl) h3 2 fun _ => h2)
  obtain ⟨new, h8, h9⟩ := parted_sent (env := wiredUp) (fun _ _ => rfl) true 2 w
  have hon : (givenUp wiredUp w).ctx.on = w.ctx.on := givenUp_on (fun _ _ => rfl) (fun _ _ => rfl) w
  have hend : (parted wiredUp true 2 w).2 = givenUp wiredUp w := by
    simp only [parted, Bool.not_true, Bool.false_eq_true, if_false, Nat.succ_ne_zero, endHook, hon, h5]
  refine ⟨(parted wiredUp true 2 w).2, ?_, ?_, ?_, ?_⟩
  · rw [task_loop, e]
    simp [parted]
  · rw [hend]; rfl
  · rw [h8, ← h6]
    unfold lastOrder commands at *
    rw [List.filterMap_append, h9, List.append_nil]
  · rw [hend, load_givenUp (env := wiredUp) (fun _ _ => rfl) (fun _ _ => rfl)]
    exact h7

/-- Hardware that requests the end whenever a module is read. -/
def switchedOut : Env := { wiredUp with read := fun t n c => stopped true (upd c (.I n 0) (t % 2)) }

/-- **C93, stop**: a request to stop is lost in a cycle that takes too long.  The hardware requests the end whenever a module is read; without a
watchdog the task has ended after two iterations, with one it is in state ERROR and still runs after two iterations, having waited 1000
times. -/
theorem C93_refuted_stop : (∀ t n c, (switchedOut.read t n c).state = .exitTsk) ∧
    (∃ w', task switchedOut 2 ⟨guarded 0, 0, []⟩ = .ok (.ended, w')) ∧
    ∃ w w', task switchedOut 1 ⟨guarded 5, 0, []⟩ = .ok (.running, w) ∧ w.ctx.state = .error ∧
      task switchedOut 2 ⟨guarded 5, 0, []⟩ = .ok (.running, w') ∧ ∃ l, w'.trace = w.trace ++ List.replicate 1000 (.delay 1) ++ l := by
  refine ⟨fun _ _ _ => rfl, ?_, ?_⟩
  · have h : (match task switchedOut 2 ⟨guarded 0, 0, []⟩ with | .ok (.ended, _) => true | _ => false) = true := by decide +kernel
    cases hv : task switchedOut 2 ⟨guarded 0, 0, []⟩ with
    | error e => rw [hv] at h; cases h
    | ok x =>
      rw [hv] at h
      obtain ⟨r, v⟩ := x
      cases r with
      | ended => exact ⟨v, rfl⟩
      | running => cases h
      | refused => cases h
  obtain ⟨w, h1, h2, h3, h4⟩ := of_lateWith (x := task switchedOut 1 ⟨guarded 5, 0, []⟩) (p := fun w => decide (w.ctx.qty.delayNotRun = 1)) (by decide +kernel)
  have e : taskLoop switchedOut 2 ⟨guarded 5, 0, []⟩ = .ok (parted switchedOut true 1 w) := by
    rw [task_loop] at h1
    exact (taskLoop_add 1 1 h1).trans (taskLoop_parted (fun _ _ => rfl) h3 1 fun _ => h2)
  refine ⟨w, givenUp switchedOut w, h1, h2, by rw [task_loop, e]; rfl, ?_⟩
  have ht : ∀ k, (afterWaits switchedOut w k).trace = w.trace ++ List.replicate k (.delay 1) := by
    intro k
    induction k with
    | zero => simp [afterWaits]
    | succ k ih =>
      rw [List.replicate_succ', ← List.append_assoc, ← ih]
      simp only [afterWaits]
      rw [afterWaits_idle (env := switchedOut) (fun _ _ => rfl), of_decide_eq_true h4]
  unfold givenUp
  generalize 1000 = k
  obtain ⟨l, hl, -⟩ := panicked_sent (env := switchedOut) (inState (afterWaits switchedOut w k) .error)
  exact ⟨l, hl.trans (congrArg (· ++ l) (ht k))⟩

end Props

end Ladder
