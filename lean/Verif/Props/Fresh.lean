import Verif.Props.CronJobs
import Verif.Spec.Idle
import Verif.Spec.Setup

/-
Running a freshly initialised context: C57.
-/

set_option autoImplicit false

namespace Ladder.Props

open Spec Op

variable {env : Env}

theorem acopyIf_area {α : Type} {d s : Arr α} {n : Nat} (hd : Area d n) (hs : Area s n) :
    ∃ a, acopyIf d s n = .ok a ∧ Area a n := by
  obtain ⟨ld, rfl, hld⟩ := hd
  obtain ⟨ls, rfl, hls⟩ := hs
  unfold acopyIf
  split
  · refine ⟨_, by unfold acopy; dsimp only; rw [if_pos ⟨by omega, by omega⟩], _, rfl, ?_⟩
    simp
    omega
  · exact ⟨_, rfl, ld, rfl, hld⟩

theorem acopy_area {α : Type} {d s : Arr α} {n : Nat} (hd : Area d n) (hs : Area s n) :
    ∃ a, acopy d s n = .ok a ∧ Area a n := by
  obtain ⟨ld, rfl, hld⟩ := hd
  obtain ⟨ls, rfl, hls⟩ := hs
  refine ⟨_, by unfold acopy; dsimp only; rw [if_pos ⟨by omega, by omega⟩], _, rfl, ?_⟩
  simp
  omega

theorem afill_area {α : Type} {d : Arr α} {n : Nat} (x : α) (hd : Area d n) :
    ∃ a, afill d n x = .ok a ∧ Area a n := by
  obtain ⟨ld, rfl, hld⟩ := hd
  refine ⟨_, by unfold afill; dsimp only; rw [if_pos (by omega)], _, rfl, ?_⟩
  simp
  omega

theorem zeroAcc_area {a : Arr Timer} {n : Nat} (h : Area a n) : ∃ b, zeroAcc n a = .ok b ∧ Area b n := by
  obtain ⟨l, rfl, hl⟩ := h
  have : ∀ (n : Nat) (l : List Timer), n ≤ l.length →
      ∃ l', mapFirst (fun t => .ok { t with acc := 0 }) n l = .ok l' ∧ l'.length = l.length := by
    intro n
    induction n with
    | zero => intro l _; exact ⟨l, rfl, rfl⟩
    | succ n ih =>
      intro l hl
      cases l with
      | nil => simp at hl
      | cons x xs =>
        obtain ⟨l', h1, h2⟩ := ih xs (by simpa using hl)
        exact ⟨_, by simp only [mapFirst, h1]; rfl, by simp [h2]⟩
  obtain ⟨l', h1, h2⟩ := this n l (by omega)
  exact ⟨some l', by simp only [zeroAcc, h1]; rfl, l', rfl, by omega⟩

/-- The history is taken without undefined behaviour. -/
theorem savePrevious_idle {c : Ctx} (h : Idle c) : ∃ mh cdh crh tdh trh,
    savePrevious c = .ok { c with Mh := mh, Cdh := cdh, Crh := crh, Tdh := tdh, Trh := trh } ∧
    Area mh c.qty.m ∧ Area cdh c.qty.c ∧ Area crh c.qty.c ∧ Area tdh c.qty.t ∧ Area trh c.qty.t := by
  obtain ⟨mh, h1, a1⟩ := acopyIf_area h.Mh h.M
  obtain ⟨cdh, h2, a2⟩ := acopyIf_area h.Cdh h.Cd
  obtain ⟨crh, h3, a3⟩ := acopyIf_area h.Crh h.Cr
  obtain ⟨tdh, h4, a4⟩ := acopyIf_area h.Tdh h.Td
  obtain ⟨trh, h5, a5⟩ := acopyIf_area h.Trh h.Tr
  refine ⟨mh, cdh, crh, tdh, trh, ?_, a1, a2, a3, a4, a5⟩
  unfold savePrevious
  simp only [except_bind]
  refine ⟨_, h1, _, h2, _, h3, _, h4, _, h5, c.output, ?_, rfl⟩
  rw [h.noOutput]
  rfl

/-- Disabled networks are skipped. -/
theorem networkLoop_idle {w : World} {l : List Network} (hn : w.ctx.network = some l) (hl : l.length = w.ctx.qty.networks)
    (hd : ∀ n ∈ l, n.enable = false ∧ n.cells.isSome) : ∀ (fuel n : Nat), w.ctx.qty.networks < n + fuel →
    n ≤ w.ctx.qty.networks → networkLoop env fuel n w = .ok ((), w) := by
  intro fuel
  induction fuel with
  | zero => intro n h1 h2; omega
  | succ fuel ih =>
    intro n h1 h2
    unfold networkLoop
    rw [bind_getCtx]
    split
    · rename_i hlt
      have hlt' : n < l.length := by omega
      have hget : aget w.ctx.network n = .ok l[n] := by rw [hn]; simp [aget, hlt']
      obtain ⟨he, hc⟩ := hd l[n] (List.getElem_mem hlt')
      have hs : scanNetwork env n w = .ok (true, w) := by
        unfold scanNetwork
        rw [bind_getCtx, bind_lift_eq_ok]
        refine ⟨_, hget, ?_⟩
        rw [if_neg (by cases hh : l[n].cells with | none => rw [hh] at hc; cases hc | some x => simp), if_pos (by rw [he]; rfl)]
        rfl
      rw [bind_apply, hs]
      dsimp only
      rw [if_pos rfl]
      exact ih (n + 1) (by omega) (by omega)
    · rfl

/-- Something in `Idle` that does not depend on the memory. -/
theorem callBefore_idle {w : World} (h : w.ctx.on = {}) : callBefore env w = .ok ((), w) := by
  rw [callBefore_apply, h]; rfl

theorem callAfter_idle {w : World} (h : w.ctx.on = {}) : callAfter env w = .ok ((), w) := by
  rw [callAfter_apply, h]; rfl

theorem readPhase_idle {w : World} (h : w.ctx.fnReadQty = 0) : readPhase env w = .ok (true, w) := by
  unfold readPhase
  rw [bind_getCtx, if_neg (by omega), bind_lift_eq_ok]
  refine ⟨w.ctx.input, by rw [if_neg (by omega)], ?_⟩
  rw [bind_modCtx, if_neg (by omega)]
  rfl

theorem outHistPhase_idle {w : World} (h : w.ctx.fnWriteQty = 0) : outHistPhase env w = .ok (true, w) := by
  unfold outHistPhase
  rw [bind_getCtx, if_neg (by omega), bind_lift_eq_ok]
  refine ⟨w.ctx.output, by rw [if_neg (by omega)], ?_⟩
  rw [bind_modCtx]
  rfl

theorem doWrites_idle {w : World} (h : w.ctx.fnWriteQty = 0) : doWrites env w = .ok ((), w) := by
  unfold doWrites
  rw [bind_getCtx, if_neg (by omega)]
  rfl

theorem area_at {α : Type} {a : Arr α} {n : Nat} (h : Area a n) (i : Nat) : (at? a i).isSome ↔ i < n := by
  obtain ⟨l, rfl, hl⟩ := h
  simp [at?, ← hl]

theorem area_of_at {α : Type} {a : Arr α} {n : Nat} (h0 : 0 < n) (h : ∀ i, (at? a i).isSome ↔ i < n) : Area a n := by
  cases a with
  | none => exact absurd ((h 0).2 h0) (by simp [at?])
  | some l =>
    refine ⟨l, rfl, ?_⟩
    have h1 := h l.length
    have h2 := h (l.length - 1)
    simp [at?] at h1 h2
    omega

theorem cleared_exists {jobs : List CronJob} {m : Nat → Option Byte} (hf : ∀ j ∈ jobs, (m j.flagReg).isSome) (i : Nat) :
    (cleared jobs m i).isSome = (m i).isSome := by
  unfold cleared
  split
  · rename_i h
    obtain ⟨j, hj, _, _, rfl⟩ := h
    rw [hf j hj]
    rfl
  · rfl

theorem fired_exists {tm : Tm} {jobs : List CronJob} {m : Nat → Option Byte}
    (hf : ∀ j ∈ jobs, (m j.enableReg).isSome ∧ (m j.flagReg).isSome) (i : Nat) :
    (fired tm jobs m i).isSome = (m i).isSome := by
  induction jobs generalizing m with
  | nil => rfl
  | cons j rest ih =>
    have hj := hf j (.head _)
    unfold fired
    split
    · have e : ∀ i, (if i = j.flagReg then m j.enableReg else m i).isSome = (m i).isSome := by
        intro i
        split
        · rename_i hi
          rw [hi, hj.1, hj.2]
        · rfl
      rw [ih (fun k hk => by rw [e, e]; exact hf k (.tail _ hk)), e]
    · exact ih (fun k hk => hf k (.tail _ hk))

/-- A scan of an idle context with cron jobs. -/
theorem scan_idle {w : World} {jobs : List CronJob} (h : Idle w.ctx) (hj : Jobs w.ctx jobs) (hn : jobs ≠ [])
    (ht : Calendar (env.localtime w.tick)) : ∃ m', scan env w =
      .ok ((), { w with ctx := { w.ctx with exec := none, M := m' }, tick := w.tick + 1 }) ∧ Area m' w.ctx.qty.m := by
  obtain ⟨m', h1, h2⟩ := C56_phase_partial (env := env) (w := { w with ctx := { w.ctx with exec := none } }) (jobs := jobs)
    ⟨hj.table, hj.sized, hj.flags⟩ hn ht
  refine ⟨m', ?_, ?_⟩
  · obtain ⟨l, e1, e2, e3⟩ := h.network
    unfold scan
    rw [bind_modCtx, bind_apply, h1]
    dsimp only
    rw [if_pos rfl, bind_getCtx]
    dsimp only
    rw [if_neg (by rw [e1]; simp)]
    have hlt := h.networks
    exact networkLoop_idle (w := ⟨{ w.ctx with exec := none, M := m' }, w.tick + 1, w.trace⟩) e1 e2 e3 u32Fuel 0 (by unfold u32Fuel; simpa using hlt) (Nat.zero_le _)
  · have key : ∀ i, (at? m' i).isSome ↔ i < w.ctx.qty.m := fun i => by
      rw [h2 i, fired_exists, cleared_exists (fun j hj' => (hj.flags j hj').2), area_at h.M]
      intro j hj'
      rw [cleared_exists (fun j hj' => (hj.flags j hj').2), cleared_exists (fun j hj' => (hj.flags j hj').2)]
      exact hj.flags j hj'
    refine area_of_at ?_ key
    obtain ⟨j, hj'⟩ := List.exists_mem_of_ne_nil jobs hn
    have := (area_at h.M _).1 (hj.flags j hj').1
    omega

theorem scanMetrics_ok {s : ScanInt} {now : W64} (h : s.scanCount.toNat + 1 < 2 ^ 32) :
    ∃ s', scanMetrics s now = .ok s' ∧ s'.scanCount.toNat = s.scanCount.toNat + 1 ∧
      s'.actualScanTime = now - s.startTime := by
  have e : (s.scanCount + 1).toNat = s.scanCount.toNat + 1 := by
    rw [BitVec.toNat_add, show BitVec.toNat (1 : BitVec 32) = 1 from rfl]
    omega
  have hne : ¬ s.scanCount + 1 = 0 := by
    intro h0
    rw [h0] at e
    simp at e
  unfold scanMetrics
  dsimp only
  rw [if_neg hne]
  exact ⟨_, rfl, e, rfl⟩

theorem scanTime_idle {w : World} (hm : w.ctx.millis = true) (hc : w.ctx.scan.scanCount.toNat + 1 < 2 ^ 32)
    (hw : w.ctx.qty.watchdogMs = 0 ∨ (env.clock w.tick - w.ctx.scan.startTime).toNat ≤ w.ctx.qty.watchdogMs) :
    ∃ s, scanTime env w = .ok ((), { w with ctx := { w.ctx with scan := s }, tick := w.tick + 1 }) ∧
      s.scanCount.toNat = w.ctx.scan.scanCount.toNat + 1 := by
  obtain ⟨s, h1, h2, h3⟩ := scanMetrics_ok (now := env.clock w.tick) hc
  refine ⟨s, ?_, h2⟩
  unfold scanTime
  rw [bind_getCtx]
  simp only [hm, Bool.not_true, Bool.false_eq_true, if_false]
  refine bind_eq_ok.2 ⟨env.clock w.tick, { w with tick := w.tick + 1 }, by unfold callMillis; rw [if_pos hm], ?_⟩
  refine bind_lift_eq_ok.2 ⟨s, h1, ?_⟩
  rw [bind_modCtx, if_neg (by rw [h3]; omega)]
  rw [hm]
  rfl

theorem pad_idle {w : World} (hd : ∀ t c, env.delay t c = c) : ∃ w', pad env w = .ok ((), w') ∧ w'.ctx = w.ctx := by
  refine ⟨_, pad_apply w, ?_⟩
  split
  · exact hd _ _
  · rfl

/-- A cycle of an idle context with cron jobs. -/
theorem cycle_idle {w : World} {jobs : List CronJob} (h : Idle w.ctx) (hj : Jobs w.ctx jobs) (hn : jobs ≠ [])
    (ht : ∀ t, Calendar (env.localtime t)) (hd : ∀ t c, env.delay t c = c)
    (hw : w.ctx.qty.watchdogMs = 0 ∨ ∀ t, (env.clock (t + 2) - env.clock t).toNat ≤ w.ctx.qty.watchdogMs)
    (hc : w.ctx.scan.scanCount.toNat + 1 < 2 ^ 32) :
    ∃ w', cycle env w = .ok (.again, w') ∧ Idle w'.ctx ∧ Jobs w'.ctx jobs ∧ w'.ctx.qty = w.ctx.qty ∧
      w'.ctx.scan.scanCount.toNat = w.ctx.scan.scanCount.toNat + 1 := by
  have hi1 : Idle { w.ctx with scan := { w.ctx.scan with startTime := env.clock w.tick } } := { h with }
  obtain ⟨m', hs, hm⟩ := scan_idle (env := env) (w := ⟨_, w.tick + 1, w.trace⟩) hi1
    (jobs := jobs) ⟨hj.table, hj.sized, hj.flags⟩ hn (ht _)
  have hi2 : Idle { w.ctx with scan := { w.ctx.scan with startTime := env.clock w.tick }, exec := none, M := m' } :=
    { h with M := hm }
  obtain ⟨mh, cdh, crh, tdh, trh, hp, a1, a2, a3, a4, a5⟩ := savePrevious_idle hi2
  have hi3 : Idle { w.ctx with
      scan := { w.ctx.scan with startTime := env.clock w.tick }, exec := none, M := m'
      Mh := mh, Cdh := cdh, Crh := crh, Tdh := tdh, Trh := trh } :=
    { h with M := hm, Mh := a1, Cdh := a2, Crh := a3, Tdh := a4, Trh := a5 }
  obtain ⟨s, hst, hcnt⟩ := scanTime_idle (env := env) (w := ⟨_, w.tick + 1 + 1, w.trace⟩) hi3.millis hc
    (hw.imp id fun h => h w.tick)
  have hi4 : Idle { w.ctx with
      scan := s, exec := none, M := m', Mh := mh, Cdh := cdh, Crh := crh, Tdh := tdh, Trh := trh } := { hi3 with }
  obtain ⟨w', hpad, hctx⟩ := pad_idle (env := env) (w := ⟨{ w.ctx with
      scan := s, exec := none, M := m', Mh := mh, Cdh := cdh, Crh := crh, Tdh := tdh, Trh := trh },
      w.tick + 1 + 1 + 1, w.trace⟩) hd
  refine ⟨w', ?_, hctx ▸ hi4, hctx ▸ ⟨hj.table, hj.sized, fun j hj' => ?_⟩, by rw [hctx], by rw [hctx]; exact hcnt⟩
  · unfold cycle
    rw [bind_getCtx, if_neg (by rw [h.millis]; decide)]
    refine bind_eq_ok.2 ⟨env.clock w.tick, { w with tick := w.tick + 1 },
      by unfold callMillis; rw [if_pos h.millis], ?_⟩
    rw [bind_modCtx]
    refine bind_eq_ok.2 ⟨(), _, callBefore_idle h.on, ?_⟩
    refine bind_eq_ok.2 ⟨true, _, readPhase_idle h.noRead, ?_⟩
    rw [if_neg (by decide)]
    refine bind_eq_ok.2 ⟨true, _, outHistPhase_idle h.noWrite, ?_⟩
    rw [if_neg (by decide)]
    refine bind_eq_ok.2 ⟨(), _, hs, ?_⟩
    rw [bind_getCtx, if_neg (by rw [show (_ : St) = _ from h.state]; decide)]
    refine bind_lift_eq_ok.2 ⟨_, hp, ?_⟩
    rw [bind_modCtx]
    refine bind_eq_ok.2 ⟨(), _, doWrites_idle h.noWrite, ?_⟩
    refine bind_eq_ok.2 ⟨(), _, hst, ?_⟩
    refine bind_eq_ok.2 ⟨(), _, hpad, ?_⟩
    exact bind_eq_ok.2 ⟨(), _, callAfter_idle (by rw [hctx]; exact h.on), rfl⟩
  · have hf := hj.flags j hj'
    rw [area_at h.M, area_at h.M] at hf
    exact ⟨(area_at hm _).2 hf.1, (area_at hm _).2 hf.2⟩

theorem refuses_idle {c : Ctx} (h : Idle c) : taskRefuses c = .ok false := by
  unfold taskRefuses
  simp only [h.noRead, h.noWrite, h.millis, h.delay]
  obtain ⟨l1, e1, _⟩ := h.M
  obtain ⟨l2, e2, _⟩ := h.Mh
  obtain ⟨l3, e3, _⟩ := h.Cd
  obtain ⟨l4, e4, _⟩ := h.Cdh
  obtain ⟨l5, e5, _⟩ := h.Cr
  obtain ⟨l6, e6, _⟩ := h.Crh
  obtain ⟨l7, e7, _⟩ := h.Td
  obtain ⟨l8, e8, _⟩ := h.Tdh
  obtain ⟨l9, e9, _⟩ := h.Tr
  obtain ⟨l10, e10, _⟩ := h.Trh
  obtain ⟨l11, e11, _⟩ := h.C
  obtain ⟨l12, e12, _⟩ := h.D
  obtain ⟨l13, e13, _⟩ := h.R
  obtain ⟨l14, e14, _⟩ := h.timers
  obtain ⟨l15, e15, _⟩ := h.network
  simp [e1, e2, e3, e4, e5, e6, e7, e8, e9, e10, e11, e12, e13, e14, e15]

/-- **C57** A running context without modules whose networks are all disabled (whatever its registers hold) and with at least
one cron job: the task runs any number of cycles (as long as its 32-bit cycle counter does not wrap) without undefined
behaviour and without leaving the running state.  Partial: for contexts with a cron job, see the refutation. -/
theorem C57_runs_partial {jobs : List CronJob} (hn : jobs ≠ []) (ht : ∀ t, Calendar (env.localtime t))
    (hd : ∀ t c, env.delay t c = c) : ∀ (n : Nat) (w : World), Idle w.ctx → Jobs w.ctx jobs →
    (w.ctx.qty.watchdogMs = 0 ∨ ∀ t, (env.clock (t + 2) - env.clock t).toNat ≤ w.ctx.qty.watchdogMs) →
    w.ctx.scan.scanCount.toNat + n < 2 ^ 32 →
    ∃ w', task env n w = .ok (.running, w') ∧ w'.ctx.state = .running ∧
      w'.ctx.scan.scanCount.toNat = w.ctx.scan.scanCount.toNat + n := by
  have loop : ∀ (n : Nat) (w : World), Idle w.ctx → Jobs w.ctx jobs →
      (w.ctx.qty.watchdogMs = 0 ∨ ∀ t, (env.clock (t + 2) - env.clock t).toNat ≤ w.ctx.qty.watchdogMs) →
      w.ctx.scan.scanCount.toNat + n < 2 ^ 32 →
      ∃ w', taskLoop env n w = .ok (.running, w') ∧ w'.ctx.state = .running ∧
        w'.ctx.scan.scanCount.toNat = w.ctx.scan.scanCount.toNat + n := by
    intro n
    induction n with
    | zero => intro w h _ _ _; exact ⟨w, rfl, h.state, rfl⟩
    | succ n ih =>
      intro w h hj hw hc
      obtain ⟨w1, h1, h2, h3, h4, h5⟩ := cycle_idle h hj hn ht hd hw (by omega)
      obtain ⟨w', h6, h7, h8⟩ := ih w1 h2 h3 (by rw [h4]; exact hw) (by omega)
      refine ⟨w', ?_, h7, by omega⟩
      unfold taskLoop
      rw [bind_getCtx, if_neg (by rw [h.state]; decide)]
      refine bind_eq_ok.2 ⟨.again, w1, ?_, h6⟩
      unfold taskIter
      refine bind_eq_ok.2 ⟨.ready, w, ?_, h1⟩
      unfold maxWait waitLoop
      rw [bind_getCtx, if_pos h.state]
      rfl
  intro n w h hj hw hc
  obtain ⟨w', h1, h2, h3⟩ := loop n w h hj hw hc
  refine ⟨w', ?_, h2, h3⟩
  unfold task
  rw [bind_getCtx]
  refine bind_eq_ok.2 ⟨false, w, ?_, by rw [if_neg (by decide)]; exact h1⟩
  rw [refuses_idle h]
  rfl

/-- **C57** For a context just initialised with any valid parameters, with clock and delay set, a table of cron jobs with
one or more jobs in it, and set to running, the hypotheses on the context in the previous theorem hold. -/
theorem C57_fresh_partial (a : InitArgs) (hi : a.initNetwork = true) (h32 : a.networks < 2 ^ 32)
    (cr : Option Cron) : Idle { started a with cron := cr } := by
  have fl : ∀ {β : Type} (n : Nat) (x : β), Area (some (List.replicate n x)) n := fun n x => ⟨_, rfl, by simp⟩
  refine ⟨rfl, rfl, rfl, rfl, rfl, rfl, rfl, fl _ _, fl _ _, fl _ _, fl _ _, fl _ _, fl _ _, fl _ _, fl _ _, fl _ _, fl _ _,
    fl _ _, fl _ _, fl _ _, fl _ _, h32, ?_⟩
  refine ⟨_, by simp only [started, initCtx, hi, if_true]; rfl, by simp; rfl, ?_⟩
  intro n hn
  rw [(List.mem_replicate.1 hn).2]
  exact ⟨rfl, rfl⟩

theorem rollback_idle {c : Ctx} (h : Idle c) (s : St) (e : Option Nat) : ∃ m cd cr td tr cc ts d r,
    rollback { c with state := s, exec := e } = .ok { c with
      state := s, exec := e, M := m, Cd := cd, Cr := cr, Td := td, Tr := tr, C := cc, timers := ts, D := d, R := r } ∧
    Area m c.qty.m ∧ Area cd c.qty.c ∧ Area cr c.qty.c ∧ Area td c.qty.t ∧ Area tr c.qty.t := by
  obtain ⟨m, h1, a1⟩ := acopy_area h.M h.Mh
  obtain ⟨cd, h2, a2⟩ := acopy_area h.Cd h.Cdh
  obtain ⟨cr, h3, a3⟩ := acopy_area h.Cr h.Crh
  obtain ⟨td, h4, a4⟩ := acopy_area h.Td h.Tdh
  obtain ⟨tr, h5, a5⟩ := acopy_area h.Tr h.Trh
  have ex : ∀ {β : Type} {p : Prop} [Decidable p] {x : Except UB β} {y : β}, (∃ z, x = .ok z) →
      ∃ z, (if p then x else .ok y) = .ok z := by
    intro β p _ x y hz
    split
    · exact hz
    · exact ⟨_, rfl⟩
  obtain ⟨cc, h6⟩ := ex (p := c.qty.c > 0 ∧ c.C.isSome) (y := c.C) ((afill_area 0 h.C).imp fun _ h => h.1)
  obtain ⟨ts, h7⟩ := ex (p := c.qty.t > 0 ∧ c.timers.isSome) (y := c.timers) ((zeroAcc_area h.timers).imp fun _ h => h.1)
  obtain ⟨d, h8⟩ := ex (p := c.qty.d > 0 ∧ c.D.isSome) (y := c.D) ((afill_area 0 h.D).imp fun _ h => h.1)
  obtain ⟨r, h9⟩ := ex (p := c.qty.r > 0 ∧ c.R.isSome) (y := c.R) ((afill_area 0 h.R).imp fun _ h => h.1)
  refine ⟨m, cd, cr, td, tr, cc, ts, d, r, ?_, a1, a2, a3, a4, a5⟩
  unfold rollback
  simp only [except_bind]
  refine ⟨c.output, ?_, m, h1, cd, h2, cr, h3, td, h4, tr, h5, cc, h6, ts, h7, d, h8, r, h9, rfl⟩
  rw [h.noOutput]
  rfl

theorem savePrevious_areas {c : Ctx} (ho : c.output = none) (h1 : Area c.Mh c.qty.m) (h2 : Area c.M c.qty.m)
    (h3 : Area c.Cdh c.qty.c) (h4 : Area c.Cd c.qty.c) (h5 : Area c.Crh c.qty.c) (h6 : Area c.Cr c.qty.c)
    (h7 : Area c.Tdh c.qty.t) (h8 : Area c.Td c.qty.t) (h9 : Area c.Trh c.qty.t) (h10 : Area c.Tr c.qty.t) :
    ∃ mh cdh crh tdh trh,
      savePrevious c = .ok { c with Mh := mh, Cdh := cdh, Crh := crh, Tdh := tdh, Trh := trh } := by
  obtain ⟨mh, e1, _⟩ := acopyIf_area h1 h2
  obtain ⟨cdh, e2, _⟩ := acopyIf_area h3 h4
  obtain ⟨crh, e3, _⟩ := acopyIf_area h5 h6
  obtain ⟨tdh, e4, _⟩ := acopyIf_area h7 h8
  obtain ⟨trh, e5, _⟩ := acopyIf_area h9 h10
  refine ⟨mh, cdh, crh, tdh, trh, ?_⟩
  unfold savePrevious
  simp only [except_bind]
  refine ⟨_, e1, _, e2, _, e3, _, e4, _, e5, c.output, ?_, rfl⟩
  rw [ho]
  rfl

/-- **C57 is violated**: the first cycle of a running context without modules and without cron jobs (whatever its registers
hold) takes the fault path, and the task ends. -/
theorem fault_idle {w : World} {cr : Cron} (h : Idle w.ctx) (hcr : w.ctx.cron = some cr) (hu : cr.used = 0)
    (hc : w.ctx.scan.scanCount.toNat + 1 < 2 ^ 32) :
    ∃ w', cycle env w = .ok (.exit, w') ∧ w'.ctx.on = {} := by
  have hi1 : Idle { w.ctx with scan := { w.ctx.scan with startTime := env.clock w.tick } } := { h with }
  have hs : scan env ⟨{ w.ctx with scan := { w.ctx.scan with startTime := env.clock w.tick } }, w.tick + 1, w.trace⟩ =
      .ok ((), ⟨{ w.ctx with
        scan := { w.ctx.scan with startTime := env.clock w.tick }, exec := none, state := .inv }, w.tick + 1, w.trace⟩) := by
    unfold scan
    rw [bind_modCtx, bind_apply, C56_refuted_no_job (by exact hcr) hu]
    rfl
  obtain ⟨m, cd, cr, td, tr, cc, ts, d, r, hrb, a1, a2, a3, a4, a5⟩ := rollback_idle hi1 .exitTsk none
  obtain ⟨mh, cdh, crh, tdh, trh, hsv⟩ := savePrevious_areas (c := { w.ctx with
      scan := { w.ctx.scan with startTime := env.clock w.tick }, state := .exitTsk, exec := none, M := m, Cd := cd, Cr := cr
      Td := td, Tr := tr, C := cc, timers := ts, D := d, R := r }) h.noOutput h.Mh a1 h.Cdh a2 h.Crh a3 h.Tdh a4 h.Trh a5
  have hst : ∀ (w1 : World), w1.ctx.millis = true → w1.ctx.on = {} → w1.ctx.scan.scanCount.toNat + 1 < 2 ^ 32 →
      ∃ w2, scanTime env w1 = .ok ((), w2) ∧ w2.ctx.on = {} := by
    intro w1 hm ho hc
    obtain ⟨s, h1, h2, h3⟩ := scanMetrics_ok (now := env.clock w1.tick) hc
    unfold scanTime
    rw [bind_getCtx]
    simp only [hm, Bool.not_true, Bool.false_eq_true, if_false]
    have hcm : callMillis env w1 = .ok (env.clock w1.tick, { w1 with tick := w1.tick + 1 }) := by
      unfold callMillis; rw [if_pos hm]
    rw [bind_apply]
    simp only [hcm]
    rw [bind_apply, h1]
    simp only [lift]
    rw [bind_modCtx]
    split
    · rw [bind_modCtx, callPanic_apply]
      simp only [ho]
      exact ⟨_, rfl, rfl⟩
    · exact ⟨_, rfl, ho⟩
  obtain ⟨w2, h6, h7⟩ := hst ⟨{ w.ctx with
      scan := { w.ctx.scan with startTime := env.clock w.tick }, state := .exitTsk, exec := none, M := m, Cd := cd, Cr := cr
      Td := td, Tr := tr, C := cc, timers := ts, D := d, R := r, Mh := mh, Cdh := cdh, Crh := crh, Tdh := tdh, Trh := trh },
      w.tick + 1, w.trace⟩ h.millis h.on hc
  refine ⟨w2, ?_, h7⟩
  unfold cycle
  rw [bind_getCtx, if_neg (by rw [h.millis]; decide)]
  refine bind_eq_ok.2 ⟨env.clock w.tick, { w with tick := w.tick + 1 },
    by unfold callMillis; rw [if_pos h.millis], ?_⟩
  rw [bind_modCtx]
  refine bind_eq_ok.2 ⟨(), _, callBefore_idle h.on, ?_⟩
  refine bind_eq_ok.2 ⟨true, _, readPhase_idle h.noRead, ?_⟩
  rw [if_neg (by decide)]
  refine bind_eq_ok.2 ⟨true, _, outHistPhase_idle h.noWrite, ?_⟩
  rw [if_neg (by decide)]
  refine bind_eq_ok.2 ⟨(), _, hs, ?_⟩
  rw [bind_getCtx, if_pos rfl]
  refine bind_eq_ok.2 ⟨(), w2, ?_, rfl⟩
  unfold faultPath
  rw [bind_modCtx, bind_getCtx]
  refine bind_lift_eq_ok.2 ⟨_, hrb, ?_⟩
  refine bind_lift_eq_ok.2 ⟨_, hsv, ?_⟩
  refine bind_lift_eq_ok.2 ⟨w.ctx.output, ?_, ?_⟩
  · split
    · rfl
    · show amapFirst safeOut _ w.ctx.output = _
      rw [h.noOutput]
      rfl
  rw [bind_modCtx]
  refine bind_eq_ok.2 ⟨(), _, doWrites_idle h.noWrite, ?_⟩
  refine bind_eq_ok.2 ⟨(), w2, h6, ?_⟩
  exact callAfter_idle h7

/-- **C57 is violated** for all parameters: a context just initialised, with clock and delay set and set to running (without
adding a cron job), faults in its first cycle and the task ends. -/
theorem C57_refuted (a : InitArgs) (hi : a.initNetwork = true) (h32 : a.networks < 2 ^ 32) (n : Nat) (env : Env) :
    (∃ w', cycle env ⟨started a, 0, []⟩ = .ok (.exit, w')) ∧
    ∃ w', task env (n + 1) ⟨started a, 0, []⟩ = .ok (.ended, w') := by
  have h : Idle (started a) := C57_fresh_partial a hi h32 _
  obtain ⟨w', h1, h2⟩ := fault_idle (env := env) (w := ⟨started a, 0, []⟩) h rfl rfl (by simp [started, initCtx])
  refine ⟨⟨w', h1⟩, w', ?_⟩
  unfold task
  rw [bind_getCtx]
  refine bind_eq_ok.2 ⟨false, _, by rw [refuses_idle h]; rfl, ?_⟩
  rw [if_neg (by decide)]
  unfold taskLoop
  rw [bind_getCtx, if_neg (by rw [h.state]; decide)]
  refine bind_eq_ok.2 ⟨.exit, w', ?_, ?_⟩
  · unfold taskIter
    refine bind_eq_ok.2 ⟨.ready, _, ?_, h1⟩
    unfold maxWait waitLoop
    rw [bind_getCtx, if_pos h.state]
    rfl
  · refine bind_eq_ok.2 ⟨(), w', by rw [callEndTask_apply, h2]; rfl, rfl⟩

/-- Non-trivial instance for the positive theorem: 3 cycles of a context with one job (the year 2025 of the demonstration
environment), and for the refutation: none of them. -/
theorem demo_fresh : (
    let a : InitArgs := { cols := 4, rows := 3, networks := 2, m := 3, c := 2, t := 2, d := 2, r := 1, delayNotRun := 5
                          watchdogMs := 20, initNetwork := true, writeOnFault := false, maxScanCycles := 100, targetScanMs := 0 }
    (match cronInit (started a) 2 with
      | .ok (.ok, c) => match cronAdd c true 0 1 "0 * * * * * *".toList with
        | .done .ok c => match task Demo.env 3 ⟨c, 0, []⟩ with
          | .ok (.running, w) => decide (w.ctx.state = .running) && decide (w.ctx.scan.scanCount = 3)
          | _ => false
        | _ => false
      | _ => false) = true ∧
    (match task Demo.env 3 ⟨started a, 0, []⟩ with
      | .ok (.ended, w) => decide (w.ctx.state = .exitTsk) && decide (w.ctx.scan.scanCount = 1)
      | _ => false) = true) := by
  constructor <;> decide +kernel

end Ladder.Props
