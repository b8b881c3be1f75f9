import Verif.Props.TaskEnd

/-
Scan times: statistics (C41), watchdog and overrun (C42), padding (C43).
-/

set_option autoImplicit false

namespace Ladder.Props

open Spec Op

variable {env : Env}

/-- Callbacks do not touch the statistics, limits and clock. -/
def clockwork (c : Ctx) : ScanInt × Qty × Bool × Bool × On := (c.scan, c.qty, c.millis, c.delay, c.on)

/-- The measured times are summed up correctly. -/
structure Stats (s : ScanInt) (ds : List Nat) : Prop where
  count : s.scanCount.toNat = ds.length
  total : s.totalScanTime.toNat = ds.sum
  avg : ds ≠ [] → s.avgScanTime.toNat = ds.sum / ds.length
  minLe : ∀ d ∈ ds, s.minScanTime.toNat ≤ d
  minMem : ds ≠ [] → s.minScanTime.toNat ∈ ds
  maxGe : ∀ d ∈ ds, d ≤ s.maxScanTime.toNat
  maxMem : ds ≠ [] → s.maxScanTime.toNat ∈ ds
  none : ds = [] → s.maxScanTime.toNat = 0

/-- Statistics of at least one measured time satisfy min ≤ avg ≤ max. -/
theorem C41_ordered {s : ScanInt} {ds : List Nat} (h : Stats s ds) (hd : ds ≠ []) :
    s.minScanTime.toNat ≤ s.avgScanTime.toNat ∧ s.avgScanTime.toNat ≤ s.maxScanTime.toNat := by
  have hl : 0 < ds.length := by cases ds <;> simp at hd ⊢
  have lo : ∀ (m : Nat) (l : List Nat), (∀ d ∈ l, m ≤ d) → m * l.length ≤ l.sum := by
    intro m l
    induction l with
    | nil => simp
    | cons a l ih =>
      intro h
      have h1 := h a (by simp)
      have h2 := ih fun d hd => h d (by simp [hd])
      simp only [List.length_cons, List.sum_cons, Nat.mul_add, Nat.mul_one]
      omega
  have hi : ∀ (m : Nat) (l : List Nat), (∀ d ∈ l, d ≤ m) → l.sum ≤ m * l.length := by
    intro m l
    induction l with
    | nil => simp
    | cons a l ih =>
      intro h
      have h1 := h a (by simp)
      have h2 := ih fun d hd => h d (by simp [hd])
      simp only [List.length_cons, List.sum_cons, Nat.mul_add, Nat.mul_one]
      omega
  rw [h.avg hd]
  exact ⟨(Nat.le_div_iff_mul_le hl).2 (lo _ _ h.minLe), Nat.div_le_of_le_mul (by
    rw [Nat.mul_comm]; exact hi _ _ h.maxGe)⟩

/-- One measurement. -/
theorem Stats.step {s s' : ScanInt} {ds : List Nat} {now : W64} (h : Stats s ds) (hm : scanMetrics s now = .ok s')
    (hc : ds.length + 1 < 2^32) (ht : ds.sum + (now - s.startTime).toNat < 2^64) :
    Stats s' (ds ++ [(now - s.startTime).toNat]) ∧ s'.actualScanTime = now - s.startTime := by
  unfold scanMetrics at hm
  dsimp only at hm
  split at hm
  · cases hm
  simp only [Except.ok.injEq] at hm
  have hcnt : (s.scanCount + 1).toNat = ds.length + 1 := by
    rw [BitVec.toNat_add, h.count]; simp; omega
  have htot : (s.totalScanTime + (now - s.startTime)).toNat = ds.sum + (now - s.startTime).toNat := by
    rw [BitVec.toNat_add, h.total]; omega
  generalize now - s.startTime = d at *
  have hz : s.scanCount = 0 ↔ ds = [] := by
    rw [← BitVec.toNat_inj, h.count]; cases ds <;> simp
  refine ⟨?_, by rw [← hm]⟩
  rw [← hm]
  constructor
  · show (s.scanCount + 1).toNat = _
    rw [hcnt]; simp
  · simp [htot]
  · intro _
    simp only [BitVec.toNat_udiv, htot, BitVec.toNat_setWidth, hcnt, List.sum_append, List.length_append]
    simp
    rw [Nat.mod_eq_of_lt (by omega)]
  · intro x hx
    dsimp only
    rcases List.mem_append.1 hx with hx | hx
    · have hne : ¬ s.scanCount = 0 := by rw [hz]; intro e; rw [e] at hx; cases hx
      have := h.minLe x hx
      rw [if_neg hne]
      split <;> omega
    · simp only [List.mem_singleton] at hx
      subst hx
      split
      · exact Nat.le_refl _
      · split <;> omega
  · intro _
    dsimp only
    by_cases hne : ds = []
    · rw [if_pos (hz.2 hne)]; simp
    · rw [if_neg (mt hz.1 hne)]
      have := h.minMem hne
      split
      · simp
      · simp [this]
  · intro x hx
    dsimp only
    rcases List.mem_append.1 hx with hx | hx
    · have := h.maxGe x hx
      split <;> omega
    · simp only [List.mem_singleton] at hx
      subst hx
      split <;> omega
  · intro _
    dsimp only
    by_cases hne : ds = []
    · have := h.none hne
      split
      · simp
      · subst hne; simp; omega
    · have := h.maxMem hne
      split
      · simp
      · simp [this]
  · intro e; simp at e

/-! ### Time passes -/

/-- The number of external calls does not decrease. -/
abbrev Later (w w' : World) : Prop := w.tick ≤ w'.tick

theorem later_failPanic {w w' : World} {u : Unit} (h : failPanic env w = .ok (u, w')) : Later w w' := by
  rw [failPanic_apply] at h
  cases h
  split <;> simp [Later]

theorem later_readLoop : ∀ (fuel n : Nat) {w w' : World} {u : Unit}, readLoop env fuel n w = .ok (u, w') → Later w w'
  | 0, _, _, _, _, h => by simp [readLoop] at h
  | fuel + 1, n, w, w', u, h => by
    unfold readLoop at h
    rw [bind_getCtx] at h
    split at h
    · rw [bind_lift_eq_ok] at h
      obtain ⟨b, -, h⟩ := h
      split at h
      · exact later_failPanic h
      · obtain ⟨u, w1, h1, h⟩ := bind_eq_ok.1 h
        rw [external_apply] at h1
        cases h1
        have := later_readLoop fuel (n + 1) h
        simp only [Later] at this ⊢
        omega
    · simp at h; rw [h]; exact Nat.le_refl _

theorem later_writeLoop : ∀ (fuel n : Nat) {w w' : World} {u : Unit}, writeLoop env fuel n w = .ok (u, w') → Later w w'
  | 0, _, _, _, _, h => by simp [writeLoop] at h
  | fuel + 1, n, w, w', u, h => by
    unfold writeLoop at h
    rw [bind_getCtx] at h
    split at h
    · rw [bind_lift_eq_ok] at h
      obtain ⟨b, -, h⟩ := h
      split at h
      · exact later_failPanic h
      · obtain ⟨u, w1, h1, h⟩ := bind_eq_ok.1 h
        rw [external_apply] at h1
        cases h1
        have := later_writeLoop fuel (n + 1) h
        simp only [Later] at this ⊢
        omega
    · simp at h; rw [h]; exact Nat.le_refl _

theorem later_waitLoop : ∀ (n : Nat) {w w' : World} {r : WaitRes}, waitLoop env n w = .ok (r, w') → Later w w'
  | 0, w, w', r, h => by simp [waitLoop] at h; rw [h.2]; exact Nat.le_refl _
  | n + 1, w, w', r, h => by
    unfold waitLoop at h
    rw [bind_getCtx] at h
    split at h
    · simp at h; rw [h.2]; exact Nat.le_refl _
    · split at h
      · simp at h; rw [h.2]; exact Nat.le_refl _
      · split at h
        · obtain ⟨u, w1, h1, h⟩ := bind_eq_ok.1 h
          exact Nat.le_trans (later_failPanic h1) (later_waitLoop n h)
        · obtain ⟨u, w1, h1, h⟩ := bind_eq_ok.1 h
          rw [callDelay, external_apply] at h1
          cases h1
          have := later_waitLoop n h
          simp only [Later] at this ⊢
          omega

theorem later_doWrites {w w' : World} {u : Unit} (h : doWrites env w = .ok (u, w')) : Later w w' := by
  unfold doWrites at h
  rw [bind_getCtx] at h
  split at h
  · exact later_writeLoop _ _ h
  · simp at h; rw [h]; exact Nat.le_refl _

theorem later_readPhase {w w' : World} {b : Bool} (h : readPhase env w = .ok (b, w')) : Later w w' := by
  rcases readPhase_eq h with ⟨-, -, -, h⟩ | ⟨-, inp, -, ⟨-, -, h⟩ | ⟨-, h⟩⟩
  · exact later_failPanic h
  · exact later_readLoop (w := { w with ctx := { w.ctx with input := inp } }) _ _ h
  · rw [h]; exact Nat.le_refl _

theorem later_outHistPhase {w w' : World} {b : Bool} (h : outHistPhase env w = .ok (b, w')) : Later w w' := by
  rcases outHistPhase_eq h with ⟨-, -, -, h⟩ | ⟨-, out, -, h⟩
  · exact later_failPanic h
  · rw [h]; exact Nat.le_refl _

theorem later_scan {w w' : World} (h : scan env w = .ok ((), w')) : Later w w' := by
  refine (SChg.scan (K := fun _ => True) (E := True) trivial (fun _ => trivial) _ _ _ h).lift
    (S := Later) (fun _ => Nat.le_refl _) (fun _ _ _ => Nat.le_trans) ?_
  intro a b h
  cases h with
  | instr h => cases h <;> simp [Later, World.upd]
  | _ => simp [Later]

theorem later_before {w w' : World} (h : callBefore env w = .ok ((), w')) : Later w w' := by
  rw [callBefore_apply] at h
  cases h
  split <;> simp [Later]

/-! ### The end of a cycle -/

/-- The cycle is closed: statistics `s` are stored and the watchdog reports an excess. -/
def closed (env : Env) (v : World) (s : ScanInt) : World :=
  let v1 := { v with ctx := { v.ctx with scan := s }, tick := v.tick + 1 }
  if v.ctx.qty.watchdogMs > 0 ∧ s.actualScanTime.toNat > v.ctx.qty.watchdogMs then panicked env (inState v1 .error) else v1

/-- The padding delay. -/
def padded (env : Env) (v : World) : World :=
  match lack v.ctx with
  | some d => delayed env v d
  | none => v

/-- A cycle given up before its scan. -/
structure Abandoned (env : Env) (w w' : World) : Prop where
  events : ∃ l, w'.trace = w.trace ++ l ∧ ∀ e ∈ l, e = .panic ∨ e = .before ∨ ∃ n, e = .read n
  scan : w'.ctx.scan = { w.ctx.scan with startTime := env.clock w.tick }
  later : w.tick < w'.tick

/-- A cycle whose time is taken in the world `v`, after its scan and writes. -/
structure Closed (env : Env) (w : World) (r : IterRes) (w' v : World) (s : ScanInt) : Prop where
  events : ∃ l, v.trace = w.trace ++ l ∧ ∀ e ∈ l, e ≠ .after ∧ ∀ ms, e ≠ .delay ms
  clockwork : clockwork v.ctx = clockwork { w.ctx with scan := { w.ctx.scan with startTime := env.clock w.tick } }
  later : w.tick < v.tick
  stats : scanMetrics v.ctx.scan (env.clock v.tick) = .ok s
  rest : w' = afterHook env (if r = .again then padded env (closed env v s) else closed env v s)

theorem closed_of {v v' : World} (h : scanTime env v = .ok ((), v')) (hm : v.ctx.millis = true) :
    ∃ s, scanMetrics v.ctx.scan (env.clock v.tick) = .ok s ∧ v' = closed env v s := by
  obtain ⟨s, hs, e⟩ := scanTime_eq h hm
  exact ⟨s, hs, by rw [e]; unfold closed panicked inState; rfl⟩

theorem clockwork_geared : Geared clockwork := by
  intro a b h
  have e : ∀ c, clockwork (gear c) = clockwork c := fun _ => rfl
  rw [← e a, h, e]

theorem calm_mem {e : Event} {l : List Event} (h : e ∈ l) (hp : e ≠ .panic) : e ∈ calm l :=
  List.mem_filter.2 ⟨h, by simpa using hp⟩

theorem reads_mem {e : Event} {n k : Nat} {l : List Event} (hc : calm l = (List.range' n k).map .read) (h : e ∈ l) :
    e = .panic ∨ e = .before ∨ ∃ n, e = .read n := by
  by_cases hp : e = .panic
  · exact .inl hp
  · have := calm_mem h hp
    rw [hc, List.mem_map] at this
    obtain ⟨n, -, e⟩ := this
    exact .inr (.inr ⟨n, e.symm⟩)

theorem writes_mem {e : Event} {outs : List (Arr OutMod)} {l : List Event} (hc : calm l = outs.mapIdx .write) (h : e ∈ l) :
    e ≠ .after ∧ ∀ ms, e ≠ .delay ms := by
  by_cases hp : e = .panic
  · rw [hp]; simp
  · have := calm_mem h hp
    rw [hc, List.mem_mapIdx] at this
    obtain ⟨i, hi, e⟩ := this
    rw [← e]; simp

theorem before_mem {e : Event} {l : List Event} (hc : calm l = [] ∨ calm l = [.before]) (h : e ∈ l) :
    e = .panic ∨ e = .before ∨ ∃ n, e = .read n := by
  by_cases hp : e = .panic
  · exact .inl hp
  · have := calm_mem h hp
    rcases hc with hc | hc <;> rw [hc] at this <;> simp at this
    exact .inr (.inl this)

theorem early {e : Event} (h : e = .panic ∨ e = .before ∨ ∃ n, e = .read n) : e ≠ .after ∧ ∀ ms, e ≠ .delay ms := by
  rcases h with h | h | ⟨n, h⟩ <;> rw [h] <;> simp

theorem cycle_close (hk : TaskHooks env fun c c' => clockwork c' = clockwork c) {w w' : World} {r : IterRes}
    (hm : w.ctx.millis = true) (h : cycle env w = .ok (r, w')) :
    (r = .again ∧ Abandoned env w w') ∨ ∃ v s, Closed env w r w' v s := by
  have hg := clockwork_geared
  have es : clockwork (startOf env w).ctx =
      clockwork { w.ctx with scan := { w.ctx.scan with startTime := env.clock w.tick } } := by
    unfold startOf; rw [if_pos hm]
  have ts : (startOf env w).tick = w.tick + 1 := by unfold startOf; rw [if_pos hm]
  have aft : ∀ {v v' : World}, callAfter env v = .ok ((), v') → v' = afterHook env v := by
    intro v v' h; rw [callAfter_apply] at h; cases h; rfl
  have start : ∀ {w1 w2 : World} {b : Bool}, callBefore env (startOf env w) = .ok ((), w1) → readPhase env w1 = .ok (b, w2) →
      clockwork w2.ctx = clockwork { w.ctx with scan := { w.ctx.scan with startTime := env.clock w.tick } } ∧
      w.tick < w2.tick ∧ ∃ l, w2.trace = w.trace ++ l ∧ ∀ e ∈ l, e = .panic ∨ e = .before ∨ ∃ n, e = .read n := by
    intro w1 w2 b hb hr
    refine ⟨((keeps_readPhase hg hk hr).trans (keeps_before hg hk hb)).trans es, ?_, ?_⟩
    · have h1 := later_before hb
      have h2 := later_readPhase hr
      simp only [Later, ts] at h1 h2
      omega
    · obtain ⟨b, eb, cb⟩ := before_trace hb
      obtain ⟨rs, k, er, cr⟩ := readPhase_trace hr
      refine ⟨b ++ rs, news_append eb er, fun e he => ?_⟩
      rcases List.mem_append.1 he with he | he
      · exact before_mem cb he
      · rw [List.range_eq_range'] at cr; exact reads_mem cr he
  have run : ∀ {w1 w2 w3 w4 : World} {b b' : Bool}, callBefore env (startOf env w) = .ok ((), w1) →
      readPhase env w1 = .ok (b, w2) → outHistPhase env w2 = .ok (b', w3) → scan env w3 = .ok ((), w4) →
      clockwork w4.ctx = clockwork { w.ctx with scan := { w.ctx.scan with startTime := env.clock w.tick } } ∧
      w.tick < w4.tick ∧ ∃ l, w4.trace = w.trace ++ l ∧ ∀ e ∈ l, e ≠ .after ∧ ∀ ms, e ≠ .delay ms := by
    intro w1 w2 w3 w4 b b' hb hr ho hsc
    obtain ⟨e1, t1, l, el, hl⟩ := start hb hr
    refine ⟨((keeps_scan hg hk hsc).trans (keeps_outHistPhase hg hk ho)).trans e1, ?_, ?_⟩
    · have h1 := later_outHistPhase ho
      have h2 := later_scan hsc
      simp only [Later] at h1 h2
      omega
    · obtain ⟨o, eo, co⟩ := outHistPhase_trace ho
      obtain ⟨sc, esc, csc⟩ := scan_trace hsc
      refine ⟨_, news_append (news_append el eo) esc, fun e he => ?_⟩
      rcases List.mem_append.1 he with he | he
      · rcases List.mem_append.1 he with he | he
        · exact early (hl e he)
        · exact early (.inl (co e he))
      · have := csc e he
        constructor
        · intro x; rw [x] at this; cases this
        · intro ms x; rw [x] at this; cases this
  have close : ∀ {w4 v v' : World} {c : Ctx}, clockwork c = clockwork w4.ctx →
      (clockwork w4.ctx = clockwork { w.ctx with scan := { w.ctx.scan with startTime := env.clock w.tick } } ∧
      w.tick < w4.tick ∧ ∃ l, w4.trace = w.trace ++ l ∧ ∀ e ∈ l, e ≠ .after ∧ ∀ ms, e ≠ .delay ms) →
      doWrites env { w4 with ctx := c } = .ok ((), v) → scanTime env v = .ok ((), v') →
      ∃ s, (∃ l, v.trace = w.trace ++ l ∧ ∀ e ∈ l, e ≠ .after ∧ ∀ ms, e ≠ .delay ms) ∧
        clockwork v.ctx = clockwork { w.ctx with scan := { w.ctx.scan with startTime := env.clock w.tick } } ∧
        w.tick < v.tick ∧ scanMetrics v.ctx.scan (env.clock v.tick) = .ok s ∧ v' = closed env v s := by
    rintro w4 v v' c hc ⟨e1, t1, l, el, hl⟩ hw ht
    have e2 : clockwork v.ctx = clockwork { w.ctx with scan := { w.ctx.scan with startTime := env.clock w.tick } } :=
      ((keeps_doWrites hg hk hw).trans hc).trans e1
    have hvm : v.ctx.millis = true := by
      have := congrArg (fun x => x.2.2.1) e2
      exact this.trans hm
    obtain ⟨s, h1, h2⟩ := closed_of ht hvm
    refine ⟨s, ?_, e2, ?_, h1, h2⟩
    · obtain ⟨ws, outs, ew, cw⟩ := doWrites_trace hw
      refine ⟨_, news_append (w1 := { w4 with ctx := c }) el ew, fun e he => ?_⟩
      rcases List.mem_append.1 he with he | he
      · exact hl e he
      · exact writes_mem cw he
    · have := later_doWrites hw
      simp only [Later] at this
      omega
  cases cycleRun h with
  | noInput hb hr =>
    obtain ⟨e1, t1, l, el, hl⟩ := start hb hr
    exact .inl ⟨rfl, ⟨l, el, hl⟩, congrArg (fun x => x.1) e1, t1⟩
  | noOutput hb hr ho =>
    obtain ⟨e1, t1, l, el, hl⟩ := start hb hr
    obtain ⟨o, eo, co⟩ := outHistPhase_trace ho
    have h1 := later_outHistPhase ho
    refine .inl ⟨rfl, ⟨_, news_append el eo, fun e he => ?_⟩,
      congrArg (fun x => x.1) ((keeps_outHistPhase hg hk ho).trans e1), Nat.lt_of_lt_of_le t1 h1⟩
    rcases List.mem_append.1 he with he | he
    · exact hl e he
    · exact .inl (co e he)
  | fault hb hr ho hsc hi hfp =>
    obtain ⟨c, c', out, v1, v2, h1, h2, h3, h4, h5, h6⟩ := faultPath_eq hfp
    have hout : out.isSome = c'.output.isSome := by
      split at h3
      · cases h3; rfl
      · exact amapFirst_isSome h3
    obtain ⟨s, x1, x2, x3, x4, x5⟩ := close (((keeps_output hg hk hout).trans (keeps_savePrevious hg hk h2)).trans
      ((keeps_rollback hg hk h1).trans rfl)) (run hb hr ho hsc) h4 h5
    exact .inr ⟨v1, s, x1, x2, x3, x4, by rw [if_neg (by simp), aft h6, x5]⟩
  | normal hb hr ho hsc hi hp hw ht hd ha =>
    rename_i w1 w2 w3 w4 w5 w6 w7 c
    obtain ⟨s, x1, x2, x3, x4, x5⟩ := close (keeps_savePrevious hg hk hp) (run hb hr ho hsc) hw ht
    refine .inr ⟨w5, s, x1, x2, x3, x4, ?_⟩
    rw [pad_apply] at hd
    cases hd
    rw [if_pos rfl, aft ha, x5]
    rfl

/-! ### C42, C43 -/

/-- The time measured when the clock is read after the writes in `v`, for a cycle begun in `w`. -/
def elapsed (env : Env) (w v : World) : Nat := (env.clock v.tick - env.clock w.tick).toNat

/-- The watchdog limit is configured and exceeded. -/
def Excess (env : Env) (w v : World) : Prop := w.ctx.qty.watchdogMs > 0 ∧ elapsed env w v > w.ctx.qty.watchdogMs

instance (w v : World) : Decidable (Excess env w v) := inferInstanceAs (Decidable (_ ∧ _))

/-- The target of a cycle in milliseconds, none if the configured value is not positive. -/
def target (w : World) : Option Nat :=
  if 0 < w.ctx.scan.targetScanMs.toInt then some w.ctx.scan.targetScanMs.toNat else none

theorem Closed.actual {w w' v : World} {r : IterRes} {s : ScanInt} (h : Closed env w r w' v s) :
    s.actualScanTime.toNat = elapsed env w v ∧ s.targetScanMs = w.ctx.scan.targetScanMs ∧
      (s.overrun = true ↔ ∃ t, target w = some t ∧ t < elapsed env w v) := by
  have e : v.ctx.scan = { w.ctx.scan with startTime := env.clock w.tick } := congrArg (fun x => x.1) h.clockwork
  have hs := h.stats
  rw [e] at hs
  unfold scanMetrics at hs
  dsimp only at hs
  split at hs
  · cases hs
  · simp only [Except.ok.injEq] at hs
    rw [← hs]
    refine ⟨rfl, rfl, ?_⟩
    unfold target elapsed
    simp only [decide_eq_true_eq]
    by_cases ht : 0 < w.ctx.scan.targetScanMs.toInt
    · rw [if_pos ht]; simp [ht]
    · rw [if_neg ht]; simp; omega

theorem Closed.qty {w w' v : World} {r : IterRes} {s : ScanInt} (h : Closed env w r w' v s) : v.ctx.qty = w.ctx.qty :=
  congrArg (fun x => x.2.1) h.clockwork

/-- C42.  A cycle with a clock is either given up before its scan, or its time is taken once, after its scan and writes (world
`v`).  The overrun flag is set iff there is a target and the time exceeds it.  The context is put into the error state and
panic is reported iff a watchdog limit is configured and the time exceeds it.  Then at most the padding and the after hook
follow. -/
theorem C42_watchdog (hk : TaskHooks env fun c c' => clockwork c' = clockwork c) {w w' : World} {r : IterRes}
    (hm : w.ctx.millis = true) (h : cycle env w = .ok (r, w')) :
    (r = .again ∧ Abandoned env w w') ∨
    ∃ (v v1 : World) (s : ScanInt), Closed env w r w' v s ∧
      v1 = { v with ctx := { v.ctx with scan := s }, tick := v.tick + 1 } ∧
      s.actualScanTime.toNat = elapsed env w v ∧
      (s.overrun = true ↔ ∃ t, target w = some t ∧ t < elapsed env w v) ∧
      closed env v s = if Excess env w v then panicked env (inState v1 .error) else v1 := by
  rcases cycle_close hk hm h with h | ⟨v, s, h⟩
  · exact .inl h
  · refine .inr ⟨v, _, s, h, rfl, h.actual.1, h.actual.2.2, ?_⟩
    unfold closed
    have hx : (v.ctx.qty.watchdogMs > 0 ∧ s.actualScanTime.toNat > v.ctx.qty.watchdogMs) = Excess env w v := by
      unfold Excess; rw [h.actual.1, h.qty]
    simp only [hx]

/-- C42, on the state at the end of the cycle, when callbacks keep the run state: it is ERROR iff it was ERROR already before
the time was taken, or the watchdog limit is exceeded. -/
theorem C42_state (hk : TaskHooks env fun c c' => clockwork c' = clockwork c)
    (hst : TaskHooks env fun c c' => c'.state = c.state) {w w' : World} {r : IterRes}
    (hm : w.ctx.millis = true) (h : cycle env w = .ok (r, w')) :
    (r = .again ∧ Abandoned env w w') ∨
    ∃ (v : World) (s : ScanInt), Closed env w r w' v s ∧
      (w'.ctx.state = .error ↔ v.ctx.state = .error ∨ Excess env w v) := by
  rcases C42_watchdog hk hm h with h | ⟨v, v1, s, h, e1, -, -, e⟩
  · exact .inl h
  · refine .inr ⟨v, s, h, ?_⟩
    have ea : ∀ u : World, (afterHook env u).ctx.state = u.ctx.state := by
      intro u; unfold afterHook; split
      · exact hst.after _ _
      · rfl
    have ep : ∀ u : World, (padded env u).ctx.state = u.ctx.state := by
      intro u; unfold padded; split
      · exact hst.delay _ _
      · rfl
    have er : w'.ctx.state = (closed env v s).ctx.state := by
      rw [h.rest, ea]; split
      · exact ep _
      · rfl
    rw [er, e]
    split
    · rename_i hx
      simp only [hx, or_true, iff_true]
      unfold panicked
      split
      · exact (hst.panic _ _).trans rfl
      · rfl
    · rename_i hx
      simp only [hx, or_false, e1]

theorem closed_clockwork (hk : TaskHooks env fun c c' => clockwork c' = clockwork c) (v : World) (s : ScanInt) :
    clockwork (closed env v s).ctx = clockwork { v.ctx with scan := s } := by
  unfold closed panicked inState
  dsimp only
  split
  · split
    · exact (hk.panic _ _).trans rfl
    · rfl
  · rfl

/-- C43.  All that happens in a cycle after its time was taken: a panic report iff the watchdog limit is exceeded (and the
callback is registered), then, in a cycle that did not fault, a delay of exactly the time missing to the target iff there is a
target not reached, then the after hook. -/
theorem C43_padding (hk : TaskHooks env fun c c' => clockwork c' = clockwork c) {w w' : World} {r : IterRes}
    (hm : w.ctx.millis = true) (hd : w.ctx.delay = true) (h : cycle env w = .ok (r, w')) :
    (r = .again ∧ Abandoned env w w') ∨
    ∃ (v : World) (s : ScanInt), Closed env w r w' v s ∧
      news v w' = ifOn (decide (Excess env w v) && w.ctx.on.panic) .panic ++
        (match target w with
          | none => []
          | some t => if r = .again ∧ elapsed env w v < t then [.delay (t - elapsed env w v)] else []) ++
        ifOn w.ctx.on.taskAfter .after := by
  rcases C42_watchdog hk hm h with h | ⟨v, v1, s, h, e1, ha, -, e⟩
  · exact .inl h
  · refine .inr ⟨v, s, h, ?_⟩
    have hon : v.ctx.on = w.ctx.on := congrArg (fun x => x.2.2.2.2) h.clockwork
    have hdl : v.ctx.delay = w.ctx.delay := congrArg (fun x => x.2.2.2.1) h.clockwork
    have hc := closed_clockwork hk v s
    have con : (closed env v s).ctx.on = w.ctx.on := (congrArg (fun x => x.2.2.2.2) hc).trans hon
    have csc : (closed env v s).ctx.scan = s := congrArg (fun x => x.1) hc
    have cdl : (closed env v s).ctx.delay = true := ((congrArg (fun x => x.2.2.2.1) hc).trans hdl).trans hd
    have tc : (closed env v s).trace = v.trace ++ ifOn (decide (Excess env w v) && w.ctx.on.panic) .panic := by
      rw [e]
      split
      · rename_i hx
        unfold panicked inState ifOn
        rw [e1]
        simp only [hx, decide_true, Bool.true_and, hon]
        split <;> simp
      · rename_i hx
        simp [hx, ifOn, e1]
    have ta : ∀ u : World, u.ctx.on = w.ctx.on → (afterHook env u).trace = u.trace ++ ifOn w.ctx.on.taskAfter .after := by
      intro u hu; unfold afterHook ifOn; rw [hu]; split <;> simp
    have tp : (padded env (closed env v s)).trace = (closed env v s).trace ++ (match target w with
          | none => []
          | some t => if elapsed env w v < t then [.delay (t - elapsed env w v)] else []) ∧
        (padded env (closed env v s)).ctx.on = w.ctx.on := by
      unfold padded lack target
      rw [csc, h.actual.1, h.actual.2.1, cdl]
      by_cases ht : 0 < w.ctx.scan.targetScanMs.toInt
      · by_cases hl : elapsed env w v < w.ctx.scan.targetScanMs.toNat
        · rw [if_pos ht]
          rw [if_pos (show w.ctx.scan.targetScanMs.toInt > 0 ∧ elapsed env w v < w.ctx.scan.targetScanMs.toNat ∧
            true = true from ⟨ht, hl, rfl⟩)]
          simp only [if_pos hl]
          exact ⟨rfl, (congrArg (fun x => x.2.2.2.2) (hk.delay _ _)).trans con⟩
        · rw [if_pos ht, if_neg (fun x => hl x.2.1)]
          simp [hl, con]
      · rw [if_neg ht, if_neg (fun x => ht x.1)]
        simp [con]
    have key : w'.trace = v.trace ++ (ifOn (decide (Excess env w v) && w.ctx.on.panic) .panic ++
        (match target w with
          | none => []
          | some t => if r = .again ∧ elapsed env w v < t then [.delay (t - elapsed env w v)] else []) ++
        ifOn w.ctx.on.taskAfter .after) := by
      rw [h.rest]
      by_cases hr : r = .again
      · rw [if_pos hr, ta _ tp.2, tp.1, tc]
        simp [hr]
      · rw [if_neg hr, ta _ con, tc]
        simp only [hr, false_and, if_false]
        cases target w <;> simp
    exact news_of key

/-! ### C41 -/

theorem cycle_later {w w' v : World} {r : IterRes} {s : ScanInt} (h : Closed env w r w' v s) : v.tick < w'.tick := by
  have h1 : ∀ u : World, u.tick ≤ (afterHook env u).tick := by intro u; unfold afterHook; split <;> simp
  have h2 : ∀ u : World, u.tick ≤ (padded env u).tick := by intro u; unfold padded; split <;> simp [delayed]
  have h3 : v.tick + 1 ≤ (closed env v s).tick := by
    unfold closed panicked inState; dsimp only; split
    · split <;> simp
    · simp
  rw [h.rest]
  refine Nat.lt_of_lt_of_le (Nat.lt_of_lt_of_le (Nat.lt_succ_self _) h3) (Nat.le_trans ?_ (h1 _))
  split
  · exact h2 _
  · exact Nat.le_refl _

theorem cycle_scan (hk : TaskHooks env fun c c' => clockwork c' = clockwork c) {w w' v : World} {r : IterRes} {s : ScanInt}
    (h : Closed env w r w' v s) : w'.ctx.scan = s := by
  have h1 : ∀ u : World, clockwork (afterHook env u).ctx = clockwork u.ctx := by
    intro u; unfold afterHook; split
    · exact hk.after _ _
    · rfl
  have h2 : ∀ u : World, clockwork (padded env u).ctx = clockwork u.ctx := by
    intro u; unfold padded; split
    · exact hk.delay _ _
    · rfl
  have h3 : clockwork w'.ctx = clockwork (closed env v s).ctx := by
    rw [h.rest, h1]
    split
    · exact h2 _
    · rfl
  exact congrArg (fun x => x.1) (h3.trans (closed_clockwork hk v s))

/-- The statistics after a cycle. -/
theorem cycle_stats (hk : TaskHooks env fun c c' => clockwork c' = clockwork c) {w w' v : World} {r : IterRes} {s : ScanInt}
    {ds : List Nat} (h : Closed env w r w' v s) (hs : Stats w.ctx.scan ds)
    (hc : ds.length + 1 < 2^32) (ht : ds.sum + elapsed env w v < 2^64) :
    Stats w'.ctx.scan (ds ++ [elapsed env w v]) := by
  have e : v.ctx.scan = { w.ctx.scan with startTime := env.clock w.tick } := congrArg (fun x => x.1) h.clockwork
  have hv : Stats v.ctx.scan ds := by
    rw [e]; exact ⟨hs.count, hs.total, hs.avg, hs.minLe, hs.minMem, hs.maxGe, hs.maxMem, hs.none⟩
  rw [cycle_scan hk h]
  have hst : v.ctx.scan.startTime = env.clock w.tick := by rw [e]
  have := (hv.step h.stats hc (by rw [hst]; exact ht)).1
  rw [hst] at this
  exact this

theorem stats_congr {s : ScanInt} {ds : List Nat} (x : W64) (hs : Stats s ds) : Stats { s with startTime := x } ds :=
  ⟨hs.count, hs.total, hs.avg, hs.minLe, hs.minMem, hs.maxGe, hs.maxMem, hs.none⟩

/-- C41 for one cycle.  If the statistics are those of the times `ds` measured so far, then afterwards they are those of `ds` and
the clock difference (modulo 2^64) between the begin of the cycle and the end of its writes; a cycle given up before its scan is
not measured. -/
theorem C41_cycle (hk : TaskHooks env fun c c' => clockwork c' = clockwork c) {w w' : World} {r : IterRes} {ds : List Nat}
    (hm : w.ctx.millis = true) (h : cycle env w = .ok (r, w')) (hs : Stats w.ctx.scan ds) (hc : ds.length + 1 < 2^32)
    (ht : ∀ t, ds.sum + (env.clock t - env.clock w.tick).toNat < 2^64) :
    (r = .again ∧ Abandoned env w w' ∧ Stats w'.ctx.scan ds) ∨
    ∃ (v : World) (s : ScanInt), Closed env w r w' v s ∧
      Stats w'.ctx.scan (ds ++ [(env.clock v.tick - env.clock w.tick).toNat]) := by
  rcases cycle_close hk hm h with ⟨hr, h⟩ | ⟨v, s, h⟩
  · exact .inl ⟨hr, h, by rw [h.scan]; exact stats_congr _ hs⟩
  · exact .inr ⟨v, s, h, cycle_stats hk h hs hc (ht _)⟩

theorem waiting_noAfter {l : List Event} (h : Waiting l) : l.count .after = 0 := by
  rw [List.count_eq_zero]
  intro he
  rcases h _ he with h | ⟨ms, h⟩ <;> cases h

theorem keeps_clock (hk : TaskHooks env fun c c' => clockwork c' = clockwork c) {n : Nat} {w w' : World} {r : WaitRes}
    (h : waitLoop env n w = .ok (r, w')) : clockwork w'.ctx = clockwork w.ctx :=
  keeps_waitLoop clockwork_geared hk _ h

/-- What an iteration measures: nothing, or one interval. -/
theorem iter_stats (hk : TaskHooks env fun c c' => clockwork c' = clockwork c) {w w' : World} {r : IterRes}
    (hm : w.ctx.millis = true) (h : taskIter env w = .ok (r, w')) :
    ∃ l, w'.trace = w.trace ++ l ∧ w.tick ≤ w'.tick ∧ (w'.ctx.millis, w'.ctx.on) = (w.ctx.millis, w.ctx.on) ∧
      (((∃ x, w'.ctx.scan = { w.ctx.scan with startTime := x }) ∧ l.count .after = 0) ∨
       ∃ u v : World, w.tick ≤ u.tick ∧ u.tick < v.tick ∧ v.tick < w'.tick ∧ l.count .after = (ifOn w.ctx.on.taskAfter .after).length ∧
        w'.ctx.scan.scanCount.toNat = w.ctx.scan.scanCount.toNat + 1 ∧
        ∀ ds, Stats w.ctx.scan ds → ds.length + 1 < 2^32 → ds.sum + elapsed env u v < 2^64 →
          Stats w'.ctx.scan (ds ++ [elapsed env u v])) := by
  have hcfg : (w'.ctx.millis, w'.ctx.on) = (w.ctx.millis, w.ctx.on) :=
    keeps_taskIter (f := fun c => (c.millis, c.on))
      (fun a b e => by
        have e2 : ∀ c, ((gear c).millis, (gear c).on) = (c.millis, c.on) := fun _ => rfl
        show (a.millis, a.on) = (b.millis, b.on)
        rw [← e2 a, e, e2])
      ⟨⟨fun t c => congrArg (fun x => (x.2.2.1, x.2.2.2.2)) (hk.panic t c), fun t c => congrArg (fun x => (x.2.2.1, x.2.2.2.2)) (hk.instruction t c),
        fun t c => congrArg (fun x => (x.2.2.1, x.2.2.2.2)) (hk.scanEnd t c), fun t a b d c => congrArg (fun x => (x.2.2.1, x.2.2.2.2)) (hk.foreign t a b d c)⟩,
       fun t c => congrArg (fun x => (x.2.2.1, x.2.2.2.2)) (hk.before t c), fun t c => congrArg (fun x => (x.2.2.1, x.2.2.2.2)) (hk.after t c),
       fun t c => congrArg (fun x => (x.2.2.1, x.2.2.2.2)) (hk.endTask t c), fun t c => congrArg (fun x => (x.2.2.1, x.2.2.2.2)) (hk.delay t c),
       fun t n c => congrArg (fun x => (x.2.2.1, x.2.2.2.2)) (hk.read t n c), fun t n c => congrArg (fun x => (x.2.2.1, x.2.2.2.2)) (hk.write t n c)⟩
      (fun _ _ => rfl) h
  unfold taskIter at h
  obtain ⟨q, u, hq, h⟩ := bind_eq_ok.1 h
  have ew := keeps_clock hk hq
  have es : u.ctx.scan = w.ctx.scan := congrArg (fun x => x.1) ew
  have lu := later_waitLoop _ hq
  obtain ⟨l0, el0, hl0⟩ := waitLoop_trace _ hq
  have c0 := waiting_noAfter hl0
  cases q with
  | leave =>
    simp at h
    rw [← h.2]
    exact ⟨l0, el0, lu, by rw [h.2]; exact hcfg, .inl ⟨⟨_, by rw [es]⟩, c0⟩⟩
  | timeout =>
    obtain ⟨x, u2, h2, h⟩ := bind_eq_ok.1 h
    rw [bind_modCtx] at h
    simp at h
    obtain ⟨l1, el1, hl1⟩ := failPanic_trace h2
    have lt := later_failPanic h2
    have e2 : u2.ctx.scan = u.ctx.scan := congrArg (fun x => x.1) (keeps_failPanic clockwork_geared hk h2)
    refine ⟨l0 ++ l1, by rw [← h.2]; exact news_append el0 el1, by rw [← h.2]; exact Nat.le_trans lu lt, hcfg,
      .inl ⟨⟨w.ctx.scan.startTime, by rw [← h.2]; exact e2.trans es⟩, ?_⟩⟩
    rw [List.count_append, c0, Nat.zero_add, List.count_eq_zero]
    intro hx; have := hl1 _ hx; cases this
  | ready =>
    have hmu : u.ctx.millis = true := (congrArg (fun x => x.2.2.1) ew).trans hm
    have hon : u.ctx.on = w.ctx.on := congrArg (fun x => x.2.2.2.2) ew
    rcases cycle_close hk hmu h with ⟨hr, hg⟩ | ⟨v, s, hc⟩
    · obtain ⟨l, el, hl⟩ := hg.events
      refine ⟨l0 ++ l, news_append el0 el, Nat.le_trans lu (Nat.le_of_lt hg.later), hcfg,
        .inl ⟨⟨_, by rw [hg.scan, es]⟩, ?_⟩⟩
      rw [List.count_append, c0, Nat.zero_add, List.count_eq_zero]
      intro hx
      rcases hl _ hx with h | h | ⟨n, h⟩ <;> cases h
    · obtain ⟨l, el, hl⟩ := hc.events
      have hlast : ∃ t, w'.trace = v.trace ++ t ∧ t.count .after = (ifOn w.ctx.on.taskAfter .after).length := by
        have hcw : clockwork v.ctx = clockwork { u.ctx with scan := { u.ctx.scan with startTime := env.clock u.tick } } :=
          hc.clockwork
        have ta : ∀ x : World, x.ctx.on = w.ctx.on → (afterHook env x).trace = x.trace ++ ifOn w.ctx.on.taskAfter .after := by
          intro x hu; unfold afterHook ifOn; rw [hu]; split <;> simp
        have tc : ∃ t, (closed env v s).trace = v.trace ++ t ∧ t.count .after = 0 := by
          unfold closed panicked inState
          dsimp only
          split
          · split
            · exact ⟨[.panic], rfl, by decide⟩
            · exact ⟨[], by simp, rfl⟩
          · exact ⟨[], by simp, rfl⟩
        have tp : ∀ x : World, ∃ t, (padded env x).trace = x.trace ++ t ∧ t.count .after = 0 := by
          intro x; unfold padded; split
          · exact ⟨[.delay _], rfl, by rw [List.count_eq_zero]; simp⟩
          · exact ⟨[], by simp, rfl⟩
        have con : (closed env v s).ctx.on = w.ctx.on :=
          (congrArg (fun x => x.2.2.2.2) ((closed_clockwork hk v s).trans rfl)).trans
            ((congrArg (fun x => x.2.2.2.2) hcw).trans hon)
        have pon : ∀ x : World, (padded env x).ctx.on = x.ctx.on := by
          intro x; unfold padded; split
          · exact congrArg (fun x => x.2.2.2.2) (hk.delay _ _)
          · rfl
        have cf : (ifOn w.ctx.on.taskAfter Event.after).count .after = (ifOn w.ctx.on.taskAfter Event.after).length := by
          unfold ifOn; split <;> simp
        obtain ⟨t1, e1, n1⟩ := tc
        rw [hc.rest]
        split
        · obtain ⟨t2, e2, n2⟩ := tp (closed env v s)
          refine ⟨t1 ++ t2 ++ ifOn w.ctx.on.taskAfter .after, ?_, ?_⟩
          · rw [ta _ ((pon _).trans con), e2, e1]; simp
          · rw [List.count_append, List.count_append, n1, n2, cf]; simp
        · refine ⟨t1 ++ ifOn w.ctx.on.taskAfter .after, ?_, ?_⟩
          · rw [ta _ con, e1]; simp
          · rw [List.count_append, n1, cf]; simp
      obtain ⟨t, et, nt⟩ := hlast
      refine ⟨l0 ++ l ++ t, news_append (news_append el0 el) et,
        Nat.le_trans lu (Nat.le_trans (Nat.le_of_lt hc.later) (Nat.le_of_lt (cycle_later hc))), hcfg,
        .inr ⟨u, v, lu, hc.later, cycle_later hc, ?_, ?_, ?_⟩⟩
      · rw [List.count_append, List.count_append, c0, nt]
        have : l.count .after = 0 := by
          rw [List.count_eq_zero]; intro hx; exact (hl _ hx).1 rfl
        rw [this]; omega
      · rw [cycle_scan hk hc, ← es]
        have e : v.ctx.scan = { u.ctx.scan with startTime := env.clock u.tick } := congrArg (fun x => x.1) hc.clockwork
        have h1 := hc.stats
        rw [e] at h1
        unfold scanMetrics at h1
        dsimp only at h1
        split at h1
        · cases h1
        · rename_i h0
          cases h1
          show (u.ctx.scan.scanCount + 1).toNat = _
          rw [BitVec.toNat_add]
          refine Nat.mod_eq_of_lt (Classical.byContradiction fun hge => h0 ?_)
          apply BitVec.eq_of_toNat_eq
          have := u.ctx.scan.scanCount.isLt
          rw [BitVec.toNat_add, show u.ctx.scan.scanCount.toNat = 2^32 - 1 by simp at hge; omega]
          rfl
      · intro ds hs h1 h2
        exact cycle_stats hk hc (by rw [es]; exact hs) h1 h2

theorem taskLoop_later (hk : TaskHooks env fun c c' => clockwork c' = clockwork c) :
    ∀ (n : Nat) {w w' : World} {r : TaskRes}, w.ctx.millis = true → taskLoop env n w = .ok (r, w') → w.tick ≤ w'.tick
  | 0, w, w', r, hm, h => by simp [taskLoop] at h; rw [h.2]; exact Nat.le_refl _
  | n + 1, w, w', r, hm, h => by
    have nocall : ∀ {u u' : World} {x : Unit}, callEndTask env u = .ok (x, u') → u.tick ≤ u'.tick := by
      intro u u' x h
      rw [callEndTask_apply] at h
      cases h
      split <;> simp
    unfold taskLoop at h
    rw [bind_getCtx] at h
    split at h
    · obtain ⟨u, w1, h1, h⟩ := bind_eq_ok.1 h
      simp at h
      rw [← h.2]; exact nocall h1
    · obtain ⟨i, w1, hi, h⟩ := bind_eq_ok.1 h
      obtain ⟨l, el, lt, hcfg, -⟩ := iter_stats hk hm hi
      cases i with
      | again => exact Nat.le_trans lt (taskLoop_later hk n ((congrArg (fun x => x.1) hcfg).trans hm) h)
      | exit =>
        obtain ⟨u, w2, h2, h⟩ := bind_eq_ok.1 h
        simp at h
        rw [← h.2]; exact Nat.le_trans lt (nocall h2)
      | leave => simp at h; rw [← h.2]; exact lt

/-- Each iteration that ends with the after hook counts one. -/
theorem taskLoop_count (hk : TaskHooks env fun c c' => clockwork c' = clockwork c) : ∀ (n : Nat) {w w' : World} {r : TaskRes},
    taskLoop env n w = .ok (r, w') → w.ctx.millis = true → w.ctx.on.taskAfter = true →
    ∃ l, w'.trace = w.trace ++ l ∧ w'.ctx.scan.scanCount.toNat = w.ctx.scan.scanCount.toNat + l.count .after
  | 0, w, w', r, h, _, _ => by
    simp [taskLoop] at h
    rw [← h.2]
    exact ⟨[], by simp, rfl⟩
  | n + 1, w, w', r, h, hm, ha => by
    have nocall : ∀ {u u' : World} {x : Unit}, callEndTask env u = .ok (x, u') →
        ∃ l, u'.trace = u.trace ++ l ∧ u'.ctx.scan.scanCount.toNat = u.ctx.scan.scanCount.toNat + l.count .after := by
      intro u u' x h
      have e1 := keeps_endTask clockwork_geared hk h
      have e2 : u'.ctx.scan = u.ctx.scan := congrArg (fun x => x.1) e1
      rw [callEndTask_apply] at h
      refine ⟨ifOn u.ctx.on.endTask .endTask, ?_, ?_⟩
      · cases h
        split
        · rename_i hx; simp [ifOn, hx]
        · rename_i hx; simp [ifOn, hx]
      · rw [e2]; unfold ifOn; split <;> simp
    unfold taskLoop at h
    rw [bind_getCtx] at h
    split at h
    · obtain ⟨u, w1, h1, h⟩ := bind_eq_ok.1 h
      simp at h
      rw [← h.2]
      exact nocall h1
    · obtain ⟨i, w1, hi, h⟩ := bind_eq_ok.1 h
      obtain ⟨l, el, lt, hcfg, hst⟩ := iter_stats hk hm hi
      have hm1 : w1.ctx.millis = true := (congrArg (fun x => x.1) hcfg).trans hm
      have ha1 : w1.ctx.on.taskAfter = true := by rw [show w1.ctx.on = w.ctx.on from congrArg (fun x => x.2) hcfg]; exact ha
      have h1 : w1.ctx.scan.scanCount.toNat = w.ctx.scan.scanCount.toNat + l.count .after := by
        rcases hst with ⟨⟨x, hx⟩, hc⟩ | ⟨u, v, -, -, -, hc, hn, -⟩
        · rw [hx, hc]; rfl
        · rw [hn, hc, ha]; rfl
      suffices ∃ l', w'.trace = w1.trace ++ l' ∧ w'.ctx.scan.scanCount.toNat = w1.ctx.scan.scanCount.toNat + l'.count .after by
        obtain ⟨l', e', h'⟩ := this
        exact ⟨l ++ l', by rw [e', el, List.append_assoc], by rw [h', h1, List.count_append, Nat.add_assoc]⟩
      cases i with
      | again => exact taskLoop_count hk n h hm1 ha1
      | exit =>
        obtain ⟨u, w2, h2, h⟩ := bind_eq_ok.1 h
        simp at h
        rw [← h.2]
        exact nocall h2
      | leave =>
        simp at h
        rw [← h.2]
        exact ⟨[], by simp, rfl⟩

/-- C41 for runs of any length.  The clock shows the true time `e t` modulo 2^64 at the `t`-th external call; it may wrap around any
number of times before and during the run.  Then the statistics are those of a list of true durations of disjoint intervals within
the run, one for each measured cycle (each call of the after hook, if it is registered), as long as fewer than 2^32 cycles are
counted and the total time stays below 2^64. -/
theorem C41_run (hk : TaskHooks env fun c c' => clockwork c' = clockwork c) {e : Nat → Nat}
    (he : ∀ t, env.clock t = BitVec.ofNat 64 (e t)) (mono : ∀ i j, i ≤ j → e i ≤ e j) :
    ∀ (n : Nat) {w w' : World} {r : TaskRes} {ds : List Nat}, taskLoop env n w = .ok (r, w') → w.ctx.millis = true →
      Stats w.ctx.scan ds → ds.length + n < 2^32 → ds.sum + (e w'.tick - e w.tick) < 2^64 →
      ∃ iv : List (Nat × Nat), (∀ p ∈ iv, w.tick ≤ p.1 ∧ p.1 < p.2 ∧ p.2 < w'.tick) ∧
        iv.Pairwise (fun p q => p.2 < q.1) ∧ (iv.map fun p => e p.2 - e p.1).sum ≤ e w'.tick - e w.tick ∧ iv.length ≤ n ∧
        w.tick ≤ w'.tick ∧ (w.ctx.on.taskAfter = true → (news w w').count .after = iv.length) ∧
        Stats w'.ctx.scan (ds ++ iv.map fun p => e p.2 - e p.1)
  | 0, w, w', r, ds, h, hm, hs, hn, ht => by
    simp [taskLoop] at h
    rw [← h.2]
    exact ⟨[], by simp, .nil, by simp, by simp, Nat.le_refl _, by simp [news], by simpa using hs⟩
  | n + 1, w, w', r, ds, h, hm, hs, hn, ht => by
    unfold taskLoop at h
    rw [bind_getCtx] at h
    have nocall : ∀ {u u' : World} {x : Unit}, callEndTask env u = .ok (x, u') →
        ∃ l, u'.trace = u.trace ++ l ∧ l.count .after = 0 ∧ u.tick ≤ u'.tick ∧ u'.ctx.scan = u.ctx.scan := by
      intro u u' x h
      have e1 := keeps_endTask clockwork_geared hk h
      rw [callEndTask_apply] at h
      cases h
      refine ⟨ifOn u.ctx.on.endTask .endTask, ?_, ?_, ?_, congrArg (fun x => x.1) e1⟩
      · split
        · rename_i hx; simp [ifOn, hx]
        · rename_i hx; simp [ifOn, hx]
      · unfold ifOn; split <;> decide
      · split <;> simp
    split at h
    · obtain ⟨u, w1, h1, h⟩ := bind_eq_ok.1 h
      simp at h
      obtain ⟨l, el, cl, lt, es⟩ := nocall h1
      rw [← h.2] at ht ⊢
      exact ⟨[], by simp, .nil, by simp, by simp, lt, by intro _; rw [news_of el, cl]; simp, by rw [es]; simpa using hs⟩
    · obtain ⟨i, w1, hi, h⟩ := bind_eq_ok.1 h
      obtain ⟨l, el, lt, hcfg, hst⟩ := iter_stats hk hm hi
      have hm1 : w1.ctx.millis = true := (congrArg (fun x => x.1) hcfg).trans hm
      have hon : w1.ctx.on = w.ctx.on := congrArg (fun x => x.2) hcfg
      -- the rest of the run
      have rest : ∀ ds1 : List Nat, Stats w1.ctx.scan ds1 → ds1.length + n < 2^32 →
          ds1.sum + (e w'.tick - e w1.tick) < 2^64 →
          ∃ iv : List (Nat × Nat), (∀ p ∈ iv, w1.tick ≤ p.1 ∧ p.1 < p.2 ∧ p.2 < w'.tick) ∧
            iv.Pairwise (fun p q => p.2 < q.1) ∧ (iv.map fun p => e p.2 - e p.1).sum ≤ e w'.tick - e w1.tick ∧
            iv.length ≤ n ∧ w1.tick ≤ w'.tick ∧
            (w.ctx.on.taskAfter = true → ∃ l', w'.trace = w1.trace ++ l' ∧ l'.count .after = iv.length) ∧
            Stats w'.ctx.scan (ds1 ++ iv.map fun p => e p.2 - e p.1) := by
        intro ds1 hs1 hn1 ht1
        cases i with
        | again =>
          obtain ⟨iv, a1, a2, a3, a4, a5, a6, a7⟩ := C41_run hk he mono n h hm1 hs1 hn1 ht1
          obtain ⟨segs, e', etr, -⟩ := C34_run_phased n h
          refine ⟨iv, a1, a2, a3, a4, a5, fun ha => ⟨_, etr, ?_⟩, a7⟩
          rw [← news_of etr]; exact a6 (by rw [hon]; exact ha)
        | exit =>
          obtain ⟨u, w2, h2, h⟩ := bind_eq_ok.1 h
          simp at h
          obtain ⟨l2, el2, cl, lt2, es⟩ := nocall h2
          rw [← h.2]
          exact ⟨[], by simp, .nil, by simp, by simp, lt2, fun _ => ⟨l2, el2, cl⟩, by rw [es]; simpa using hs1⟩
        | leave =>
          simp at h
          rw [← h.2]
          exact ⟨[], by simp, .nil, by simp, by simp, Nat.le_refl _, fun _ => ⟨[], by simp, rfl⟩, by simpa using hs1⟩
      have lw : w1.tick ≤ w'.tick := by
        cases i with
        | again => exact taskLoop_later hk n hm1 h
        | exit =>
          obtain ⟨u, w2, h2, h⟩ := bind_eq_ok.1 h
          simp at h
          obtain ⟨l2, el2, cl, lt2, es⟩ := nocall h2
          rw [← h.2]; exact lt2
        | leave => simp at h; rw [← h.2]; exact Nat.le_refl _
      have m1 := mono _ _ lt
      have m2 := mono _ _ lw
      rcases hst with ⟨⟨x, hx⟩, hc0⟩ | ⟨u, v, t1, t2, t3, hcn, -, hst⟩
      · obtain ⟨iv, a1, a2, a3, a4, a5, a6, a7⟩ := rest ds (by rw [hx]; exact stats_congr _ hs) (by omega) (by omega)
        refine ⟨iv, fun p hp => ?_, a2, by omega, by omega, by omega, fun ha => ?_, a7⟩
        · have := a1 p hp; omega
        · obtain ⟨l', el', c'⟩ := a6 ha
          rw [news_of (news_append el el'), List.count_append, hc0, c']; omega
      · have d : elapsed env u v = e v.tick - e u.tick := by
          have m3 := mono _ _ t1
          have m4 := mono _ _ (Nat.le_of_lt t2)
          have m5 := mono _ _ (Nat.le_of_lt t3)
          unfold elapsed
          rw [he, he, BitVec.toNat_sub, BitVec.toNat_ofNat, BitVec.toNat_ofNat]
          have hlt : e v.tick - e u.tick < 2^64 := by omega
          omega
        have m3 := mono _ _ t1
        have m4 := mono _ _ (Nat.le_of_lt t2)
        have m5 := mono _ _ (Nat.le_of_lt t3)
        have hs1 := hst ds hs (by omega) (by rw [d]; omega)
        rw [d] at hs1
        obtain ⟨iv, a1, a2, a3, a4, a5, a6, a7⟩ := rest _ hs1 (by simp; omega) (by simp; omega)
        refine ⟨(u.tick, v.tick) :: iv, ?_, ?_, ?_, ?_, by omega, ?_, ?_⟩
        · intro p hp
          rcases List.mem_cons.1 hp with rfl | hp
          · exact ⟨t1, t2, by omega⟩
          · have := a1 p hp; omega
        · refine .cons (fun q hq => ?_) a2
          have := a1 q hq
          show v.tick < q.1
          omega
        · simp only [List.map_cons, List.sum_cons]; omega
        · simp; omega
        · intro ha
          obtain ⟨l', el', c'⟩ := a6 ha
          rw [news_of (news_append el el'), List.count_append, hcn, c', ha]
          simp [ifOn]; omega
        · simpa using a7

/-! ### Cases that meet the hypotheses -/

/-- A clock that wraps around between the first and the second reading. -/
def wrapEnv : Env := { Demo.env with clock := fun t => BitVec.ofNat 64 (2^64 - 5 + 10 * t) }

theorem wrapHooks (P : Ctx → Ctx → Prop) (h : ∀ c, P c c) : TaskHooks wrapEnv P := by
  constructor
  · constructor <;> intros <;> exact h _
  all_goals intros; exact h _

/-- The demonstration program with a watchdog limit of 20 ms and a target of 50 ms. -/
def timeDemo : World :=
  let c := cycleDemo.ctx
  ⟨{ c with on := { c.on with panic := true }, qty := { c.qty with watchdogMs := 20 }
            scan := { c.scan with targetScanMs := 50 } }, 0, []⟩

theorem timeDemo_fresh : Stats timeDemo.ctx.scan [] := by
  constructor <;> first | rfl | (intro h; cases h; done) | (intro d h; cases h; done) | (intro h; exact absurd rfl h) | (intro _; rfl)

/-- Its first cycle takes 40 ms by the wrapping clock: the watchdog reports and the rest of the target is delayed. -/
theorem timeDemo_run : ∃ w', cycle wrapEnv timeDemo = .ok (.again, w') ∧
    w'.ctx.scan.scanCount = 1 ∧ w'.ctx.scan.avgScanTime = 40 ∧ w'.ctx.state = .error ∧
    w'.ctx.scan.overrun = false ∧ (.panic ∈ news timeDemo w') ∧ (.delay 10 ∈ news timeDemo w') := by
  have key : (match cycle wrapEnv timeDemo with
      | .ok (r, w') => decide (r = .again ∧
          w'.ctx.scan.scanCount = 1 ∧ w'.ctx.scan.avgScanTime = 40 ∧ w'.ctx.state = .error ∧
          w'.ctx.scan.overrun = false ∧ (.panic ∈ news timeDemo w') ∧ (.delay 10 ∈ news timeDemo w'))
      | .error _ => false) = true := by decide +kernel
  split at key
  · rename_i r w' h
    rw [decide_eq_true_iff] at key
    exact ⟨w', key.1 ▸ h, key.2⟩
  · cases key

example {w' : World} {r : IterRes} (h : cycle wrapEnv timeDemo = .ok (r, w')) :=
  C43_padding (wrapHooks _ fun _ => rfl) rfl rfl h

example {w' : World} {r : IterRes} (h : cycle wrapEnv timeDemo = .ok (r, w')) :=
  C42_state (wrapHooks _ fun _ => rfl) (wrapHooks _ fun _ => rfl) rfl h

/-- A running context without modules and networks. -/
def idleDemo : World := ⟨{ Demo.ctx [] with fnReadQty := 0, fnWriteQty := 0, on := { taskAfter := true } }, 0, []⟩

/-- Three cycles without limits and modules; the clock wraps around during the first. -/
theorem threeDemo : ∃ w', taskLoop wrapEnv 3 idleDemo = .ok (.running, w') ∧ w'.tick = 9 ∧
    w'.ctx.scan.scanCount = 3 ∧ w'.ctx.scan.totalScanTime = 30 ∧ (news idleDemo w').count .after = 3 := by
  have key : (match taskLoop wrapEnv 3 idleDemo with
      | .ok (r, w') => decide (r = .running ∧ w'.tick = 9 ∧
          w'.ctx.scan.scanCount = 3 ∧ w'.ctx.scan.totalScanTime = 30 ∧ (news idleDemo w').count .after = 3)
      | .error _ => false) = true := by decide +kernel
  split at key
  · rename_i r w' h
    rw [decide_eq_true_iff] at key
    exact ⟨w', key.1 ▸ h, key.2⟩
  · cases key

/-- C41 applies to it. -/
example : ∃ w', taskLoop wrapEnv 3 idleDemo = .ok (.running, w') ∧ ∃ iv : List (Nat × Nat), iv.length = 3 ∧
    Stats w'.ctx.scan (iv.map fun p => (2^64 - 5 + 10 * p.2) - (2^64 - 5 + 10 * p.1)) := by
  obtain ⟨w', h, ht, -, -, hc⟩ := threeDemo
  have hs : Stats idleDemo.ctx.scan [] := by
    constructor <;> first | rfl | (intro h; cases h; done) | (intro d h; cases h; done) | (intro h; exact absurd rfl h) | (intro _; rfl)
  obtain ⟨iv, -, -, -, -, -, h6, h7⟩ := C41_run (wrapHooks _ fun _ => rfl) (e := fun t => 2^64 - 5 + 10 * t) (fun _ => rfl)
    (fun i j hij => by omega) 3 h rfl hs (by decide) (by rw [ht]; decide)
  exact ⟨w', h, iv, (h6 rfl).symm.trans hc, by simpa using h7⟩

end Ladder.Props
