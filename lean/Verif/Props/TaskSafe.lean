import Verif.Lemmas.Upkeep
import Verif.Lemmas.Frame
import Verif.Props.ScanSafe
import Verif.Spec.Cycle

/-
C72: a task that runs a well-formed program has no undefined behaviour.
-/

set_option autoImplicit false

namespace Ladder

open Spec Op

namespace Spec

/-- The hardware table of a context: how many modules there are, and their functions. -/
def bench (c : Ctx) : Nat × Nat × Arr Bool × Arr Bool := (c.fnReadQty, c.fnWriteQty, c.read, c.write)

/-- A configuration the task can be started with: tables as long as they should be, and all flag areas allocated. -/
structure Equipped (B : Ctx) : Prop where
  reads : B.fnReadQty < 2^32 ∧ ∀ l, B.read = some l → B.fnReadQty ≤ l.length
  writes : B.fnWriteQty < 2^32 ∧ ∀ l, B.write = some l → B.fnWriteQty ≤ l.length
  M : Owns B (.M 0) ∧ Owns B (.Mh 0)
  Cd : Owns B (.Cd 0) ∧ Owns B (.Cdh 0)
  Cr : Owns B (.Cr 0) ∧ Owns B (.Crh 0)
  Td : Owns B (.Td 0) ∧ Owns B (.Tdh 0)
  Tr : Owns B (.Tr 0) ∧ Owns B (.Trh 0)

/-- The callbacks of a task are mild. -/
structure MildTask (B : Ctx) (env : Env) : Prop extends MildEnv B env where
  before : Mild B env.before
  after : Mild B env.after
  endTask : Mild B env.endTask
  delay : Mild B env.delay
  read : ∀ n, Mild B fun t => env.read t n
  write : ∀ n, Mild B fun t => env.write t n

/-- The callbacks of a task (compare `Calls`). -/
structure TaskCalls (z : Bool) (B : Ctx) (env : Env) : Prop extends Calls z B env where
  before : Gentle z B (fun _ => True) env.before
  after : Gentle z B (fun _ => True) env.after
  endTask : Gentle z B (fun _ => True) env.endTask
  delay : Gentle z B (fun _ => True) env.delay
  read : ∀ n, n < B.fnReadQty → Gentle z B (fun _ => True) fun t => env.read t n
  write : ∀ n, n < B.fnWriteQty → Gentle z B (fun _ => True) fun t => env.write t n

/-- A configuration under which the task never calls the panic callback. -/
structure Untroubled (B : Ctx) : Prop extends Roomy B where
  millis : B.millis = true
  delay : B.delay = true
  watchdog : B.qty.watchdogMs = 0
  reads : ∀ n, n < B.fnReadQty → at? B.read n = some true
  writes : ∀ n, n < B.fnWriteQty → at? B.write n = some true
  inputs : B.fnReadQty > 0 → Owns B (.I 0 0)
  outputs : B.fnWriteQty > 0 → Owns B (.Q 0 0)

theorem MildTask.calls {B : Ctx} {env : Env} (h : MildTask B env) : TaskCalls false B env :=
  have key : ∀ {f : Nat → Ctx → Ctx}, Mild B f → Gentle false B (fun _ => True) f := fun hf t c ha hg _ _ => by
    obtain ⟨h1, h2, h3⟩ := hf t c ha hg
    exact ⟨h1, h2, h3, by simp⟩
  ⟨h.toMildEnv.calls, key h.before, key h.after, key h.endTask, key h.delay, fun n _ => key (h.read n), fun n _ => key (h.write n)⟩

end Spec

/-- From any world satisfying `I`, `m` ends normally, in a world satisfying `J`, with a result satisfying `Q`. -/
def Leads {α : Type} (I J : World → Prop) (m : Op α) (Q : α → Prop) : Prop :=
  ∀ w, I w → ∃ a w', m w = .ok (a, w') ∧ J w' ∧ Q a

namespace Leads

variable {I J K : World → Prop} {α β : Type}

theorem bind {m : Op α} {f : α → Op β} {Q : α → Prop} {R : β → Prop} (hm : Leads I J m Q)
    (hf : ∀ a, Q a → Leads J K (f a) R) : Leads I K (m >>= f) R := by
  intro w hw
  obtain ⟨a, w1, h1, hw1, hq⟩ := hm w hw
  rw [bind_ok h1]
  exact hf a hq w1 hw1

theorem of_safe {m : Op α} {Q : α → Prop} (h : Safe I m Q) : Leads I I m Q := h

theorem weaken {m : Op α} {Q : α → Prop} (hm : Leads I J m Q) (h : ∀ w, J w → K w) : Leads I K m Q := fun w hw => by
  obtain ⟨a, w1, h1, hw1, hq⟩ := hm w hw
  exact ⟨a, w1, h1, h w1 hw1, hq⟩

end Leads

/-- Between the phases of a task that counted at most `k` scans. -/
structure Tasked (z : Bool) (B : Ctx) (k : Nat) (w : World) : Prop extends Resting z B w where
  bench : bench w.ctx = bench B
  count : w.ctx.scan.scanCount.toNat ≤ k

namespace Tasked

variable {z : Bool} {B : Ctx} {env : Env} {k : Nat}

theorem mono {w : World} (h : Tasked z B k w) {k' : Nat} (hk : k ≤ k') : Tasked z B k' w := ⟨h.toResting, h.bench, Nat.le_trans h.count hk⟩

theorem setState {w : World} (h : Tasked z B k w) (s : St) (hs : z = true → s = w.ctx.state) :
    Tasked z B k { w with ctx := { w.ctx with state := s } } :=
  ⟨h.toResting.ctx s w.ctx.last w.ctx.exec hs, h.bench, h.count⟩

theorem setScan {w : World} (h : Tasked z B k w) (s : ScanInt) (t : Nat) {k' : Nat} (hs : s.scanCount.toNat ≤ k')
    (hl : s.maxScanCycles = w.ctx.scan.maxScanCycles) :
    Tasked z B k' { w with ctx := { w.ctx with scan := s }, tick := t } :=
  ⟨⟨⟨⟨h.alike.fits.1, h.alike.fits.2, h.alike.fits.3, h.alike.fits.4, h.alike.fits.5, h.alike.fits.6, h.alike.fits.7,
    h.alike.fits.8, h.alike.fits.9, h.alike.fits.10, h.alike.fits.11, h.alike.fits.12, h.alike.fits.13, h.alike.fits.14,
    h.alike.fits.15, h.alike.fits.16, h.alike.fits.17, h.alike.fits.18, h.alike.fits.19⟩,
    h.alike.text, fun ℓ => by rw [← h.alike.places ℓ]; cases ℓ <;> rfl, h.alike.networks, h.alike.millis, h.alike.cron, h.alike.foreign⟩,
    fun ℓ x hf hl => h.flags ℓ x hf (by rw [← hl]; cases ℓ <;> rfl), h.clean,
    fun e => ⟨(h.still e).state, hl.trans (h.still e).limit, (h.still e).watchdog, (h.still e).delay⟩, h.silent⟩, h.bench, hs⟩

theorem kempt {w : World} (h : Tasked z B k w) {c : Ctx} (ht : Kempt w.ctx c) : Tasked z B k { w with ctx := c } := by
  have e := ht.shell
  refine ⟨⟨ht.alike h.alike, ht.moved.flags h.flags, h.clean, fun e' => ⟨?_,
    (congrArg (·.scan.maxScanCycles) e : _).trans (h.still e').limit, (congrArg (·.qty.watchdogMs) e : _).trans (h.still e').watchdog,
    (congrArg Ctx.delay e : _).trans (h.still e').delay⟩, h.silent⟩, (congrArg Spec.bench e : _).trans h.bench, ?_⟩
  · have : (shell c).state = (shell w.ctx).state := congrArg Ctx.state e
    change c.state = w.ctx.state at this
    rw [this]; exact (h.still e').state
  have := congrArg (·.scan.scanCount.toNat) e
  exact Nat.le_trans (Nat.le_of_eq this) h.count

section hooks

variable (hm : TaskCalls z B env) (hz : z = true → Untroubled B) (hk : TaskHooks env fun c c' => (Spec.bench c', c'.scan.scanCount) = (Spec.bench c, c.scan.scanCount))

theorem external {f : Nat → Ctx → Ctx} {e : Ctx → Event} (hf : Gentle z B (fun _ => True) f)
    (hb : ∀ t c, (Spec.bench (f t c), (f t c).scan.scanCount) = (Spec.bench c, c.scan.scanCount))
    (he : ∀ x a b c r, e x = .ret a b c r → r = .ok) (hp : z = true → ∀ x, e x ≠ .panic) : Safe (Tasked z B k) (external e f) fun _ => True := by
  intro w hw
  obtain ⟨h1, h2, -, h4⟩ := hf w.tick w.ctx hw.alike hw.flags hw.still trivial
  have h3 := hb w.tick w.ctx
  simp only [Prod.mk.injEq] at h3
  refine ⟨(), _, external_apply _ _ _, ⟨⟨h1, h2, fun a b c r hm => ?_, h4, fun e' hm => ?_⟩, h3.1.trans hw.bench, by
    rw [show (f w.tick w.ctx).scan.scanCount = _ from h3.2]; exact hw.count⟩, trivial⟩
  rcases List.mem_append.1 hm with hm | hm
  · exact hw.clean _ _ _ _ hm
  · exact he _ _ _ _ _ (List.mem_singleton.1 hm).symm
  rcases List.mem_append.1 hm with hm | hm
  · exact hw.silent e' hm
  · exact hp e' _ (List.mem_singleton.1 hm).symm

include hm hk

theorem callPanic (h0 : z = false) : Safe (Tasked z B k) (callPanic env) fun _ => True := by
  intro w hw
  unfold Ladder.callPanic
  split
  · exact external (hm.panic h0) hk.panic (by simp) (by simp [h0]) w hw
  · exact ⟨(), w, rfl, hw, trivial⟩

theorem failPanic (h0 : z = false) : Safe (Tasked z B k) (failPanic env) fun _ => True := by
  unfold Ladder.failPanic
  exact (Safe.modCtx fun w hw => hw.setState _ (by simp [h0])).bind fun _ _ => callPanic hm hk h0

theorem callDelay (ms : Nat) : Safe (Tasked z B k) (callDelay env ms) fun _ => True :=
  external hm.delay hk.delay (by simp) (by simp)

theorem callBefore : Safe (Tasked z B k) (callBefore env) fun _ => True := by
  intro w hw
  unfold Ladder.callBefore
  split
  · exact external hm.before hk.before (by simp) (by simp) w hw
  · exact ⟨(), w, rfl, hw, trivial⟩

theorem callAfter : Safe (Tasked z B k) (callAfter env) fun _ => True := by
  intro w hw
  unfold Ladder.callAfter
  split
  · exact external hm.after hk.after (by simp) (by simp) w hw
  · exact ⟨(), w, rfl, hw, trivial⟩

theorem callEndTask : Safe (Tasked z B k) (callEndTask env) fun _ => True := by
  intro w hw
  unfold Ladder.callEndTask
  split
  · exact external hm.endTask hk.endTask (by simp) (by simp) w hw
  · exact ⟨(), w, rfl, hw, trivial⟩

theorem waitLoop : ∀ n, Safe (Tasked z B k) (waitLoop env n) fun r => z = true → n ≠ 0 → r ≠ .timeout
  | 0 => .pure (by simp)
  | n + 1 => by
    unfold Ladder.waitLoop
    refine Safe.getCtx fun w hw => ?_
    split
    · exact ⟨_, w, rfl, hw, by simp⟩
    · split
      · exact ⟨_, w, rfl, hw, by simp⟩
      · rename_i h1 h2
        have h0 : z = false := by
          cases z with
          | false => rfl
          | true => rcases (hw.still rfl).state with h | h <;> contradiction
        have ih : Safe (Tasked z B k) (Ladder.waitLoop env n) fun r => z = true → n + 1 ≠ 0 → r ≠ .timeout :=
          (waitLoop n).mono fun _ _ e => by simp [h0] at e
        split
        · exact ((failPanic hm hk h0).bind fun _ _ => ih) w hw
        · exact ((callDelay hm hk _).bind fun _ _ => ih) w hw

include hz in
theorem readLoop (hB : Equipped B) (hr : B.read.isSome) : ∀ fuel n, B.fnReadQty < fuel + n → n ≤ B.fnReadQty →
    Safe (Tasked z B k) (readLoop env fuel n) fun _ => True
  | 0, n, h1, h2 => by omega
  | fuel + 1, n, h1, h2 => by
    unfold Ladder.readLoop
    refine Safe.getCtx fun w hw => ?_
    have hb := hw.bench
    simp only [Spec.bench, Prod.mk.injEq] at hb
    split
    · rename_i hn
      rw [hb.1] at hn
      obtain ⟨l, hl⟩ := Option.isSome_iff_exists.1 hr
      have hlen := hB.reads.2 l hl
      have hg : aget w.ctx.read n = .ok l[n] := aget_eq_ok.2 (by rw [hb.2.2.1, hl]; simp [at?])
      refine (Safe.lift hg (Q := (· = l[n])) rfl |>.bind fun b hb' => Safe.ite (fun hno => failPanic hm hk ?_) fun _ => ?_) w hw
      · cases z with
        | false => rfl
        | true =>
          have := (hz rfl).reads n hn
          rw [hl] at this
          simp only [at?, Option.bind_some, List.getElem?_eq_some_iff] at this
          obtain ⟨_, this⟩ := this
          simp [hb', this] at hno
      exact (external (hm.read n hn) (fun t c => hk.read t n c) (by simp) (by simp)).bind fun _ _ => readLoop hB hr fuel (n + 1) (by omega) (by omega)
    · exact ⟨_, w, rfl, hw, trivial⟩

include hz in
theorem writeLoop (hB : Equipped B) (hr : B.write.isSome) : ∀ fuel n, B.fnWriteQty < fuel + n → n ≤ B.fnWriteQty →
    Safe (Tasked z B k) (writeLoop env fuel n) fun _ => True
  | 0, n, h1, h2 => by omega
  | fuel + 1, n, h1, h2 => by
    unfold Ladder.writeLoop
    refine Safe.getCtx fun w hw => ?_
    have hb := hw.bench
    simp only [Spec.bench, Prod.mk.injEq] at hb
    split
    · rename_i hn
      rw [hb.2.1] at hn
      obtain ⟨l, hl⟩ := Option.isSome_iff_exists.1 hr
      have hlen := hB.writes.2 l hl
      have hg : aget w.ctx.write n = .ok l[n] := aget_eq_ok.2 (by rw [hb.2.2.2, hl]; simp [at?])
      refine (Safe.lift hg (Q := (· = l[n])) rfl |>.bind fun b hb' => Safe.ite (fun hno => failPanic hm hk ?_) fun _ => ?_) w hw
      · cases z with
        | false => rfl
        | true =>
          have := (hz rfl).writes n hn
          rw [hl] at this
          simp only [at?, Option.bind_some, List.getElem?_eq_some_iff] at this
          obtain ⟨_, this⟩ := this
          simp [hb', this] at hno
      exact (external (hm.write n hn) (fun t c => hk.write t n c) (by simp) (by simp)).bind fun _ _ => writeLoop hB hr fuel (n + 1) (by omega) (by omega)
    · exact ⟨_, w, rfl, hw, trivial⟩

include hz in
theorem doWrites (hB : Equipped B) : Safe (Tasked z B k) (doWrites env) fun _ => True := by
  unfold Ladder.doWrites
  refine Safe.getCtx fun w hw => ?_
  split
  · rename_i h
    have hb := hw.bench
    simp only [Spec.bench, Prod.mk.injEq] at hb
    rw [hb.2.2.2] at h
    exact writeLoop hm hz hk hB h.2 _ 0 (by have := hB.writes.1; unfold u32Fuel; omega) (by omega) w hw
  · exact ⟨_, w, rfl, hw, trivial⟩

include hz in
theorem readPhase (hB : Equipped B) : Safe (Tasked z B k) (readPhase env) fun _ => True := by
  unfold Ladder.readPhase
  refine Safe.getCtx fun w hw => ?_
  have hb := hw.bench
  simp only [Spec.bench, Prod.mk.injEq] at hb
  split
  · rename_i hno
    have h0 : z = false := by
      cases z with
      | false => rfl
      | true =>
        have := hw.alike.has ((hz rfl).inputs (by rw [← hb.1]; exact hno.1))
        have hi := hno.2
        cases e : w.ctx.input <;> simp [load, at?, e] at this hi
    exact ((failPanic hm hk h0).bind fun _ _ => Safe.pure (Q := fun _ => True) trivial) w hw
  · have : ∃ inp, (if w.ctx.fnReadQty > 0 then amapFirst histIn w.ctx.fnReadQty w.ctx.input else .ok w.ctx.input) = .ok inp ∧
        Kempt w.ctx { w.ctx with input := inp } := by
      split
      · obtain ⟨inp, h1, h2⟩ := inHist_total hw.alike.fits
        exact ⟨inp, h1, InKept.kempt hw.alike.fits h2⟩
      · exact ⟨_, rfl, Kempt.refl hw.alike.fits⟩
    obtain ⟨inp, h1, h2⟩ := this
    rw [h1, bind_lift_ok, bind_modCtx]
    dsimp only
    split
    · rename_i h
      rw [hb.2.2.1] at h
      exact ((readLoop hm hz hk hB h.2 _ 0 (by have := hB.reads.1; unfold u32Fuel; omega) (by omega)).bind fun _ _ =>
        Safe.pure (Q := fun _ => True) trivial) _ (hw.kempt h2)
    · exact ⟨_, _, rfl, hw.kempt h2, trivial⟩

include hz in
theorem outHistPhase : Safe (Tasked z B k) (outHistPhase env) fun _ => True := by
  unfold Ladder.outHistPhase
  refine Safe.getCtx fun w hw => ?_
  have hb := hw.bench
  simp only [Spec.bench, Prod.mk.injEq] at hb
  split
  · rename_i hno
    have h0 : z = false := by
      cases z with
      | false => rfl
      | true =>
        have := hw.alike.has ((hz rfl).outputs (by rw [← hb.2.1]; exact hno.1))
        have hi := hno.2
        cases e : w.ctx.output <;> simp [load, at?, e] at this hi
    exact ((failPanic hm hk h0).bind fun _ _ => Safe.pure (Q := fun _ => True) trivial) w hw
  · have : ∃ out, (if w.ctx.fnWriteQty > 0 then amapFirst histOut w.ctx.fnWriteQty w.ctx.output else .ok w.ctx.output) = .ok out ∧
        Kempt w.ctx { w.ctx with output := out } := by
      split
      · obtain ⟨out, h1, h2⟩ := outHist_total hw.alike.fits
        exact ⟨out, h1, OutMoved.kempt hw.alike.fits (h2.mono fun _ _ h => h.moved)⟩
      · exact ⟨_, rfl, Kempt.refl hw.alike.fits⟩
    obtain ⟨out, h1, h2⟩ := this
    rw [h1, bind_lift_ok, bind_modCtx]
    exact ⟨_, _, rfl, hw.kempt h2, trivial⟩

include hz in
theorem scan (hW : Well B) : Safe (Tasked z B k) (scan env) fun _ => True := by
  intro w hw
  obtain ⟨_, w', h1, h2, -⟩ := Resting.scan hW (fun e => (hz e).toRoomy) hm.toCalls w hw.toResting
  have := scan_keeps (f := fun c => (Spec.bench c, c.scan.scanCount)) (fun a b h => by
    have h1 := congrArg Spec.bench h
    have h2 := congrArg (·.scan.scanCount) h
    exact Prod.ext h1 h2) hk.toHooks h1
  simp only [Prod.mk.injEq] at this
  exact ⟨_, w', h1, ⟨h2, this.1.trans hw.bench, by rw [this.2]; exact hw.count⟩, trivial⟩

include hz in
theorem scanTime (hc : k + 1 < 2^32) : Leads (Tasked z B k) (Tasked z B (k + 1)) (scanTime env) fun _ => True := by
  intro w hw
  unfold Ladder.scanTime
  rw [bind_getCtx]
  split
  · rename_i hno
    have h0 : z = false := by
      cases z with
      | false => rfl
      | true => rw [hw.alike.millis, (hz rfl).millis] at hno; simp at hno
    exact ((Leads.of_safe (Safe.modCtx fun w hw => hw.setState _ (by simp [h0]))).bind fun _ _ =>
      (Leads.of_safe (callPanic hm hk h0)).weaken fun w hw => hw.mono (by omega)) w hw
  · rename_i hmil
    simp only [Bool.not_eq_true', Bool.not_eq_false] at hmil
    have hcnt := hw.count
    have hz' : (w.ctx.scan.scanCount + 1).toNat = w.ctx.scan.scanCount.toNat + 1 := by
      rw [BitVec.toNat_add]
      exact Nat.mod_eq_of_lt (by simp; omega)
    obtain ⟨s, hs, hs', hs''⟩ : ∃ s, scanMetrics w.ctx.scan (env.clock w.tick) = .ok s ∧ s.scanCount = w.ctx.scan.scanCount + 1 ∧
        s.maxScanCycles = w.ctx.scan.maxScanCycles := by
      refine ⟨_, if_neg ?_, rfl, rfl⟩
      intro h0
      rw [h0] at hz'
      simp at hz'
    have h1 : callMillis env w = .ok (env.clock w.tick, { w with tick := w.tick + 1 }) := by
      unfold callMillis; rw [if_pos hmil]
    rw [bind_ok h1, hs, bind_lift_ok, bind_modCtx]
    have h2 := hw.setScan s (w.tick + 1) (k' := k + 1) (by rw [hs', hz']; omega) hs''
    refine (Safe.ite (fun hwd => ?_) fun _ => .pure trivial) _ h2
    have h0 : z = false := by
      cases z with
      | false => rfl
      | true => have := (hw.still rfl).watchdog; rw [(hz rfl).watchdog] at this; omega
    exact (Safe.modCtx fun w hw => hw.setState _ (by simp [h0])).bind fun _ _ => callPanic hm hk h0

theorem pad : Safe (Tasked z B k) (pad env) fun _ => True := by
  unfold Ladder.pad
  refine Safe.getCtx fun w hw => ?_
  exact (Safe.ite (fun _ => callDelay hm hk _) fun _ => .pure trivial) w hw

include hz in
theorem faultPath (h0 : z = false) (hB : Equipped B) (hc : k + 1 < 2^32) : Leads (Tasked z B k) (Tasked z B (k + 1)) (faultPath env) fun _ => True := by
  intro w hw
  unfold Ladder.faultPath
  rw [bind_modCtx, bind_getCtx]
  have h1 := hw.setState .exitTsk (by simp [h0])
  have own : ∀ {α : Type} {a : Arr α} {n : Nat → Nat} {g : α → Nat} {ℓ : Loc}, Owns B ℓ → load w.ctx ℓ = (at? a 0).map g → a.isSome := by
    intro α a n g ℓ ho hl
    have := hw.alike.places ℓ
    rw [ho, hl] at this
    cases a <;> simp [at?] at this ⊢
  obtain ⟨c, e2, t2⟩ := rollback_total (c := { w.ctx with state := .exitTsk }) h1.alike.fits
    ⟨⟨own (n := id) hB.M.1 rfl, own (n := id) hB.M.2 rfl⟩, ⟨own (n := id) hB.Cd.1 rfl, own (n := id) hB.Cd.2 rfl⟩,
      ⟨own (n := id) hB.Cr.1 rfl, own (n := id) hB.Cr.2 rfl⟩, ⟨own (n := id) hB.Td.1 rfl, own (n := id) hB.Td.2 rfl⟩,
      ⟨own (n := id) hB.Tr.1 rfl, own (n := id) hB.Tr.2 rfl⟩⟩
  obtain ⟨c', e3, t3, -⟩ := savePrevious_total t2.fits
  obtain ⟨out, e4, t4⟩ : ∃ out, (if c'.writeOnFault then .ok c'.output else amapFirst safeOut c'.fnWriteQty c'.output) = .ok out ∧
      Kempt c' { c' with output := out } := by
    split
    · exact ⟨_, rfl, Kempt.refl t3.fits⟩
    · exact safeAll_total t3.fits
  rw [e2, bind_lift_ok, e3, bind_lift_ok, e4, bind_lift_ok, bind_modCtx]
  have h2 : Tasked z B k { w with ctx := { c' with output := out } } := h1.kempt (t2.trans (t3.trans t4))
  exact ((Leads.of_safe (doWrites hm hz hk hB)).bind fun _ _ => (scanTime hm hz hk hc).bind fun _ _ => Leads.of_safe (callAfter hm hk)) _ h2

include hz in
theorem cycle (hW : Well B) (hB : Equipped B) (hc : k + 1 < 2^32) : Leads (Tasked z B k) (Tasked z B (k + 1)) (cycle env) fun _ => True := by
  have up : ∀ {α : Type} {m : Op α} {Q : α → Prop}, Safe (Tasked z B k) m Q → Leads (Tasked z B k) (Tasked z B (k + 1)) m fun _ => True :=
    fun h w hw => by
      obtain ⟨a, w', h1, h2, -⟩ := h w hw
      exact ⟨a, w', h1, h2.mono (by omega), trivial⟩
  have rest : Leads (Tasked z B k) (Tasked z B (k + 1)) (do
      Ladder.callBefore env
      if !(← Ladder.readPhase env) then pure .again else do
      if !(← Ladder.outHistPhase env) then pure .again else do
      Ladder.scan env
      let ctx ← getCtx
      if ctx.state = .inv then do
        Ladder.faultPath env
        pure .exit
      else do
        let ctx' ← lift (savePrevious ctx)
        modCtx fun _ => ctx'
        Ladder.doWrites env
        Ladder.scanTime env
        Ladder.pad env
        Ladder.callAfter env
        pure .again : Op IterRes) fun _ => True := by
    refine (Leads.of_safe (callBefore hm hk)).bind fun _ _ => (Leads.of_safe (readPhase hm hz hk hB)).bind fun b _ => ?_
    split
    · exact up (Safe.pure (Q := fun _ => True) trivial)
    refine (Leads.of_safe (outHistPhase hm hz hk)).bind fun b _ => ?_
    split
    · exact up (Safe.pure (Q := fun _ => True) trivial)
    refine (Leads.of_safe (scan hm hz hk hW)).bind fun _ _ w hw => ?_
    rw [bind_getCtx]
    split
    · rename_i hinv
      have h0 : z = false := by
        cases z with
        | false => rfl
        | true => rcases (hw.still rfl).state with h | h <;> rw [hinv] at h <;> cases h
      exact ((faultPath hm hz hk h0 hB hc).bind fun _ _ => Leads.of_safe (Safe.pure (Q := fun _ => True) trivial)) w hw
    · obtain ⟨c, e, t, -⟩ := savePrevious_total hw.alike.fits
      rw [e, bind_lift_ok, bind_modCtx]
      exact ((Leads.of_safe (doWrites hm hz hk hB)).bind fun _ _ => (scanTime hm hz hk hc).bind fun _ _ =>
        (Leads.of_safe (pad hm hk)).bind fun _ _ => (Leads.of_safe (callAfter hm hk)).bind fun _ _ =>
          Leads.of_safe (Safe.pure (Q := fun _ => True) trivial)) _ (hw.kempt t)
  unfold Ladder.cycle
  intro w hw
  rw [bind_getCtx]
  split
  · rename_i hno
    have h0 : z = false := by
      cases z with
      | false => rfl
      | true => rw [hw.alike.millis, (hz rfl).millis] at hno; simp at hno
    rw [bind_modCtx]
    exact ((Leads.of_safe (failPanic hm hk h0)).bind fun _ _ => rest) _ (hw.setScan _ w.tick hw.count rfl)
  · rename_i hmil
    simp only [Bool.not_eq_true', Bool.not_eq_false] at hmil
    have h1 : callMillis env w = .ok (env.clock w.tick, { w with tick := w.tick + 1 }) := by
      unfold callMillis; rw [if_pos hmil]
    rw [bind_ok h1, bind_modCtx]
    exact rest _ (hw.setScan _ (w.tick + 1) hw.count rfl)

include hz in
theorem taskIter (hW : Well B) (hB : Equipped B) (hc : k + 1 < 2^32) :
    Leads (Tasked z B k) (Tasked z B (k + 1)) (taskIter env) fun _ => True := by
  unfold Ladder.taskIter
  refine (Leads.of_safe (waitLoop hm hk maxWait)).bind fun r hr => ?_
  cases r with
  | ready => exact cycle hm hz hk hW hB hc
  | timeout =>
    have h0 : z = false := by
      cases z with
      | false => rfl
      | true => exact absurd rfl (hr rfl (by decide))
    exact Leads.weaken (Leads.of_safe ((failPanic hm hk h0).bind fun _ _ =>
      (Safe.modCtx fun w hw => hw.setState _ (by simp [h0])).bind fun _ _ =>
      Safe.pure (Q := fun _ => True) trivial)) fun w hw => hw.mono (by omega)
  | leave => exact Leads.weaken (Leads.of_safe (Safe.pure (Q := fun _ => True) trivial)) fun w hw => hw.mono (by omega)

include hz in
theorem taskLoop (hW : Well B) (hB : Equipped B) : ∀ (n k : Nat), k + n < 2^32 →
    Leads (Tasked z B k) (Tasked z B (k + n)) (taskLoop env n) fun _ => True
  | 0, k, _ => Leads.of_safe (.pure trivial)
  | n + 1, k, hc => by
    unfold Ladder.taskLoop
    intro w hw
    rw [bind_getCtx]
    split
    · exact Leads.weaken (Leads.of_safe ((callEndTask hm hk).bind fun _ _ => Safe.pure (Q := fun _ => True) trivial))
        (fun w hw => hw.mono (by omega)) w hw
    · refine ((taskIter hm hz hk hW hB (by omega)).bind fun r _ => ?_) w hw
      cases r with
      | again => exact Leads.weaken (taskLoop hW hB n (k + 1) (by omega)) fun w hw => hw.mono (by omega)
      | exit =>
        exact Leads.weaken (Leads.of_safe ((callEndTask hm hk).bind fun _ _ => Safe.pure (Q := fun _ => True) trivial))
          fun w hw => hw.mono (by omega)
      | leave => exact Leads.weaken (Leads.of_safe (Safe.pure (Q := fun _ => True) trivial)) fun w hw => hw.mono (by omega)

end hooks

end Tasked

/-- The usability check of an equipped configuration ends. -/
theorem taskRefuses_total {B c : Ctx} (hB : Equipped B) (hb : bench c = bench B) : ∃ b, taskRefuses c = .ok b := by
  simp only [Spec.bench, Prod.mk.injEq] at hb
  have first : ∀ (q : Nat) (a : Arr Bool) (v : Bool), (∀ l, a = some l → q ≤ l.length) → ∃ b,
      (if q > 0 then if a.isNone ∨ v then .ok true else (aget a 0).map (! ·) else .ok false : Except UB Bool) = .ok b := by
    intro q a v h
    split
    · split
      · exact ⟨_, rfl⟩
      · rename_i hq h0
        cases a with
        | none => simp at h0
        | some l =>
          have := h l rfl
          have hg : aget (some l) 0 = .ok (l[0]'(by omega)) := aget_eq_ok.2 (by simp [at?])
          exact ⟨_, by rw [hg]; rfl⟩
    · exact ⟨_, rfl⟩
  unfold taskRefuses
  obtain ⟨b1, h1⟩ := first c.fnReadQty c.read c.input.isNone (by rw [hb.1, hb.2.2.1]; exact hB.reads.2)
  obtain ⟨b2, h2⟩ := first c.fnWriteQty c.write c.output.isNone (by rw [hb.2.1, hb.2.2.2]; exact hB.writes.2)
  dsimp only
  split
  · exact ⟨_, rfl⟩
  rw [h1]
  cases b1 with
  | true => exact ⟨_, rfl⟩
  | false =>
    dsimp only
    rw [h2]
    cases b2 <;> exact ⟨_, rfl⟩

/-- What a task leads to. -/
theorem task_safe {z : Bool} {B : Ctx} {env : Env} (hW : Well B) (hB : Equipped B) (hm : TaskCalls z B env) (hz : z = true → Untroubled B)
    (hk : TaskHooks env fun c c' => (bench c', c'.scan.scanCount) = (bench c, c.scan.scanCount)) {w : World} (ha : Alike B w.ctx)
    (hf : Flags w.ctx) (hc : Clean w.trace) (hs : z = true → Unhurt B w.ctx ∧ Event.panic ∉ w.trace) (hb : bench w.ctx = bench B)
    (n : Nat) (hn : w.ctx.scan.scanCount.toNat + n < 2^32) :
    ∃ r w', task env n w = .ok (r, w') ∧ Clean w'.trace ∧ Alike B w'.ctx ∧ Flags w'.ctx ∧ bench w'.ctx = bench B ∧
      w'.ctx.scan.scanCount.toNat ≤ w.ctx.scan.scanCount.toNat + n ∧
      (z = true → Event.panic ∉ w'.trace ∧ w'.ctx.delay = B.delay ∧ (r ≠ .refused → Unhurt B w'.ctx)) := by
  have hw : Tasked z B w.ctx.scan.scanCount.toNat w := ⟨⟨ha, hf, hc, fun e => (hs e).1, fun e => (hs e).2⟩, hb, Nat.le_refl _⟩
  unfold task
  obtain ⟨b, e⟩ := taskRefuses_total hB hb
  rw [bind_getCtx, e, bind_lift_ok]
  cases b with
  | true =>
    have := Resting.ctx (z := false) ⟨ha, hf, hc, by simp, by simp⟩ .nullFn w.ctx.last w.ctx.exec (by simp)
    exact ⟨_, _, rfl, this.clean, this.alike, this.flags, hb, Nat.le_add_right _ _, fun e =>
      ⟨(hs e).2, (hs e).1.delay, fun h => absurd rfl h⟩⟩
  | false =>
    obtain ⟨r, w', h1, h2, -⟩ := Tasked.taskLoop hm hz hk hW hB n _ hn w hw
    exact ⟨r, w', h1, h2.clean, h2.alike, h2.flags, h2.bench, h2.count, fun e =>
      ⟨h2.silent e, (h2.still e).delay, fun _ => h2.still e⟩⟩

namespace Props

/-- **C72**: a task that runs a well-formed program (see C32) on an equipped configuration has no undefined behaviour, for any number
of iterations of its main loop, whatever the registers hold, whatever the clock says, and whatever callbacks do to the registers and
the state (they may stop the task, or fake a fault), as long as they leave program, configuration and scan counter alone; no
instruction reports an error, the memory blocks keep their sizes and `bool`s stay valid.  The scan counter must not wrap. -/
theorem C72_task_partial {B : Ctx} {env : Env} (hW : Well B) (hB : Equipped B) (hm : MildTask B env)
    (hk : TaskHooks env fun c c' => (bench c', c'.scan.scanCount) = (bench c, c.scan.scanCount)) {w : World} (ha : Alike B w.ctx)
    (hf : Flags w.ctx) (hc : Clean w.trace) (hb : bench w.ctx = bench B) (n : Nat) (hn : w.ctx.scan.scanCount.toNat + n < 2^32) :
    ∃ r w', task env n w = .ok (r, w') ∧ Clean w'.trace ∧ Alike B w'.ctx ∧ Flags w'.ctx ∧ bench w'.ctx = bench B ∧
      w'.ctx.scan.scanCount.toNat ≤ w.ctx.scan.scanCount.toNat + n := by
  obtain ⟨r, w', h1, h2, h3, h4, h5, h6, -⟩ := task_safe hW hB hm.calls (by simp) hk ha hf hc (by simp) hb n hn
  exact ⟨r, w', h1, h2, h3, h4, h5, h6⟩

/-! ### A task that meets the hypotheses -/

namespace Demo

open Ladder.Demo

/-- An input that toggles, a hook that counts in D2 and one that stops the task after 500 external calls. -/
def lively : Env := { env with
  read := fun t n c => upd c (.I n 0) (t % 2)
  before := fun t c => upd c (.D 2) t
  after := fun t c => if t < 500 then c else { c with state := .exitTsk } }

theorem upd_alike {c : Ctx} (ℓ : Loc) (x : Nat) (hf : isFlag ℓ = false) (h : Alike sturdy c) (h' : Flags c) :
    Alike sturdy (upd c ℓ x) ∧ Flags (upd c ℓ x) ∧ (upd c ℓ x).exec = c.exec :=
  ⟨h.upd _ _, h'.upd (by simp [hf]), (congrArg Ctx.exec (shell_upd c ℓ x) :)⟩

theorem lively_mild : MildTask sturdy lively where
  toMildEnv := ⟨fun _ _ h h' => ⟨h, h', rfl⟩, fun _ _ h h' => ⟨h, h', rfl⟩, fun _ _ h h' => ⟨h, h', rfl⟩,
    fun _ _ _ => ⟨fun _ _ h h' => ⟨h, h', rfl⟩, fun _ _ _ _ => rfl⟩, fun _ => by constructor <;> simp [lively, env]⟩
  before := fun t c h h' => upd_alike (.D 2) t rfl h h'
  after := fun t c h h' => by
    simp only [lively]
    split
    · exact ⟨h, h', rfl⟩
    · have := Resting.ctx (z := false) (B := sturdy) (w := ⟨c, 0, []⟩) ⟨h, h', fun _ _ _ _ h => (by cases h), by simp, by simp⟩
        .exitTsk c.last c.exec (by simp)
      exact ⟨this.alike, this.flags, rfl⟩
  endTask := fun _ _ h h' => ⟨h, h', rfl⟩
  delay := fun _ _ h h' => ⟨h, h', rfl⟩
  read := fun n t c h h' => upd_alike (.I n 0) (t % 2) rfl h h'
  write := fun _ _ _ h h' => ⟨h, h', rfl⟩

theorem lively_hooks : TaskHooks lively fun c c' => (bench c', c'.scan.scanCount) = (bench c, c.scan.scanCount) where
  panic := fun _ _ => rfl
  instruction := fun _ _ => rfl
  scanEnd := fun _ _ => rfl
  foreign := fun _ _ _ _ _ => rfl
  before := fun t c => (congrArg (fun c => (bench c, c.scan.scanCount)) (shell_upd c (.D 2) t) :)
  after := fun t c => by simp only [lively]; split <;> rfl
  endTask := fun _ _ => rfl
  delay := fun _ _ => rfl
  read := fun t n c => (congrArg (fun c => (bench c, c.scan.scanCount)) (shell_upd c (.I n 0) (t % 2)) :)
  write := fun _ _ _ => rfl

theorem sturdy_equipped : Equipped sturdy where
  reads := ⟨by decide, fun l h => by cases h; decide⟩
  writes := ⟨by decide, fun l h => by cases h; decide⟩
  M := ⟨rfl, rfl⟩
  Cd := ⟨rfl, rfl⟩
  Cr := ⟨rfl, rfl⟩
  Td := ⟨rfl, rfl⟩
  Tr := ⟨rfl, rfl⟩

end Demo

/-- The hypotheses of `C72_task_partial` can be met: a million iterations. -/
example : ∃ r w', task Demo.lively 1000000 ⟨Demo.sturdy, 0, []⟩ = .ok (r, w') ∧ Clean w'.trace ∧ Alike Demo.sturdy w'.ctx := by
  obtain ⟨r, w', h1, h2, h3, -⟩ := C72_task_partial Demo.sturdy_well Demo.sturdy_equipped Demo.lively_mild Demo.lively_hooks
    (w := ⟨Demo.sturdy, 0, []⟩) Demo.sturdy_alike Demo.sturdy_flags (fun _ _ _ _ h => by cases h) rfl 1000000 (by decide)
  exact ⟨r, w', h1, h2, h3⟩

/-! ### What the full statement misses -/

/-- **C72 is violated** by long runs: after 2³² − 1 scans the next one divides by zero, whatever the program. -/
theorem C72_refuted_counter : task Demo.env 1
    ⟨{ Demo.sturdy with scan := { Demo.sturdy.scan with scanCount := 0xFFFFFFFF } }, 0, []⟩ = .error .divZero :=
  of_fails (by decide +kernel)

/-- **C72 is violated** by configurations without markers: the task accepts them, but after a failed scan it copies from and to a
NULL pointer (a block of length 0, which the C standard does not allow either). -/
theorem C72_refuted_null : task Demo.env 1
    ⟨{ Demo.ctx [Demo.net [[Demo.ins .MOVE [Demo.op .NONE 0, Demo.op .NONE 0]]]] with
        qty := { Demo.sturdy.qty with m := 0 }, M := none, Mh := none }, 0, []⟩ = .error .nullDeref :=
  of_fails (by decide +kernel)

end Props

end Ladder
