import Verif.Spec.Lap
import Verif.Lemmas.Upkeep
import Verif.Props.Logic
import Verif.Props.TaskTime
import Verif.Props.TaskEnd
import Verif.Props.TaskSafe
import Verif.Props.Fresh

/-
C73: the task is a synchronous controller.
-/

set_option autoImplicit false

namespace Ladder

open Spec Op Logic

/-- Configuration, program text and state, without scan statistics and error report. -/
def plain (c : Ctx) : Ctx := { core c with scan := {
  actualScanTime := 0, startTime := 0, maxScanCycles := 0, targetScanMs := 0, minScanTime := 0, maxScanTime := 0, totalScanTime := 0
  avgScanTime := 0, scanCount := 0, overrun := false } }

theorem plain_core {c c' : Ctx} (h : core c = core c') : plain c = plain c' := by unfold plain; rw [h]

theorem plain_shell {c c' : Ctx} (h : shell c = shell c') : plain c = plain c' := plain_core (by unfold core; rw [h])

/-- From `w` to `w'` exactly the commands `cs` were sent. -/
def Sent (w w' : World) (cs : List (Nat × Image)) : Prop := ∃ new, w'.trace = w.trace ++ new ∧ commands new = cs

theorem Sent.trans {a b c : World} {x y : List (Nat × Image)} (h : Sent a b x) (h' : Sent b c y) : Sent a c (x ++ y) := by
  obtain ⟨n, e, rfl⟩ := h
  obtain ⟨n', e', rfl⟩ := h'
  exact ⟨n ++ n', by rw [e', e, List.append_assoc], by simp [commands, List.filterMap_append]⟩

theorem Sent.refl {w w' : World} (h : w'.trace = w.trace) : Sent w w' [] := ⟨[], by simp [h], rfl⟩

theorem recall_congr {o : Loc → Option Loc} {m m' : Image} (h : ∀ ℓ, register ℓ = true → m ℓ = m' ℓ) (ho : ∀ ℓ k, o ℓ = some k → register k = true)
    {ℓ : Loc} (hl : register ℓ = true) : recall o m ℓ = recall o m' ℓ := by
  unfold recall
  split
  · rename_i k hk
    rw [h _ hl, h k (ho ℓ k hk)]
  · exact h _ hl

theorem sampled_register (ℓ k : Loc) (h : sampled ℓ = some k) : register k = true := by
  cases ℓ <;> simp only [sampled, Option.some.injEq] at h <;> first | (subst h; rfl) | cases h

theorem kept_register (ℓ k : Loc) (h : kept ℓ = some k) : register k = true := by
  cases ℓ <;> simp only [kept, Option.some.injEq] at h <;> first | (subst h; rfl) | cases h

theorem over_over {α : Type} (a b : Option α) : over a (over a b) = over a b := by cases a <;> cases b <;> rfl

theorem settled_recall (m : Image) : Settled (recall kept m) := fun n p => ⟨by simp [recall, kept, over_over], by simp [recall, kept, over_over]⟩

theorem stopped_eq {α : Type} (f : Ctx → α) (hf : ∀ c s, f { c with state := s } = f c) {b : Bool} {c : Ctx} : f (stopped b c) = f c := by
  cases b
  · rfl
  · exact hf c _

theorem plain_stopped (b : Bool) (c : Ctx) : plain (stopped b c) = stopped b (plain c) := by cases b <;> rfl

theorem Spec.Logic.Timely.mono {env : Env} {k : Nat} : ∀ {as : List (Nat × List Reading)} {s e e' : Nat}, Timely env k s as e → e ≤ e' → Timely env k s as e'
  | [], _, _, _, h, he => Nat.le_trans h he
  | (_, _) :: _, _, _, _, ⟨h1, s', h2, h3, h4⟩, he => ⟨h1, s', h2, h3, h4.mono he⟩

theorem Spec.Logic.Laps.mono {env : Env} {k : Nat} : ∀ {cs : List Lap} {s s' e : Nat}, Laps env k s cs e → s' ≤ s → Laps env k s' cs e
  | [], _, _, _, h, hs => Nat.le_trans hs h
  | _ :: _, _, _, _, ⟨h1, h2⟩, hs => ⟨Nat.le_trans hs h1, h2⟩

theorem Spec.Logic.Laps.timely {env : Env} {k : Nat} : ∀ {cs : List Lap} {s e : Nat}, Laps env k s cs e → Timely env k s (cs.map Lap.entry) e
  | [], _, _, h => h
  | c :: _, _, _, ⟨h1, h2, h3, h4, h5⟩ => ⟨Nat.lt_of_le_of_lt h1 h2, c.finish + 1, Nat.lt_succ_of_le h3, h4.mono (Nat.le_succ _), h5.timely⟩

theorem Spec.Logic.Halted.cons {α : Type} {last : α → Bool} {n : Nat} {c : α} {cs : List α} (h : Halted last n cs) (hc : last c = false) : Halted last (n + 1) (c :: cs) := by
  refine ⟨Nat.succ_le_succ h.length, fun x hx => ?_, fun hl => ?_⟩
  · cases cs with
    | nil => cases hx
    | cons y ys =>
      rw [List.dropLast_cons_of_ne_nil (by simp)] at hx
      rcases List.mem_cons.1 hx with rfl | hx
      · exact hc
      · exact h.before x hx
  · obtain ⟨x, h1, h2⟩ := h.ended (Nat.lt_of_succ_lt_succ hl)
    exact ⟨x, by rw [List.getLast?_cons, h1]; rfl, h2⟩

theorem Spec.Logic.Halted.last {α : Type} {last : α → Bool} {n : Nat} {c : α} (hc : last c = true) : Halted last (n + 1) [c] :=
  ⟨by simp, by simp, fun _ => ⟨c, rfl, hc⟩⟩

theorem stopped_stopped (b d : Bool) (c : Ctx) : stopped d (stopped b c) = stopped (b || d) c := by cases b <;> cases d <;> rfl

theorem asked_succ (stop : Nat → Bool) (a k : Nat) : asked stop a (k + 1) = (asked stop a k || stop (a + k)) := by
  simp [asked, List.range_succ, List.any_append]

/-- Between the phases of the task. -/
structure Steady (B : Ctx) (L : Nat) (S : W64 → Prop) (k : Nat) (z : Ctx) (m : Image) (w : World) : Prop where
  resting : Resting false B w
  limit : w.ctx.scan.maxScanCycles = L
  image : ∀ ℓ, register ℓ = true → load w.ctx ℓ = m ℓ
  plain : plain w.ctx = z
  count : w.ctx.scan.scanCount.toNat = k
  start : S w.ctx.scan.startTime

namespace Steady

variable {B : Ctx} {L k : Nat} {S : W64 → Prop} {z : Ctx} {m : Image} {w : World} {env : Env} {field : Nat → Field} {stop : Nat → Bool}

/-- What follows from the configuration. -/
theorem setup {α : Type} (f : Ctx → α) (hf : ∀ c, f (Ladder.plain c) = f c) (h : Steady B L S k z m w) : f w.ctx = f z := by
  rw [← hf w.ctx, h.plain]

theorem kempt (h : Steady B L S k z m w) {c : Ctx} (t : Kempt w.ctx c) {m' : Image} (hl : ∀ ℓ, register ℓ = true → load c ℓ = m' ℓ) :
    Steady B L S k z m' { w with ctx := c } := by
  have e := t.shell
  exact ⟨⟨t.alike h.resting.alike, t.moved.flags h.resting.flags, h.resting.clean, by simp, by simp⟩, (congrArg (·.scan.maxScanCycles) e : _).trans h.limit, hl,
    (plain_shell e).trans h.plain, (congrArg (·.scan.scanCount.toNat) e : _).trans h.count,
    (congrArg (·.scan.startTime) e : _) ▸ h.start⟩

/-- A new event. -/
theorem event (h : Steady B L S k z m w) (t : Nat) {e : Event} (he : ∀ a b c r, e = .ret a b c r → r = .ok) :
    Steady B L S k z m { w with tick := t, trace := w.trace ++ [e] } := by
  refine ⟨⟨h.resting.alike, h.resting.flags, fun a b c r hm => ?_, by simp, by simp⟩, h.limit, h.image, h.plain, h.count, h.start⟩
  rcases List.mem_append.1 hm with hm | hm
  · exact h.resting.clean _ _ _ _ hm
  · exact he _ _ _ _ (List.mem_singleton.1 hm).symm

theorem setScan (h : Steady B L S k z m w) (s : ScanInt) (t : Nat) {k' : Nat} {S' : W64 → Prop} (hs : s.scanCount.toNat = k') (hm : s.maxScanCycles = L)
    (hS : S' s.startTime) : Steady B L S' k' z m { w with ctx := { w.ctx with scan := s }, tick := t } :=
  have h' := Tasked.setScan (z := false) (B := { B with fnReadQty := w.ctx.fnReadQty, fnWriteQty := w.ctx.fnWriteQty, read := w.ctx.read, write := w.ctx.write })
    (k := k) (w := w) ⟨⟨⟨h.resting.alike.fits, h.resting.alike.text, h.resting.alike.places, h.resting.alike.networks, h.resting.alike.millis,
      h.resting.alike.cron, h.resting.alike.foreign⟩, h.resting.flags, h.resting.clean, by simp, by simp⟩, rfl, Nat.le_of_eq h.count⟩ s t (Nat.le_of_eq hs) (hm.trans h.limit.symm)
  ⟨⟨⟨h'.alike.fits, h'.alike.text, h'.alike.places, h'.alike.networks, h'.alike.millis, h'.alike.cron, h'.alike.foreign⟩, h'.flags, h'.clean, by simp, by simp⟩,
    hm, fun ℓ hl => by rw [← h.image ℓ hl]; cases ℓ <;> rfl, h.plain, hs, hS⟩

/-- The configuration is that of `B`. -/
def Like (B z : Ctx) : Prop := z.fnReadQty = B.fnReadQty ∧ z.fnWriteQty = B.fnWriteQty ∧ z.delay = B.delay

theorem Like.stopped (h : Like B z) (b : Bool) : Like B (stopped b z) := by cases b <;> exact h

theorem mounted (hz : Like B z) (h : Steady B L S k z m w) : Mounted B w.ctx :=
  ⟨h.resting.alike, h.resting.flags, (h.setup Ctx.fnReadQty fun _ => rfl).trans hz.1, (h.setup Ctx.fnWriteQty fun _ => rfl).trans hz.2.1,
    (h.setup Ctx.delay fun _ => rfl).trans hz.2.2⟩

theorem before (hk : Attended B env field stop) (h : Steady B L S k z m w) : ∃ w', callBefore env w = .ok ((), w') ∧ Steady B L S k z m w' ∧
    w.tick ≤ w'.tick ∧ Sent w w' [] := by
  refine ⟨_, callBefore_apply w, ?_⟩
  split
  · rw [hk.before]
    exact ⟨h.event _ (by simp), by simp, ⟨_, rfl, rfl⟩⟩
  · exact ⟨h, Nat.le_refl _, Sent.refl rfl⟩

theorem after (hk : Attended B env field stop) (h : Steady B L S k z m w) : ∃ w', callAfter env w = .ok ((), w') ∧ Steady B L S k z m w' ∧
    w.tick ≤ w'.tick ∧ Sent w w' [] := by
  refine ⟨_, callAfter_apply w, ?_⟩
  split
  · rw [hk.after]
    exact ⟨h.event _ (by simp), by simp, ⟨_, rfl, rfl⟩⟩
  · exact ⟨h, Nat.le_refl _, Sent.refl rfl⟩

theorem pad (hk : Attended B env field stop) (h : Steady B L S k z m w) : ∃ w', Ladder.pad env w = .ok ((), w') ∧ Steady B L S k z m w' ∧
    w.tick ≤ w'.tick ∧ Sent w w' [] := by
  refine ⟨_, pad_apply w, ?_⟩
  split
  · rw [hk.delay]
    exact ⟨h.event _ (by simp), by simp, ⟨_, rfl, rfl⟩⟩
  · exact ⟨h, Nat.le_refl _, Sent.refl rfl⟩

/-- A new state. -/
theorem setState (h : Steady B L S k z m w) (s : St) : Steady B L S k { z with state := s } m { w with ctx := { w.ctx with state := s } } :=
  ⟨h.resting.ctx s w.ctx.last w.ctx.exec (by simp), h.limit, fun ℓ hl => by rw [← h.image ℓ hl]; cases ℓ <;> rfl, by rw [← h.plain]; rfl, h.count, h.start⟩

theorem scanTime {u : W64} (hm : z.millis = true) (hp : z.qty.watchdogMs = 0 ∨ ∀ t c, env.panic t c = c) (hc : k + 1 < 2^32)
    (h : Steady B L (· = u) k z m w) :
    ∃ w', Ladder.scanTime env w = .ok ((), w') ∧
      Steady B L (fun _ => True) (k + 1) (failed (decide (0 < z.qty.watchdogMs ∧ z.qty.watchdogMs < (env.clock w.tick - u).toNat)) z) m w' ∧
      w.tick < w'.tick ∧ Sent w w' [] := by
  have hcnt := h.count
  have hm' : w.ctx.millis = true := (h.setup Ctx.millis fun _ => rfl).trans hm
  have hw' : w.ctx.qty.watchdogMs = z.qty.watchdogMs := h.setup (·.qty.watchdogMs) fun _ => rfl
  have hz : (w.ctx.scan.scanCount + 1).toNat = w.ctx.scan.scanCount.toNat + 1 := by
    rw [BitVec.toNat_add]
    exact Nat.mod_eq_of_lt (by simp; omega)
  obtain ⟨s, hs, hs', hl, ha⟩ : ∃ s, scanMetrics w.ctx.scan (env.clock w.tick) = .ok s ∧ s.scanCount = w.ctx.scan.scanCount + 1 ∧
      s.maxScanCycles = w.ctx.scan.maxScanCycles ∧ s.actualScanTime = env.clock w.tick - u := by
    refine ⟨_, if_neg ?_, rfl, rfl, by rw [← h.start]⟩
    intro h0
    rw [h0] at hz
    simp at hz
  have h1 := h.setScan s (w.tick + 1) (k' := k + 1) (S' := fun _ => True) (by rw [hs', hz]; omega) (hl.trans h.limit) trivial
  have e0 : callMillis env w = .ok (env.clock w.tick, { w with tick := w.tick + 1 }) := by
    unfold callMillis; rw [if_pos hm']
  obtain ⟨v, e1, h1, t1, s1⟩ : ∃ v : World, Ladder.scanTime env w = (if z.qty.watchdogMs > 0 ∧ (env.clock w.tick - u).toNat > z.qty.watchdogMs then
      (do modCtx fun ctx => { ctx with state := .error }
          callPanic env) else pure ()) v ∧ Steady B L (fun _ => True) (k + 1) z m v ∧ v.tick = w.tick + 1 ∧ v.trace = w.trace := by
    refine ⟨_, ?_, h1, rfl, rfl⟩
    unfold Ladder.scanTime
    rw [bind_getCtx]
    simp only [hm', Bool.not_true, Bool.false_eq_true, if_false]
    rw [bind_ok e0, hs, bind_lift_ok, bind_modCtx, ha, hw']
    rw [hm']
  by_cases hx : 0 < z.qty.watchdogMs ∧ z.qty.watchdogMs < (env.clock w.tick - u).toNat
  · rw [if_pos hx, bind_modCtx, callPanic_apply] at e1
    rw [decide_eq_true hx]
    have h2 := h1.setState .error
    have hp := hp.resolve_left (by omega)
    refine ⟨_, e1, ?_⟩
    split
    · rw [hp]
      exact ⟨h2.event _ (by simp), by dsimp only; omega, ⟨[.panic], by dsimp only; rw [s1], rfl⟩⟩
    · exact ⟨h2, by dsimp only; omega, Sent.refl s1⟩
  · rw [if_neg hx] at e1
    rw [decide_eq_false hx]
    exact ⟨_, e1, h1, by omega, Sent.refl s1⟩

theorem readLoop (hk : Attended B env field stop) (hz : Like B z) (hr : ∀ n, n < z.fnReadQty → at? z.read n = some true) (a : Nat) (m : Image) : ∀ fuel n w,
    z.fnReadQty < fuel + n → n ≤ z.fnReadQty → w.tick = a + n → Steady B L S k (stopped (asked stop a n) z) (acquire n (fun j => field (a + j)) m) w →
    ∃ w', Ladder.readLoop env fuel n w = .ok ((), w') ∧
      Steady B L S k (stopped (asked stop a z.fnReadQty) z) (acquire z.fnReadQty (fun j => field (a + j)) m) w' ∧
      w'.tick = a + z.fnReadQty ∧ Sent w w' []
  | 0, n, w, h1, h2, ht, h => by omega
  | fuel + 1, n, w, h1, h2, ht, h => by
    unfold Ladder.readLoop
    have hq : w.ctx.fnReadQty = z.fnReadQty := (h.setup Ctx.fnReadQty fun _ => rfl).trans (stopped_eq Ctx.fnReadQty fun _ _ => rfl)
    have hR : w.ctx.read = z.read := (h.setup Ctx.read fun _ => rfl).trans (stopped_eq Ctx.read fun _ _ => rfl)
    rw [bind_getCtx]
    split
    · rename_i hn
      rw [hq] at hn
      have hg : aget w.ctx.read n = .ok true := aget_eq_ok.2 (by rw [hR]; exact hr n hn)
      rw [hg, bind_lift_ok]
      simp only [Bool.not_true, Bool.false_eq_true, if_false]
      obtain ⟨h3, h4, h5, h6⟩ := hk.read w.tick n w.ctx (by rw [← hz.1]; exact hn) (h.mounted (hz.stopped _))
      have hs : Steady B L S k (stopped (asked stop a (n + 1)) z) (acquire (n + 1) (fun j => field (a + j)) m)
          { ctx := env.read w.tick n w.ctx, tick := w.tick + 1, trace := w.trace ++ [.read n] } := by
        have : Steady B L S k (stopped (asked stop a (n + 1)) z) (acquire (n + 1) (fun j => field (a + j)) m) { w with ctx := env.read w.tick n w.ctx } := by
          refine ⟨⟨h3, h4, h.resting.clean, by simp, by simp⟩, ?_, fun ℓ hl => ?_, ?_, ?_, ?_⟩
          · exact ((congrArg (·.scan.maxScanCycles) h5 : _).trans (stopped_eq (·.scan.maxScanCycles) fun _ _ => rfl)).trans h.limit
          · have hi := h.image ℓ hl
            rw [h6 ℓ]
            cases ℓ <;> simp only [acquire] at hi ⊢ <;> try exact hi
            all_goals
              rw [ht, hi]
              rename_i i p
              by_cases e : i = n
              · subst e
                simp
              · rw [if_neg e]
                by_cases e' : i < n
                · rw [if_pos e', if_pos (by omega)]
                · rw [if_neg e', if_neg (by omega)]
          · rw [plain_shell h5, plain_stopped, h.plain, asked_succ, ht, stopped_stopped]
          · exact ((congrArg (·.scan.scanCount.toNat) h5 : _).trans (stopped_eq (·.scan.scanCount.toNat) fun _ _ => rfl)).trans h.count
          · exact ((congrArg (·.scan.startTime) h5 : _).trans (stopped_eq (·.scan.startTime) fun _ _ => rfl)) ▸ h.start
        exact this.event _ (by simp)
      obtain ⟨w', h7, h8, h9, h10⟩ := readLoop hk hz hr a m fuel (n + 1) _ (by omega) (by omega) (by simp [ht, Nat.add_assoc]) hs
      exact ⟨w', by rw [bind_ok (external_apply _ _ _)]; exact h7, h8, h9, Sent.trans (x := []) ⟨_, rfl, rfl⟩ h10⟩
    · rename_i hn
      have e : n = z.fnReadQty := by omega
      subst e
      exact ⟨w, rfl, h, ht, Sent.refl rfl⟩

theorem writeLoop (hk : Attended B env field stop) (hz : Like B z) (hr : ∀ n, n < z.fnWriteQty → at? z.write n = some true) : ∀ fuel n w,
    z.fnWriteQty < fuel + n → n ≤ z.fnWriteQty → Steady B L S k z m w →
    ∃ w', Ladder.writeLoop env fuel n w = .ok ((), w') ∧ Steady B L S k z m w' ∧ w.tick ≤ w'.tick ∧
      Sent w w' ((List.range' n (z.fnWriteQty - n)).map fun j => (j, orders m))
  | 0, n, w, h1, h2, h => by omega
  | fuel + 1, n, w, h1, h2, h => by
    unfold Ladder.writeLoop
    have hq : w.ctx.fnWriteQty = z.fnWriteQty := h.setup Ctx.fnWriteQty fun _ => rfl
    have hR : w.ctx.write = z.write := h.setup Ctx.write fun _ => rfl
    rw [bind_getCtx]
    split
    · rename_i hn
      rw [hq] at hn
      have hg : aget w.ctx.write n = .ok true := aget_eq_ok.2 (by rw [hR]; exact hr n hn)
      rw [hg, bind_lift_ok]
      simp only [Bool.not_true, Bool.false_eq_true, if_false]
      have hs : Steady B L S k z m
          { ctx := env.write w.tick n w.ctx, tick := w.tick + 1, trace := w.trace ++ [.write n w.ctx.output] } := by
        rw [hk.write _ _ _ (by rw [← hz.2.1]; exact hn) (h.mounted hz)]
        exact h.event _ (by simp)
      obtain ⟨w', h7, h8, h9, h10⟩ := writeLoop hk hz hr fuel (n + 1) _ (by omega) (by omega) hs
      refine ⟨w', by rw [bind_ok (external_apply _ _ _)]; exact h7, h8, Nat.le_trans (Nat.le_succ _) h9, ?_⟩
      have e : z.fnWriteQty - n = (z.fnWriteQty - (n + 1)) + 1 := by omega
      rw [e, List.range'_succ, List.map_cons]
      refine Sent.trans (x := [(n, orders m)]) ⟨_, rfl, ?_⟩ h10
      simp only [commands, List.filterMap_cons, List.filterMap_nil]
      congr 2
      funext ℓ
      cases ℓ <;> simp only [shown, orders]
      · exact h.image (.Q _ _) rfl
      · exact h.image (.QW _ _) rfl
    · rename_i hn
      have e : n = z.fnWriteQty := by omega
      subst e
      exact ⟨w, rfl, h, Nat.le_refl _, by simpa using Sent.refl rfl⟩

theorem doWrites (hk : Attended B env field stop) (hz : Like B z) (hr : ∀ n, n < z.fnWriteQty → at? z.write n = some true) (h32 : z.fnWriteQty < 2^32)
    (h : Steady B L S k z m w) :
    ∃ w', Ladder.doWrites env w = .ok ((), w') ∧ Steady B L S k z m w' ∧ w.tick ≤ w'.tick ∧
      Sent w w' ((List.range z.fnWriteQty).map fun j => (j, orders m)) := by
  have hq : w.ctx.fnWriteQty = z.fnWriteQty := h.setup Ctx.fnWriteQty fun _ => rfl
  have hR : w.ctx.write = z.write := h.setup Ctx.write fun _ => rfl
  unfold Ladder.doWrites
  rw [bind_getCtx]
  split
  · obtain ⟨w', h1, h2, h3, h4⟩ := writeLoop (m := m) hk hz hr u32Fuel 0 w (by unfold u32Fuel; omega) (by omega) h
    exact ⟨w', h1, h2, h3, by rw [List.range_eq_range']; exact h4⟩
  · rename_i hn
    have : z.fnWriteQty = 0 := by
      rcases Nat.eq_zero_or_pos z.fnWriteQty with e | e
      · exact e
      · have := hr 0 e
        refine absurd ⟨by omega, ?_⟩ hn
        rw [hR]
        cases hz : z.write <;> simp [hz, at?] at this ⊢
    rw [this]
    exact ⟨w, rfl, h, Nat.le_refl _, Sent.refl rfl⟩

theorem readPhase (hk : Attended B env field stop) (hz : Like B z) (hp : Paired (load B)) (hr : ∀ n, n < z.fnReadQty → at? z.read n = some true)
    (h32 : z.fnReadQty < 2^32) (h : Steady B L S k z m w) :
    ∃ w', Ladder.readPhase env w = .ok (true, w') ∧
      Steady B L S k (stopped (asked stop w.tick z.fnReadQty) z) (acquire z.fnReadQty (fun j => field (w.tick + j)) (recall sampled m)) w' ∧
      w'.tick = w.tick + z.fnReadQty ∧ Sent w w' [] := by
  have hq : w.ctx.fnReadQty = z.fnReadQty := h.setup Ctx.fnReadQty fun _ => rfl
  have hR : w.ctx.read = z.read := h.setup Ctx.read fun _ => rfl
  have hf := h.resting.alike.fits
  have hp' : Paired (load w.ctx) := by
    intro i p h1 h2
    rw [h.resting.alike.places] at h1 h2
    obtain ⟨q, h3, h4⟩ := hp i p h1 h2
    exact ⟨q, by rw [h.resting.alike.places]; exact h3, by rw [h.resting.alike.places]; exact h4⟩
  obtain ⟨inp, e1, e2⟩ := inHist_total hf
  have hs : Steady B L S k z (recall sampled m) { w with ctx := { w.ctx with input := inp } } :=
    h.kempt (InKept.kempt hf e2) fun ℓ hl => (inHist_recall e2 hp' ℓ).trans (recall_congr h.image sampled_register hl)
  unfold Ladder.readPhase
  rw [bind_getCtx, if_neg (fun hh => by
    have := hf.noInput (Option.isNone_iff_eq_none.1 hh.2)
    omega)]
  have e3 : (if w.ctx.fnReadQty > 0 then amapFirst histIn w.ctx.fnReadQty w.ctx.input else .ok w.ctx.input) = .ok inp := by
    split
    · exact e1
    · rename_i h0
      rw [show w.ctx.fnReadQty = 0 by omega] at e1
      rw [← e1]
      cases w.ctx.input <;> rfl
  rw [e3, bind_lift_ok, bind_modCtx]
  dsimp only
  split
  · obtain ⟨w', h1, h2, h3, h4⟩ := readLoop (L := L) (S := S) (k := k) hk hz hr w.tick (recall sampled m) u32Fuel 0
      { w with ctx := { w.ctx with input := inp } } (by unfold u32Fuel; omega) (by omega) rfl
      (by rw [show acquire 0 (fun j => field (w.tick + j)) (recall sampled m) = recall sampled m by funext ℓ; cases ℓ <;> simp [acquire]]; exact hs)
    exact ⟨w', by rw [bind_ok h1]; rfl, h2, h3, h4⟩
  · rename_i hn
    have e0 : z.fnReadQty = 0 := by
      rcases Nat.eq_zero_or_pos z.fnReadQty with e | e
      · exact e
      · have := hr 0 e
        refine absurd ⟨by omega, ?_⟩ hn
        rw [hR]
        cases hz : z.read <;> simp [hz, at?] at this ⊢
    rw [e0]
    exact ⟨_, rfl, by
      rw [show acquire 0 (fun j => field (w.tick + j)) (recall sampled m) = recall sampled m by funext ℓ; cases ℓ <;> simp [acquire]]; exact hs,
      rfl, Sent.refl rfl⟩

theorem outHistPhase (hm : Settled m) (h : Steady B L S k z m w) :
    ∃ w', Ladder.outHistPhase env w = .ok (true, w') ∧ Steady B L S k z m w' ∧ w'.tick = w.tick ∧ Sent w w' [] := by
  have hf := h.resting.alike.fits
  obtain ⟨out, e1, e2⟩ := outHist_total hf
  have hs : Steady B L S k z m { w with ctx := { w.ctx with output := out } } := by
    refine h.kempt (OutMoved.kempt hf (e2.mono fun _ _ h => h.moved)) fun ℓ hl => ?_
    have key := outHist_recall e2 ℓ
    cases ℓ <;> simp only [recall, kept] at key <;> try exact h.image _ hl
    · rcases key with e | e <;> exact e.trans (h.image _ hl)
    · rcases key with e | e <;> exact e.trans (h.image _ hl)
    · rcases key with e | e
      · exact e.trans (h.image _ hl)
      · rw [e, h.image _ rfl, h.image _ rfl]; exact (hm _ _).1
    · rcases key with e | e
      · exact e.trans (h.image _ hl)
      · rw [e, h.image _ rfl, h.image _ rfl]; exact (hm _ _).2
  unfold Ladder.outHistPhase
  rw [bind_getCtx, if_neg (fun hh => by
    have := hf.noOutput (Option.isNone_iff_eq_none.1 hh.2)
    omega)]
  have e3 : (if w.ctx.fnWriteQty > 0 then amapFirst histOut w.ctx.fnWriteQty w.ctx.output else .ok w.ctx.output) = .ok out := by
    split
    · exact e1
    · rename_i h0
      rw [show w.ctx.fnWriteQty = 0 by omega] at e1
      rw [← e1]
      cases w.ctx.output <;> rfl
  rw [e3, bind_lift_ok, bind_modCtx]
  exact ⟨_, rfl, hs, rfl, Sent.refl rfl⟩

variable {jobs : List CronJob} {nets : List Network}

/-- A cycle with `k` input modules that begins at instant `t` with the registers `m` has arithmetic without a result, with readings the
clock had given. -/
def Fails (env : Env) (field : Nat → Field) (jobs : List CronJob) (nets : List Network) (k t : Nat) (m : Image) (e : UB) : Prop :=
  arithmetic e = true ∧ ∃ a us hi, t < a ∧ Told env (a + k) hi us ∧ ∀ rest, (computed k field env.localtime jobs nets rest m (a, us)).sure = false

theorem scan (hB : Formed B) (hF : Fits B) (hk : Still env) (hj : Planned B jobs) (hnets : B.network = some nets)
    (hd : ∀ net ∈ nets, net.enable = true → Diagram net ∧ Room env L (effort net)) (hst : Railed B z) (h : Steady B L S k z m w) :
    (∃ e us hi, Ladder.scan env w = .error e ∧ arithmetic e = true ∧ Told env w.tick hi us ∧
      ∀ rest, (Logic.program (nets.take B.qty.networks) ⟨calendar (env.localtime w.tick) jobs m, prior us rest, true⟩).sure = false) ∨
    ∃ us m' w', Ladder.scan env w = .ok ((), w') ∧
      Lit.Goes (Logic.program (nets.take B.qty.networks)) (calendar (env.localtime w.tick) jobs m) us m' ∧
      Steady B L S k z m' w' ∧ Told env w.tick w'.tick us ∧ Sent w w' [] := by
  have key := Shown.scan hB hF hk hj hnets hd (z := core w.ctx) (T := w.tick) (us := [])
    (hst.imp (h.setup Ctx.state fun _ => rfl).trans id)
    (⟨h.resting, ⟨h.limit, rfl⟩, .done (Nat.le_refl _), h.image⟩ : Shown env w.tick [] B L (core w.ctx) m w)
  cases e : Ladder.scan env w with
  | error x =>
    rw [e] at key
    obtain ⟨ha, vs, hi, ht, hs⟩ := key
    exact .inl ⟨x, vs, hi, rfl, ha, ht, hs⟩
  | ok x =>
  obtain ⟨u, w'⟩ := x
  refine .inr ?_
  rw [e] at key
  obtain ⟨us, m', hgo, h'⟩ := key
  have hc := h'.limit.2
  refine ⟨us, m', w', rfl, hgo, ⟨h'.resting, h'.limit.1, h'.image, (plain_core hc).trans h.plain,
    (congrArg (·.scan.scanCount.toNat) hc : _).trans h.count, (congrArg (·.scan.startTime) hc : _) ▸ h.start⟩, h'.told, ?_⟩
  obtain ⟨new, h1, h2⟩ := scan_trace e
  refine ⟨new, h1, ?_⟩
  unfold commands
  rw [List.filterMap_eq_nil_iff]
  intro e he
  have := h2 e he
  cases e <;> simp [isScan] at this ⊢

/-- The part of the hypotheses that concerns program and hardware. -/
structure Rig (B : Ctx) (L : Nat) (env : Env) (field : Nat → Field) (stop : Nat → Bool) (jobs : List CronJob) (nets : List Network)
    (z : Ctx) : Prop where
  formed : Formed B
  fits : Fits B
  paired : Paired (load B)
  plugged : Attended B env field stop
  planned : Planned B jobs
  network : B.network = some nets
  diagram : ∀ net ∈ nets, net.enable = true → Diagram net ∧ Room env L (effort net)
  millis : z.millis = true
  watchdog : z.qty.watchdogMs = 0 ∨ ∀ t c, env.panic t c = c
  read : ∀ n, n < z.fnReadQty → at? z.read n = some true
  write : ∀ n, n < z.fnWriteQty → at? z.write n = some true
  reads : z.fnReadQty < 2^32
  writes : z.fnWriteQty < 2^32
  state : z.state = .running
  like : Like B z
  rail : ∀ t, stop t = true → ∀ n r x, cell? B n r 0 = some x → x.code ≠ .CTU ∧ x.code ≠ .CTD

theorem asked_some {stop : Nat → Bool} {a k : Nat} (h : asked stop a k = true) : ∃ t, stop t = true := by
  obtain ⟨j, -, hj⟩ := List.any_eq_true.1 h
  exact ⟨_, hj⟩

theorem Rig.railed (hR : Rig B L env field stop jobs nets z) (a : Nat) : Railed B (stopped (asked stop a z.fnReadQty) z) := by
  cases hb : asked stop a z.fnReadQty with
  | false => exact .inl hR.state
  | true =>
    obtain ⟨t, ht⟩ := asked_some hb
    exact .inr (hR.rail t ht)

/-- The cycle up to the end of its writes. -/
theorem cycleHead (hR : Rig B L env field stop jobs nets z) (hm : Settled m) (h : Steady B L S k z m w) :
    (∃ e, Ladder.cycle env w = .error e ∧ Fails env field jobs (nets.take B.qty.networks) z.fnReadQty w.tick m e) ∨
    ∃ (w' : World) (c : Lap) (m' : Image), Ladder.cycle env w = (do Ladder.scanTime env; Ladder.pad env; callAfter env; pure IterRes.again) w' ∧
      c.start = w.tick ∧ c.start < c.sample ∧ c.sample + z.fnReadQty ≤ c.finish ∧ c.finish = w'.tick ∧
      Told env (c.sample + z.fnReadQty) c.finish c.readings ∧
      (∀ rest, computed z.fnReadQty field env.localtime jobs (nets.take B.qty.networks) rest m c.entry = ⟨m', rest, true⟩) ∧
      Steady B L (· = env.clock c.start) k (stopped (asked stop c.sample z.fnReadQty) z) (recall kept m') w' ∧
      Sent w w' ((List.range z.fnWriteQty).map fun j => (j, orders (recall kept m'))) := by
  have hmil : w.ctx.millis = true := (h.setup Ctx.millis fun _ => rfl).trans hR.millis
  have h0 := h.setScan { w.ctx.scan with startTime := env.clock w.tick } (w.tick + 1) (S' := (· = env.clock w.tick)) h.count h.limit rfl
  obtain ⟨w1, e1, h1, t1, s1⟩ := h0.before hR.plugged
  obtain ⟨w2, e2, h2, t2, s2⟩ := h1.readPhase hR.plugged hR.like hR.paired hR.read hR.reads
  have hrail := hR.railed w1.tick
  have hz' : ∀ {α : Type} (f : Ctx → α), (∀ c s, f { c with state := s } = f c) → f (stopped (asked stop w1.tick z.fnReadQty) z) = f z :=
    fun f hf => stopped_eq f hf
  have hst' : (stopped (asked stop w1.tick z.fnReadQty) z).state ≠ .inv := by
    cases asked stop w1.tick z.fnReadQty with
    | false => exact fun e => by rw [show (stopped false z).state = z.state from rfl, hR.state] at e; cases e
    | true => exact fun e => by cases e
  have hlike := hR.like.stopped (asked stop w1.tick z.fnReadQty)
  generalize hy : stopped (asked stop w1.tick z.fnReadQty) z = y at *
  obtain ⟨w3, e3, h3, t3, s3⟩ := outHistPhase (env := env) (m := acquire z.fnReadQty (fun j => field (w1.tick + j)) (recall sampled m)) hm h2
  have hcyc : Ladder.cycle env w = (do
      Ladder.scan env
      let ctx ← getCtx
      if ctx.state = St.inv then do
        Ladder.faultPath env
        pure IterRes.exit
      else do
        let ctx' ← lift (savePrevious ctx)
        modCtx fun _ => ctx'
        Ladder.doWrites env
        Ladder.scanTime env; Ladder.pad env; callAfter env; pure IterRes.again) w3 := by
    unfold Ladder.cycle
    rw [bind_getCtx, if_neg (by rw [hmil]; decide)]
    have h1 : callMillis env w = .ok (env.clock w.tick, { w with tick := w.tick + 1 }) := by
      unfold callMillis; rw [if_pos hmil]
    rw [bind_ok h1, bind_modCtx]
    refine (bind_ok e1).trans ?_
    rw [bind_ok e2]
    simp only [Bool.not_true, Bool.false_eq_true, if_false]
    rw [bind_ok e3]
    rfl
  have ht : w3.tick = w1.tick + z.fnReadQty := by rw [t3, t2]
  rcases h3.scan hR.formed hR.fits hR.plugged.toStill hR.planned hR.network hR.diagram hrail with ⟨e, us, hi, e4, ha, hto, hbad⟩ | ⟨us, m4, w4, e4, hgo, h4, t4, s4⟩
  · rw [ht] at hto hbad
    simp only at t1
    exact .inl ⟨e, by rw [hcyc, bind_apply, e4], ha, w1.tick, us, hi, by omega, hto, hbad⟩
  refine .inr ?_
  obtain ⟨c5, e5, k5, l5⟩ := savePrevious_total h4.resting.alike.fits
  have h5 := h4.kempt k5 fun ℓ hl => (l5 ℓ).trans (recall_congr h4.image kept_register hl)
  have hwq := hz' Ctx.fnWriteQty fun _ _ => rfl
  have hwr := hz' Ctx.write fun _ _ => rfl
  obtain ⟨w6, e6, h6, t6, s6⟩ := h5.doWrites hR.plugged hlike (by rw [hwq, hwr]; exact hR.write) (by rw [hwq]; exact hR.writes)
  rw [hwq] at s6
  have hst : w4.ctx.state ≠ .inv := fun e => hst' ((h4.setup Ctx.state fun _ => rfl).symm.trans e)
  rw [ht] at hgo t4
  simp only at t1 t6
  have t4' := t4.le
  refine ⟨w6, ⟨w.tick, w1.tick, w6.tick, us⟩, m4, ?_, rfl, by dsimp only; omega, by dsimp only; omega, rfl, t4.mono (by omega), hgo, by rw [hy]; exact h6, ?_⟩
  · rw [hcyc]
    rw [bind_ok e4, bind_getCtx, if_neg hst, e5, bind_lift_ok, bind_modCtx, bind_ok e6]
  · have := ((((Sent.refl (w := w) rfl).trans s1).trans s2).trans s3).trans s4
    simpa using this.trans s6

theorem cycle (hR : Rig B L env field stop jobs nets z) (hc : k + 1 < 2^32) (hm : Settled m) (h : Steady B L S k z m w) :
    (∃ e, Ladder.cycle env w = .error e ∧ Fails env field jobs (nets.take B.qty.networks) z.fnReadQty w.tick m e) ∨
    ∃ (w' : World) (c : Lap) (m' : Image), Ladder.cycle env w = .ok (.again, w') ∧ c.start = w.tick ∧ c.start < c.sample ∧ c.sample + z.fnReadQty ≤ c.finish ∧ c.finish < w'.tick ∧
      Told env (c.sample + z.fnReadQty) c.finish c.readings ∧
      (∀ rest, computed z.fnReadQty field env.localtime jobs (nets.take B.qty.networks) rest m c.entry = ⟨m', rest, true⟩) ∧
      Steady B L (fun _ => True) (k + 1) (failed (c.overdue env z.qty.watchdogMs) (stopped (asked stop c.sample z.fnReadQty) z)) (recall kept m') w' ∧
      Sent w w' ((List.range z.fnWriteQty).map fun j => (j, orders (recall kept m'))) := by
  rcases h.cycleHead hR hm with hf | ⟨w6, c, m4, e6, c1, c2, c3, c4, c5, hgo, h6, s6⟩
  · exact .inl hf
  have hwd := stopped_eq (b := asked stop c.sample z.fnReadQty) (c := z) (·.qty.watchdogMs) fun _ _ => rfl
  obtain ⟨w7, e7, h7, t7, s7⟩ := h6.scanTime (env := env) ((stopped_eq Ctx.millis fun _ _ => rfl).trans hR.millis) (hR.watchdog.imp hwd.trans id) hc
  rw [hwd, ← c4] at h7
  obtain ⟨w8, e8, h8, t8, s8⟩ := h7.pad hR.plugged
  obtain ⟨w9, e9, h9, t9, s9⟩ := h8.after hR.plugged
  refine .inr ⟨w9, c, m4, ?_, c1, c2, c3, by omega, c5, hgo, h9, ?_⟩
  · rw [e6, bind_ok e7, bind_ok e8, bind_ok e9]
    rfl
  · simpa using s6.trans (s7.trans (s8.trans s9))

/-- The cycle whose number the scan counter cannot hold. -/
theorem cycle_last (hR : Rig B L env field stop jobs nets z) (hk : k + 1 = 2^32) (hm : Settled m) (h : Steady B L S k z m w) :
    (∃ e, Ladder.cycle env w = .error e ∧ Fails env field jobs (nets.take B.qty.networks) z.fnReadQty w.tick m e) ∨
    Ladder.cycle env w = .error .divZero := by
  rcases h.cycleHead hR hm with hf | ⟨w6, c, m4, e6, -, -, -, -, -, -, h6, -⟩
  · exact .inl hf
  refine .inr ?_
  have hm' : w6.ctx.millis = true := ((h6.setup Ctx.millis fun _ => rfl).trans (stopped_eq Ctx.millis fun _ _ => rfl)).trans hR.millis
  have hz : w6.ctx.scan.scanCount + 1 = 0 := by
    apply BitVec.eq_of_toNat_eq
    rw [BitVec.toNat_add, h6.count]
    simp [hk]
  have e0 : callMillis env w6 = .ok (env.clock w6.tick, { w6 with tick := w6.tick + 1 }) := by
    unfold callMillis; rw [if_pos hm']
  have e7 : Ladder.scanTime env w6 = .error .divZero := by
    unfold Ladder.scanTime
    rw [bind_getCtx]
    simp only [hm', Bool.not_true, Bool.false_eq_true, if_false]
    rw [bind_ok e0, show scanMetrics w6.ctx.scan (env.clock w6.tick) = .error .divZero from if_pos hz]
    rfl
  rw [e6, bind_apply, e7]

/-- The task up to its last cycle, and how it stands then; or up to the first cycle that has arithmetic without a result. -/
theorem taskLoop (hR : Rig B L env field stop jobs nets z) : ∀ (n k : Nat) (S : W64 → Prop) (m : Image) (w : World), k + n < 2^32 → Settled m →
    Steady B L S k z m w →
    ∃ (w1 : World) (cs : List Lap) (m' : Image) (ms : List Image), Laps env z.fnReadQty w.tick cs w1.tick ∧
      ((∀ x, Ladder.taskLoop env (n - cs.length) w1 = .ok x → Ladder.taskLoop env n w = .ok x) ∧
          Halted (fun c => c.overdue env z.qty.watchdogMs || asked stop c.sample z.fnReadQty) n cs ∨
        cs.length < n ∧ (∀ c ∈ cs, (c.overdue env z.qty.watchdogMs || asked stop c.sample z.fnReadQty) = false) ∧
          Ladder.taskLoop env cs.length w = .ok (.running, w1) ∧
          ∃ e, (∀ j, Ladder.taskLoop env (j + 1) w1 = .error e) ∧ Fails env field jobs (nets.take B.qty.networks) z.fnReadQty w1.tick m' e) ∧
      (∀ rest, (cs.map Lap.entry).foldl (turn z.fnReadQty field env.localtime jobs (nets.take B.qty.networks) rest) m = m' ∧
        successive (turn z.fnReadQty field env.localtime jobs (nets.take B.qty.networks) rest) m (cs.map Lap.entry) = ms ∧
        Exhausts (computed z.fnReadQty field env.localtime jobs (nets.take B.qty.networks) rest) rest m (cs.map Lap.entry)) ∧
      Steady B L (fun _ => True) (k + cs.length)
        (failed (cs.any fun c => c.overdue env z.qty.watchdogMs) (stopped (cs.any fun c => asked stop c.sample z.fnReadQty) z)) m' w1 ∧
      Sent w w1 (ms.flatMap fun m' => (List.range z.fnWriteQty).map fun j => (j, orders m'))
  | 0, k, S, m, w, _, _, h => ⟨w, [], m, [], Nat.le_refl _, .inl ⟨fun _ h => h, Nat.le_refl _, by simp, by simp⟩, fun _ => ⟨rfl, rfl, trivial⟩,
      ⟨h.resting, h.limit, h.image, h.plain, h.count, trivial⟩, Sent.refl rfl⟩
  | n + 1, k, S, m, w, hc, hm, h => by
    have hst : w.ctx.state = .running := (h.setup Ctx.state fun _ => rfl).trans hR.state
    have hiter : taskIter env w = Ladder.cycle env w := by
      unfold taskIter
      have : waitLoop env maxWait w = .ok (.ready, w) := by
        unfold maxWait waitLoop
        rw [bind_getCtx, if_pos hst]
        rfl
      rw [bind_ok this]
    rcases h.cycle hR (by omega) hm with ⟨e, e1, hf⟩ | ⟨w1, c, m1, e1, t0, t1, t2, t3, t4, hgo, h1, s1⟩
    · refine ⟨w, [], m, [], Nat.le_refl _, .inr ⟨Nat.succ_pos n, by simp, rfl, e, fun j => ?_, hf⟩, fun _ => ⟨rfl, rfl, trivial⟩,
        ⟨h.resting, h.limit, h.image, h.plain, h.count, trivial⟩, Sent.refl rfl⟩
      unfold Ladder.taskLoop
      rw [bind_getCtx, if_neg (by rw [hst]; decide), bind_apply, hiter, e1]
    have hloop : ∀ n, Ladder.taskLoop env (n + 1) w = Ladder.taskLoop env n w1 := fun n => by
      rw [Ladder.taskLoop, bind_getCtx, if_neg (by rw [hst]; decide), bind_ok (hiter.trans e1)]
    cases hb : c.overdue env z.qty.watchdogMs || asked stop c.sample z.fnReadQty with
    | false =>
      obtain ⟨hb1, hb2⟩ := Bool.or_eq_false_iff.1 hb
      rw [hb1, hb2] at h1
      obtain ⟨w2, cs, m', ms, t5, hh, hall, h3, s2⟩ := taskLoop hR n (k + 1) _ _ w1 (by omega) (settled_recall _) h1
      refine ⟨w2, c :: cs, m', recall kept m1 :: ms, ⟨by omega, t1, t2, t4, t5.mono (by omega)⟩, ?_, fun rest => ?_, ?_, s1.trans s2⟩
      · rw [hloop]
        rcases hh with ⟨e2, hh⟩ | ⟨hlt, hno, er, e, e2, hf⟩
        · refine .inl ⟨fun x e => ?_, hh.cons hb⟩
          rw [List.length_cons, Nat.add_sub_add_right] at e
          exact e2 x e
        · exact .inr ⟨Nat.succ_lt_succ hlt, fun x hx => (List.mem_cons.1 hx).elim (fun e => e ▸ hb) (hno x), (hloop _).trans er, e, e2, hf⟩
      · obtain ⟨h4, h5, h6⟩ := hall rest
        refine ⟨?_, ?_, ?_⟩
        · simp only [List.map_cons, List.foldl_cons, turn, hgo rest]; exact h4
        · simp only [List.map_cons, successive, turn, hgo rest]; exact congrArg _ h5
        · rw [List.map_cons, Exhausts, hgo rest]; exact ⟨rfl, rfl, h6⟩
      · simp only [List.length_cons, List.any_cons, hb1, hb2, Bool.false_or]
        rw [show k + (cs.length + 1) = k + 1 + cs.length by omega]
        exact h3
    | true =>
      refine ⟨w1, [c], recall kept m1, [recall kept m1], ⟨by omega, t1, t2, t4, by simp only [Laps]; omega⟩, .inl ⟨fun x e => (hloop n).trans e, Halted.last hb⟩, fun rest => ?_, ?_, ?_⟩
      · refine ⟨?_, ?_, ?_⟩
        · simp only [List.map_cons, List.map_nil, List.foldl_cons, List.foldl_nil, turn, hgo rest]
        · simp only [List.map_cons, List.map_nil, successive, turn, hgo rest]
        · rw [List.map_cons, Exhausts, hgo rest]; exact ⟨rfl, rfl, trivial⟩
      · simpa using h1
      · simpa using s1

theorem Fails.absurd {t : Nat} {m : Image} {e : UB} {reads : Nat} (h : Fails env field jobs (nets.take B.qty.networks) reads t m e) (hB : Well B) (hF : Fits B)
    (hnets : B.network = some nets) : False := by
  obtain ⟨-, a, us, hi, -, -, hs⟩ := h
  have := hs fun _ => ⟨0, 0, 0⟩
  unfold computed at this
  rw [total_program hB hF hnets] at this
  cases this

/-- The same for a program whose arithmetic always has a result. -/
theorem taskLoop_well (hR : Rig B L env field stop jobs nets z) (hB : Well B) (n k : Nat) (S : W64 → Prop) (m : Image) (w : World) (hc : k + n < 2^32)
    (hm : Settled m) (h : Steady B L S k z m w) :
    ∃ (w1 : World) (cs : List Lap) (m' : Image) (ms : List Image), (∀ x, Ladder.taskLoop env (n - cs.length) w1 = .ok x → Ladder.taskLoop env n w = .ok x) ∧ Laps env z.fnReadQty w.tick cs w1.tick ∧
      Halted (fun c => c.overdue env z.qty.watchdogMs || asked stop c.sample z.fnReadQty) n cs ∧
      (∀ rest, (cs.map Lap.entry).foldl (turn z.fnReadQty field env.localtime jobs (nets.take B.qty.networks) rest) m = m' ∧
        successive (turn z.fnReadQty field env.localtime jobs (nets.take B.qty.networks) rest) m (cs.map Lap.entry) = ms ∧
        Exhausts (computed z.fnReadQty field env.localtime jobs (nets.take B.qty.networks) rest) rest m (cs.map Lap.entry)) ∧
      Steady B L (fun _ => True) (k + cs.length)
        (failed (cs.any fun c => c.overdue env z.qty.watchdogMs) (stopped (cs.any fun c => asked stop c.sample z.fnReadQty) z)) m' w1 ∧
      Sent w w1 (ms.flatMap fun m' => (List.range z.fnWriteQty).map fun j => (j, orders m')) := by
  obtain ⟨w1, cs, m', ms, h1, h2, h3⟩ := taskLoop hR n k S m w hc hm h
  rcases h2 with ⟨h4, h5⟩ | ⟨-, -, -, e, -, hf⟩
  · exact ⟨w1, cs, m', ms, h4, h1, h5, h3⟩
  · exact (hf.absurd hB hR.fits hR.network).elim

end Steady

namespace Props

/-- **C73** (partial): a task that runs a ladder diagram is a synchronous controller.  For any number of iterations it stays in state
running and performs exactly that many cycles, one after the other.  In each the inputs are sampled once, before anything is computed; cron
jobs and networks then transform the registers as the diagram says; the history is taken; and every output module is sent the outputs
computed in this very cycle, once and in order.  Nothing else is ever sent to an output module, and after the last cycle the
registers hold what the cycles make of their contents at the start.

`field t` is what the hardware makes of the inputs at instant `t`; the other callbacks leave the context alone.  Missing: see C71 (branches,
instructions) and C44 (analog inputs of modules without digital inputs have no history); the scan counter must not wrap; and the watchdog
must be off. -/
theorem C73_controller_partial {B : Ctx} {env : Env} {field : Nat → Field} {jobs : List CronJob} {nets : List Network} {w : World} (hB : Well B)
    (hF : Fits B) (hp : Paired (load B)) (hk : Plugged B env field) (hj : Planned B jobs) (hnets : B.network = some nets)
    (hd : ∀ net ∈ nets, net.enable = true → Diagram net ∧ Room env w.ctx.scan.maxScanCycles (effort net))
    (ha : Mounted B w.ctx) (hc : Clean w.trace) (hw : Wired w.ctx) (ht : Tables w.ctx) (hn : ¬ Missing w.ctx)
    (hq : w.ctx.fnReadQty < 2^32 ∧ w.ctx.fnWriteQty < 2^32) (hst : w.ctx.state = .running) (hwd : w.ctx.qty.watchdogMs = 0)
    (hs : Settled (load w.ctx)) (n : Nat) (hcnt : w.ctx.scan.scanCount.toNat + n < 2^32) :
    ∃ w' as, task env n w = .ok (.running, w') ∧ w'.ctx.state = .running ∧ as.length = n ∧ Timely env w.ctx.fnReadQty w.tick as w'.tick ∧
      ∀ rest, let f := turn w.ctx.fnReadQty field env.localtime jobs (nets.take B.qty.networks) rest
        (∀ ℓ, register ℓ = true → load w'.ctx ℓ = as.foldl f (load w.ctx) ℓ) ∧
        commands (news w w') = ((successive f (load w.ctx) as).flatMap fun m => (List.range w.ctx.fnWriteQty).map fun j => (j, orders m)) ∧
        Exhausts (computed w.ctx.fnReadQty field env.localtime jobs (nets.take B.qty.networks) rest) rest (load w.ctx) as := by
  have hR : Steady.Rig B w.ctx.scan.maxScanCycles env field (fun _ => false) jobs nets (plain w.ctx) :=
    ⟨Formed.of_well hB, hF, hp, ⟨hk.toStill, hk.before, hk.after, hk.delay, hk.write, hk.read⟩, hj, hnets, hd, hw.millis, .inl hwd, hw.read, hw.write, hq.1, hq.2, hst,
      ⟨ha.reads, ha.writes, ha.delay⟩, fun _ h => by cases h⟩
  obtain ⟨w1, cs, m', ms, e, h2, ⟨hle, -, hr⟩, hall, h3, new, h4, h5⟩ := Steady.taskLoop_well hR hB n w.ctx.scan.scanCount.toNat (fun _ => True) (load w.ctx) w hcnt hs
    ⟨⟨ha.alike, ha.flags, hc, by simp, by simp⟩, rfl, fun _ _ => rfl, rfl, rfl, trivial⟩
  have hna : ∀ c : Lap, asked (fun _ => false) c.sample w.ctx.fnReadQty = false := fun c => by simp [asked]
  have hno : ∀ c : Lap, c.overdue env w.ctx.qty.watchdogMs = false := fun c => by simp [Lap.overdue, hwd]
  rw [show (plain w.ctx).fnReadQty = w.ctx.fnReadQty from rfl, show (plain w.ctx).qty.watchdogMs = w.ctx.qty.watchdogMs from rfl] at *
  simp only [hna, hno, Bool.or_self, Bool.false_eq_true, and_false, exists_false, imp_false] at hr h3
  have hlen : cs.length = n := by omega
  have e := e (.running, w1) (by rw [hlen, Nat.sub_self]; rfl)
  rw [show (cs.any fun _ => false) = false by simp] at h3
  refine ⟨w1, cs.map Lap.entry, ?_, (h3.setup Ctx.state fun _ => rfl).trans hst, by simpa using hlen, h2.timely, fun rest => ?_⟩
  · obtain ⟨b, eb, hb⟩ := taskRefuses_iff ht
    unfold task
    rw [bind_getCtx, eb, bind_lift_ok]
    cases b with
    | true => exact absurd (hb.1 rfl) hn
    | false => exact e
  · have : news w w1 = new := by unfold news; rw [h4]; simp
    obtain ⟨h6, h7, h8⟩ := hall rest
    refine ⟨fun ℓ hl => (h3.image ℓ hl).trans (congrFun h6.symm ℓ), ?_, h8⟩
    rw [this, h5, ← h7]
    rfl

/-! ### A controller that meets the hypotheses -/

open _root_.Ladder.Demo

/-- Input 0 of module `n` follows the clock. -/
def supply (t : Nat) : Field := fun ℓ x => match ℓ with | .I _ 0 => t % 2 | _ => x

/-- Hardware with these inputs. -/
def wiredUp : Env := { env with read := fun t n c => upd c (.I n 0) (t % 2) }

theorem wired_plugged {B : Ctx} : Plugged B wiredUp supply where
  toStill := ⟨fun _ _ => rfl, fun _ _ => rfl, fun _ => by constructor <;> simp [wiredUp, env]⟩
  before := fun _ _ => rfl
  after := fun _ _ => rfl
  delay := fun _ _ => rfl
  write := fun _ _ _ _ _ => rfl
  read := fun t n c _ h => by
    refine ⟨h.alike.upd (.I n 0) (t % 2), h.flags.upd (ℓ := .I n 0) (x := t % 2) (by simp [isFlag]), shell_upd c (.I n 0) (t % 2), fun ℓ => ?_⟩
    by_cases e : ℓ = .I n 0
    · subst e
      simp only [if_true]
      cases hs : load c (.I n 0) with
      | none =>
        have := isSome_load_upd (ctx := c) (ℓ := .I n 0) (ℓ' := .I n 0) (x := t % 2)
        rw [hs] at this
        exact Option.isNone_iff_eq_none.1 (by simpa [wiredUp] using this)
      | some x => exact load_upd_self c (.I n 0) (t % 2) (by rw [hs]; rfl) (by simp only [Loc.size]; omega)
    · simp only [wiredUp, load_upd_ne _ _ _ _ (Ne.symm e)]
      cases ℓ <;> try rfl
      all_goals
        rename_i i p
        dsimp only
        split
        · rename_i hi
          subst hi
          cases p with
          | zero => first | exact absurd rfl e | (cases load c _ <;> rfl)
          | succ p => cases load c _ <;> rfl
        · rfl

theorem wiredUp_plugged : Plugged hourly wiredUp supply := wired_plugged

theorem over_self {α : Type} (a : Option α) : over a a = a := by cases a <;> rfl

theorem hourly_settled : Settled (load hourly) := fun n _ =>
  match n with
  | 0 => ⟨over_self _, over_self _⟩
  | _ + 1 => ⟨rfl, rfl⟩

theorem hourly_paired : Paired (load hourly) := fun n _ h _ =>
  match n with
  | 0 => ⟨0, rfl, rfl⟩
  | _ + 1 => by cases h

/-- The hypotheses of `C73_controller_partial` can be met: the rungs of C71 on hardware whose inputs toggle, a million cycles. -/
example : ∃ w' as, task wiredUp 1000000 ⟨hourly, 0, []⟩ = .ok (.running, w') ∧ as.length = 1000000 ∧ Timely wiredUp hourly.fnReadQty 0 as w'.tick ∧
    commands (news ⟨hourly, 0, []⟩ w') = (successive (turn hourly.fnReadQty supply wiredUp.localtime [always] [sealed] fun _ => ⟨0, 0, 0⟩) (load hourly) as).flatMap
      fun m => (List.range hourly.fnWriteQty).map fun j => (j, orders m) := by
  have ha : Alike hourly hourly := ⟨fits_of rfl, rfl, fun _ => rfl, rfl, rfl, rfl, rfl, rfl⟩
  obtain ⟨w', as, h1, -, h2, h3, h4⟩ := C73_controller_partial (w := ⟨hourly, 0, []⟩) sealed_well ha.fits hourly_paired wiredUp_plugged planned rfl
    (fun net hn _ => by
      rw [List.mem_singleton.1 hn]
      exact ⟨diagram_of (by decide), by decide, .inl fun _ _ => rfl⟩) ⟨ha, flags_demo [sealed], rfl, rfl, rfl⟩ (fun _ _ _ _ h => by cases h)
    ⟨rfl, fun n hn => by cases Nat.lt_one_iff.1 hn; rfl, fun n hn => by cases Nat.lt_one_iff.1 hn; rfl, fun _ => rfl, fun _ => rfl⟩ ⟨fun l h => by cases h; decide, fun l h => by cases h; decide⟩
    (fun h => by have := h.one; simp [hourly, ctx, at?] at this) ⟨by decide, by decide⟩ rfl rfl hourly_settled 1000000 (by decide)
  exact ⟨w', as, h1, h2, h3, (h4 _).2.1⟩

/-! ### What the full statement misses -/

/-- An empty program and an input module with an analog port only. -/
def gauge : Ctx := { ctx [net [[ins .NOP []]]] with
  input := some [{ iQty := 0, iwQty := 1, I := none, IW := some [7], Ih := none, IWh := some [300] }] }

/-- The outcome of a task that is still running leaves the given content. -/
def runsTo (x : Except UB (TaskRes × World)) (ℓ : Loc) (v : Nat) : Bool :=
  match x with | .ok (.running, w) => decide (load w.ctx ℓ = some v) | _ => false

theorem of_runsTo {x : Except UB (TaskRes × World)} {ℓ : Loc} {v : Nat} (h : runsTo x ℓ v = true) :
    ∃ w, x = .ok (.running, w) ∧ load w.ctx ℓ = some v := by
  rcases x with e | ⟨r, w⟩
  · cases h
  · cases r with
    | running => exact ⟨w, rfl, of_decide_eq_true h⟩
    | refused => cases h
    | ended => cases h

/-- **C73 is violated** by modules with analog inputs only: their history is never taken, so instructions that compare with the previous
value see the one of the start for ever (here 300, though the input was and is 7; the first cycle begins at instant 1). -/
theorem C73_refuted_history : (∃ w, task env 1 ⟨gauge, 0, []⟩ = .ok (.running, w) ∧ load w.ctx (.IWh 0 0) = some 300) ∧
    turn gauge.fnReadQty (fun _ _ x => x) env.localtime [] [net [[ins .NOP []]]] (fun _ => ⟨0, 0, 0⟩) (load gauge) (1, []) (.IWh 0 0) = some 7 :=
  ⟨of_runsTo (by decide +kernel), by decide +kernel⟩

end Props

end Ladder
