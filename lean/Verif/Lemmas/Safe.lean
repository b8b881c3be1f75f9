import Verif.Spec.Well
import Verif.Lemmas.Step
import Verif.Lemmas.Task
import Verif.Lemmas.Access
import Verif.Model.Scan

/-
Operations that, from any world satisfying an invariant, end without undefined behaviour in such a world.
-/

set_option autoImplicit false

namespace Ladder

open Spec Op

/-- From any world satisfying `I`, `m` ends normally, in a world satisfying `I`, with a result satisfying `Q`. -/
def Safe {α : Type} (I : World → Prop) (m : Op α) (Q : α → Prop) : Prop :=
  ∀ w, I w → ∃ a w', m w = .ok (a, w') ∧ I w' ∧ Q a

namespace Safe

variable {I : World → Prop} {α β : Type}

theorem bind {m : Op α} {f : α → Op β} {Q : α → Prop} {R : β → Prop} (hm : Safe I m Q)
    (hf : ∀ a, Q a → Safe I (f a) R) : Safe I (m >>= f) R := by
  intro w hw
  obtain ⟨a, w1, h1, hw1, hq⟩ := hm w hw
  rw [bind_ok h1]
  exact hf a hq w1 hw1

theorem pure {a : α} {Q : α → Prop} (h : Q a) : Safe I (Pure.pure a) Q := fun w hw => ⟨a, w, rfl, hw, h⟩

theorem mono {m : Op α} {Q R : α → Prop} (hm : Safe I m Q) (h : ∀ a, Q a → R a) : Safe I m R := by
  intro w hw
  obtain ⟨a, w1, h1, hw1, hq⟩ := hm w hw
  exact ⟨a, w1, h1, hw1, h a hq⟩

theorem any {m : Op α} {Q : α → Prop} (hm : Safe I m Q) : Safe I m fun _ => True := hm.mono fun _ _ => trivial

theorem ite {p : Prop} [Decidable p] {x y : Op α} {Q : α → Prop} (hx : p → Safe I x Q) (hy : ¬p → Safe I y Q) :
    Safe I (if p then x else y) Q := by
  split
  · exact hx ‹_›
  · exact hy ‹_›

theorem lift {x : Except UB α} {a : α} {Q : α → Prop} (hx : x = .ok a) (h : Q a) : Safe I (Op.lift x) Q := by
  subst hx; exact fun w hw => ⟨a, w, rfl, hw, h⟩

theorem getCtx {f : Ctx → Op β} {R : β → Prop} (h : ∀ w, I w → ∃ a w', f w.ctx w = .ok (a, w') ∧ I w' ∧ R a) :
    Safe I (Op.getCtx >>= f) R := fun w hw => by rw [bind_ok (getCtx_apply w)]; exact h w hw

theorem modCtx {f : Ctx → Ctx} (h : ∀ w, I w → I { w with ctx := f w.ctx }) : Safe I (Op.modCtx f) fun _ => True :=
  fun w hw => ⟨(), _, rfl, h w hw, trivial⟩

theorem emit {e : Event} (h : ∀ w, I w → I { w with trace := w.trace ++ [e] }) : Safe I (Op.emit e) fun _ => True :=
  fun w hw => ⟨(), _, rfl, h w hw, trivial⟩

end Safe

/-! ### The blueprint -/

theorem Spec.Alike.cell {B c : Ctx} (h : Alike B c) {n r k : Nat} :
    (cell? c n r k).map cellText = (cell? B n r k).map cellText := by
  rw [← cell?_shell, ← cell?_shell]
  simp only [cell?, shell, h.text]

theorem Spec.Alike.operand {B c : Ctx} (h : Alike B c) (n r k i : Nat) : operand? c n r k i = operand? B n r k i := by
  rw [← operand?_shell c, ← operand?_shell B]
  simp only [operand?, cell?, shell, h.text]

theorem Spec.Alike.net {B c : Ctx} (h : Alike B c) {n : Nat} {net : Network} (hn : at? B.network n = some net) :
    ∃ net', at? c.network n = some net' ∧ netText net' = netText net := by
  have e : (at? c.network n).map netText = (at? B.network n).map netText := by
    rw [← at?_map, ← at?_map]
    have := h.text
    unfold program at this
    rw [this]
  rw [hn, Option.map_some, Option.map_eq_some_iff] at e
  exact e

theorem Spec.Alike.has {B c : Ctx} (h : Alike B c) {ℓ : Loc} (hl : Owns B ℓ) : (load c ℓ).isSome := by
  rw [h.places]; exact hl

theorem Spec.Alike.upd {B c : Ctx} (h : Alike B c) (ℓ : Loc) (x : Nat) : Alike B (upd c ℓ x) where
  fits := h.fits.upd _ _
  text := by
    have := congrArg Ctx.network (shell_upd c ℓ x)
    exact Eq.trans this h.text
  places := fun ℓ' => by rw [isSome_load_upd, h.places]
  networks := by rw [← h.networks, shell_qty (shell_upd c ℓ x)]
  millis := by rw [← h.millis, shell_millis (shell_upd c ℓ x)]
  cron := by rw [← h.cron, shell_cron (shell_upd c ℓ x)]
  foreign := by rw [← h.foreign.1, ← h.foreign.2, shell_foreignQty (shell_upd c ℓ x), shell_foreign (shell_upd c ℓ x)]; exact ⟨rfl, rfl⟩

theorem Spec.Flags.upd {c : Ctx} (h : Flags c) {ℓ : Loc} {x : Nat} (hx : isFlag ℓ = true → x ≤ 1) :
    Flags (Ladder.upd c ℓ x) := by
  intro ℓ' y hf hl
  by_cases he : ℓ = ℓ'
  · subst he
    have hs : (load c ℓ).isSome := by rw [← isSome_load_upd (ctx := c) (ℓ := ℓ) (x := x), hl]; rfl
    have hx := hx hf
    rw [load_upd_self c ℓ x hs (by cases ℓ <;> simp [Loc.size, isFlag] at hf ⊢ <;> omega)] at hl
    cases hl
    exact hx
  · rw [load_upd_ne _ _ _ _ he] at hl
    exact h ℓ' y hf hl

/-- During the execution of network `n`. -/
structure Sound (z : Bool) (B : Ctx) (n : Nat) (w : World) : Prop where
  alike : Alike B w.ctx
  flags : Flags w.ctx
  exec : w.ctx.exec = some n
  clean : Clean w.trace
  still : z = true → Unhurt B w.ctx
  silent : z = true → Event.panic ∉ w.trace

theorem Spec.Unhurt.upd {B c : Ctx} (h : Unhurt B c) (ℓ : Loc) (x : Nat) : Unhurt B (upd c ℓ x) :=
  ⟨by have := congrArg Ctx.state (shell_upd c ℓ x); exact (show _ = c.state from this) ▸ h.state,
    (congrArg (·.scan.maxScanCycles) (shell_upd c ℓ x) : _).trans h.limit,
    (congrArg (·.qty.watchdogMs) (shell_upd c ℓ x) : _).trans h.watchdog,
    (congrArg Ctx.delay (shell_upd c ℓ x) : _).trans h.delay⟩

theorem Sound.upd {z : Bool} {B : Ctx} {n : Nat} {w : World} (h : Sound z B n w) {ℓ : Loc} {x : Nat} (hx : isFlag ℓ = true → x ≤ 1) :
    Sound z B n (w.upd ℓ x) :=
  ⟨h.alike.upd _ _, h.flags.upd hx, by rw [← h.exec]; exact shell_exec (shell_upd _ _ _), h.clean, fun e => (h.still e).upd _ _, h.silent⟩

/-- A change of the state or of the error report. -/
theorem Sound.ctx {z : Bool} {B : Ctx} {n : Nat} {w : World} (h : Sound z B n w) (s : St) (l : Last)
    (hs : z = true → s = w.ctx.state) :
    Sound z B n { w with ctx := { w.ctx with state := s, last := l } } :=
  ⟨⟨⟨h.alike.fits.1, h.alike.fits.2, h.alike.fits.3, h.alike.fits.4, h.alike.fits.5, h.alike.fits.6, h.alike.fits.7,
    h.alike.fits.8, h.alike.fits.9, h.alike.fits.10, h.alike.fits.11, h.alike.fits.12, h.alike.fits.13, h.alike.fits.14,
    h.alike.fits.15, h.alike.fits.16, h.alike.fits.17, h.alike.fits.18, h.alike.fits.19⟩,
    h.alike.text, fun ℓ => by rw [← h.alike.places ℓ]; cases ℓ <;> rfl, h.alike.networks, h.alike.millis, h.alike.cron, h.alike.foreign⟩,
    fun ℓ x hf hl => h.flags ℓ x hf (by rw [← hl]; cases ℓ <;> rfl), h.exec, h.clean,
    fun e => ⟨by rw [hs e]; exact (h.still e).state, (h.still e).limit, (h.still e).watchdog, (h.still e).delay⟩, h.silent⟩

namespace Sound

variable {z : Bool} {B : Ctx} {n : Nat}

theorem getState {r c : Nat} (h : Owns B (.cell n r c)) : Safe (Sound z B n) (getState r c) fun _ => True := by
  intro w hw
  obtain ⟨x, hx⟩ := Option.isSome_iff_exists.1 (hw.alike.has h)
  obtain ⟨cell, -, rfl⟩ := load_cell hx
  exact ⟨_, w, getState_ok hw.exec hx, hw, trivial⟩

theorem getLeft {r c : Nat} (h : c = 0 ∨ Owns B (.cell n r (c - 1))) : Safe (Sound z B n) (getLeft r c) fun _ => True := by
  unfold Ladder.getLeft
  exact Safe.ite (fun _ => .pure trivial) fun h0 => getState (h.resolve_left h0)

theorem setState {r c : Nat} (h : Owns B (.cell n r c)) (b : Bool) :
    Safe (Sound z B n) (setState r c b) fun _ => True := by
  intro w hw
  exact ⟨(), _, setState_ok hw.exec (hw.alike.has h), hw.upd (ℓ := .cell n r c) (x := b.toNat) (by simp [isFlag]), trivial⟩

theorem getDataExec {r c i : Nat} {v : Value} (h : operand? B n r c i = some v) :
    Safe (Sound z B n) (getDataExec r c i) (· = v) := by
  intro w hw
  exact ⟨v, w, getDataExec_ok hw.exec (by rw [hw.alike.operand]; exact h), hw, rfl⟩

theorem isFlag_place {v : Value} {ℓ : Loc} (h : place v = some ℓ) : isFlag ℓ = isBoolKind v.type := by
  unfold place at h
  simp only at h
  cases ht : v.type <;> simp only [ht] at h <;> simp_all
  all_goals first
    | (obtain ⟨-, rfl⟩ := h; rfl)
    | (subst h; rfl)

theorem value_some {c : Ctx} {v : Value} {ℓ : Loc} (hfl : Flags c) (hk : v.type ≠ .R) (hp : place v = some ℓ)
    (hl : (load c ℓ).isSome) : ∃ x, value c v = some x := by
  obtain ⟨y, hy⟩ := Option.isSome_iff_exists.1 hl
  have hb := isFlag_place hp
  have : ∃ x, decode v.type y = some x := by
    cases hbk : isBoolKind v.type with
    | true =>
      have := hfl ℓ y (by rw [hb, hbk]) hy
      cases ht : v.type <;> simp_all [isBoolKind, decode]
    | false => cases ht : v.type <;> simp_all [isBoolKind, decode]
  obtain ⟨x, hx⟩ := this
  cases ht : v.type <;> simp_all [value]

theorem getData {env : Env} {r c i : Nat} (h : Readable B n r c i) :
    Safe (Sound z B n) (getData env r c i) fun _ => True := by
  intro w hw
  obtain ⟨v, ho, hk, hv⟩ := h
  have : ∃ x, value w.ctx v = some x := by
    rcases hv with h | h | h | ⟨ℓ, hp, hl⟩
    · exact ⟨v.raw, by simp [value, h]⟩
    · exact ⟨0, by simp [value, h]⟩
    · exact ⟨0, by simp [value, h]⟩
    · exact value_some hw.flags hk hp (hw.alike.has hl)
  obtain ⟨x, hx⟩ := this
  exact ⟨x, w, getData_ok hw.alike.fits hw.exec (by rw [hw.alike.operand]; exact ho) hx, hw, trivial⟩

theorem getPrev {r c i : Nat} (h : Recalled B n r c i) : Safe (Sound z B n) (getPrev r c i) fun _ => True := by
  intro w hw
  obtain ⟨v, ho, hn | ⟨ℓ, hp, hl⟩⟩ := h
  · have ho' : operand? w.ctx n r c i = some v := by rw [hw.alike.operand]; exact ho
    refine ⟨0, w, ?_, hw, trivial⟩
    simp [Ladder.getPrev, operandAt_ok hw.alike.fits hw.exec ho', prevValue, hn]
  obtain ⟨y, hy⟩ := Option.isSome_iff_exists.1 (hw.alike.has hl)
  have : ∃ x, decode v.type y = some x := by
    have hfl := hw.flags ℓ y
    unfold prevPlace at hp
    simp only at hp
    cases ht : v.type <;> simp only [ht] at hp <;> simp_all [decode]
    all_goals
      obtain ⟨-, rfl⟩ := hp
      exact hfl rfl
  obtain ⟨x, hx⟩ := this
  refine ⟨x, w, getPrev_ok hw.alike.fits hw.exec (by rw [hw.alike.operand]; exact ho) ?_, hw, trivial⟩
  simp [prevOf, hp, hy, hx]

/-- The previous value of a timer operand is its accumulator. -/
theorem getPrev_timer {r c : Nat} {v : Value} (ho : operand? B n r c 0 = some v) (ht : v.type = .T)
    (hi : v.raw.toNat < 2^31) (ha : Owns B (.acc v.raw.toNat)) :
    Safe (Sound z B n) (Ladder.getPrev r c 0) fun _ => True := by
  intro w hw
  have ho' : operand? w.ctx n r c 0 = some v := by rw [hw.alike.operand]; exact ho
  obtain ⟨y, hy⟩ := Option.isSome_iff_exists.1 (hw.alike.has ha)
  obtain ⟨t, ht'⟩ := at?_of_map (f := fun t : Timer => t.acc.toNat) hy
  refine ⟨t.acc, w, ?_, hw, trivial⟩
  simp [Ladder.getPrev, operandAt_ok hw.alike.fits hw.exec ho', prevValue, ht, agetI_raw hi, aget_eq_ok.2 ht', Except.map]

theorem setData {flag : Bool} {r c i : Nat} (h : Storable B flag n r c i) {x : W32} (hx : flag = true → x.toNat ≤ 1) :
    Safe (Sound z B n) (setData r c i x) (· = .ok) := by
  intro w hw
  obtain ⟨v, ℓ, ho, hk, hb, hp, hl⟩ := h
  refine ⟨.ok, _, setData_ok hw.alike.fits hw.exec (by rw [hw.alike.operand]; exact ho) hk hp (hw.alike.has hl),
    hw.upd (ℓ := ℓ) (x := x.toNat % ℓ.size) ?_, rfl⟩
  intro hf
  rw [isFlag_place hp] at hf
  cases flag with
  | false => rw [hb rfl] at hf; cases hf
  | true => exact Nat.le_trans (Nat.mod_le _ _) (hx rfl)

/-- A store that is discarded when the destination is none. -/
theorem discard {r c i : Nat} (h : Sink B n r c i) {x : W32} : Safe (Sound z B n) (Ladder.setData r c i x) fun _ => True := by
  intro w hw
  obtain ⟨v, ho, hb⟩ := h
  have ho' : operand? w.ctx n r c i = some v := by rw [hw.alike.operand]; exact ho
  obtain ⟨e, ctx', hx⟩ := writeValue_total hw.alike.fits v x
  have hrun : Ladder.setData r c i x w = .ok (e, { w with ctx := ctx' }) := by
    simp [Ladder.setData, getDataExec_ok hw.exec ho', hx]
  rcases writeValue_cases hx with ⟨-, rfl⟩ | ⟨rfl, hk, ℓ, hp, hl, -⟩
  · exact ⟨e, w, hrun, hw, trivial⟩
  · rw [setData_ok hw.alike.fits hw.exec ho' hk hp hl] at hrun
    exact ⟨_, _, setData_ok hw.alike.fits hw.exec ho' hk hp hl, hw.upd (ℓ := ℓ) (x := x.toNat % ℓ.size)
      (by rw [isFlag_place hp, hb]; simp), trivial⟩

theorem getB {a : BArea} {v : Value} (hi : v.raw.toNat < 2^31) (h : Owns B (a.loc v.raw.toNat)) :
    Safe (Sound z B n) (getB a v.i32) fun _ => True := by
  intro w hw
  obtain ⟨y, hy⟩ := Option.isSome_iff_exists.1 (hw.alike.has h)
  have h1 := hw.flags _ y (by cases a <;> rfl) hy
  have : ∃ b : Bool, y = b.toNat := by
    rcases Nat.le_one_iff_eq_zero_or_eq_one.1 h1 with h | h
    · exact ⟨false, h⟩
    · exact ⟨true, h⟩
  obtain ⟨b, rfl⟩ := this
  exact ⟨b, w, getB_ok hi hy, hw, trivial⟩

theorem setB {a : BArea} {v : Value} (hi : v.raw.toNat < 2^31) (h : Owns B (a.loc v.raw.toNat)) (b : Bool) :
    Safe (Sound z B n) (setB a v.i32 b) fun _ => True := by
  intro w hw
  exact ⟨(), _, setB_ok hi (hw.alike.has h), hw.upd (fun _ => by cases b <;> decide), trivial⟩

theorem getTr {v : Value} (hi : v.raw.toNat < 2^31) (h : Owns B (.Tr v.raw.toNat)) :
    Safe (Sound z B n) (Ladder.getB .Tr v.i32) fun _ => True := getB hi h
theorem setTr {v : Value} (hi : v.raw.toNat < 2^31) (h : Owns B (.Tr v.raw.toNat)) (b : Bool) :
    Safe (Sound z B n) (Ladder.setB .Tr v.i32 b) fun _ => True := setB hi h b
theorem getTd {v : Value} (hi : v.raw.toNat < 2^31) (h : Owns B (.Td v.raw.toNat)) :
    Safe (Sound z B n) (Ladder.getB .Td v.i32) fun _ => True := getB hi h
theorem setTd {v : Value} (hi : v.raw.toNat < 2^31) (h : Owns B (.Td v.raw.toNat)) (b : Bool) :
    Safe (Sound z B n) (Ladder.setB .Td v.i32 b) fun _ => True := setB hi h b
theorem getCr {v : Value} (hi : v.raw.toNat < 2^31) (h : Owns B (.Cr v.raw.toNat)) :
    Safe (Sound z B n) (Ladder.getB .Cr v.i32) fun _ => True := getB hi h
theorem setCr {v : Value} (hi : v.raw.toNat < 2^31) (h : Owns B (.Cr v.raw.toNat)) (b : Bool) :
    Safe (Sound z B n) (Ladder.setB .Cr v.i32 b) fun _ => True := setB hi h b
theorem getCd {v : Value} (hi : v.raw.toNat < 2^31) (h : Owns B (.Cd v.raw.toNat)) :
    Safe (Sound z B n) (Ladder.getB .Cd v.i32) fun _ => True := getB hi h
theorem setCd {v : Value} (hi : v.raw.toNat < 2^31) (h : Owns B (.Cd v.raw.toNat)) (b : Bool) :
    Safe (Sound z B n) (Ladder.setB .Cd v.i32 b) fun _ => True := setB hi h b

theorem has_stamp {w : World} (hw : Sound z B n w) {i : Nat} (h : Owns B (.acc i)) :
    (load w.ctx (.acc i)).isSome ∧ (load w.ctx (.stamp i)).isSome := by
  have := hw.alike.has h
  refine ⟨this, ?_⟩
  simpa [load] using this

theorem getTimer {v : Value} (hi : v.raw.toNat < 2^31) (h : Owns B (.acc v.raw.toNat)) :
    Safe (Sound z B n) (getTimer v.i32) fun _ => True := by
  intro w hw
  obtain ⟨h1, h2⟩ := has_stamp hw h
  obtain ⟨a, ha⟩ := Option.isSome_iff_exists.1 h1
  obtain ⟨s, hs⟩ := Option.isSome_iff_exists.1 h2
  exact ⟨_, w, getTimer_ok hi ha hs, hw, trivial⟩

theorem setAcc {v : Value} (hi : v.raw.toNat < 2^31) (h : Owns B (.acc v.raw.toNat)) (x : W32) :
    Safe (Sound z B n) (setAcc v.i32 x) fun _ => True := by
  intro w hw
  exact ⟨(), _, setAcc_ok hi (has_stamp hw h).1, hw.upd (by simp [isFlag]), trivial⟩

theorem setStamp {v : Value} (hi : v.raw.toNat < 2^31) (h : Owns B (.acc v.raw.toNat)) (x : W64) :
    Safe (Sound z B n) (setStamp v.i32 x) fun _ => True := by
  intro w hw
  exact ⟨(), _, setStamp_ok hi (has_stamp hw h).2, hw.upd (by simp [isFlag]), trivial⟩

theorem getC {v : Value} (hi : v.raw.toNat < 2^31) (h : Owns B (.C v.raw.toNat)) :
    Safe (Sound z B n) (getC v.i32) fun _ => True := by
  intro w hw
  obtain ⟨a, ha⟩ := Option.isSome_iff_exists.1 (hw.alike.has h)
  exact ⟨_, w, getC_ok hi ha, hw, trivial⟩

theorem setC {v : Value} (hi : v.raw.toNat < 2^31) (h : Owns B (.C v.raw.toNat)) (x : W32) :
    Safe (Sound z B n) (setC v.i32 x) fun _ => True := by
  intro w hw
  exact ⟨(), _, setC_ok hi (hw.alike.has h), hw.upd (by simp [isFlag]), trivial⟩

theorem callMillis {env : Env} (h : B.millis = true) : Safe (Sound z B n) (callMillis env) fun _ => True := by
  intro w hw
  have : w.ctx.millis = true := by rw [hw.alike.millis]; exact h
  refine ⟨env.clock w.tick, { w with tick := w.tick + 1 }, ?_, ⟨hw.alike, hw.flags, hw.exec, hw.clean, hw.still, hw.silent⟩, trivial⟩
  unfold Ladder.callMillis
  rw [if_pos this]

end Sound

/-! ### Arithmetic with constants -/

theorem toInt_ne {a b : W32} (h : a ≠ b) : a.toInt ≠ b.toInt := fun e => h (BitVec.eq_of_toInt_eq e)

theorem tdiv_fits (a : W32) {b : W32} (h : b ≠ -1) : fitsI32 (a.toInt.tdiv b.toInt) = true := by
  have ha := BitVec.toInt_lt (x := a)
  have ha' := BitVec.le_toInt (x := a)
  have hb : b.toInt ≠ -1 := toInt_ne (b := (-1 : W32)) h
  simp only [fitsI32, decide_eq_true_eq]
  have hn : (a.toInt.tdiv b.toInt).natAbs = a.toInt.natAbs / b.toInt.natAbs := Int.natAbs_tdiv ..
  simp only [Nat.reduceSub, Int.reducePow] at ha ha'
  rcases (show b.toInt = 0 ∨ b.toInt = 1 ∨ 2 ≤ b.toInt.natAbs by omega) with h0 | h0 | h0
  · rw [h0, Int.tdiv_zero]; omega
  · rw [h0, Int.tdiv_one]; omega
  · have : a.toInt.natAbs / b.toInt.natAbs ≤ a.toInt.natAbs / 2 := Nat.div_le_div_left h0 (by decide)
    omega

theorem cDiv_ok (a : W32) {b : W32} (h0 : b ≠ 0) (h : b ≠ -1) : ∃ x, cDiv a b = .ok x := by
  unfold cDiv signed32
  rw [if_neg (show b.toInt ≠ 0 from toInt_ne h0), if_pos (tdiv_fits a h)]
  exact ⟨_, rfl⟩

theorem cMod_ok (a : W32) {b : W32} (h0 : b ≠ 0) (h : b ≠ -1) : ∃ x, cMod a b = .ok x := by
  unfold cMod
  rw [if_neg (show b.toInt ≠ 0 from toInt_ne h0), if_pos (tdiv_fits a h)]
  exact ⟨_, rfl⟩

/-! ### Instructions -/

open Sound in
/-- Decompose a sequence of safe operations. -/
local macro "safe" : tactic => `(tactic| repeat' first
  | assumption
  | with_reducible exact Safe.pure rfl
  | with_reducible exact Safe.pure trivial
  | with_reducible exact Sound.getLeft (by assumption)
  | with_reducible exact Sound.setState (by assumption) _
  | with_reducible exact Sound.getPrev (by assumption)
  | with_reducible exact Sound.getData (by assumption)
  | with_reducible exact Sound.setAcc (by assumption) (by assumption) _
  | with_reducible exact Sound.setStamp (by assumption) (by assumption) _
  | with_reducible exact Sound.setC (by assumption) (by assumption) _
  | with_reducible exact Sound.setTr (by assumption) (by assumption) _
  | with_reducible exact Sound.setTd (by assumption) (by assumption) _
  | with_reducible exact Sound.setCr (by assumption) (by assumption) _
  | with_reducible exact Sound.setCd (by assumption) (by assumption) _
  | with_reducible exact Sound.getTr (by assumption) (by assumption)
  | with_reducible exact Sound.getTd (by assumption) (by assumption)
  | with_reducible exact Sound.getCr (by assumption) (by assumption)
  | with_reducible exact Sound.getCd (by assumption) (by assumption)
  | with_reducible exact Sound.getTimer (by assumption) (by assumption)
  | with_reducible exact Sound.getC (by assumption) (by assumption)
  | with_reducible exact Sound.callMillis (by assumption)
  | with_reducible exact Sound.getState (by assumption)
  | with_reducible exact Safe.lift (by assumption) trivial
  | (with_reducible refine Safe.bind (Sound.getDataExec (by assumption)) fun _ hq => ?_; subst hq)
  | refine Safe.bind (Q := fun _ => True) ?_ fun _ _ => ?_
  | refine Safe.ite (fun _ => ?_) fun _ => ?_)

namespace Sound

variable {z : Bool} {B : Ctx} {n : Nat}

section ins

variable {env : Env} {r c : Nat} (hc : Owns B (.cell n r c)) (hl : c = 0 ∨ Owns B (.cell n r (c - 1)))

include hc hl

theorem fnNO (h : Readable B n r c 0) : Safe (Sound z B n) (fnNO env r c) (· = .ok) := by unfold Ladder.fnNO; safe

theorem fnNC (h : Readable B n r c 0) : Safe (Sound z B n) (fnNC env r c) (· = .ok) := by unfold Ladder.fnNC; safe

theorem fnRE (h : Readable B n r c 0) (hp : Recalled B n r c 0) : Safe (Sound z B n) (fnRE env r c) (· = .ok) := by
  unfold Ladder.fnRE; safe

theorem fnFE (h : Readable B n r c 0) (hp : Recalled B n r c 0) : Safe (Sound z B n) (fnFE env r c) (· = .ok) := by
  unfold Ladder.fnFE; safe

theorem fnCONN : Safe (Sound z B n) (fnCONN r c) (· = .ok) := by unfold Ladder.fnCONN; safe

theorem fnNEG : Safe (Sound z B n) (fnNEG r c) (· = .ok) := by unfold Ladder.fnNEG; safe

theorem fnCOIL (h : Storable B true n r c 0) : Safe (Sound z B n) (fnCOIL r c) (· = .ok) :=
  (getLeft hl).bind fun _ _ => (setState hc _).bind fun _ _ => (getState hc).bind fun s _ =>
    (setData h (by intro _; cases s <;> decide)).bind fun _ _ => .pure rfl

theorem fnCOILL (h : Storable B true n r c 0) (hp : Recalled B n r c 0) : Safe (Sound z B n) (fnCOILL r c) (· = .ok) :=
  (getLeft hl).bind fun s _ => (getPrev hp).bind fun p _ => (setState hc _).bind fun _ _ =>
    (setData h (by intro _; split <;> decide)).bind fun _ _ => .pure rfl

theorem fnCOILU (h : Storable B true n r c 0) (hp : Recalled B n r c 0) : Safe (Sound z B n) (fnCOILU r c) (· = .ok) :=
  (getLeft hl).bind fun s _ => (getPrev hp).bind fun p _ => (setState hc _).bind fun _ _ =>
    (setData h (by intro _; split <;> decide)).bind fun _ _ => .pure rfl

theorem cmpop {p : Int → Int → Bool} (h0 : Readable B n r c 0) (h1 : Readable B n r c 1) :
    Safe (Sound z B n) (cmpop env p r c) (· = .ok) := by unfold Ladder.cmpop; safe

theorem binop {f : W32 → W32 → Except UB W32} (hf : ∀ a b, ∃ x, f a b = .ok x) (h0 : Readable B n r c 0)
    (h1 : Readable B n r c 1) (h2 : Sink B n r c 2) : Safe (Sound z B n) (binop env f r c) (· = .ok) := by
  refine (getLeft hl).bind fun _ _ => (setState hc _).bind fun _ _ => (getLeft hl).bind fun _ _ => Safe.ite (fun _ => ?_)
    fun _ => .pure rfl
  refine (getData h0).bind fun a _ => (getData h1).bind fun b _ => ?_
  obtain ⟨x, hx⟩ := hf a b
  exact (Safe.lift (Q := fun _ => True) hx trivial).bind fun _ _ => (discard h2).bind fun _ _ => .pure rfl

theorem fnNOT (h0 : Readable B n r c 0) (h1 : Sink B n r c 1) : Safe (Sound z B n) (fnNOT env r c) (· = .ok) :=
  (getLeft hl).bind fun _ _ => (setState hc _).bind fun _ _ => (getLeft hl).bind fun _ _ => Safe.ite (fun _ =>
    (getData h0).bind fun a _ => (discard h1).bind fun _ _ => .pure rfl) fun _ => .pure rfl

theorem shiftop {f : W32 → Nat → Except UB W32} (hf : ∀ a b, ∃ x, f a (shiftAmount b) = .ok x) (h0 : Readable B n r c 0)
    (h1 : Readable B n r c 1) (h2 : Storable B false n r c 0) : Safe (Sound z B n) (shiftop env f r c) (· = .ok) := by
  refine (getData h0).bind fun a _ => (getData h1).bind fun b _ => ?_
  obtain ⟨x, hx⟩ := hf a b
  exact (Safe.lift (Q := fun _ => True) hx trivial).bind fun _ _ => (setData h2 (by simp)).bind fun _ he =>
    (getLeft hl).bind fun _ _ => (setState hc _).bind fun _ _ => .pure he

omit hc hl in
theorem getConstant {p : W32 → Prop} {i : Nat} (h : Constant B n r c i p) : Safe (Sound z B n) (Ladder.getData env r c i) p := by
  intro w hw
  obtain ⟨v, ho, hk, hv⟩ := h
  exact ⟨v.raw, w, getData_ok hw.alike.fits hw.exec (by rw [hw.alike.operand]; exact ho) (by simp [value, hk]), hw, hv⟩

theorem rotate {f : W32 → Nat → Except UB W32} (hf : ∀ a b, b.toNat % 32 ≠ 0 → ∃ x, f a (shiftAmount b) = .ok x)
    (h0 : Readable B n r c 0) (h1 : Constant B n r c 1 (fun x => x.toNat % 32 ≠ 0)) (h2 : Storable B false n r c 0) :
    Safe (Sound z B n) (Ladder.shiftop env f r c) (· = .ok) := by
  refine (getData h0).bind fun a _ => (getConstant h1).bind fun b hb => ?_
  obtain ⟨x, hx⟩ := hf a b hb
  exact (Safe.lift (Q := fun _ => True) hx trivial).bind fun _ _ => (setData h2 (by simp)).bind fun _ he =>
    (getLeft hl).bind fun _ _ => (setState hc _).bind fun _ _ => .pure he

theorem fnMOD (h0 : Readable B n r c 0) (h1 : Constant B n r c 1 (fun x => x ≠ 0 ∧ x ≠ -1)) (h2 : Sink B n r c 2) :
    Safe (Sound z B n) (Ladder.fnMOD env r c) (· = .ok) := by
  refine (getLeft hl).bind fun _ _ => (setState hc _).bind fun _ _ => (getLeft hl).bind fun _ _ => Safe.ite (fun _ => ?_)
    fun _ => .pure rfl
  refine (getData h0).bind fun a _ => (getConstant h1).bind fun b hb => ?_
  obtain ⟨x, hx⟩ := cMod_ok a hb.1 hb.2
  exact (Safe.lift (Q := fun _ => True) hx trivial).bind fun _ _ => (discard h2).bind fun _ _ => .pure rfl

theorem fnDIV (h0 : Readable B n r c 0) (h1 : Constant B n r c 1 (· ≠ -1)) (h2 : Sink B n r c 2) :
    Safe (Sound z B n) (Ladder.fnDIV env r c) (· = .ok) := by
  refine (getLeft hl).bind fun _ _ => (setState hc _).bind fun _ _ => (getLeft hl).bind fun _ _ => Safe.ite (fun _ => ?_)
    fun _ => .pure rfl
  refine (getConstant h1).bind fun b hb => Safe.ite (fun _ => (discard h2).bind fun _ _ => .pure rfl) fun h => ?_
  refine (getData h0).bind fun a _ => ?_
  obtain ⟨x, hx⟩ := cDiv_ok a h hb
  exact (Safe.lift (Q := fun _ => True) hx trivial).bind fun _ _ => (discard h2).bind fun _ _ => .pure rfl

theorem moveStore (h : Storable B false n r c 1) {x : W32} : Safe (Sound z B n) (Ladder.moveStore r c x) (· = .ok) := by
  refine (setData h (by simp)).bind fun e he => (getLeft hl).bind fun _ _ => (setState hc _).bind fun _ _ => .pure ?_
  rw [if_pos he]

theorem fnMOVE (h : MoveWell B n r c) : Safe (Sound z B n) (Ladder.fnMOVE env r c) (· = .ok) := by
  obtain ⟨s, d, ℓ, ℓ', hs, hd, hp, ho, hp', ho', hk⟩ := h
  have hst : Storable B false n r c 1 := by
    refine ⟨d, ℓ', hd, ?_, fun _ => ?_, hp', ho'⟩ <;>
      (rcases hk with ⟨-, hk⟩ | ⟨-, hk⟩ <;> cases hd : d.type <;> simp_all [integral, writableKind, isBoolKind])
  intro w hw
  have hs' : operand? w.ctx n r c 0 = some s := by rw [hw.alike.operand]; exact hs
  have hd' : operand? w.ctx n r c 1 = some d := by rw [hw.alike.operand]; exact hd
  simp only [operand?, Option.bind_eq_some_iff] at hs' hd'
  obtain ⟨x, hx, hs'⟩ := hs'
  obtain ⟨x', hx', hd'⟩ := hd'
  rw [hx] at hx'
  obtain rfl := Option.some.inj hx'
  split at hs'
  case isFalse => cases hs'
  split at hd'
  case isFalse => cases hd'
  rename_i hq
  have hnn : ¬ (x.data.isNone = true ∨ x.dataQty < 2) := by
    intro h
    rcases h with h | h
    · cases hx : x.data with
      | none => rw [hx] at hs'; cases hs'
      | some l => rw [hx] at h; cases h
    · omega
  unfold Ladder.fnMOVE
  rw [bind_getCtx, bind_ok (lift_eq_ok.2 ⟨execCell_ok hw.exec hx, rfl⟩), if_neg hnn,
    bind_ok (lift_eq_ok.2 ⟨aget_eq_ok.2 hs', rfl⟩), bind_ok (lift_eq_ok.2 ⟨aget_eq_ok.2 hd', rfl⟩)]
  rcases hk with ⟨hk, hk'⟩ | ⟨hk, hk'⟩
  · have hi : isIntReg d.type = true := by cases h : d.type <;> simp_all [integral, isIntReg]
    have hread : Readable B n r c 0 := ⟨s, hs, by rintro e; simp [e, integral] at hk, .inr (.inr (.inr ⟨ℓ, hp, ho⟩))⟩
    have hrun : Safe (Sound z B n) (Ladder.getData env r c 0 >>= fun x =>
        if isIntReg d.type then Ladder.moveStore r c x else Pure.pure .typeMismatch) (· = .ok) :=
      (getData hread).bind fun y _ => by rw [if_pos hi]; exact moveStore hc hl hst
    cases h : s.type <;> simp [h, integral] at hk <;> exact hrun w hw
  · rw [hk]
    dsimp only
    simp only [place, hk] at hp
    split at hp
    case isFalse => cases hp
    cases hp
    have := hw.alike.has ho
    simp only [load, Option.isSome_map] at this
    obtain ⟨y, hy⟩ := Option.isSome_iff_exists.1 this
    have hlt := lt_of_at? hw.alike.fits.R hy
    rw [if_neg (by omega), bind_ok (lift_eq_ok.2 ⟨aget_eq_ok.2 hy, rfl⟩), if_pos hk']
    exact moveStore hc hl hst w hw

theorem fnFOREIGN (hk : Calls z B env) (h : CallWell B n r c) : Safe (Sound z B n) (Ladder.fnFOREIGN env r c) (· = .ok) := by
  unfold Ladder.fnFOREIGN
  refine (getConstant h).bind fun x hx => ?_
  have hid : ∀ y : W32, y.toNat < 2 → toInteger y = y := by
    intro y hy
    have : y = 0 ∨ y = 1 := by
      rcases (show y.toNat = 0 ∨ y.toNat = 1 by omega) with h | h
      · left; exact BitVec.eq_of_toNat_eq h
      · right; exact BitVec.eq_of_toNat_eq h
    rcases this with rfl | rfl <;> rfl
  refine Safe.getCtx fun w hw => ?_
  rw [hid x hx.1, hw.alike.foreign.1, if_neg (by omega)]
  refine ((getConstant h).bind fun y hy => ?_) w hw
  rw [hid y hy.1]
  intro w hw
  obtain ⟨f, hf⟩ := Option.isSome_iff_exists.1 hy.2.2
  obtain ⟨hm, he⟩ := hk.foreign n y.toNat c r hc hl
  obtain ⟨h1, h2, h3, h4⟩ := hm w.tick w.ctx hw.alike hw.flags hw.still hw.exec
  refine ⟨(env.foreign w.tick y.toNat c r w.ctx).1, ⟨(env.foreign w.tick y.toNat c r w.ctx).2, w.tick + 1,
    w.trace ++ [.foreign y.toNat c r]⟩, ?_, ⟨h1, h2, h3.trans hw.exec, ?_, h4, fun e => ?_⟩, he w.tick w.ctx hw.alike hw.flags hw.still hw.exec⟩
  · unfold callForeign
    rw [hw.alike.foreign.2, aget_eq_ok.2 hf]
  · intro a b c' e hmem
    rcases List.mem_append.1 hmem with hm | hm
    · exact hw.clean _ _ _ _ hm
    · cases List.mem_singleton.1 hm
  · simpa using hw.silent e

end ins

section timer

variable {env : Env} {r c : Nat} {v p : Value} (hi : v.raw.toNat < 2^31)
  (ha : Owns B (.acc v.raw.toNat)) (hr : Owns B (.Tr v.raw.toNat)) (hd : Owns B (.Td v.raw.toNat))
  (hp : operand? B n r c 1 = some p) (hb : p.type.code ≤ 4) (hm : B.millis = true)

theorem factor_ok {k : Reg} (h : k.code ≤ 4) : ∃ f, basetimeFactor k = .ok f := by
  cases k <;> simp [Reg.code] at h <;> exact ⟨_, rfl⟩

include hi ha hr hp hb hm

theorem timerRun : Safe (Sound z B n) (timerRun env r c v.i32) fun _ => True := by
  obtain ⟨f, hf⟩ := factor_ok hb
  unfold Ladder.timerRun
  safe

include hd

theorem timerDone : Safe (Sound z B n) (timerDone env r c v.i32) fun _ => True := by
  obtain ⟨f, hf⟩ := factor_ok hb
  unfold Ladder.timerDone
  safe

end timer

section timers

variable {env : Env} {r c : Nat} (hc : Owns B (.cell n r c)) (hl : c = 0 ∨ Owns B (.cell n r (c - 1)))

include hc hl

theorem fnTON (h : TimerWell B n r c) : Safe (Sound z B n) (fnTON env r c) (· = .ok) := by
  obtain ⟨⟨v, ho, -, hi, ha, hr, hd⟩, ⟨p, hp, hb⟩, hbl, hm⟩ := h
  have h1 := timerRun (z := z) (env := env) hi ha hr hp hb hm
  have h2 := timerDone (z := z) (env := env) hi ha hr hd hp hb hm
  unfold Ladder.fnTON
  safe

theorem fnTOF (h : TimerWell B n r c) : Safe (Sound z B n) (fnTOF env r c) (· = .ok) := by
  obtain ⟨⟨v, ho, -, hi, ha, hr, hd⟩, ⟨p, hp, hb⟩, hbl, hm⟩ := h
  have h1 := timerRun (z := z) (env := env) hi ha hr hp hb hm
  have h2 := timerDone (z := z) (env := env) hi ha hr hd hp hb hm
  unfold Ladder.fnTOF
  safe

theorem fnTP (h : TimerWell B n r c) : Safe (Sound z B n) (fnTP env r c) (· = .ok) := by
  obtain ⟨⟨v, ho, ht, hi, ha, hr, hd⟩, ⟨p, hp, hb⟩, hbl, hm⟩ := h
  have h1 := timerRun (z := z) (env := env) hi ha hr hp hb hm
  have h2 := timerDone (z := z) (env := env) hi ha hr hd hp hb hm
  have h3 := getPrev_timer (z := z) ho ht hi ha
  unfold Ladder.fnTP
  safe

end timers

section counters

variable {r c : Nat} (hc : Owns B (.cell n r c)) (hl : c = 0 ∨ Owns B (.cell n r (c - 1)))

theorem ctReset (hb : c = 0 ∨ Owns B (.cell n (r + 1) (c - 1))) : Safe (Sound z B n) (ctReset r c) fun _ => True := by
  unfold Ladder.ctReset
  exact Safe.ite (fun _ => Safe.getCtx fun w hw => ⟨_, w, rfl, hw, trivial⟩) fun _ => getLeft hb

include hc

theorem ctDoReset {v : Value} {x : W32} (hi : v.raw.toNat < 2^31) (h1 : Owns B (.C v.raw.toNat)) (h2 : Owns B (.Cr v.raw.toNat))
    (h3 : Owns B (.Cd v.raw.toNat)) (hb : Owns B (.cell n (r + 1) c)) :
    Safe (Sound z B n) (ctDoReset r c v.i32 x) fun _ => True := by unfold Ladder.ctDoReset; safe

omit hc

include hl

theorem ctCount {v : Value} {f : W32 → W32} (hi : v.raw.toNat < 2^31) (h1 : Owns B (.C v.raw.toNat))
    (h2 : Owns B (.Cr v.raw.toNat)) (h3 : Owns B (.Cd v.raw.toNat)) (hb : Owns B (.cell n (r + 1) c)) :
    Safe (Sound z B n) (ctCount r c v.i32 f) fun _ => True := by unfold Ladder.ctCount; safe

include hc

theorem fnCTU (h : CounterWell B n r c) : Safe (Sound z B n) (fnCTU r c) (· = .ok) := by
  obtain ⟨⟨v, ho, hi, h1, h2, h3⟩, ⟨p, hp⟩, hb, hb'⟩ := h
  have e1 := ctReset (z := z) (n := n) hb'
  have e2 := fun x => ctDoReset (z := z) (x := x) hc hi h1 h2 h3 hb
  have e3 := fun f => ctCount (z := z) (f := f) hl hi h1 h2 h3 hb
  unfold Ladder.fnCTU
  refine e1.bind fun _ _ => (getDataExec ho).bind fun _ hq => ?_
  subst hq
  refine Safe.ite (fun _ => (e2 _).bind fun _ _ => ?_) fun _ => ?_ <;> refine (e3 _).bind fun _ _ => ?_ <;> safe

theorem fnCTD (h : CounterWell B n r c) : Safe (Sound z B n) (fnCTD r c) (· = .ok) := by
  obtain ⟨⟨v, ho, hi, h1, h2, h3⟩, ⟨p, hp⟩, hb, hb'⟩ := h
  have e1 := ctReset (z := z) (n := n) hb'
  have e2 := fun x => ctDoReset (z := z) (x := x) hc hi h1 h2 h3 hb
  have e3 := fun f => ctCount (z := z) (f := f) hl hi h1 h2 h3 hb
  unfold Ladder.fnCTD
  refine e1.bind fun _ _ => (getDataExec ho).bind fun _ hq => ?_
  subst hq
  refine Safe.ite (fun _ => (getDataExec hp).bind fun _ _ => (e2 _).bind fun _ _ => ?_) fun _ => ?_ <;>
    refine (e3 _).bind fun _ _ => ?_ <;> safe

end counters

theorem shiftAmount_lt (a : W32) : shiftAmount a < 32 := by
  unfold shiftAmount
  have h1 := Int.tmod_lt_of_pos a.toInt (show (0 : Int) < 32 by decide)
  have h2 : -32 < a.toInt.tmod 32 := by
    have := Int.lt_tmod_of_pos a.toInt (show (0 : Int) < 32 by decide)
    omega
  simp only
  split <;> omega

theorem shiftAmount_pos {a : W32} (h : a.toNat % 32 ≠ 0) : 0 < shiftAmount a := by
  unfold shiftAmount
  have h1 := Int.tmod_lt_of_pos a.toInt (show (0 : Int) < 32 by decide)
  have h2 : -32 < a.toInt.tmod 32 := by
    have := Int.lt_tmod_of_pos a.toInt (show (0 : Int) < 32 by decide)
    omega
  have h3 : a.toInt.tmod 32 ≠ 0 := by
    intro e
    have := Int.dvd_of_tmod_eq_zero e
    rw [BitVec.toInt_eq_toNat_cond] at this
    split at this <;> omega
  simp only
  split <;> omega

theorem rol_ok (x : W32) {b : W32} (h : b.toNat % 32 ≠ 0) : ∃ y, (do
    let a ← cShl x (shiftAmount b)
    let b ← cShr x (32 - shiftAmount b)
    .ok (a ||| b) : Except UB W32) = .ok y := by
  have h1 := shiftAmount_lt b
  have h2 := shiftAmount_pos h
  unfold cShl cShr
  rw [if_pos h1, if_pos (by omega)]
  exact ⟨_, rfl⟩

theorem ror_ok (x : W32) {b : W32} (h : b.toNat % 32 ≠ 0) : ∃ y, (do
    let a ← cShr x (shiftAmount b)
    let b ← cShl x (32 - shiftAmount b)
    .ok (a ||| b) : Except UB W32) = .ok y := by
  have h1 := shiftAmount_lt b
  have h2 := shiftAmount_pos h
  unfold cShl cShr
  rw [if_pos h1, if_pos (by omega)]
  exact ⟨_, rfl⟩

/-- A well-formed cell executes without undefined behaviour and reports no error. -/
theorem execIns {env : Env} (hk : Calls z B env) {r c : Nat} {code : Ins} (hc : Owns B (.cell n r c))
    (hl : c = 0 ∨ Owns B (.cell n r (c - 1))) (h : WellCell B n r c code) (hm : code ≠ .MULTI) :
    Safe (Sound z B n) (execIns env code r c) (· = .ok) := by
  cases code <;> simp only [WellCell] at h <;> unfold Ladder.execIns
  case NOP => exact .pure rfl
  case CONN => exact fnCONN hc hl
  case NEG => exact fnNEG hc hl
  case NO => exact fnNO hc hl h
  case NC => exact fnNC hc hl h
  case RE => exact fnRE hc hl h.1 h.2
  case FE => exact fnFE hc hl h.1 h.2
  case COIL => exact fnCOIL hc hl h
  case COILL => exact fnCOILL hc hl h.1 h.2
  case COILU => exact fnCOILU hc hl h.1 h.2
  case TON => exact fnTON hc hl h
  case TOF => exact fnTOF hc hl h
  case TP => exact fnTP hc hl h
  case CTU => exact fnCTU hc hl h
  case CTD => exact fnCTD hc hl h
  case AND => exact binop hc hl (fun a b => ⟨_, rfl⟩) h.1 h.2.1 h.2.2
  case OR => exact binop hc hl (fun a b => ⟨_, rfl⟩) h.1 h.2.1 h.2.2
  case XOR => exact binop hc hl (fun a b => ⟨_, rfl⟩) h.1 h.2.1 h.2.2
  case NOT => exact fnNOT hc hl h.1 h.2
  case SHL =>
    exact shiftop hc hl (fun a b => ⟨_, by unfold cShl; rw [if_pos (shiftAmount_lt b)]⟩) h.1 h.2.1 h.2.2
  case SHR =>
    exact shiftop hc hl (fun a b => ⟨_, by unfold cShr; rw [if_pos (shiftAmount_lt b)]⟩) h.1 h.2.1 h.2.2
  case MULTI => exact absurd rfl hm
  case ROL => exact rotate hc hl (fun a b hb => rol_ok a hb) h.1 h.2.1 h.2.2
  case ROR => exact rotate hc hl (fun a b hb => ror_ok a hb) h.1 h.2.1 h.2.2
  case DIV => exact fnDIV hc hl h.1 h.2.1 h.2.2
  case MOD => exact fnMOD hc hl h.1 h.2.1 h.2.2
  case MOVE => exact fnMOVE hc hl h
  case FOREIGN => exact fnFOREIGN hc hl hk h
  all_goals exact cmpop hc hl h.1 h.2

end Sound

end Ladder
