import Verif.Lemmas.Safe
import Verif.Props.CronJobs
import Verif.Spec.Demo

/-
C32: a well-formed logic program never faults.
-/

set_option autoImplicit false

namespace Ladder

open Spec Op

namespace Sound

variable {z : Bool} {B : Ctx} {n : Nat} {env : Env}

/-! ### Callbacks -/

theorem append {w : World} (h : Sound z B n w) {e : Event} (he : ∀ a b c r, e = .ret a b c r → r = .ok)
    (hp : z = true → e ≠ .panic) : Sound z B n { w with trace := w.trace ++ [e] } :=
  ⟨h.alike, h.flags, h.exec, fun a b c r hm => by
    rcases List.mem_append.1 hm with hm | hm
    · exact h.clean _ _ _ _ hm
    · exact he _ _ _ _ (List.mem_singleton.1 hm).symm, h.still, fun hz hm => by
    rcases List.mem_append.1 hm with hm | hm
    · exact h.silent hz hm
    · exact hp hz (List.mem_singleton.1 hm).symm⟩

theorem external {f : Nat → Ctx → Ctx} {e : Ctx → Event} (hf : Gentle z B (fun _ => True) f)
    (he : ∀ x a b c r, e x = .ret a b c r → r = .ok) (hp : z = true → ∀ x, e x ≠ .panic) :
    Safe (Sound z B n) (external e f) fun _ => True := by
  intro w hw
  obtain ⟨h1, h2, h3, h4⟩ := hf w.tick w.ctx hw.alike hw.flags hw.still trivial
  have := hw.append (he w.ctx) fun hz => hp hz w.ctx
  exact ⟨(), _, external_apply _ _ _, ⟨h1, h2, h3.trans hw.exec, this.clean, h4, this.silent⟩, trivial⟩

theorem callPanic (hk : Calls z B env) (hz : z = false) : Safe (Sound z B n) (callPanic env) fun _ => True := by
  intro w hw
  unfold Ladder.callPanic
  split
  · exact external (hk.panic hz) (by simp) (by simp [hz]) w hw
  · exact ⟨(), w, rfl, hw, trivial⟩

theorem callInstruction (hk : Calls z B env) : Safe (Sound z B n) (callInstruction env) fun _ => True := by
  intro w hw
  unfold Ladder.callInstruction
  split
  · exact external hk.instruction (by simp) (by simp) w hw
  · exact ⟨(), w, rfl, hw, trivial⟩

theorem callScanEnd (hk : Calls z B env) : Safe (Sound z B n) (callScanEnd env) fun _ => True := by
  intro w hw
  unfold Ladder.callScanEnd
  split
  · exact external hk.scanEnd (by simp) (by simp) w hw
  · exact ⟨(), w, rfl, hw, trivial⟩

theorem watch (hk : Calls z B env) {cnt : Nat} (hb : z = true → 5 * cnt ≤ 4 * B.scan.maxScanCycles) :
    Safe (Sound z B n) (watch env cnt) fun _ => True := by
  unfold Ladder.watch
  have h2 : Safe (Sound z B n) (do
      let ctx ← getCtx
      if ctx.scan.maxScanCycles < cnt then do
        modCtx fun ctx => { ctx with state := .error, last := { ctx.last with err := .overflow } }
        Ladder.callPanic env
        pure true
      else pure false) fun _ => True := by
    refine Safe.getCtx fun w hw => ?_
    split
    · rename_i hlt
      have hz : z = false := by
        cases z with
        | false => rfl
        | true => have := hb rfl; have := (hw.still rfl).limit; omega
      exact ((Safe.modCtx fun w hw => hw.ctx _ _ (by simp [hz])).bind fun _ _ => (callPanic hk hz).bind fun _ _ =>
        Safe.pure (Q := fun _ => True) trivial) w hw
    · exact ⟨_, w, rfl, hw, trivial⟩
  refine Safe.getCtx fun w hw => ?_
  split
  · rename_i hlt
    have hz : z = false := by
      cases z with
      | false => rfl
      | true => have := hb rfl; have := (hw.still rfl).limit; omega
    exact ((callPanic hk hz).bind fun _ _ => h2) w hw
  · exact h2 w hw

/-! ### The grid -/

section net

variable {net : Network} (hn : at? B.network n = some net) (hw : WellNet B n net)

include hw in
theorem owns {r c : Nat} (hr : r < net.rows) (hc : c < net.cols) : Owns B (.cell n r c) := by
  obtain ⟨cell, h, -⟩ := hw.cells r c hr hc
  simp [Owns, load, h]

include hw in
theorem left {r c : Nat} (hr : r < net.rows) (hc : c < net.cols) : c = 0 ∨ Owns B (.cell n r (c - 1)) :=
  .inr (owns hw hr (by omega))

include hw in
theorem curCell {r c : Nat} (hr : r < net.rows) (hc : c < net.cols) :
    Safe (Sound z B n) (curCell r c) fun cell => WellCell B n r c cell.code := by
  intro w h
  obtain ⟨cell, h1, h2⟩ := hw.cells r c hr hc
  have e := h.alike.cell (n := n) (r := r) (k := c)
  rw [h1, Option.map_some, Option.map_eq_some_iff] at e
  obtain ⟨cell', h3, e⟩ := e
  refine ⟨cell', w, ?_, h, ?_⟩
  · unfold Ladder.curCell
    rw [bind_ok (getCtx_apply w), execCell_ok h.exec h3]
    rfl
  · have e : cell'.code = cell.code := (congrArg Cell.code e :)
    simp only [e]
    exact h2

/-- A grid of the size of `net`. -/
def Shape (net net' : Network) : Prop := net'.rows = net.rows ∧ net'.cols = net.cols ∧
  ∀ r c, r < net.rows → c < net.cols → ∃ cell, net'.cell r c = .ok cell

include hn hw in
theorem curNet : Safe (Sound z B n) curNet (Shape net) := by
  intro w h
  obtain ⟨net', h1, e⟩ := h.alike.net hn
  refine ⟨net', w, ?_, h, (congrArg Network.rows e :), (congrArg Network.cols e :), fun r c hr hc => ?_⟩
  · unfold Ladder.curNet
    rw [bind_ok (getCtx_apply w)]
    simp [h.exec, aget_eq_ok.2 h1]
  · obtain ⟨x, hx⟩ := Option.isSome_iff_exists.1 (h.alike.has (owns hw hr hc))
    obtain ⟨cell, hcell, -⟩ := load_cell hx
    have := execCell_ok h.exec hcell
    simp only [Ctx.execCell, Ctx.exnet, h.exec, aget_eq_ok.2 h1] at this
    exact ⟨cell, this⟩

theorem groupEnd {net' : Network} (hs : Shape net net') {col : Nat} (hc : col < net.cols) :
    ∀ (fuel g : Nat), g < net.rows → ∃ ge, groupEnd net' col fuel g = .ok ge ∧ g ≤ ge ∧ ge < net.rows
  | 0, g, hg => ⟨g, rfl, by omega, hg⟩
  | fuel + 1, g, hg => by
    unfold Ladder.groupEnd
    split
    · rename_i h
      rw [hs.1] at h
      obtain ⟨cell, hcell⟩ := hs.2.2 (g + 1) col h hc
      rw [hcell]
      simp only
      split
      · obtain ⟨ge, h1, h2, h3⟩ := groupEnd hs hc fuel (g + 1) h
        exact ⟨ge, h1, by omega, h3⟩
      · exact ⟨g, rfl, by omega, hg⟩
    · exact ⟨g, rfl, by omega, hg⟩

theorem isLower {net' : Network} (hs : Shape net net') {row : Nat} (hr : row < net.rows) :
    ∀ (k c : Nat), c + k ≤ net.cols → ∃ b, isLower net' row c k = .ok b
  | 0, _, _ => ⟨false, rfl⟩
  | k + 1, c, hk => by
    unfold Ladder.isLower
    obtain ⟨cell, hcell⟩ := hs.2.2 row c hr (by omega)
    rw [hcell]
    simp only
    split
    · split
      · rename_i h
        rw [hs.1] at h
        obtain ⟨below, hb⟩ := hs.2.2 (row + 1) c h (by omega)
        rw [hb]
        simp only
        split
        · exact isLower hs hr k (c + 1) (by omega)
        · exact ⟨_, rfl⟩
      · exact ⟨_, rfl⟩
    · exact isLower hs hr k (c + 1) (by omega)

theorem sideEffects {r c : Nat} {code : Ins} (h : WellCell B n r c code) (hm : code ≠ .MULTI) :
    ∃ b, sideEffects code = .ok b := by
  cases code <;> simp only [WellCell] at h <;> first | exact ⟨_, rfl⟩ | exact absurd rfl hm

include hw in
theorem skipLoop (hk : Calls z B env) {col : Nat} (hc : col < net.cols) : ∀ (k gr cnt : Nat), gr + k ≤ net.rows →
    (z = true → 5 * (cnt + k) ≤ 4 * B.scan.maxScanCycles) →
    Safe (Sound z B n) (skipLoop env col gr k cnt) fun res => ∀ p, res = some p → p.2 ≤ cnt + k
  | 0, _, _, _, _ => Safe.pure (by rintro p h; cases h; exact Nat.le_refl _)
  | k + 1, gr, cnt, hg, hr => by
    unfold Ladder.skipLoop
    have step : ∀ b : Bool, ∀ p, some (b, cnt + 1) = some p → p.2 ≤ cnt + (k + 1) := by rintro b p h; cases h; simp only; omega
    refine (watch hk fun hz => by have := hr hz; omega).bind fun _ _ => Safe.ite (fun _ => .pure (by simp)) fun _ => ?_
    refine (curCell hw (by omega) hc).bind fun cell hcell => Safe.ite (fun _ => .pure (step _)) fun hm => ?_
    obtain ⟨b, hb⟩ := sideEffects hcell hm
    refine (Safe.lift (Q := fun _ => True) hb trivial).bind fun _ _ => Safe.ite (fun _ => .pure (step _)) fun _ => ?_
    exact (skipLoop hk hc k (gr + 1) (cnt + 1) (by omega) fun hz => by have := hr hz; omega).mono fun _ h p e => by have := h p e; omega

include hw in
theorem execLoop (hk : Calls z B env) {network col : Nat} (hc : col < net.cols) : ∀ (k gr : Nat), gr + k ≤ net.rows →
    Safe (Sound z B n) (execLoop env network col gr k) (· = false)
  | 0, _, _ => Safe.pure rfl
  | k + 1, gr, hg => by
    unfold Ladder.execLoop
    have hr : gr < net.rows := by omega
    refine (curCell hw hr hc).bind fun cell hcell => ?_
    refine (Safe.modCtx fun w hw => hw.ctx w.ctx.state _ fun _ => rfl).bind fun _ _ => ?_
    refine Safe.ite (fun hi => ?_) fun _ => Safe.ite (fun _ => execLoop hk hc k (gr + 1) (by omega)) fun hm => ?_
    · rw [hi] at hcell; exact hcell.elim
    · refine (Safe.emit fun w hw => hw.append (by simp) (by simp)).bind fun _ _ => ?_
      refine (execIns hk (owns hw hr hc) (left hw hr hc) hcell hm).bind fun err he => ?_
      refine (Safe.emit fun w hw => hw.append (by rintro a b c r h; cases h; exact he) (by simp)).bind fun _ _ => ?_
      refine (Safe.modCtx fun w hw => hw.ctx w.ctx.state _ fun _ => rfl).bind fun _ _ => ?_
      refine Safe.ite (fun h => absurd he h) fun _ => ?_
      exact (callInstruction hk).bind fun _ _ => execLoop hk hc k (gr + 1) (by omega)

include hw in
theorem orStates {col : Nat} (hc : col < net.cols) : ∀ (k gr : Nat) (acc : Bool), gr + k ≤ net.rows →
    Safe (Sound z B n) (orStates col gr k acc) fun _ => True
  | 0, _, _, _ => Safe.pure trivial
  | k + 1, gr, acc, hg => (curCell hw (by omega) hc).bind fun _ _ => orStates hc k (gr + 1) _ (by omega)

include hw in
theorem setStates {col : Nat} {b : Bool} (hc : col < net.cols) : ∀ (k gr : Nat), gr + k ≤ net.rows →
    Safe (Sound z B n) (setStates col b gr k) fun _ => True
  | 0, _, _ => Safe.pure trivial
  | k + 1, gr, hg => (setState (owns hw (by omega) hc) _).bind fun _ _ => setStates hc k (gr + 1) (by omega)

include hw in
theorem clearColumn {col : Nat} (hc : col < net.cols) : ∀ (k r : Nat), r + k ≤ net.rows →
    Safe (Sound z B n) (clearColumn col r k) fun _ => True
  | 0, _, _ => Safe.pure trivial
  | k + 1, r, hg => (setState (owns hw (by omega) hc) _).bind fun _ _ => clearColumn hc k (r + 1) (by omega)

include hw in
theorem clearColumns {rows : Nat} (hr : rows ≤ net.rows) : ∀ (k c : Nat), c + k ≤ net.cols →
    Safe (Sound z B n) (clearColumns rows c k) fun _ => True
  | 0, _, _ => Safe.pure trivial
  | k + 1, c, hg => (clearColumn hw (by omega) rows 0 (by omega)).bind fun _ _ => clearColumns hr k (c + 1) (by omega)

include hn hw in
theorem scanColumn (hk : Calls z B env) {network gs col cnt : Nat} {power : Bool} (hg : gs < net.rows)
    (hc : col < net.cols) (hb : z = true → 5 * (cnt + net.rows) ≤ 4 * B.scan.maxScanCycles) :
    Safe (Sound z B n) (scanColumn env network gs power col cnt) fun res => ∀ p, res = some p → p ≤ cnt + net.rows := by
  unfold Ladder.scanColumn
  refine (curNet hn hw).bind fun net' hs => ?_
  obtain ⟨ge, h1, h2, h3⟩ := groupEnd hs hc (net'.rows - gs) gs hg
  refine (Safe.lift (Q := (· = ge)) h1 rfl).bind fun g he => ?_
  subst he
  dsimp only
  refine (skipLoop hw hk hc (g + 1 - gs) gs cnt (by omega) fun hz => by have := hb hz; omega).bind fun res hres => ?_
  match res, hres with
  | none, _ => exact .pure (by simp)
  | some (safe, cnt'), hres =>
    have := hres _ rfl
    simp only at this
    simp only
    refine Safe.ite (fun _ => .pure (by rintro p h; cases h; omega)) fun _ => ?_
    refine (execLoop hw hk hc (g + 1 - gs) gs (by omega)).bind fun b hb => ?_
    refine Safe.ite (fun h => ?_) fun _ => ?_
    · rw [hb] at h; cases h
    · exact (orStates hw hc _ _ _ (by omega)).bind fun _ _ => (setStates hw hc _ _ (by omega)).bind fun _ _ =>
        .pure (by rintro p h; cases h; omega)

include hn hw in
theorem columnLoop (hk : Calls z B env) {network gs : Nat} {power : Bool} (hg : gs < net.rows) :
    ∀ (fuel col cnt : Nat), net.cols < fuel + col →
    col ≤ net.cols → (z = true → 5 * (cnt + (net.cols - col) * net.rows) ≤ 4 * B.scan.maxScanCycles) →
    Safe (Sound z B n) (columnLoop env network gs power fuel col cnt) fun res =>
      ∀ p, res = some p → p ≤ cnt + (net.cols - col) * net.rows
  | 0, col, cnt, h, h', _ => by omega
  | fuel + 1, col, cnt, h, h', hb => by
    unfold Ladder.columnLoop
    refine (curNet hn hw).bind fun net' hs => Safe.ite (fun hc => ?_) fun _ => .pure (by rintro p h; cases h; omega)
    rw [hs.2.1] at hc
    have e : (net.cols - col) * net.rows = (net.cols - (col + 1)) * net.rows + net.rows := by
      rw [show net.cols - col = (net.cols - (col + 1)) + 1 by omega, Nat.add_mul, Nat.one_mul]
    rw [e] at hb ⊢
    refine (scanColumn hn hw hk hg hc fun hz => by have := hb hz; omega).bind fun res hres => ?_
    match res, hres with
    | none, _ => exact .pure (by simp)
    | some cnt', hres =>
      have := hres _ rfl
      exact (columnLoop hk hg fuel (col + 1) cnt' (by omega) (by omega) fun hz => by have := hb hz; omega).mono fun _ h p e => by have := h p e; omega

include hn hw in
theorem scanRow (hk : Calls z B env) {network row cnt : Nat} (hr : row < net.rows)
    (hb : z = true → 5 * (cnt + (1 + net.cols * net.rows)) ≤ 4 * B.scan.maxScanCycles) :
    Safe (Sound z B n) (scanRow env network row cnt) fun res => ∀ p, res = some p →
      row < p.1 ∧ p.1 ≤ net.rows ∧ p.2 ≤ cnt + (1 + net.cols * net.rows) := by
  unfold Ladder.scanRow
  refine (watch hk fun hz => by have := hb hz; omega).bind fun _ _ => Safe.ite (fun _ => .pure (by simp)) fun _ => ?_
  refine (curCell hw hr hw.width).bind fun cell hcell => Safe.ite (fun _ => .pure ?_) fun hm => ?_
  · rintro p h; cases h; simp only; omega
  refine (curNet hn hw).bind fun net' hs => ?_
  obtain ⟨ge, h1, h2, h3⟩ := groupEnd hs hw.width (net'.rows - row) row hr
  refine (Safe.lift (Q := (· = ge)) h1 rfl).bind fun g he => ?_
  subst he
  obtain ⟨b, hb'⟩ := isLower hs hr net'.cols 0 (by rw [hs.2.1]; omega)
  refine (Safe.lift (Q := fun _ => True) hb' trivial).bind fun _ _ => ?_
  refine (columnLoop hn hw hk hr u32Fuel 0 (cnt + 1) (by have := hw.cols; unfold u32Fuel; omega) (by omega)
    fun hz => by have := hb hz; rw [Nat.sub_zero]; omega).bind fun res hres => ?_
  match res, hres with
  | none, _ => exact .pure (by simp)
  | some cnt', hres =>
    have := hres _ rfl
    rw [Nat.sub_zero] at this
    exact (callScanEnd hk).bind fun _ _ => .pure (by rintro p h; cases h; simp only; omega)

include hn hw in
theorem rowLoop (hk : Calls z B env) {network : Nat} : ∀ (fuel row cnt : Nat), net.rows < fuel + row →
    row ≤ net.rows → (z = true → 5 * (cnt + (net.rows - row) * (1 + net.cols * net.rows)) ≤ 4 * B.scan.maxScanCycles) →
    Safe (Sound z B n) (rowLoop env network fuel row cnt) fun _ => True
  | 0, row, cnt, h, h', _ => by omega
  | fuel + 1, row, cnt, h, h', hb => by
    unfold Ladder.rowLoop
    refine (curNet hn hw).bind fun net' hs => Safe.ite (fun hc => ?_) fun _ => .pure trivial
    rw [hs.1] at hc
    have e : (net.rows - row) * (1 + net.cols * net.rows) =
        (net.rows - (row + 1)) * (1 + net.cols * net.rows) + (1 + net.cols * net.rows) := by
      rw [show net.rows - row = (net.rows - (row + 1)) + 1 by omega, Nat.add_mul (_ - _), Nat.one_mul]
    rw [e] at hb
    refine (scanRow hn hw hk hc fun hz => by have := hb hz; omega).bind fun res hres => ?_
    match res, hres with
    | none, _ => exact .pure trivial
    | some (row', cnt'), hres =>
      have := hres _ rfl
      simp only at this
      have hle : (net.rows - row') * (1 + net.cols * net.rows) ≤ (net.rows - (row + 1)) * (1 + net.cols * net.rows) :=
        Nat.mul_le_mul_right _ (by omega)
      exact rowLoop hk fuel row' cnt' (by omega) this.2.1 fun hz => by have := hb hz; omega

end net

end Sound

/-- Between networks and between scans. -/
structure Resting (z : Bool) (B : Ctx) (w : World) : Prop where
  alike : Alike B w.ctx
  flags : Flags w.ctx
  clean : Clean w.trace
  still : z = true → Unhurt B w.ctx
  silent : z = true → Event.panic ∉ w.trace

namespace Resting

variable {z : Bool} {B : Ctx} {env : Env}

/-- A change of the fields that no location depends on. -/
theorem ctx {w : World} (h : Resting z B w) (s : St) (l : Last) (x : Option Nat) (hs : z = true → s = w.ctx.state) :
    Resting z B { w with ctx := { w.ctx with state := s, last := l, exec := x } } :=
  ⟨⟨⟨h.alike.fits.1, h.alike.fits.2, h.alike.fits.3, h.alike.fits.4, h.alike.fits.5, h.alike.fits.6, h.alike.fits.7,
    h.alike.fits.8, h.alike.fits.9, h.alike.fits.10, h.alike.fits.11, h.alike.fits.12, h.alike.fits.13, h.alike.fits.14,
    h.alike.fits.15, h.alike.fits.16, h.alike.fits.17, h.alike.fits.18, h.alike.fits.19⟩,
    h.alike.text, fun ℓ => by rw [← h.alike.places ℓ]; cases ℓ <;> rfl, h.alike.networks, h.alike.millis, h.alike.cron, h.alike.foreign⟩,
    fun ℓ x hf hl => h.flags ℓ x hf (by rw [← hl]; cases ℓ <;> rfl), h.clean,
    fun e => ⟨by rw [hs e]; exact (h.still e).state, (h.still e).limit, (h.still e).watchdog, (h.still e).delay⟩, h.silent⟩

theorem scanNetwork (hB : Well B) (hr : z = true → Roomy B) (hk : Calls z B env) {n : Nat} (hn : n < B.qty.networks) :
    Safe (Resting z B) (scanNetwork env n) fun _ => True := by
  obtain ⟨net, h1, h2, h3⟩ := hB.nets n hn
  unfold Ladder.scanNetwork
  refine Safe.getCtx fun w hw => ?_
  obtain ⟨net', h4, e⟩ := hw.alike.net h1
  have ee : net'.enable = net.enable := (congrArg Network.enable e :)
  have er : net'.rows = net.rows := (congrArg Network.rows e :)
  have ec : net'.cols = net.cols := (congrArg Network.cols e :)
  have es : net'.cells.isSome = net.cells.isSome := by
    have := (congrArg Network.cells e :)
    simp only [netText] at this
    have := congrArg Option.isSome this
    simpa using this
  rw [bind_ok (lift_eq_ok.2 ⟨aget_eq_ok.2 h4, rfl⟩)]
  rw [if_neg (by rw [h2] at es; cases hh : net'.cells <;> simp_all)]
  split
  · exact ⟨_, w, rfl, hw, trivial⟩
  rename_i hen
  have hwn := h3 (by rw [← ee]; simpa using hen)
  rw [bind_ok (modCtx_apply _ w)]
  have hs : Sound z B n { w with ctx := { w.ctx with exec := some n } } := by
    have := hw.ctx w.ctx.state w.ctx.last (some n) fun _ => rfl
    exact ⟨this.alike, this.flags, rfl, this.clean, this.still, this.silent⟩
  have hrun : Safe (Sound z B n) (clearColumns net'.rows 0 net'.cols >>= fun _ => rowLoop env n u32Fuel 0 0) fun _ => True :=
    (Sound.clearColumns hwn (by omega) _ 0 (by omega)).bind fun _ _ =>
      Sound.rowLoop h1 hwn hk u32Fuel 0 0 (by have := hwn.rows; unfold u32Fuel; omega) (by omega) fun hz => by
        have := (hr hz).nets n net h1 (by rw [← ee]; simpa using hen)
        rwa [Nat.zero_add, Nat.sub_zero]
  obtain ⟨a, w', h5, h6, -⟩ := hrun _ hs
  exact ⟨a, w', h5, ⟨h6.alike, h6.flags, h6.clean, h6.still, h6.silent⟩, trivial⟩

theorem networkLoop (hB : Well B) (hr : z = true → Roomy B) (hk : Calls z B env) : ∀ (fuel n : Nat), B.qty.networks < fuel + n →
    n ≤ B.qty.networks → Safe (Resting z B) (networkLoop env fuel n) fun _ => True
  | 0, n, h, h' => by omega
  | fuel + 1, n, h, h' => by
    unfold Ladder.networkLoop
    refine Safe.getCtx fun w hw => ?_
    rw [hw.alike.networks]
    split
    · rename_i hn
      exact ((scanNetwork hB hr hk hn).bind fun b _ => Safe.ite
        (fun _ => networkLoop hB hr hk fuel (n + 1) (by omega) (by omega)) fun _ => .pure trivial) w hw
    · exact ⟨_, w, rfl, hw, trivial⟩

/-- A change of the contents of the flags `M`. -/
theorem setM {w : World} (h : Resting z B w) {m : Arr Byte} (hl : ∀ i, (at? m i).isSome = (at? w.ctx.M i).isSome)
    (hm : m.isSome = w.ctx.M.isSome) (t : Nat) : Resting z B { w with ctx := { w.ctx with M := m }, tick := t } := by
  have hlen : ∀ l, m = some l → l.length = w.ctx.qty.m := by
    intro l e
    subst e
    cases hM : w.ctx.M with
    | none => rw [hM] at hm; cases hm
    | some l' =>
      have h1 := h.alike.fits.M l' hM
      rw [← h1]
      apply Nat.le_antisymm
      · refine Nat.le_of_not_lt fun hlt => ?_
        have := hl l'.length
        rw [hM] at this
        simp [at?, hlt] at this
      · refine Nat.le_of_not_lt fun hlt => ?_
        have := hl l.length
        rw [hM] at this
        simp [at?, hlt] at this
  refine ⟨⟨⟨hlen, h.alike.fits.2, h.alike.fits.3, h.alike.fits.4, h.alike.fits.5, h.alike.fits.6, h.alike.fits.7,
    h.alike.fits.8, h.alike.fits.9, h.alike.fits.10, h.alike.fits.11, h.alike.fits.12, h.alike.fits.13, h.alike.fits.14,
    h.alike.fits.15, h.alike.fits.16, h.alike.fits.17, h.alike.fits.18, h.alike.fits.19⟩,
    h.alike.text, fun ℓ => ?_, h.alike.networks, h.alike.millis, h.alike.cron, h.alike.foreign⟩, fun ℓ x hf hx => ?_, h.clean,
    fun e => ⟨(h.still e).state, (h.still e).limit, (h.still e).watchdog, (h.still e).delay⟩, h.silent⟩
  · rw [← h.alike.places ℓ]
    cases ℓ <;> first | rfl | (simp only [load, Option.isSome_map]; exact hl _)
  · refine h.flags ℓ x hf ?_
    rw [← hx]
    cases ℓ <;> first | rfl | cases hf

theorem fired_isSome {tm : Tm} : ∀ {jobs : List CronJob} {m : Nat → Option Byte},
    (∀ j ∈ jobs, (m j.enableReg).isSome ∧ (m j.flagReg).isSome) → ∀ i, (fired tm jobs m i).isSome = (m i).isSome
  | [], _, _, _ => rfl
  | j :: rest, m, h, i => by
    have hj := h j (.head _)
    unfold fired
    split
    · have key : ∀ k, (if k = j.flagReg then m j.enableReg else m k).isSome = (m k).isSome := by
        intro k
        split
        · rename_i e; rw [e, hj.1, hj.2]
        · rfl
      rw [fired_isSome (fun k hk => by rw [key, key]; exact h k (.tail _ hk)), key]
    · exact fired_isSome (fun k hk => h k (.tail _ hk)) i

theorem cronPhase (hB : Well B) (hr : z = true → Roomy B) (hk : Calls z B env) : Safe (Resting z B) (cronPhase env) fun _ => True := by
  intro w hw
  rcases hB.cron with h0 | ⟨jobs, hj⟩
  · refine ⟨true, w, ?_, hw, trivial⟩
    have : w.ctx.cron = none := by rw [hw.alike.cron, h0]
    unfold Ladder.cronPhase
    rw [bind_getCtx]
    simp only [this, pure_apply]
  · have hM : ∀ i, (at? w.ctx.M i).isSome = (at? B.M i).isSome := fun i => by
      have := hw.alike.places (.M i)
      simpa only [load, Option.isSome_map] using this
    have hj' : Jobs w.ctx jobs := ⟨by rw [hw.alike.cron]; exact hj.table, hj.sized, fun j h => by
      rw [hM, hM]; exact hj.flags j h⟩
    by_cases hn : jobs = []
    · subst hn
      obtain ⟨cr, all, hc, -, -, hu⟩ := hj'.table
      exact ⟨false, _, Props.C56_refuted_no_job hc hu, hw.ctx .inv w.ctx.last w.ctx.exec fun hz => absurd rfl ((hr hz).cron _ hj), trivial⟩
    · obtain ⟨m', h1, h2⟩ := Props.C56_phase_partial hj' hn (hk.localtime w.tick)
      have hcl : ∀ i, (cleared jobs (at? w.ctx.M) i).isSome = (at? w.ctx.M i).isSome := by
        intro i
        unfold cleared
        split
        · rename_i h
          obtain ⟨j, hjm, -, -, rfl⟩ := h
          rw [(hj'.flags j hjm).2]; rfl
        · rfl
      have hsome : ∀ i, (at? m' i).isSome = (at? w.ctx.M i).isSome := by
        intro i
        rw [h2, fired_isSome (fun j hjm => by rw [hcl, hcl]; exact hj'.flags j hjm), hcl]
      refine ⟨true, _, h1, hw.setM hsome ?_ _, trivial⟩
      obtain ⟨j, hjm⟩ := List.exists_mem_of_ne_nil _ hn
      have h3 := (hj'.flags j hjm).1
      have h4 := h3
      rw [← hsome] at h4
      cases h5 : w.ctx.M with
      | none => rw [h5] at h3; cases h3
      | some l =>
        cases h6 : m' with
        | none => rw [h6] at h4; cases h4
        | some l' => rfl

theorem scan (hB : Well B) (hr : z = true → Roomy B) (hk : Calls z B env) : Safe (Resting z B) (scan env) fun _ => True := by
  unfold Ladder.scan
  refine (Safe.modCtx fun w hw => hw.ctx w.ctx.state w.ctx.last none fun _ => rfl).bind fun _ _ => ?_
  refine (cronPhase hB hr hk).bind fun _ _ => Safe.ite (fun _ => Safe.getCtx fun w hw => ?_) fun _ => .pure trivial
  have hs : w.ctx.network.isSome := by
    have h1 := congrArg Option.isSome hw.alike.text
    have h2 := hB.some
    simp only [program, Option.isSome_map] at h1
    rw [h1]; exact h2
  rw [if_neg (by cases h : w.ctx.network <;> simp_all)]
  exact networkLoop hB hr hk u32Fuel 0 (by have := hB.count; unfold u32Fuel; omega) (by omega) w hw

end Resting

theorem Spec.MildEnv.calls {B : Ctx} {env : Env} (h : MildEnv B env) : Calls false B env where
  panic := fun _ t c ha hf _ _ => by obtain ⟨h1, h2, h3⟩ := h.panic t c ha hf; exact ⟨h1, h2, h3, by simp⟩
  instruction := fun t c ha hf _ _ => by obtain ⟨h1, h2, h3⟩ := h.instruction t c ha hf; exact ⟨h1, h2, h3, by simp⟩
  scanEnd := fun t c ha hf _ _ => by obtain ⟨h1, h2, h3⟩ := h.scanEnd t c ha hf; exact ⟨h1, h2, h3, by simp⟩
  foreign := fun n id col row _ _ => ⟨fun t c ha hf _ _ => by
    obtain ⟨h1, h2, h3⟩ := (h.foreign id col row).1 t c ha hf; exact ⟨h1, h2, h3, by simp⟩,
    fun t c ha hf _ _ => (h.foreign id col row).2 t c ha hf⟩
  localtime := h.localtime

namespace Props

/-- `k` scans; before scan number `i` the context is changed by `between i` (inputs, other threads, the rest of the
task). -/
def scans (env : Env) (between : Nat → Ctx → Ctx) : Nat → Op Unit
  | 0 => pure ()
  | k + 1 => do
    scans env between k
    modCtx (between k)
    scan env

/-- **C32**, for well-formed programs of contacts, coils, edges, comparisons, bit logic, shifts, timers, counters, moves, rotations and
quotients by constants and calls of foreign functions that succeed: any
number of scans ends without undefined behaviour and without any instruction reporting an error, whatever the register
contents, the clock, and what callbacks and the rest of the system do to the registers in the meantime (as long as they
leave the program and the configuration alone and store only 0 and 1 in `bool`s). -/
theorem C32_never_faults_partial {B : Ctx} {env : Env} {between : Nat → Ctx → Ctx} (hB : Well B) (hk : MildEnv B env)
    (hb : ∀ i c, Alike B c → Flags c → Alike B (between i c) ∧ Flags (between i c)) {w : World} (ha : Alike B w.ctx)
    (hf : Flags w.ctx) (hc : Clean w.trace) (k : Nat) :
    ∃ w', scans env between k w = .ok ((), w') ∧ Clean w'.trace ∧ Alike B w'.ctx ∧ Flags w'.ctx := by
  have : Safe (Resting false B) (scans env between k) fun _ => True := by
    induction k with
    | zero => exact Safe.pure trivial
    | succ k ih =>
      unfold scans
      refine ih.bind fun _ _ => (Safe.modCtx fun w hw => ?_).bind fun _ _ => Resting.scan hB (by simp) hk.calls
      obtain ⟨h1, h2⟩ := hb k w.ctx hw.alike hw.flags
      exact ⟨h1, h2, hw.clean, by simp, by simp⟩
  obtain ⟨_, w', h1, h2, -⟩ := this w ⟨ha, hf, hc, by simp, by simp⟩
  exact ⟨w', h1, h2.clean, h2.alike, h2.flags⟩

/-! ### A program that meets the hypotheses -/

namespace Demo

open Ladder.Demo

/-- Three rungs: `I0.0 rising, D0 > 5, counter 0, coil M1`, `M1, timer 1 (3 s), D1 or QW0.0 to D2, latch Q0.1` and `D0 / 3 to D1, rotate D1
by 5, move D1 to QW0.0, foreign function 0`, with the rows the counter, the timer and the arithmetic need below them. -/
def sturdy : Ctx := { ctx [net [
  [ins .RE [op .I 0], ins .GT [op .D 0, op .NONE 5], ins .CTU [op .C 0, op .NONE 10], ins .COIL [op .M 1]],
  [ins .NOP [], ins .NOP [], ins .MULTI [], ins .NOP []],
  [ins .NO [op .M 1], ins .TON [op .T 1, op .I 3], ins .OR [op .D 1, op .QW 0, op .D 2], ins .COILL [op .Q 256]],
  [ins .NOP [], ins .MULTI [], ins .MULTI [], ins .NOP []],
  [ins .DIV [op .D 0, op .NONE 3, op .D 1], ins .ROL [op .D 1, op .NONE 5], ins .MOVE [op .D 1, op .QW 0], ins .FOREIGN [op .NONE 0]],
  [ins .MULTI [], ins .MULTI [], ins .MULTI [], ins .NOP []],
  [ins .MULTI [], ins .NOP [], ins .NOP [], ins .NOP []]]] with
    foreignQty := 1, foreign := some [{ id := 0, desc := ⟨1, 1, 1, 1⟩, hasDeinit := false }] }

theorem sturdy_net : WellNet sturdy 0 (net [
  [ins .RE [op .I 0], ins .GT [op .D 0, op .NONE 5], ins .CTU [op .C 0, op .NONE 10], ins .COIL [op .M 1]],
  [ins .NOP [], ins .NOP [], ins .MULTI [], ins .NOP []],
  [ins .NO [op .M 1], ins .TON [op .T 1, op .I 3], ins .OR [op .D 1, op .QW 0, op .D 2], ins .COILL [op .Q 256]],
  [ins .NOP [], ins .MULTI [], ins .MULTI [], ins .NOP []],
  [ins .DIV [op .D 0, op .NONE 3, op .D 1], ins .ROL [op .D 1, op .NONE 5], ins .MOVE [op .D 1, op .QW 0], ins .FOREIGN [op .NONE 0]],
  [ins .MULTI [], ins .MULTI [], ins .MULTI [], ins .NOP []],
  [ins .MULTI [], ins .NOP [], ins .NOP [], ins .NOP []]]) where
  stored := rfl
  rows := by decide
  cols := by decide
  width := by decide
  cells := by
    intro r c hr hc
    have hr : r < 7 := hr
    have hc : c < 4 := hc
    match r, c, hr, hc with
    | 0, 0, _, _ => exact ⟨_, rfl, ⟨_, rfl, by decide, .inr (.inr (.inr ⟨_, rfl, rfl⟩))⟩, _, rfl, .inr ⟨_, rfl, rfl⟩⟩
    | 0, 1, _, _ => exact ⟨_, rfl, ⟨_, rfl, by decide, .inr (.inr (.inr ⟨_, rfl, rfl⟩))⟩, _, rfl, by decide, .inl rfl⟩
    | 0, 2, _, _ => exact ⟨_, rfl, ⟨_, rfl, by decide, rfl, rfl, rfl⟩, ⟨_, rfl⟩, rfl, .inr rfl⟩
    | 0, 3, _, _ => exact ⟨_, rfl, _, _, rfl, rfl, by simp, rfl, rfl⟩
    | 1, 0, _, _ | 1, 1, _, _ | 1, 2, _, _ | 1, 3, _, _ => exact ⟨_, rfl, trivial⟩
    | 2, 0, _, _ => exact ⟨_, rfl, _, rfl, by decide, .inr (.inr (.inr ⟨_, rfl, rfl⟩))⟩
    | 2, 1, _, _ => exact ⟨_, rfl, ⟨_, rfl, rfl, by decide, rfl, rfl, rfl⟩, ⟨_, rfl, by decide⟩, rfl, rfl⟩
    | 2, 2, _, _ => exact ⟨_, rfl, ⟨_, rfl, by decide, .inr (.inr (.inr ⟨_, rfl, rfl⟩))⟩,
        ⟨_, rfl, by decide, .inr (.inr (.inr ⟨_, rfl, rfl⟩))⟩, _, rfl, rfl⟩
    | 2, 3, _, _ => exact ⟨_, rfl, ⟨_, _, rfl, rfl, by simp, rfl, rfl⟩, _, rfl, .inr ⟨_, rfl, rfl⟩⟩
    | 3, 0, _, _ | 3, 1, _, _ | 3, 2, _, _ | 3, 3, _, _ => exact ⟨_, rfl, trivial⟩
    | 4, 0, _, _ => exact ⟨_, rfl, ⟨_, rfl, by decide, .inr (.inr (.inr ⟨_, rfl, rfl⟩))⟩, ⟨_, rfl, rfl, by decide⟩, _, rfl, rfl⟩
    | 4, 1, _, _ => exact ⟨_, rfl, ⟨_, rfl, by decide, .inr (.inr (.inr ⟨_, rfl, rfl⟩))⟩, ⟨_, rfl, rfl, by decide⟩, _, _, rfl, rfl,
        by intro _; rfl, rfl, rfl⟩
    | 4, 2, _, _ => exact ⟨_, rfl, _, _, _, _, rfl, rfl, rfl, rfl, rfl, rfl, .inl ⟨.inl rfl, rfl⟩⟩
    | 4, 3, _, _ => exact ⟨_, rfl, _, rfl, rfl, by decide, by decide, rfl⟩
    | 5, 0, _, _ | 5, 1, _, _ | 5, 2, _, _ | 5, 3, _, _ => exact ⟨_, rfl, trivial⟩
    | 6, 0, _, _ | 6, 1, _, _ | 6, 2, _, _ | 6, 3, _, _ => exact ⟨_, rfl, trivial⟩

theorem sturdy_well : Well sturdy where
  count := by decide
  nets := by
    intro n hn
    have hn : n < 1 := hn
    match n, hn with
    | 0, _ => exact ⟨_, rfl, rfl, fun _ => sturdy_net⟩
  some := rfl
  cron := .inl rfl

theorem sturdy_alike : Alike sturdy sturdy := ⟨fits_of rfl, rfl, fun _ => rfl, rfl, rfl, rfl, rfl, rfl⟩

theorem flags_of {c : Ctx} (h : ∀ a : Arr Byte, a ∈ [c.Cd, c.Cr, c.Td, c.Tr, c.Cdh, c.Crh, c.Tdh, c.Trh] →
    ∀ i b, at? a i = some b → b.toNat ≤ 1) : Flags c := by
  intro ℓ x hf hl
  cases ℓ <;> simp only [isFlag, Bool.false_eq_true] at hf <;> simp only [load, Option.map_eq_some_iff] at hl <;>
    (obtain ⟨b, hb, rfl⟩ := hl; exact h _ (by simp) _ b hb)

theorem sturdy_flags : Flags sturdy := by
  refine flags_of fun a ha i b hb => ?_
  have : ∀ a : Arr Byte, a ∈ [sturdy.Cd, sturdy.Cr, sturdy.Td, sturdy.Tr, sturdy.Cdh, sturdy.Crh, sturdy.Tdh, sturdy.Trh] →
      ∀ l, a = some l → ∀ b ∈ l, b.toNat ≤ 1 := by decide
  obtain ⟨l, hl, hm⟩ := mem_of_at? hb
  exact this a ha l hl b hm

theorem mild : MildEnv sturdy env :=
  ⟨fun _ _ h h' => ⟨h, h', rfl⟩, fun _ _ h h' => ⟨h, h', rfl⟩, fun _ _ h h' => ⟨h, h', rfl⟩,
    fun _ _ _ => ⟨fun _ _ h h' => ⟨h, h', rfl⟩, fun _ _ _ _ => rfl⟩, fun _ => by
    constructor <;> simp [env]⟩

end Demo

/-- The hypotheses of `C32_never_faults_partial` can be met, with an input toggling between scans. -/
example (k : Nat) : ∃ w', scans Demo.env (fun i c => upd c (.I 0 0) (i % 2)) k ⟨Demo.sturdy, 0, []⟩ = .ok ((), w') ∧
    Clean w'.trace ∧ Alike Demo.sturdy w'.ctx ∧ Flags w'.ctx :=
  C32_never_faults_partial Demo.sturdy_well Demo.mild
    (fun i c h h' => ⟨h.upd _ _, h'.upd (by simp [isFlag])⟩) Demo.sturdy_alike Demo.sturdy_flags
    (fun _ _ _ _ h => by cases h) k

/-! ### What the full statement misses -/

/-- The outcome is the given undefined behaviour. -/
def fails {α : Type} (x : Except UB α) (e : UB) : Bool := match x with | .error e' => decide (e' = e) | .ok _ => false

theorem of_fails {α : Type} {x : Except UB α} {e : UB} (h : fails x e = true) : x = .error e := by
  cases x with
  | error e' => simp only [fails, decide_eq_true_eq] at h; rw [h]
  | ok a => cases h

/-- **C32 is violated** by float registers: comparing an existing float register that holds no number (or one too large) is
undefined behaviour, although its index is within the configured quantity. -/
theorem C32_refuted_float : scan Demo.env
    ⟨{ Demo.ctx [Demo.net [[Demo.ins .EQ [Demo.op .R 0, Demo.op .NONE 0]]]] with R := some [0x7FC00000, 0] }, 0, []⟩ =
    .error .floatCast := of_fails (by decide +kernel)

/-- **C32 is violated** by bit logic on the `bool` areas: a logic instruction stores any byte in them, and the next contact
on that register reads an invalid `bool`. -/
theorem C32_refuted_flag : scan Demo.env
    ⟨Demo.ctx [Demo.net [[Demo.ins .OR [Demo.op .NONE 2, Demo.op .NONE 0, Demo.op .Cd 0], Demo.ins .NO [Demo.op .Cd 0]]]], 0, []⟩ =
    .error .trapBool := of_fails (by decide +kernel)

end Props

end Ladder
