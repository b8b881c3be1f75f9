import Verif.Lemmas.Track
import Verif.Spec.Demo

/-
C18, C19, C20: the timers TON, TOF and TP.
-/

set_option autoImplicit false

namespace Ladder.Props

open Spec Op

/-! ### Specification -/

/-- Time units of a preset in milliseconds: ms, 10 ms, 100 ms, seconds, minutes. -/
def timeUnit (k : Reg) : Option Nat := [1, 10, 100, 1000, 60000][k.code]?

/-- The registers of timer `i`. -/
def timerLocs (i : Nat) : List Loc := [.Tr i, .Td i, .acc i, .stamp i]

/-- Cell (r,c) of network `n` is a timer instruction on the existing timer `i` with preset `preset` (in units of `unit`
milliseconds, the total fitting 32 bits); it receives power `l`, and the clock function exists. -/
structure TimerSite (ctx : Ctx) (n r c i preset unit : Nat) (l : Bool) : Prop where
  site : Site ctx n r c l
  below : (load ctx (.cell n (r + 1) c)).isSome
  timer : ∃ d, operand? ctx n r c 0 = some d ∧ d.raw.toNat = i
  index : i < 2^31
  limit : ∃ p, operand? ctx n r c 1 = some p ∧ p.raw.toNat = preset ∧ timeUnit p.type = some unit
  total : preset * unit < 2^32
  clock : ctx.millis = true
  running : ∃ b : Bool, load ctx (.Tr i) = some b.toNat
  done : ∃ b : Bool, load ctx (.Td i) = some b.toNat
  acc : (load ctx (.acc i)).isSome
  stamp : (load ctx (.stamp i)).isSome

/-- `N` consecutive executions of one timer instruction: `pre k` and `post k` are the worlds before and after execution
`k`, `power k` the power it receives.  Between two executions anything may happen but for writing the timer's own
registers. -/
structure TimerRun (env : Env) (code : Ins) (n r c i preset unit N : Nat) (pre post : Nat → World) (power : Nat → Bool) :
    Prop where
  site : ∀ k < N, TimerSite (pre k).ctx n r c i preset unit (power k)
  exec : ∀ k < N, execIns env code r c (pre k) = .ok (.ok, post k)
  keep : ∀ k, k + 1 < N → ∀ ℓ ∈ timerLocs i, load (pre (k + 1)).ctx ℓ = load (post k).ctx ℓ

/-- Milliseconds between two clock readings. -/
def since (now start : W64) : Nat := (now - start).toNat

/-- The clock reading with which a timer that starts in execution `j` remembers its start. -/
def startTime (env : Env) (pre : Nat → World) (j : Nat) : W64 := env.clock (pre j).tick

/-- The clock reading with which execution `m` of a timer started in execution `j` tests whether the preset has elapsed
(the starting execution reads the clock once more). -/
def checkTime (env : Env) (pre : Nat → World) (j m : Nat) : W64 := env.clock ((pre m).tick + if m = j then 2 else 1)

/-- `j` is the first execution of the period in which `on` has held up to and including execution `k`. -/
structure Period (on : Nat → Bool) (j k : Nat) : Prop where
  le : j ≤ k
  all : ∀ x, j ≤ x → x ≤ k → on x = true
  first : j = 0 ∨ on (j - 1) = false

theorem Period.unique {on : Nat → Bool} {j j' k : Nat} (h : Period on j k) (h' : Period on j' k) : j = j' := by
  rcases Nat.lt_trichotomy j j' with hlt | he | hlt
  · rcases h'.first with h0 | h0
    · omega
    · rw [h.all (j' - 1) (by omega) (by have := h'.le; omega)] at h0; cases h0
  · exact he
  · rcases h.first with h0 | h0
    · omega
    · rw [h'.all (j - 1) (by omega) (by have := h.le; omega)] at h0; cases h0

theorem Period.succ {on : Nat → Bool} {j k : Nat} (h : Period on j k) (hk : on (k + 1) = true) : Period on j (k + 1) :=
  ⟨by have := h.le; omega, fun x h1 h2 => by
    rcases Nat.lt_or_ge x (k + 1) with hx | hx
    · exact h.all x h1 (by omega)
    · rw [show x = k + 1 by omega]; exact hk, h.first⟩

theorem Period.self {on : Nat → Bool} {k : Nat} (hk : on k = true) (hf : k = 0 ∨ on (k - 1) = false) : Period on k k :=
  ⟨Nat.le_refl k, fun x h1 h2 => by rw [show x = k by omega]; exact hk, hf⟩

/-! ### Running the model -/

theorem unit_factor {k : Reg} {u : Nat} (h : timeUnit k = some u) :
    ∃ f : W32, basetimeFactor k = .ok f ∧ f.toNat = u ∧ 0 < u := by
  cases k <;> simp [timeUnit, Reg.code] at h <;> subst h <;> exact ⟨_, rfl, by decide, by decide⟩

theorem elapsed_iff {now st : W64} {p f : W32} {preset unit : Nat} (hp : p.toNat = preset) (hf : f.toNat = unit)
    (ht : preset * unit < 2^32) : elapsed now st p f = decide (preset * unit ≤ since now st) := by
  unfold elapsed since
  rw [BitVec.toNat_setWidth, BitVec.toNat_mul, hp, hf, Nat.mod_eq_of_lt ht, Nat.mod_eq_of_lt (by omega)]

theorem accOf_toNat {now st : W64} {f : W32} : (accOf now st f).toNat = since now st / f.toNat % 65536 := by
  unfold accOf since
  simp only [BitVec.toNat_setWidth, BitVec.toNat_udiv]
  rw [Nat.mod_eq_of_lt (show f.toNat < 2^64 by omega)]
  omega

/-- Locations a timer instruction may change. -/
def timerAll (n r c i : Nat) : List Loc := timerLocs i ++ [.cell n r c, .cell n (r + 1) c]

section
variable {env : Env} {n r c i preset unit k : Nat} {l : Bool} {w0 w : World} {σ : Loc → Nat}

/-- The clock part of the timers: nothing when the timer is not running, otherwise the accumulator follows the clock
and the timer finishes when the preset has elapsed. -/
theorem timer_tail (hs : TimerSite w0.ctx n r c i preset unit l) (h : Track (timerAll n r c i) w0 w σ k) {d : Value}
    (hd : d.raw.toNat = i) :
    (σ (.Tr i) = 0 → (do timerRun env r c d.i32; timerDone env r c d.i32 : Op Unit) w = .ok ((), w)) ∧
    (σ (.Tr i) = 1 → preset * unit ≤ since (env.clock (k + 1)) (BitVec.ofNat 64 (σ (.stamp i))) →
      ∃ w', (do timerRun env r c d.i32; timerDone env r c d.i32 : Op Unit) w = .ok ((), w') ∧
        Track (timerAll n r c i) w0 w' (put (put (put σ (.Tr i) 0) (.Td i) 1) (.acc i) preset) (k + 2)) ∧
    (σ (.Tr i) = 1 → ¬ preset * unit ≤ since (env.clock (k + 1)) (BitVec.ofNat 64 (σ (.stamp i))) →
      ∃ w', (do timerRun env r c d.i32; timerDone env r c d.i32 : Op Unit) w = .ok ((), w') ∧
        Track (timerAll n r c i) w0 w'
          (put σ (.acc i) (since (env.clock k) (BitVec.ofNat 64 (σ (.stamp i))) / unit % 65536)) (k + 2)) := by
  obtain ⟨p, hp, hpv, hu⟩ := hs.limit
  obtain ⟨f, hf, hfu, hu0⟩ := unit_factor hu
  have hidx := hs.index
  subst hd
  have he := hs.site.exec
  have hTr : BArea.Tr.loc d.raw.toNat ∈ timerAll n r c d.raw.toNat := by simp [timerAll, timerLocs, BArea.loc]
  have hTd : BArea.Td.loc d.raw.toNat ∈ timerAll n r c d.raw.toNat := by simp [timerAll, timerLocs, BArea.loc]
  have hA : Loc.acc d.raw.toNat ∈ timerAll n r c d.raw.toNat := by simp [timerAll, timerLocs]
  have hS : Loc.stamp d.raw.toNat ∈ timerAll n r c d.raw.toNat := by simp [timerAll, timerLocs]
  refine ⟨fun h0 => ?_, fun h1 hel => ?_, fun h1 hel => ?_⟩
  · simp [timerRun, timerDone, h.getB (b := false) hidx hTr h0]
  all_goals
    have e1 := h.getB (b := true) hidx hTr h1
    obtain ⟨e2, h2⟩ := h.callMillis env hs.clock
    have e3 := h2.getTimer hidx hA hS
    have e4 := h2.getDataExec he hp
    obtain ⟨e5, h5⟩ := h2.setAcc hidx hA (accOf (env.clock k) (BitVec.ofNat 64 (σ (.stamp d.raw.toNat))) f)
    have e6 := h5.getB (b := true) hidx hTr (by rw [put_ne (by simp [BArea.loc])]; exact h1)
    obtain ⟨e7, h7⟩ := h5.callMillis env hs.clock
    have e8 := h7.getTimer hidx hA hS
    rw [put_ne (by simp)] at e8
    have e9 := h7.getDataExec he hp
    have hacc := accOf_toNat (now := env.clock k) (st := BitVec.ofNat 64 (σ (.stamp d.raw.toNat))) (f := f)
    rw [hfu] at hacc
    have hel' := elapsed_iff (now := env.clock (k + 1)) (st := BitVec.ofNat 64 (σ (.stamp d.raw.toNat))) hpv hfu hs.total
  · rw [decide_eq_true hel] at hel'
    obtain ⟨e10, h10⟩ := h7.setB hidx hTr false
    obtain ⟨e11, h11⟩ := h10.setB hidx hTd true
    obtain ⟨e12, h12⟩ := h11.setAcc hidx hA p.raw
    have hput : put (put (put (put σ (.acc d.raw.toNat)
          (accOf (env.clock k) (BitVec.ofNat 64 (σ (.stamp d.raw.toNat))) f).toNat)
          (BArea.Tr.loc d.raw.toNat) false.toNat) (BArea.Td.loc d.raw.toNat) true.toNat) (.acc d.raw.toNat) p.raw.toNat =
        put (put (put σ (.Tr d.raw.toNat) 0) (.Td d.raw.toNat) 1) (.acc d.raw.toNat) preset := by
      funext ℓ
      simp only [put, BArea.loc, hpv, Bool.toNat_false, Bool.toNat_true]
      by_cases hℓ : ℓ = .acc d.raw.toNat
      · simp [hℓ]
      · simp [hℓ]
    rw [hput] at h12
    exact ⟨_, by simp only [timerRun, timerDone, bind_apply, e1, if_true, e2, e3, e4, hf, lift_ok, e5, e6, e7, e8, e9,
        hel', e10, e11, e12], h12⟩
  · rw [decide_eq_false hel] at hel'
    have hput : put σ (.acc d.raw.toNat) (accOf (env.clock k) (BitVec.ofNat 64 (σ (.stamp d.raw.toNat))) f).toNat =
        put σ (.acc d.raw.toNat) (since (env.clock k) (BitVec.ofNat 64 (σ (.stamp d.raw.toNat))) / unit % 65536) := by
      rw [hacc]
    have h8 := hput ▸ h7
    exact ⟨_, by simp only [timerRun, timerDone, bind_apply, e1, if_true, e2, e3, e4, hf, lift_ok, e5, e6, e7, e8, e9,
        hel', Bool.false_eq_true, if_false, pure_apply], h8⟩

/-- Contents of the locations of a timer instruction at its start. -/
def startOf (w : World) : Loc → Nat := fun ℓ => (load w.ctx ℓ).getD 0

theorem startOf_eq {ℓ : Loc} {x : Nat} (h : load w.ctx ℓ = some x) : startOf w ℓ = x := by simp [startOf, h]

theorem TimerSite.start (hs : TimerSite w.ctx n r c i preset unit l) :
    Track (timerAll n r c i) w w (startOf w) w.tick := by
  refine Track.start hs.site.fits _ fun ℓ hℓ => ?_
  have : (load w.ctx ℓ).isSome := by
    simp only [timerAll, timerLocs, List.cons_append, List.nil_append, List.mem_cons, List.not_mem_nil, or_false] at hℓ
    rcases hℓ with rfl | rfl | rfl | rfl | rfl | rfl
    · obtain ⟨b, hb⟩ := hs.running; rw [hb]; rfl
    · obtain ⟨b, hb⟩ := hs.done; rw [hb]; rfl
    · exact hs.acc
    · exact hs.stamp
    · exact hs.site.cell
    · exact hs.below
  obtain ⟨x, hx⟩ := Option.isSome_iff_exists.1 this
  rw [hx, startOf_eq hx]

theorem left_not_own {n r c i : Nat} : c = 0 ∨ Loc.cell n r (c - 1) ∉ timerAll n r c i := by
  rcases Nat.eq_zero_or_pos c with h | h
  · exact .inl h
  · right
    simp only [timerAll, timerLocs, List.cons_append, List.nil_append, List.mem_cons, List.not_mem_nil, or_false,
      Loc.cell.injEq, reduceCtorEq, false_or]
    omega

/-- The outputs of a TON: the instruction's own row shows the done flag, the row below the running flag. -/
theorem ton_outputs (hs : TimerSite w0.ctx n r c i preset unit l) (h : Track (timerAll n r c i) w0 w σ k) {d : Value}
    (hd : d.raw.toNat = i) {tr td : Bool} (htr : σ (.Tr i) = tr.toNat) (htd : σ (.Td i) = td.toNat) :
    ∃ w', (do
        let tr ← getB .Tr d.i32
        setState (r + 1) c tr
        let td ← getB .Td d.i32
        setState r c td
        pure Err.ok : Op Err) w = .ok (.ok, w') ∧
      Track (timerAll n r c i) w0 w' (put (put σ (.cell n (r + 1) c) tr.toNat) (.cell n r c) td.toNat) k := by
  subst hd
  have hidx := hs.index
  have he := hs.site.exec
  have hTr : BArea.Tr.loc d.raw.toNat ∈ timerAll n r c d.raw.toNat := by simp [timerAll, timerLocs, BArea.loc]
  have hTd : BArea.Td.loc d.raw.toNat ∈ timerAll n r c d.raw.toNat := by simp [timerAll, timerLocs, BArea.loc]
  have e1 := h.getB (b := tr) hidx hTr htr
  obtain ⟨e2, h2⟩ := h.setState (r := r + 1) (c := c) he (by simp [timerAll]) tr
  have e3 := h2.getB (b := td) hidx hTd (by rw [put_ne (by simp [BArea.loc])]; exact htd)
  obtain ⟨e4, h4⟩ := h2.setState (r := r) (c := c) he (by simp [timerAll]) td
  exact ⟨_, by simp only [bind_apply, e1, e2, e3, e4, pure_apply], h4⟩

/-- The registers and outputs of a TON after an execution. -/
structure TonShows (ctx : Ctx) (n r c i : Nat) (tr td : Bool) (acc : Nat) : Prop where
  running : load ctx (.Tr i) = some tr.toNat
  done : load ctx (.Td i) = some td.toNat
  acc : load ctx (.acc i) = some acc
  out : load ctx (.cell n r c) = some td.toNat
  below : load ctx (.cell n (r + 1) c) = some tr.toNat

theorem tonShows_of {tr td : Bool} {acc : Nat}
    (h : Track (timerAll n r c i) w0 w (put (put σ (.cell n (r + 1) c) tr.toNat) (.cell n r c) td.toNat) k)
    (htr : σ (.Tr i) = tr.toNat) (htd : σ (.Td i) = td.toNat) (hacc : σ (.acc i) = acc) :
    TonShows w.ctx n r c i tr td acc := by
  constructor
  · rw [h.val _ (by simp [timerAll, timerLocs]), put_ne (by simp), put_ne (by simp), htr]
  · rw [h.val _ (by simp [timerAll, timerLocs]), put_ne (by simp), put_ne (by simp), htd]
  · rw [h.val _ (by simp [timerAll, timerLocs]), put_ne (by simp), put_ne (by simp), hacc]
  · rw [h.val _ (by simp [timerAll, timerLocs]), put_same]
  · rw [h.val _ (by simp [timerAll, timerLocs]), put_ne (by simp), put_same]

/-- TON without power: everything is cleared. -/
theorem ton_off (env : Env) (hs : TimerSite w.ctx n r c i preset unit false) :
    ∃ w', execIns env .TON r c w = .ok (.ok, w') ∧ Only w.ctx w'.ctx (timerAll n r c i) ∧ w'.trace = w.trace ∧
      w'.tick = w.tick ∧ TonShows w'.ctx n r c i false false 0 := by
  obtain ⟨d, hd, hdi⟩ := hs.timer
  have h := hs.start
  have he := hs.site.exec
  have hidx := hs.index
  subst hdi
  have hTr : BArea.Tr.loc d.raw.toNat ∈ timerAll n r c d.raw.toNat := by simp [timerAll, timerLocs, BArea.loc]
  have hTd : BArea.Td.loc d.raw.toNat ∈ timerAll n r c d.raw.toNat := by simp [timerAll, timerLocs, BArea.loc]
  have hA : Loc.acc d.raw.toNat ∈ timerAll n r c d.raw.toNat := by simp [timerAll, timerLocs]
  have e0 := hs.site.getLeft
  have e1 := h.getDataExec he hd
  obtain ⟨e2, h2⟩ := h.setAcc hidx hA 0
  obtain ⟨e3, h3⟩ := h2.setB hidx hTr false
  obtain ⟨e4, h4⟩ := h3.setB hidx hTd false
  have e5 := (timer_tail (env := env) hs h4 rfl).1 (by simp [put, BArea.loc])
  obtain ⟨w', e6, h6⟩ := ton_outputs hs h4 rfl (tr := false) (td := false) (by simp [put, BArea.loc]) (by simp [put, BArea.loc])
  refine ⟨w', ?_, h6.only, h6.trace, h6.tick, tonShows_of h6 (by simp [put, BArea.loc]) (by simp [put, BArea.loc])
    (by simp [put, BArea.loc])⟩
  obtain ⟨_, w1, e5a, e5b⟩ := bind_eq_ok.1 e5
  simp only [execIns, fnTON, bind_apply, e0, e1, Bool.not_false, if_true, e2, e3, e4, Bool.false_eq_true, if_false,
    pure_apply, e5a, e5b]
  exact e6

/-- TON with power after it has finished: it stays done. -/
theorem ton_hold (env : Env) (hs : TimerSite w.ctx n r c i preset unit true) (htr : load w.ctx (.Tr i) = some 0)
    (htd : load w.ctx (.Td i) = some 1) {acc : Nat} (hacc : load w.ctx (.acc i) = some acc) :
    ∃ w', execIns env .TON r c w = .ok (.ok, w') ∧ Only w.ctx w'.ctx (timerAll n r c i) ∧ w'.trace = w.trace ∧
      w'.tick = w.tick ∧ TonShows w'.ctx n r c i false true acc := by
  obtain ⟨d, hd, hdi⟩ := hs.timer
  have h := hs.start
  have he := hs.site.exec
  have hidx := hs.index
  subst hdi
  have hTd : BArea.Td.loc d.raw.toNat ∈ timerAll n r c d.raw.toNat := by simp [timerAll, timerLocs, BArea.loc]
  have e0 := hs.site.getLeft
  have e1 := h.getDataExec he hd
  have e2 := h.getB (b := true) hidx hTd (startOf_eq htd)
  have e5 := (timer_tail (env := env) hs h rfl).1 (startOf_eq htr)
  obtain ⟨w', e6, h6⟩ := ton_outputs hs h rfl (tr := false) (td := true) (startOf_eq htr) (startOf_eq htd)
  refine ⟨w', ?_, h6.only, h6.trace, h6.tick, tonShows_of h6 (startOf_eq htr) (startOf_eq htd) (startOf_eq hacc)⟩
  obtain ⟨_, w1, e5a, e5b⟩ := bind_eq_ok.1 e5
  simp only [execIns, fnTON, bind_apply, e0, e1, Bool.not_true, if_true, e2, Bool.false_eq_true, if_false,
    pure_apply, e5a, e5b]
  exact e6

/-- What happens to a running TON: `start` is when it was started, `t` and `t'` are the clock readings for the
accumulator and for the end. -/
def TonTimes (ctx : Ctx) (n r c i preset unit : Nat) (start t t' : W64) : Prop :=
  load ctx (.stamp i) = some start.toNat ∧
  if preset * unit ≤ since t' start then TonShows ctx n r c i false true preset
  else TonShows ctx n r c i true false (since t start / unit % 65536)

theorem ton_tail (hs : TimerSite w0.ctx n r c i preset unit true) (h : Track (timerAll n r c i) w0 w σ k) {d : Value}
    (hd : d.raw.toNat = i) (htr : σ (.Tr i) = 1) (htd : σ (.Td i) = 0) :
    ∃ w1 w2 w', timerRun env r c d.i32 w = .ok ((), w1) ∧ timerDone env r c d.i32 w1 = .ok ((), w2) ∧
      (do
        let tr ← getB .Tr d.i32
        setState (r + 1) c tr
        let td ← getB .Td d.i32
        setState r c td
        pure Err.ok : Op Err) w2 = .ok (.ok, w') ∧ Only w0.ctx w'.ctx (timerAll n r c i) ∧ w'.trace = w0.trace ∧
      w'.tick = k + 2 ∧
      TonTimes w'.ctx n r c i preset unit (BitVec.ofNat 64 (σ (.stamp i))) (env.clock k) (env.clock (k + 1)) := by
  have hst : σ (.stamp i) < 2^64 := load_lt (h.val (.stamp i) (by simp [timerAll, timerLocs]))
  by_cases hel : preset * unit ≤ since (env.clock (k + 1)) (BitVec.ofNat 64 (σ (.stamp i)))
  · obtain ⟨w2, e, h2⟩ := (timer_tail (env := env) hs h hd).2.1 htr hel
    obtain ⟨_, w1, ea, eb⟩ := bind_eq_ok.1 e
    obtain ⟨w', e6, h6⟩ := ton_outputs hs h2 hd (tr := false) (td := true) (by simp [put]) (by simp [put])
    refine ⟨w1, w2, w', ea, eb, e6, h6.only, h6.trace, h6.tick, ?_, ?_⟩
    · rw [h6.val _ (by simp [timerAll, timerLocs])]; simp [put]; omega
    · rw [if_pos hel]
      exact tonShows_of h6 (by simp [put]) (by simp [put]) (by simp [put])
  · obtain ⟨w2, e, h2⟩ := (timer_tail (env := env) hs h hd).2.2 htr hel
    obtain ⟨_, w1, ea, eb⟩ := bind_eq_ok.1 e
    obtain ⟨w', e6, h6⟩ := ton_outputs hs h2 hd (tr := true) (td := false) (by simp [put, htr]) (by simp [put, htd])
    refine ⟨w1, w2, w', ea, eb, e6, h6.only, h6.trace, h6.tick, ?_, ?_⟩
    · rw [h6.val _ (by simp [timerAll, timerLocs])]; simp [put]; omega
    · rw [if_neg hel]
      exact tonShows_of h6 (by simp [put, htr]) (by simp [put, htd]) (by simp [put])

/-- TON with power while running. -/
theorem ton_on (env : Env) (hs : TimerSite w.ctx n r c i preset unit true) (htr : load w.ctx (.Tr i) = some 1)
    (htd : load w.ctx (.Td i) = some 0) {start : W64} (hst : load w.ctx (.stamp i) = some start.toNat) :
    ∃ w', execIns env .TON r c w = .ok (.ok, w') ∧ Only w.ctx w'.ctx (timerAll n r c i) ∧ w'.trace = w.trace ∧
      w'.tick = w.tick + 2 ∧
      TonTimes w'.ctx n r c i preset unit start (env.clock w.tick) (env.clock (w.tick + 1)) := by
  obtain ⟨d, hd, hdi⟩ := hs.timer
  have h := hs.start
  have he := hs.site.exec
  have hidx := hs.index
  subst hdi
  have hTr : BArea.Tr.loc d.raw.toNat ∈ timerAll n r c d.raw.toNat := by simp [timerAll, timerLocs, BArea.loc]
  have hTd : BArea.Td.loc d.raw.toNat ∈ timerAll n r c d.raw.toNat := by simp [timerAll, timerLocs, BArea.loc]
  have e0 := hs.site.getLeft
  have e1 := h.getDataExec he hd
  have e2 := h.getB (b := false) hidx hTd (startOf_eq htd)
  have e3 := h.getB (b := true) hidx hTr (startOf_eq htr)
  obtain ⟨w1, w2, w', ea, eb, e6, ho, ht, hk, hT⟩ := ton_tail (env := env) hs h rfl (startOf_eq htr) (startOf_eq htd)
  rw [startOf_eq hst] at hT
  refine ⟨w', ?_, ho, ht, hk, by simpa using hT⟩
  simp only [execIns, fnTON, bind_apply, e0, e1, Bool.not_true, if_true, e2, e3, Bool.false_eq_true, if_false,
    pure_apply, ea, eb]
  exact e6

/-- TON with power that is neither running nor done: it starts. -/
theorem ton_start (env : Env) (hs : TimerSite w.ctx n r c i preset unit true) (htr : load w.ctx (.Tr i) = some 0)
    (htd : load w.ctx (.Td i) = some 0) :
    ∃ w', execIns env .TON r c w = .ok (.ok, w') ∧ Only w.ctx w'.ctx (timerAll n r c i) ∧ w'.trace = w.trace ∧
      w'.tick = w.tick + 3 ∧
      TonTimes w'.ctx n r c i preset unit (env.clock w.tick) (env.clock (w.tick + 1)) (env.clock (w.tick + 2)) := by
  obtain ⟨d, hd, hdi⟩ := hs.timer
  have h := hs.start
  have he := hs.site.exec
  have hidx := hs.index
  subst hdi
  have hTr : BArea.Tr.loc d.raw.toNat ∈ timerAll n r c d.raw.toNat := by simp [timerAll, timerLocs, BArea.loc]
  have hTd : BArea.Td.loc d.raw.toNat ∈ timerAll n r c d.raw.toNat := by simp [timerAll, timerLocs, BArea.loc]
  have hS : Loc.stamp d.raw.toNat ∈ timerAll n r c d.raw.toNat := by simp [timerAll, timerLocs]
  have e0 := hs.site.getLeft
  have e1 := h.getDataExec he hd
  have e2 := h.getB (b := false) hidx hTd (startOf_eq htd)
  have e3 := h.getB (b := false) hidx hTr (startOf_eq htr)
  obtain ⟨e4, h4⟩ := h.setB hidx hTr true
  obtain ⟨e5, h5⟩ := h4.callMillis env hs.clock
  obtain ⟨e6, h6⟩ := h5.setStamp hidx hS (env.clock w.tick)
  obtain ⟨w1, w2, w', ea, eb, e7, ho, ht, hk, hT⟩ := ton_tail (env := env) hs h6 rfl (by simp [put, BArea.loc])
    (by simp [put, BArea.loc]; exact startOf_eq htd)
  refine ⟨w', ?_, ho, ht, hk, by simpa using hT⟩
  simp only [execIns, fnTON, bind_apply, e0, e1, Bool.not_true, Bool.not_false, if_true, e2, e3, Bool.false_eq_true, if_false,
    pure_apply, e4, e5, e6, ea, eb]
  exact e7

end

/-! ### C18 -/

/-- The state of a TON after execution `k`: cleared without power; with power since execution `j`, done when the preset had
elapsed at some execution since then, and running otherwise. -/
theorem ton_invariant {env : Env} {n r c i preset unit N : Nat} {pre post : Nat → World} {power : Nat → Bool}
    (h : TimerRun env .TON n r c i preset unit N pre post power)
    (h0 : load (pre 0).ctx (.Tr i) = some 0 ∧ load (pre 0).ctx (.Td i) = some 0) :
    ∀ k < N,
      (power k = false → TonShows (post k).ctx n r c i false false 0) ∧
      (power k = true → ∃ j, Period power j k ∧
        (((∃ m, j ≤ m ∧ m ≤ k ∧ preset * unit ≤ since (checkTime env pre j m) (startTime env pre j)) ∧
            ∃ acc, TonShows (post k).ctx n r c i false true acc) ∨
          ((∀ m, j ≤ m → m ≤ k → ¬ preset * unit ≤ since (checkTime env pre j m) (startTime env pre j)) ∧
            load (post k).ctx (.stamp i) = some (startTime env pre j).toNat ∧
            ∃ acc, TonShows (post k).ctx n r c i true false acc))) := by
  intro k
  induction k with
  | zero =>
    intro hk
    have hs := h.site 0 hk
    constructor
    · intro hp
      rw [hp] at hs
      obtain ⟨w', e, -, -, -, hsh⟩ := ton_off env hs
      rw [h.exec 0 hk] at e; cases e
      exact hsh
    · intro hp
      rw [hp] at hs
      obtain ⟨w', e, -, -, -, hst, hT⟩ := ton_start env hs h0.1 h0.2
      rw [h.exec 0 hk] at e; cases e
      refine ⟨0, .self hp (.inl rfl), ?_⟩
      split at hT
      · exact .inl ⟨⟨0, Nat.le_refl _, Nat.le_refl _, by simpa [checkTime, startTime] using ‹_›⟩, _, hT⟩
      · refine .inr ⟨fun m _ hm => ?_, hst, _, hT⟩
        have hc : checkTime env pre 0 0 = env.clock ((pre 0).tick + 2) := by simp [checkTime]
        rw [show m = 0 by omega, hc]; assumption
  | succ k ih =>
    intro hk
    have hs := h.site (k + 1) hk
    obtain ⟨ihoff, ihon⟩ := ih (by omega)
    have hkeep := h.keep k hk
    have kTr := hkeep (.Tr i) (by simp [timerLocs])
    have kTd := hkeep (.Td i) (by simp [timerLocs])
    have kSt := hkeep (.stamp i) (by simp [timerLocs])
    have kAcc := hkeep (.acc i) (by simp [timerLocs])
    constructor
    · intro hp
      rw [hp] at hs
      obtain ⟨w', e, -, -, -, hsh⟩ := ton_off env hs
      rw [h.exec _ hk] at e; cases e
      exact hsh
    · intro hp
      rw [hp] at hs
      by_cases hpk : power k = true
      · obtain ⟨j, hj, hcase⟩ := ihon hpk
        refine ⟨j, hj.succ hp, ?_⟩
        rcases hcase with ⟨⟨m, hm1, hm2, hm3⟩, acc, hsh⟩ | ⟨hno, hst, acc, hsh⟩
        · left
          obtain ⟨w', e, -, -, -, hsh'⟩ := ton_hold env hs (kTr.trans hsh.running) (kTd.trans hsh.done) (kAcc.trans hsh.acc)
          rw [h.exec _ hk] at e; cases e
          exact ⟨⟨m, hm1, by omega, hm3⟩, _, hsh'⟩
        · obtain ⟨w', e, -, -, -, hst', hT⟩ := ton_on env hs (kTr.trans hsh.running) (kTd.trans hsh.done) (kSt.trans hst)
          rw [h.exec _ hk] at e; cases e
          have hne : ¬ k + 1 = j := by have := hj.le; omega
          have hc : checkTime env pre j (k + 1) = env.clock ((pre (k + 1)).tick + 1) := by simp [checkTime, hne]
          split at hT
          · left
            refine ⟨⟨k + 1, Nat.le_succ_of_le hj.le, Nat.le_refl _, ?_⟩, _, hT⟩
            rw [hc]; assumption
          · right
            refine ⟨fun m h1 h2 => ?_, hst', _, hT⟩
            rcases Nat.lt_or_ge m (k + 1) with hx | hx
            · exact hno m h1 (by omega)
            · rw [show m = k + 1 by omega, hc]; assumption
      · have hpk' : power k = false := by simpa using hpk
        have hsh := ihoff hpk'
        obtain ⟨w', e, -, -, -, hst, hT⟩ := ton_start env hs (kTr.trans hsh.running) (kTd.trans hsh.done)
        rw [h.exec _ hk] at e; cases e
        refine ⟨k + 1, .self hp (.inr hpk'), ?_⟩
        have hc : checkTime env pre (k + 1) (k + 1) = env.clock ((pre (k + 1)).tick + 2) := by simp [checkTime]
        split at hT
        · exact .inl ⟨⟨k + 1, Nat.le_refl _, Nat.le_refl _, by rw [hc]; assumption⟩, _, hT⟩
        · refine .inr ⟨fun m h1 hm => ?_, hst, _, hT⟩
          rw [show m = k + 1 by omega, hc]; assumption

/-- C18: over any number of executions, starting with a cleared timer, the output of a TON is on after an execution exactly
when, at that or an earlier execution of the current powered period, the time since the first execution of the period had
reached the preset; so it never comes early, is not lost and stays while powered. -/
theorem C18_TON_done {env : Env} {n r c i preset unit N : Nat} {pre post : Nat → World} {power : Nat → Bool}
    (h : TimerRun env .TON n r c i preset unit N pre post power)
    (h0 : load (pre 0).ctx (.Tr i) = some 0 ∧ load (pre 0).ctx (.Td i) = some 0) (k : Nat) (hk : k < N) :
    ∃ out : Bool, load (post k).ctx (.cell n r c) = some out.toNat ∧ load (post k).ctx (.Td i) = some out.toNat ∧
      (out = true ↔ ∃ j m, Period power j k ∧ j ≤ m ∧ m ≤ k ∧
        preset * unit ≤ since (checkTime env pre j m) (startTime env pre j)) := by
  obtain ⟨hoff, hon⟩ := ton_invariant h h0 k hk
  cases hp : power k with
  | false =>
    have hsh := hoff hp
    refine ⟨false, hsh.out, hsh.done, by simp, ?_⟩
    rintro ⟨j, m, hj, -⟩
    rw [hj.all k hj.le (Nat.le_refl k)] at hp; cases hp
  | true =>
    obtain ⟨j, hj, ⟨⟨m, h1, h2, h3⟩, acc, hsh⟩ | ⟨hno, -, acc, hsh⟩⟩ := hon hp
    · exact ⟨true, hsh.out, hsh.done, fun _ => ⟨j, m, hj, h1, h2, h3⟩, fun _ => rfl⟩
    · refine ⟨false, hsh.out, hsh.done, by simp, ?_⟩
      rintro ⟨j', m, hj', h1, h2, h3⟩
      have := hj.unique hj'
      subst this
      exact absurd h3 (hno m h1 h2)

/-- C18: without power a TON is cleared: accumulator, flags and both outputs. -/
theorem C18_TON_unpowered {env : Env} {n r c i preset unit N : Nat} {pre post : Nat → World} {power : Nat → Bool}
    (h : TimerRun env .TON n r c i preset unit N pre post power) (k : Nat) (hk : k < N) (hp : power k = false) :
    load (post k).ctx (.cell n r c) = some 0 ∧ load (post k).ctx (.cell n (r + 1) c) = some 0 ∧
      load (post k).ctx (.Td i) = some 0 ∧ load (post k).ctx (.Tr i) = some 0 ∧ load (post k).ctx (.acc i) = some 0 := by
  have hs := h.site k hk
  rw [hp] at hs
  obtain ⟨w', e, -, -, -, hsh⟩ := ton_off env hs
  rw [h.exec _ hk] at e; cases e
  exact ⟨hsh.out, hsh.below, hsh.done, hsh.running, hsh.acc⟩

/-- C18: an execution of a TON never faults, calls nothing but the clock and changes nothing but the timer's registers and
its two cells. -/
theorem C18_TON_frame (env : Env) {w : World} {n r c i preset unit : Nat} {l tr td : Bool}
    (hs : TimerSite w.ctx n r c i preset unit l) (htr : load w.ctx (.Tr i) = some tr.toNat)
    (htd : load w.ctx (.Td i) = some td.toNat) (hnot : ¬ (tr = true ∧ td = true)) :
    ∃ w', execIns env .TON r c w = .ok (.ok, w') ∧
      Only w.ctx w'.ctx [.Tr i, .Td i, .acc i, .stamp i, .cell n r c, .cell n (r + 1) c] ∧ w'.trace = w.trace := by
  cases l with
  | false =>
    obtain ⟨w', e, ho, ht, -⟩ := ton_off env hs
    exact ⟨w', e, ho, ht⟩
  | true =>
    obtain ⟨acc, hacc⟩ := Option.isSome_iff_exists.1 hs.acc
    obtain ⟨st, hst⟩ := Option.isSome_iff_exists.1 hs.stamp
    have hlt : st < 2^64 := load_lt hst
    cases tr with
    | true =>
      cases td with
      | true => simp at hnot
      | false =>
        obtain ⟨w', e, ho, ht, -⟩ := ton_on env hs htr htd (start := BitVec.ofNat 64 st)
          (by rw [hst, BitVec.toNat_ofNat, Nat.mod_eq_of_lt hlt])
        exact ⟨w', e, ho, ht⟩
    | false =>
      cases td with
      | true =>
        obtain ⟨w', e, ho, ht, -⟩ := ton_hold env hs htr htd hacc
        exact ⟨w', e, ho, ht⟩
      | false =>
        obtain ⟨w', e, ho, ht, -⟩ := ton_start env hs htr htd
        exact ⟨w', e, ho, ht⟩

/-- A timer instruction at the left rail on timer 0, with the given preset in milliseconds. -/
def demoTimer (code : Ins) (preset : Nat) : World :=
  Demo.world [Demo.net [[Demo.ins code [Demo.op .T 0, Demo.op .NONE preset]], [Demo.ins .MULTI []]]]

/-- The world after an execution that succeeds. -/
def after (code : Ins) (r c : Nat) (w : World) : World :=
  match execIns Demo.env code r c w with
  | .ok (_, w') => w'
  | .error _ => w

/-- Worlds before the executions when nothing happens in between. -/
def demoPre (code : Ins) (r c : Nat) (w : World) : Nat → World
  | 0 => w
  | k + 1 => after code r c (demoPre code r c w k)

theorem demoTimer_site (code : Ins) (preset : Nat) (h : preset < 2^32) : TimerSite (demoTimer code preset).ctx 0 0 0 0 preset 1 true where
  site := ⟨Demo.fits _ rfl, rfl, rfl, rfl⟩
  below := rfl
  timer := ⟨_, rfl, rfl⟩
  index := by decide
  limit := ⟨_, rfl, by simp [Demo.op]; omega, rfl⟩
  total := by omega
  clock := rfl
  running := ⟨false, rfl⟩
  done := ⟨false, rfl⟩
  acc := rfl
  stamp := rfl

/-- Two executions of a TON with a preset of 35 ms: the hypotheses of the theorems are met, and the output is off after the
first (20 ms after the start) and on after the second (40 ms). -/
example : TimerRun Demo.env .TON 0 0 0 0 35 1 2 (demoPre .TON 0 0 (demoTimer .TON 35))
      (fun k => after .TON 0 0 (demoPre .TON 0 0 (demoTimer .TON 35) k)) (fun _ => true) ∧
    load (demoPre .TON 0 0 (demoTimer .TON 35) 0).ctx (.Tr 0) = some 0 ∧
    load (demoPre .TON 0 0 (demoTimer .TON 35) 0).ctx (.Td 0) = some 0 ∧
    load (demoPre .TON 0 0 (demoTimer .TON 35) 1).ctx (.cell 0 0 0) = some 0 ∧
    load (demoPre .TON 0 0 (demoTimer .TON 35) 2).ctx (.cell 0 0 0) = some 1 := by
  refine ⟨⟨?_, ?_, fun _ _ _ _ => rfl⟩, rfl, rfl, rfl, rfl⟩
  · intro k hk
    match k, hk with
    | 0, _ => exact demoTimer_site .TON 35 (by decide)
    | 1, _ =>
      exact ⟨⟨Demo.fits_of rfl, rfl, rfl, rfl⟩, rfl, ⟨_, rfl, rfl⟩, by decide, ⟨_, rfl, rfl, rfl⟩, by decide, rfl,
        ⟨true, rfl⟩, ⟨false, rfl⟩, rfl, rfl⟩
  · intro k hk
    match k, hk with
    | 0, _ => rfl
    | 1, _ => rfl

/-! ### C19 -/

section
variable {env : Env} {n r c i preset unit k : Nat} {l : Bool} {w0 w : World} {σ : Loc → Nat}

/-- The registers and outputs of a TOF after an execution: its own row shows the output, the row below the running flag. -/
structure TofShows (ctx : Ctx) (n r c i : Nat) (tr td out : Bool) : Prop where
  running : load ctx (.Tr i) = some tr.toNat
  done : load ctx (.Td i) = some td.toNat
  out : load ctx (.cell n r c) = some out.toNat
  below : load ctx (.cell n (r + 1) c) = some tr.toNat

/-- The outputs of a TOF. -/
theorem tof_outputs (hs : TimerSite w0.ctx n r c i preset unit l) (h : Track (timerAll n r c i) w0 w σ k) {d : Value}
    (hd : d.raw.toNat = i) {tr td : Bool} (htr : σ (.Tr i) = tr.toNat) (htd : σ (.Td i) = td.toNat) :
    ∃ w', (do
        let tr ← getB .Tr d.i32
        setState (r + 1) c tr
        let l' ← getLeft r c
        let s ← if l' then pure true else getB .Tr d.i32
        setState r c s
        pure Err.ok : Op Err) w = .ok (.ok, w') ∧ Only w0.ctx w'.ctx (timerAll n r c i) ∧ w'.trace = w0.trace ∧
      w'.tick = k ∧ load w'.ctx (.stamp i) = some (σ (.stamp i)) ∧ TofShows w'.ctx n r c i tr td (l || tr) := by
  subst hd
  have hidx := hs.index
  have he := hs.site.exec
  have hTr : BArea.Tr.loc d.raw.toNat ∈ timerAll n r c d.raw.toNat := by simp [timerAll, timerLocs, BArea.loc]
  have e1 := h.getB (b := tr) hidx hTr htr
  obtain ⟨e2, h2⟩ := h.setState (r := r + 1) (c := c) he (by simp [timerAll]) tr
  have e3 := h2.getLeft he hs.site.left left_not_own
  have e4 := h2.getB (b := tr) hidx hTr (by rw [put_ne (by simp [BArea.loc])]; exact htr)
  obtain ⟨e5, h5⟩ := h2.setState (r := r) (c := c) he (by simp [timerAll]) (l || tr)
  refine ⟨_, ?_, h5.only, h5.trace, h5.tick, ?_, ?_, ?_, ?_, ?_⟩
  rotate_right
  · rw [h5.val _ (by simp [timerAll, timerLocs]), put_ne (by simp), put_same]
  · cases l with
    | true =>
      simp only [Bool.true_or] at e5
      simp only [bind_apply, e1, e2, e3, if_true, pure_apply, e5, Bool.true_or]
    | false =>
      simp only [Bool.false_or] at e5
      simp only [bind_apply, e1, e2, e3, Bool.false_eq_true, if_false, e4, pure_apply, e5, Bool.false_or]
  · rw [h5.val _ (by simp [timerAll, timerLocs]), put_ne (by simp), put_ne (by simp)]
  · rw [h5.val _ (by simp [timerAll, timerLocs]), put_ne (by simp), put_ne (by simp), htr]
  · rw [h5.val _ (by simp [timerAll, timerLocs]), put_ne (by simp), put_ne (by simp), htd]
  · rw [h5.val _ (by simp [timerAll, timerLocs]), put_same]

/-- TOF with power: cleared, and on. -/
theorem tof_on (env : Env) (hs : TimerSite w.ctx n r c i preset unit true) :
    ∃ w', execIns env .TOF r c w = .ok (.ok, w') ∧ Only w.ctx w'.ctx (timerAll n r c i) ∧ w'.trace = w.trace ∧
      w'.tick = w.tick ∧ TofShows w'.ctx n r c i false false true := by
  obtain ⟨d, hd, hdi⟩ := hs.timer
  have h := hs.start
  have he := hs.site.exec
  have hidx := hs.index
  subst hdi
  have hTr : BArea.Tr.loc d.raw.toNat ∈ timerAll n r c d.raw.toNat := by simp [timerAll, timerLocs, BArea.loc]
  have hTd : BArea.Td.loc d.raw.toNat ∈ timerAll n r c d.raw.toNat := by simp [timerAll, timerLocs, BArea.loc]
  have hA : Loc.acc d.raw.toNat ∈ timerAll n r c d.raw.toNat := by simp [timerAll, timerLocs]
  have e0 := hs.site.getLeft
  have e1 := h.getDataExec he hd
  obtain ⟨e2, h2⟩ := h.setAcc hidx hA 0
  obtain ⟨e3, h3⟩ := h2.setB hidx hTr false
  obtain ⟨e4, h4⟩ := h3.setB hidx hTd false
  obtain ⟨w', e6, ho, ht, hk, -, hsh⟩ := tof_outputs hs h4 rfl (tr := false) (td := false) (by simp [put, BArea.loc])
    (by simp [put, BArea.loc])
  refine ⟨w', ?_, ho, ht, hk, hsh⟩
  simp only [execIns, fnTOF, bind_apply, e0, e1, if_true, e2, e3, e4]
  exact e6

/-- TOF without power after its time has run out. -/
theorem tof_hold (env : Env) (hs : TimerSite w.ctx n r c i preset unit false) (htr : load w.ctx (.Tr i) = some 0)
    (htd : load w.ctx (.Td i) = some 1) :
    ∃ w', execIns env .TOF r c w = .ok (.ok, w') ∧ Only w.ctx w'.ctx (timerAll n r c i) ∧ w'.trace = w.trace ∧
      w'.tick = w.tick ∧ TofShows w'.ctx n r c i false true false := by
  obtain ⟨d, hd, hdi⟩ := hs.timer
  have h := hs.start
  have he := hs.site.exec
  have hidx := hs.index
  subst hdi
  have hTr : BArea.Tr.loc d.raw.toNat ∈ timerAll n r c d.raw.toNat := by simp [timerAll, timerLocs, BArea.loc]
  have hTd : BArea.Td.loc d.raw.toNat ∈ timerAll n r c d.raw.toNat := by simp [timerAll, timerLocs, BArea.loc]
  have e0 := hs.site.getLeft
  have e1 := h.getDataExec he hd
  have e2 := h.getB (b := false) hidx hTr (startOf_eq htr)
  have e3 := h.getB (b := true) hidx hTd (startOf_eq htd)
  have e5 := (timer_tail (env := env) hs h rfl).1 (startOf_eq htr)
  obtain ⟨w', e6, ho, ht, hk, -, hsh⟩ := tof_outputs hs h rfl (tr := false) (td := true) (startOf_eq htr) (startOf_eq htd)
  refine ⟨w', ?_, ho, ht, hk, hsh⟩
  obtain ⟨_, w1, e5a, e5b⟩ := bind_eq_ok.1 e5
  simp only [execIns, fnTOF, bind_apply, e0, e1, Bool.not_true, e2, e3, Bool.false_eq_true, if_false,
    pure_apply, e5a, e5b]
  simpa only [bind_apply, e2, pure_apply] using e6

/-- What happens to a running TOF. -/
def TofTimes (ctx : Ctx) (n r c i preset unit : Nat) (start t' : W64) : Prop :=
  load ctx (.stamp i) = some start.toNat ∧
  if preset * unit ≤ since t' start then TofShows ctx n r c i false true false else TofShows ctx n r c i true false true

theorem tof_tail (hs : TimerSite w0.ctx n r c i preset unit false) (h : Track (timerAll n r c i) w0 w σ k) {d : Value}
    (hd : d.raw.toNat = i) (htr : σ (.Tr i) = 1) (htd : σ (.Td i) = 0) :
    ∃ w1 w2 w', timerRun env r c d.i32 w = .ok ((), w1) ∧ timerDone env r c d.i32 w1 = .ok ((), w2) ∧
      (do
        let tr ← getB .Tr d.i32
        setState (r + 1) c tr
        let l' ← getLeft r c
        let s ← if l' then pure true else getB .Tr d.i32
        setState r c s
        pure Err.ok : Op Err) w2 = .ok (.ok, w') ∧ Only w0.ctx w'.ctx (timerAll n r c i) ∧ w'.trace = w0.trace ∧
      w'.tick = k + 2 ∧ TofTimes w'.ctx n r c i preset unit (BitVec.ofNat 64 (σ (.stamp i))) (env.clock (k + 1)) := by
  have hst : σ (.stamp i) < 2^64 := load_lt (h.val (.stamp i) (by simp [timerAll, timerLocs]))
  by_cases hel : preset * unit ≤ since (env.clock (k + 1)) (BitVec.ofNat 64 (σ (.stamp i)))
  · obtain ⟨w2, e, h2⟩ := (timer_tail (env := env) hs h hd).2.1 htr hel
    obtain ⟨_, w1, ea, eb⟩ := bind_eq_ok.1 e
    obtain ⟨w', e6, ho, ht, hk, hst', hsh⟩ := tof_outputs hs h2 hd (tr := false) (td := true) (by simp [put]) (by simp [put])
    refine ⟨w1, w2, w', ea, eb, e6, ho, ht, hk, ?_, ?_⟩
    · rw [hst']; simp [put]; omega
    · rw [if_pos hel]; exact hsh
  · obtain ⟨w2, e, h2⟩ := (timer_tail (env := env) hs h hd).2.2 htr hel
    obtain ⟨_, w1, ea, eb⟩ := bind_eq_ok.1 e
    obtain ⟨w', e6, ho, ht, hk, hst', hsh⟩ := tof_outputs hs h2 hd (tr := true) (td := false) (by simp [put, htr]) (by simp [put, htd])
    refine ⟨w1, w2, w', ea, eb, e6, ho, ht, hk, ?_, ?_⟩
    · rw [hst']; simp [put]; omega
    · rw [if_neg hel]; exact hsh

/-- TOF without power while its time is running. -/
theorem tof_run (env : Env) (hs : TimerSite w.ctx n r c i preset unit false) (htr : load w.ctx (.Tr i) = some 1)
    (htd : load w.ctx (.Td i) = some 0) {start : W64} (hst : load w.ctx (.stamp i) = some start.toNat) :
    ∃ w', execIns env .TOF r c w = .ok (.ok, w') ∧ Only w.ctx w'.ctx (timerAll n r c i) ∧ w'.trace = w.trace ∧
      w'.tick = w.tick + 2 ∧ TofTimes w'.ctx n r c i preset unit start (env.clock (w.tick + 1)) := by
  obtain ⟨d, hd, hdi⟩ := hs.timer
  have h := hs.start
  have he := hs.site.exec
  have hidx := hs.index
  subst hdi
  have hTr : BArea.Tr.loc d.raw.toNat ∈ timerAll n r c d.raw.toNat := by simp [timerAll, timerLocs, BArea.loc]
  have e0 := hs.site.getLeft
  have e1 := h.getDataExec he hd
  have e3 := h.getB (b := true) hidx hTr (startOf_eq htr)
  obtain ⟨w1, w2, w', ea, eb, e6, ho, ht, hk, hT⟩ := tof_tail (env := env) hs h rfl (startOf_eq htr) (startOf_eq htd)
  rw [startOf_eq hst] at hT
  refine ⟨w', ?_, ho, ht, hk, by simpa using hT⟩
  simp only [execIns, fnTOF, bind_apply, e0, e1, if_true, e3, Bool.false_eq_true, if_false, pure_apply, ea, eb]
  exact e6

/-- TOF without power that is neither running nor done: its time starts. -/
theorem tof_start (env : Env) (hs : TimerSite w.ctx n r c i preset unit false) (htr : load w.ctx (.Tr i) = some 0)
    (htd : load w.ctx (.Td i) = some 0) :
    ∃ w', execIns env .TOF r c w = .ok (.ok, w') ∧ Only w.ctx w'.ctx (timerAll n r c i) ∧ w'.trace = w.trace ∧
      w'.tick = w.tick + 3 ∧ TofTimes w'.ctx n r c i preset unit (env.clock w.tick) (env.clock (w.tick + 2)) := by
  obtain ⟨d, hd, hdi⟩ := hs.timer
  have h := hs.start
  have he := hs.site.exec
  have hidx := hs.index
  subst hdi
  have hTr : BArea.Tr.loc d.raw.toNat ∈ timerAll n r c d.raw.toNat := by simp [timerAll, timerLocs, BArea.loc]
  have hTd : BArea.Td.loc d.raw.toNat ∈ timerAll n r c d.raw.toNat := by simp [timerAll, timerLocs, BArea.loc]
  have hS : Loc.stamp d.raw.toNat ∈ timerAll n r c d.raw.toNat := by simp [timerAll, timerLocs]
  have e0 := hs.site.getLeft
  have e1 := h.getDataExec he hd
  have e2 := h.getB (b := false) hidx hTd (startOf_eq htd)
  have e3 := h.getB (b := false) hidx hTr (startOf_eq htr)
  obtain ⟨e4, h4⟩ := h.setB hidx hTr true
  obtain ⟨e5, h5⟩ := h4.callMillis env hs.clock
  obtain ⟨e6, h6⟩ := h5.setStamp hidx hS (env.clock w.tick)
  obtain ⟨w1, w2, w', ea, eb, e7, ho, ht, hk, hT⟩ := tof_tail (env := env) hs h6 rfl (by simp [put, BArea.loc])
    (by simp [put, BArea.loc]; exact startOf_eq htd)
  refine ⟨w', ?_, ho, ht, hk, by simpa using hT⟩
  simp only [execIns, fnTOF, bind_apply, e0, e1, Bool.not_false, if_true, e2, e3, Bool.false_eq_true, if_false,
    pure_apply, e4, e5, e6, ea, eb]
  exact e7

end

/-- The state of a TOF after execution `k`. -/
theorem tof_invariant {env : Env} {n r c i preset unit N : Nat} {pre post : Nat → World} {power : Nat → Bool}
    (h : TimerRun env .TOF n r c i preset unit N pre post power)
    (h0 : load (pre 0).ctx (.Tr i) = some 0 ∧ load (pre 0).ctx (.Td i) = some 0) :
    ∀ k < N,
      (power k = true → TofShows (post k).ctx n r c i false false true) ∧
      (power k = false → ∃ j, Period (fun x => !power x) j k ∧
        (((∃ m, j ≤ m ∧ m ≤ k ∧ preset * unit ≤ since (checkTime env pre j m) (startTime env pre j)) ∧
            TofShows (post k).ctx n r c i false true false) ∨
          ((∀ m, j ≤ m → m ≤ k → ¬ preset * unit ≤ since (checkTime env pre j m) (startTime env pre j)) ∧
            load (post k).ctx (.stamp i) = some (startTime env pre j).toNat ∧
            TofShows (post k).ctx n r c i true false true))) := by
  intro k
  induction k with
  | zero =>
    intro hk
    have hs := h.site 0 hk
    constructor
    · intro hp
      rw [hp] at hs
      obtain ⟨w', e, -, -, -, hsh⟩ := tof_on env hs
      rw [h.exec 0 hk] at e; cases e
      exact hsh
    · intro hp
      rw [hp] at hs
      obtain ⟨w', e, -, -, -, hst, hT⟩ := tof_start env hs h0.1 h0.2
      rw [h.exec 0 hk] at e; cases e
      refine ⟨0, .self (by simp [hp]) (.inl rfl), ?_⟩
      have hc : checkTime env pre 0 0 = env.clock ((pre 0).tick + 2) := by simp [checkTime]
      split at hT
      · exact .inl ⟨⟨0, Nat.le_refl _, Nat.le_refl _, by rw [hc]; assumption⟩, hT⟩
      · refine .inr ⟨fun m _ hm => ?_, hst, hT⟩
        rw [show m = 0 by omega, hc]; assumption
  | succ k ih =>
    intro hk
    have hs := h.site (k + 1) hk
    obtain ⟨ihon, ihoff⟩ := ih (by omega)
    have hkeep := h.keep k hk
    have kTr := hkeep (.Tr i) (by simp [timerLocs])
    have kTd := hkeep (.Td i) (by simp [timerLocs])
    have kSt := hkeep (.stamp i) (by simp [timerLocs])
    constructor
    · intro hp
      rw [hp] at hs
      obtain ⟨w', e, -, -, -, hsh⟩ := tof_on env hs
      rw [h.exec _ hk] at e; cases e
      exact hsh
    · intro hp
      rw [hp] at hs
      cases hpk : power k with
      | false =>
        obtain ⟨j, hj, hcase⟩ := ihoff hpk
        refine ⟨j, hj.succ (by simp [hp]), ?_⟩
        rcases hcase with ⟨⟨m, hm1, hm2, hm3⟩, hsh⟩ | ⟨hno, hst, hsh⟩
        · left
          obtain ⟨w', e, -, -, -, hsh'⟩ := tof_hold env hs (kTr.trans hsh.running) (kTd.trans hsh.done)
          rw [h.exec _ hk] at e; cases e
          exact ⟨⟨m, hm1, by omega, hm3⟩, hsh'⟩
        · obtain ⟨w', e, -, -, -, hst', hT⟩ := tof_run env hs (kTr.trans hsh.running) (kTd.trans hsh.done) (kSt.trans hst)
          rw [h.exec _ hk] at e; cases e
          have hne : ¬ k + 1 = j := by have := hj.le; omega
          have hc : checkTime env pre j (k + 1) = env.clock ((pre (k + 1)).tick + 1) := by simp [checkTime, hne]
          split at hT
          · left
            refine ⟨⟨k + 1, Nat.le_succ_of_le hj.le, Nat.le_refl _, ?_⟩, hT⟩
            rw [hc]; assumption
          · right
            refine ⟨fun m h1 h2 => ?_, hst', hT⟩
            rcases Nat.lt_or_ge m (k + 1) with hx | hx
            · exact hno m h1 (by omega)
            · rw [show m = k + 1 by omega, hc]; assumption
      | true =>
        have hsh := ihon hpk
        obtain ⟨w', e, -, -, -, hst, hT⟩ := tof_start env hs (kTr.trans hsh.running) (kTd.trans hsh.done)
        rw [h.exec _ hk] at e; cases e
        refine ⟨k + 1, .self (by simp [hp]) (.inr (by simp [hpk])), ?_⟩
        have hc : checkTime env pre (k + 1) (k + 1) = env.clock ((pre (k + 1)).tick + 2) := by simp [checkTime]
        split at hT
        · exact .inl ⟨⟨k + 1, Nat.le_refl _, Nat.le_refl _, by rw [hc]; assumption⟩, hT⟩
        · refine .inr ⟨fun m h1 hm => ?_, hst, hT⟩
          rw [show m = k + 1 by omega, hc]; assumption

/-- C19: over any number of executions, starting with a cleared timer, the output of a TOF is on after an execution exactly
when it is powered, or when at no execution of the current unpowered period so far the time since the first execution of
that period had reached the preset.  (An unpowered period at the very beginning counts: the output is on until the preset
has elapsed since the first execution.) -/
theorem C19_TOF {env : Env} {n r c i preset unit N : Nat} {pre post : Nat → World} {power : Nat → Bool}
    (h : TimerRun env .TOF n r c i preset unit N pre post power)
    (h0 : load (pre 0).ctx (.Tr i) = some 0 ∧ load (pre 0).ctx (.Td i) = some 0) (k : Nat) (hk : k < N) :
    ∃ out : Bool, load (post k).ctx (.cell n r c) = some out.toNat ∧
      (out = true ↔ power k = true ∨ ∃ j, Period (fun x => !power x) j k ∧
        ∀ m, j ≤ m → m ≤ k → since (checkTime env pre j m) (startTime env pre j) < preset * unit) := by
  obtain ⟨hon, hoff⟩ := tof_invariant h h0 k hk
  cases hp : power k with
  | true => exact ⟨true, (hon hp).out, fun _ => .inl rfl, fun _ => rfl⟩
  | false =>
    obtain ⟨j, hj, ⟨⟨m, h1, h2, h3⟩, hsh⟩ | ⟨hno, -, hsh⟩⟩ := hoff hp
    · refine ⟨false, hsh.out, by simp, ?_⟩
      rintro (hf | ⟨j', hj', hall⟩)
      · cases hf
      · have := hj.unique hj'
        subst this
        have := hall m h1 h2
        omega
    · exact ⟨true, hsh.out, fun _ => .inr ⟨j, hj, fun m h1 h2 => by have := hno m h1 h2; omega⟩, fun _ => rfl⟩

/-- C19: an execution of a TOF never faults, calls nothing but the clock and changes nothing but the timer's registers and
its two cells. -/
theorem C19_TOF_frame (env : Env) {w : World} {n r c i preset unit : Nat} {l tr td : Bool}
    (hs : TimerSite w.ctx n r c i preset unit l) (htr : load w.ctx (.Tr i) = some tr.toNat)
    (htd : load w.ctx (.Td i) = some td.toNat) (hnot : ¬ (tr = true ∧ td = true)) :
    ∃ w', execIns env .TOF r c w = .ok (.ok, w') ∧
      Only w.ctx w'.ctx [.Tr i, .Td i, .acc i, .stamp i, .cell n r c, .cell n (r + 1) c] ∧ w'.trace = w.trace := by
  cases l with
  | true =>
    obtain ⟨w', e, ho, ht, -⟩ := tof_on env hs
    exact ⟨w', e, ho, ht⟩
  | false =>
    obtain ⟨st, hst⟩ := Option.isSome_iff_exists.1 hs.stamp
    have hlt : st < 2^64 := load_lt hst
    cases tr with
    | true =>
      cases td with
      | true => simp at hnot
      | false =>
        obtain ⟨w', e, ho, ht, -⟩ := tof_run env hs htr htd (start := BitVec.ofNat 64 st)
          (by rw [hst, BitVec.toNat_ofNat, Nat.mod_eq_of_lt hlt])
        exact ⟨w', e, ho, ht⟩
    | false =>
      cases td with
      | true =>
        obtain ⟨w', e, ho, ht, -⟩ := tof_hold env hs htr htd
        exact ⟨w', e, ho, ht⟩
      | false =>
        obtain ⟨w', e, ho, ht, -⟩ := tof_start env hs htr htd
        exact ⟨w', e, ho, ht⟩

/-! ### C20 -/

/-- `TimerSite` for an instruction whose timer operand is of the timer kind. -/
structure PulseSite (ctx : Ctx) (n r c i preset unit : Nat) (l : Bool) : Prop extends TimerSite ctx n r c i preset unit l where
  kind : ∃ d, operand? ctx n r c 0 = some d ∧ d.type = .T

/-- The outputs and registers of a TP after an execution: both rows show the running flag. -/
structure TpShows (ctx : Ctx) (n r c i : Nat) (tr : Bool) : Prop where
  running : load ctx (.Tr i) = some tr.toNat
  out : load ctx (.cell n r c) = some tr.toNat
  below : load ctx (.cell n (r + 1) c) = some tr.toNat

section
variable {env : Env} {n r c i preset unit k : Nat} {l : Bool} {w0 w : World} {σ : Loc → Nat}

theorem tp_outputs (hs : TimerSite w0.ctx n r c i preset unit l) (h : Track (timerAll n r c i) w0 w σ k) {d : Value}
    (hd : d.raw.toNat = i) {tr : Bool} (htr : σ (.Tr i) = tr.toNat) :
    ∃ w', (do
        let tr ← getB .Tr d.i32
        setState (r + 1) c tr
        let tr' ← getB .Tr d.i32
        setState r c tr'
        pure Err.ok : Op Err) w = .ok (.ok, w') ∧ Only w0.ctx w'.ctx (timerAll n r c i) ∧ w'.trace = w0.trace ∧
      w'.tick = k ∧ load w'.ctx (.stamp i) = some (σ (.stamp i)) ∧ load w'.ctx (.acc i) = some (σ (.acc i)) ∧
      TpShows w'.ctx n r c i tr := by
  subst hd
  have hidx := hs.index
  have he := hs.site.exec
  have hTr : BArea.Tr.loc d.raw.toNat ∈ timerAll n r c d.raw.toNat := by simp [timerAll, timerLocs, BArea.loc]
  have e1 := h.getB (b := tr) hidx hTr htr
  obtain ⟨e2, h2⟩ := h.setState (r := r + 1) (c := c) he (by simp [timerAll]) tr
  have e3 := h2.getB (b := tr) hidx hTr (by rw [put_ne (by simp [BArea.loc])]; exact htr)
  obtain ⟨e4, h4⟩ := h2.setState (r := r) (c := c) he (by simp [timerAll]) tr
  refine ⟨_, by simp only [bind_apply, e1, e2, e3, e4, pure_apply], h4.only, h4.trace, h4.tick, ?_, ?_, ?_, ?_, ?_⟩
  · rw [h4.val _ (by simp [timerAll, timerLocs]), put_ne (by simp), put_ne (by simp)]
  · rw [h4.val _ (by simp [timerAll, timerLocs]), put_ne (by simp), put_ne (by simp)]
  · rw [h4.val _ (by simp [timerAll, timerLocs]), put_ne (by simp), put_ne (by simp), htr]
  · rw [h4.val _ (by simp [timerAll, timerLocs]), put_same]
  · rw [h4.val _ (by simp [timerAll, timerLocs]), put_ne (by simp), put_same]

/-- The "previous value" of a timer is its accumulator. -/
theorem PulseSite.getPrev (hs : PulseSite w.ctx n r c i preset unit l) {acc : Nat} (hacc : load w.ctx (.acc i) = some acc) :
    getPrev r c 0 w = .ok (BitVec.ofNat 32 acc, w) := by
  obtain ⟨d, hd, hk⟩ := hs.kind
  obtain ⟨d', hd', hi⟩ := hs.timer
  rw [hd] at hd'; cases hd'
  subst hi
  obtain ⟨st, hst⟩ := Option.isSome_iff_exists.1 hs.stamp
  have ht : agetI w.ctx.timers d.i32 = .ok ⟨BitVec.ofNat 64 st, BitVec.ofNat 32 acc⟩ := by
    rw [agetI_raw hs.index, aget_eq_ok, load_timer hacc hst]
  simp [Ladder.getPrev, operandAt_ok hs.site.fits hs.site.exec hd, prevValue, hk, ht, Except.map]

/-- TP that is not running and is not triggered. -/
theorem tp_idle (env : Env) (hs : PulseSite w.ctx n r c i preset unit l) (htr : load w.ctx (.Tr i) = some 0)
    {acc : Nat} (hacc : load w.ctx (.acc i) = some acc) (hno : l = false ∨ acc ≠ 0) :
    ∃ w', execIns env .TP r c w = .ok (.ok, w') ∧ Only w.ctx w'.ctx (timerAll n r c i) ∧ w'.trace = w.trace ∧
      load w'.ctx (.acc i) = some acc ∧ TpShows w'.ctx n r c i false := by
  obtain ⟨d, hd, hdi⟩ := hs.timer
  have hs' := hs.toTimerSite
  have h := hs'.start
  have hprev := hs.getPrev hacc
  have hlt : acc < 2^32 := load_lt hacc
  have he := hs.site.exec
  subst hdi
  have e0 := hs.site.getLeft
  have e1 := h.getDataExec he hd
  have e5 := (timer_tail (env := env) hs' h rfl).1 (startOf_eq htr)
  obtain ⟨_, w1, e5a, e5b⟩ := bind_eq_ok.1 e5
  obtain ⟨w', e6, ho, ht, hk, -, ha, hsh⟩ := tp_outputs hs' h rfl (tr := false) (startOf_eq htr)
  refine ⟨w', ?_, ho, ht, by rw [ha, startOf_eq hacc], hsh⟩
  have hz : acc ≠ 0 → BitVec.ofNat 32 acc ≠ 0 := fun hn hz => hn (by
    have := congrArg BitVec.toNat hz; simp at this; omega)
  cases l with
  | false =>
    simp only [execIns, fnTP, bind_apply, e0, e1, Bool.false_eq_true, if_false, pure_apply, e5a, e5b]
    exact e6
  | true =>
    have hn := hz (by simpa using hno)
    simp only [execIns, fnTP, bind_apply, e0, if_true, hprev, ne_eq, hn, not_false_eq_true, e1, Bool.false_eq_true,
      if_false, pure_apply, e5a, e5b]
    exact e6

/-- What happens to a running TP. -/
def TpTimes (ctx : Ctx) (n r c i preset unit : Nat) (start t' : W64) : Prop :=
  load ctx (.stamp i) = some start.toNat ∧ (load ctx (.acc i)).isSome ∧
  if preset * unit ≤ since t' start then TpShows ctx n r c i false ∧ load ctx (.acc i) = some preset
  else TpShows ctx n r c i true

theorem tp_tail (hs : TimerSite w0.ctx n r c i preset unit l) (h : Track (timerAll n r c i) w0 w σ k) {d : Value}
    (hd : d.raw.toNat = i) (htr : σ (.Tr i) = 1) :
    ∃ w1 w2 w', timerRun env r c d.i32 w = .ok ((), w1) ∧ timerDone env r c d.i32 w1 = .ok ((), w2) ∧
      (do
        let tr ← getB .Tr d.i32
        setState (r + 1) c tr
        let tr' ← getB .Tr d.i32
        setState r c tr'
        pure Err.ok : Op Err) w2 = .ok (.ok, w') ∧ Only w0.ctx w'.ctx (timerAll n r c i) ∧ w'.trace = w0.trace ∧
      TpTimes w'.ctx n r c i preset unit (BitVec.ofNat 64 (σ (.stamp i))) (env.clock (k + 1)) := by
  have hst : σ (.stamp i) < 2^64 := load_lt (h.val (.stamp i) (by simp [timerAll, timerLocs]))
  by_cases hel : preset * unit ≤ since (env.clock (k + 1)) (BitVec.ofNat 64 (σ (.stamp i)))
  · obtain ⟨w2, e, h2⟩ := (timer_tail (env := env) hs h hd).2.1 htr hel
    obtain ⟨_, w1, ea, eb⟩ := bind_eq_ok.1 e
    obtain ⟨w', e6, ho, ht, hk, hst', ha, hsh⟩ := tp_outputs hs h2 hd (tr := false) (by simp [put])
    refine ⟨w1, w2, w', ea, eb, e6, ho, ht, ?_, by simp [ha], ?_⟩
    · rw [hst']; simp [put]; omega
    · rw [if_pos hel]; exact ⟨hsh, by simpa using ha⟩
  · obtain ⟨w2, e, h2⟩ := (timer_tail (env := env) hs h hd).2.2 htr hel
    obtain ⟨_, w1, ea, eb⟩ := bind_eq_ok.1 e
    obtain ⟨w', e6, ho, ht, hk, hst', ha, hsh⟩ := tp_outputs hs h2 hd (tr := true) (by simp [put, htr])
    refine ⟨w1, w2, w', ea, eb, e6, ho, ht, ?_, by simp [ha], ?_⟩
    · rw [hst']; simp [put]; omega
    · rw [if_neg hel]; exact hsh

/-- TP during its pulse, with or without power. -/
theorem tp_run (env : Env) (hs : PulseSite w.ctx n r c i preset unit l) (htr : load w.ctx (.Tr i) = some 1)
    {start : W64} (hst : load w.ctx (.stamp i) = some start.toNat) :
    ∃ w', execIns env .TP r c w = .ok (.ok, w') ∧ Only w.ctx w'.ctx (timerAll n r c i) ∧ w'.trace = w.trace ∧
      TpTimes w'.ctx n r c i preset unit start (env.clock (w.tick + 1)) := by
  obtain ⟨d, hd, hdi⟩ := hs.timer
  have hs' := hs.toTimerSite
  have h := hs'.start
  obtain ⟨acc, hacc⟩ := Option.isSome_iff_exists.1 hs.acc
  have hprev := hs.getPrev hacc
  have he := hs.site.exec
  have hidx := hs.index
  subst hdi
  have hTr : BArea.Tr.loc d.raw.toNat ∈ timerAll n r c d.raw.toNat := by simp [timerAll, timerLocs, BArea.loc]
  have e0 := hs.site.getLeft
  have e1 := h.getDataExec he hd
  have e2 := h.getB (b := true) hidx hTr (startOf_eq htr)
  obtain ⟨w1, w2, w', ea, eb, e6, ho, ht, hT⟩ := tp_tail (env := env) hs' h rfl (startOf_eq htr)
  rw [startOf_eq hst] at hT
  refine ⟨w', ?_, ho, ht, by simpa using hT⟩
  cases l with
  | false =>
    simp only [execIns, fnTP, bind_apply, e0, e1, Bool.false_eq_true, if_false, pure_apply, ea, eb]
    exact e6
  | true =>
    by_cases hz : BitVec.ofNat 32 acc = 0
    · simp only [execIns, fnTP, bind_apply, e0, if_true, hprev, ne_eq, hz, not_true_eq_false, e1, e2, Bool.false_eq_true,
        if_false, pure_apply, Bool.not_true, ea, eb]
      exact e6
    · simp only [execIns, fnTP, bind_apply, e0, if_true, hprev, ne_eq, hz, not_false_eq_true, e1, Bool.false_eq_true,
        if_false, pure_apply, ea, eb]
      exact e6

/-- TP triggered. -/
theorem tp_start (env : Env) (hs : PulseSite w.ctx n r c i preset unit true) (htr : load w.ctx (.Tr i) = some 0)
    (hacc : load w.ctx (.acc i) = some 0) :
    ∃ w', execIns env .TP r c w = .ok (.ok, w') ∧ Only w.ctx w'.ctx (timerAll n r c i) ∧ w'.trace = w.trace ∧
      TpTimes w'.ctx n r c i preset unit (env.clock w.tick) (env.clock (w.tick + 2)) := by
  obtain ⟨d, hd, hdi⟩ := hs.timer
  have hs' := hs.toTimerSite
  have h := hs'.start
  have hprev := hs.getPrev hacc
  have he := hs.site.exec
  have hidx := hs.index
  subst hdi
  have hTr : BArea.Tr.loc d.raw.toNat ∈ timerAll n r c d.raw.toNat := by simp [timerAll, timerLocs, BArea.loc]
  have hS : Loc.stamp d.raw.toNat ∈ timerAll n r c d.raw.toNat := by simp [timerAll, timerLocs]
  have e0 := hs.site.getLeft
  have e1 := h.getDataExec he hd
  have e3 := h.getB (b := false) hidx hTr (startOf_eq htr)
  obtain ⟨e4, h4⟩ := h.setB hidx hTr true
  obtain ⟨e5, h5⟩ := h4.callMillis env hs.clock
  obtain ⟨e6, h6⟩ := h5.setStamp hidx hS (env.clock w.tick)
  obtain ⟨w1, w2, w', ea, eb, e7, ho, ht, hT⟩ := tp_tail (env := env) hs' h6 rfl (by simp [put, BArea.loc])
  refine ⟨w', ?_, ho, ht, by simpa using hT⟩
  have hz : ¬ (BitVec.ofNat 32 0 ≠ (0 : W32)) := by decide
  simp only [execIns, fnTP, bind_apply, e0, if_true, hprev, if_neg hz, e1, e3, Bool.not_false, pure_apply, e4, e5, e6, ea, eb]
  exact e7

end

/-- `TimerRun` for TP. -/
structure PulseRun (env : Env) (n r c i preset unit N : Nat) (pre post : Nat → World) (power : Nat → Bool) : Prop
    extends TimerRun env .TP n r c i preset unit N pre post power where
  kind : ∀ k < N, ∃ d, operand? (pre k).ctx n r c 0 = some d ∧ d.type = .T

/-- The pulse triggered in execution `j` is still on in execution `k`. -/
def PulseOn (env : Env) (pre : Nat → World) (preset unit j k : Nat) : Prop :=
  ∀ m, j ≤ m → m ≤ k → since (checkTime env pre j m) (startTime env pre j) < preset * unit

/-- The state of a TP with a positive preset: idle until it is first powered (in execution `j`), then on until the preset
has elapsed, then off for good. -/
theorem tp_invariant {env : Env} {n r c i preset unit N : Nat} {pre post : Nat → World} {power : Nat → Bool}
    (h : PulseRun env n r c i preset unit N pre post power) (hpos : 0 < preset)
    (h0 : load (pre 0).ctx (.Tr i) = some 0 ∧ load (pre 0).ctx (.acc i) = some 0) :
    ∀ k < N,
      ((∀ x ≤ k, power x = false) ∧ TpShows (post k).ctx n r c i false ∧ load (post k).ctx (.acc i) = some 0) ∨
      ∃ j ≤ k, power j = true ∧ (∀ x < j, power x = false) ∧
        ((PulseOn env pre preset unit j k ∧ TpShows (post k).ctx n r c i true ∧
            load (post k).ctx (.stamp i) = some (startTime env pre j).toNat) ∨
          (¬ PulseOn env pre preset unit j k ∧ TpShows (post k).ctx n r c i false ∧
            load (post k).ctx (.acc i) = some preset)) := by
  have hstart : ∀ k (hk : k < N), power k = true → (∀ x < k, power x = false) → load (pre k).ctx (.Tr i) = some 0 →
      load (pre k).ctx (.acc i) = some 0 → ∃ j ≤ k, power j = true ∧ (∀ x < j, power x = false) ∧
        ((PulseOn env pre preset unit j k ∧ TpShows (post k).ctx n r c i true ∧
            load (post k).ctx (.stamp i) = some (startTime env pre j).toNat) ∨
          (¬ PulseOn env pre preset unit j k ∧ TpShows (post k).ctx n r c i false ∧
            load (post k).ctx (.acc i) = some preset)) := by
    intro k hk hp hb htr hacc
    have hs : PulseSite (pre k).ctx n r c i preset unit true := ⟨hp ▸ h.site k hk, h.kind k hk⟩
    obtain ⟨w', e, -, -, hst, -, hT⟩ := tp_start env hs htr hacc
    rw [h.exec k hk] at e; cases e
    refine ⟨k, Nat.le_refl k, hp, hb, ?_⟩
    have hc : checkTime env pre k k = env.clock ((pre k).tick + 2) := by simp [checkTime]
    split at hT
    · rename_i hel
      refine .inr ⟨fun hon => ?_, hT⟩
      have := hon k (Nat.le_refl k) (Nat.le_refl k)
      rw [hc] at this
      exact absurd hel (by unfold startTime at this; omega)
    · rename_i hel
      refine .inl ⟨fun m h1 h2 => ?_, hT, hst⟩
      rw [show m = k by omega, hc]; unfold startTime; omega
  intro k
  induction k with
  | zero =>
    intro hk
    cases hp : power 0 with
    | false =>
      have hs : PulseSite (pre 0).ctx n r c i preset unit false := ⟨hp ▸ h.site 0 hk, h.kind 0 hk⟩
      obtain ⟨w', e, -, -, ha, hsh⟩ := tp_idle env hs h0.1 h0.2 (.inl rfl)
      rw [h.exec 0 hk] at e; cases e
      exact .inl ⟨fun x hx => by rw [show x = 0 by omega]; exact hp, hsh, ha⟩
    | true => exact .inr (hstart 0 hk hp (by simp) h0.1 h0.2)
  | succ k ih =>
    intro hk
    have hs : PulseSite (pre (k + 1)).ctx n r c i preset unit (power (k + 1)) := ⟨h.site (k + 1) hk, h.kind (k + 1) hk⟩
    have hkeep := h.keep k hk
    have kTr := hkeep (.Tr i) (by simp [timerLocs])
    have kSt := hkeep (.stamp i) (by simp [timerLocs])
    have kAcc := hkeep (.acc i) (by simp [timerLocs])
    rcases ih (by omega) with ⟨hoff, hsh, ha⟩ | ⟨j, hj, hpj, hb, ⟨hon, hsh, hst⟩ | ⟨hno, hsh, ha⟩⟩
    · cases hp : power (k + 1) with
      | false =>
        rw [hp] at hs
        obtain ⟨w', e, -, -, ha', hsh'⟩ := tp_idle env hs (kTr.trans hsh.running) (kAcc.trans ha) (.inl rfl)
        rw [h.exec _ hk] at e; cases e
        refine .inl ⟨fun x hx => ?_, hsh', ha'⟩
        rcases Nat.lt_or_ge x (k + 1) with hx' | hx'
        · exact hoff x (by omega)
        · rw [show x = k + 1 by omega]; exact hp
      | true =>
        exact .inr (hstart (k + 1) hk hp (fun x hx => hoff x (by omega)) (kTr.trans hsh.running) (kAcc.trans ha))
    · obtain ⟨w', e, -, -, hst', -, hT⟩ := tp_run env hs (kTr.trans hsh.running) (kSt.trans hst)
      rw [h.exec _ hk] at e; cases e
      have hne : ¬ k + 1 = j := by omega
      have hc : checkTime env pre j (k + 1) = env.clock ((pre (k + 1)).tick + 1) := by simp [checkTime, hne]
      refine .inr ⟨j, by omega, hpj, hb, ?_⟩
      split at hT
      · rename_i hel
        refine .inr ⟨fun hon' => ?_, hT⟩
        have := hon' (k + 1) (by omega) (Nat.le_refl _)
        rw [hc] at this
        omega
      · rename_i hel
        refine .inl ⟨fun m h1 h2 => ?_, hT, hst'⟩
        rcases Nat.lt_or_ge m (k + 1) with hx | hx
        · exact hon m h1 (by omega)
        · rw [show m = k + 1 by omega, hc]; omega
    · obtain ⟨w', e, -, -, ha', hsh'⟩ := tp_idle env hs (kTr.trans hsh.running) (kAcc.trans ha) (.inr (by omega))
      rw [h.exec _ hk] at e; cases e
      exact .inr ⟨j, by omega, hpj, hb, .inr ⟨fun hon => hno fun m h1 h2 => hon m h1 (by omega), hsh', ha'⟩⟩

/-- C20, the first pulse only: starting with a cleared timer and a positive preset, let `j` be the first execution with
power.  The output is off before `j`, and from then on it is on after an execution exactly as long as the time since `j`
has not reached the preset, whatever the input does meanwhile. -/
theorem C20_TP_partial {env : Env} {n r c i preset unit N : Nat} {pre post : Nat → World} {power : Nat → Bool}
    (h : PulseRun env n r c i preset unit N pre post power) (hpos : 0 < preset)
    (h0 : load (pre 0).ctx (.Tr i) = some 0 ∧ load (pre 0).ctx (.acc i) = some 0)
    {j : Nat} (hj : power j = true) (hfirst : ∀ x < j, power x = false) (k : Nat) (hk : k < N) :
    (k < j → load (post k).ctx (.cell n r c) = some 0) ∧
    (j ≤ k → ∃ out : Bool, load (post k).ctx (.cell n r c) = some out.toNat ∧
      (out = true ↔ ∀ m, j ≤ m → m ≤ k → since (checkTime env pre j m) (startTime env pre j) < preset * unit)) := by
  rcases tp_invariant h hpos h0 k hk with ⟨hoff, hsh, -⟩ | ⟨j', hj', hpj', hb', hcase⟩
  · refine ⟨fun _ => hsh.out, fun hle => ?_⟩
    rw [hoff j hle] at hj; cases hj
  · have hjj : j = j' := by
      rcases Nat.lt_trichotomy j j' with hlt | he | hlt
      · rw [hb' j hlt] at hj; cases hj
      · exact he
      · rw [hfirst j' hlt] at hpj'; cases hpj'
    subst hjj
    refine ⟨fun hlt => by omega, fun _ => ?_⟩
    rcases hcase with ⟨hon, hsh, -⟩ | ⟨hno, hsh, -⟩
    · exact ⟨true, hsh.out, fun _ => hon, fun _ => rfl⟩
    · exact ⟨false, hsh.out, by simp, fun hon => absurd hon hno⟩

/-- The second half of C20 fails for every run: once the first pulse is over, the output stays off whatever the input does
(the trigger test reads the accumulator, which keeps the preset). -/
theorem C20_refuted_never_again {env : Env} {n r c i preset unit N : Nat} {pre post : Nat → World} {power : Nat → Bool}
    (h : PulseRun env n r c i preset unit N pre post power) (hpos : 0 < preset)
    (h0 : load (pre 0).ctx (.Tr i) = some 0 ∧ load (pre 0).ctx (.acc i) = some 0)
    {j e : Nat} (hj : power j = true) (hje : j ≤ e) (he : e < N)
    (hend : load (post e).ctx (.cell n r c) = some 0) (k : Nat) (hek : e ≤ k) (hk : k < N) :
    load (post k).ctx (.cell n r c) = some 0 := by
  rcases tp_invariant h hpos h0 e he with ⟨hoff, -⟩ | ⟨j1, hj1, hp1, hb1, ⟨-, hsh, -⟩ | ⟨hno, -⟩⟩
  · rw [hoff j (by omega)] at hj; cases hj
  · rw [hsh.out] at hend; cases hend
  · rcases tp_invariant h hpos h0 k hk with ⟨hoff, -⟩ | ⟨j2, hj2, hp2, hb2, ⟨hon2, -⟩ | ⟨-, hsh, -⟩⟩
    · rw [hoff j1 (by omega)] at hp1; cases hp1
    · have : j1 = j2 := by
        rcases Nat.lt_trichotomy j1 j2 with hlt | he | hlt
        · rw [hb2 j1 hlt] at hp1; cases hp1
        · exact he
        · rw [hb1 j2 hlt] at hp2; cases hp2
      subst this
      exact absurd (fun m h1 h2 => hon2 m h1 (by omega)) hno
    · exact hsh.out

/-! ### Concrete cases for C19 and C20 -/

/-- A timer in column 1 after a cell that is on or off. -/
def demoTimer1 (code : Ins) (preset : Nat) (power : Bool) : World :=
  Demo.world [Demo.net [[Demo.ins .CONN [] power, Demo.ins code [Demo.op .T 0, Demo.op .NONE preset]],
    [Demo.ins .CONN [], Demo.ins .MULTI []]]]

/-- Switches the cell to the left of the timer. -/
def setPower (b : Bool) (w : World) : World :=
  match setState 0 0 b w with
  | .ok (_, w') => w'
  | .error _ => w

/-- The worlds before the executions of the timer, its power given by a list. -/
def demoRun (code : Ins) (preset : Nat) (ps : List Bool) : Nat → World
  | 0 => setPower (ps.getD 0 false) (demoTimer1 code preset false)
  | k + 1 => setPower (ps.getD (k + 1) false) (after code 0 1 (demoRun code preset ps k))

/-- A TOF of 35 ms, powered once and then unpowered twice: on, on (20 ms after the loss of power), off (40 ms). -/
example : TimerRun Demo.env .TOF 0 0 1 0 35 1 3 (demoRun .TOF 35 [true, false, false])
      (fun k => after .TOF 0 1 (demoRun .TOF 35 [true, false, false] k)) (fun k => [true, false, false].getD k false) ∧
    load (demoRun .TOF 35 [true, false, false] 0).ctx (.Tr 0) = some 0 ∧
    load (demoRun .TOF 35 [true, false, false] 0).ctx (.Td 0) = some 0 ∧
    load (demoRun .TOF 35 [true, false, false] 1).ctx (.cell 0 0 1) = some 1 ∧
    load (demoRun .TOF 35 [true, false, false] 2).ctx (.cell 0 0 1) = some 1 ∧
    load (demoRun .TOF 35 [true, false, false] 3).ctx (.cell 0 0 1) = some 0 := by
  refine ⟨⟨?_, ?_, ?_⟩, rfl, rfl, rfl, rfl, rfl⟩
  · intro k hk
    match k, hk with
    | 0, _ =>
      exact ⟨⟨Demo.fits_of rfl, rfl, rfl, rfl⟩, rfl, ⟨_, rfl, rfl⟩, by decide, ⟨_, rfl, rfl, rfl⟩, by decide, rfl,
        ⟨false, rfl⟩, ⟨false, rfl⟩, rfl, rfl⟩
    | 1, _ =>
      exact ⟨⟨Demo.fits_of rfl, rfl, rfl, rfl⟩, rfl, ⟨_, rfl, rfl⟩, by decide, ⟨_, rfl, rfl, rfl⟩, by decide, rfl,
        ⟨false, rfl⟩, ⟨false, rfl⟩, rfl, rfl⟩
    | 2, _ =>
      exact ⟨⟨Demo.fits_of rfl, rfl, rfl, rfl⟩, rfl, ⟨_, rfl, rfl⟩, by decide, ⟨_, rfl, rfl, rfl⟩, by decide, rfl,
        ⟨true, rfl⟩, ⟨false, rfl⟩, rfl, rfl⟩
  · intro k hk
    match k, hk with
    | 0, _ => rfl
    | 1, _ => rfl
    | 2, _ => rfl
  · intro k hk ℓ hℓ
    simp only [timerLocs, List.mem_cons, List.not_mem_nil, or_false] at hℓ
    match k, hk with
    | 0, _ => rcases hℓ with rfl | rfl | rfl | rfl <;> rfl
    | 1, _ => rcases hℓ with rfl | rfl | rfl | rfl <;> rfl

/-- C20 fails: a TP of 25 ms is triggered (on), loses power (off, 40 ms later) and is triggered again: it stays off. -/
theorem C20_refuted : PulseRun Demo.env 0 0 1 0 25 1 3 (demoRun .TP 25 [true, false, true])
      (fun k => after .TP 0 1 (demoRun .TP 25 [true, false, true] k)) (fun k => [true, false, true].getD k false) ∧
    load (demoRun .TP 25 [true, false, true] 0).ctx (.Tr 0) = some 0 ∧
    load (demoRun .TP 25 [true, false, true] 0).ctx (.acc 0) = some 0 ∧
    load (after .TP 0 1 (demoRun .TP 25 [true, false, true] 0)).ctx (.cell 0 0 1) = some 1 ∧
    load (after .TP 0 1 (demoRun .TP 25 [true, false, true] 1)).ctx (.cell 0 0 1) = some 0 ∧
    load (after .TP 0 1 (demoRun .TP 25 [true, false, true] 2)).ctx (.cell 0 0 1) = some 0 := by
  refine ⟨⟨⟨?_, ?_, ?_⟩, ?_⟩, rfl, rfl, rfl, rfl, rfl⟩
  · intro k hk
    match k, hk with
    | 0, _ =>
      exact ⟨⟨Demo.fits_of rfl, rfl, rfl, rfl⟩, rfl, ⟨_, rfl, rfl⟩, by decide, ⟨_, rfl, rfl, rfl⟩, by decide, rfl,
        ⟨false, rfl⟩, ⟨false, rfl⟩, rfl, rfl⟩
    | 1, _ =>
      exact ⟨⟨Demo.fits_of rfl, rfl, rfl, rfl⟩, rfl, ⟨_, rfl, rfl⟩, by decide, ⟨_, rfl, rfl, rfl⟩, by decide, rfl,
        ⟨true, rfl⟩, ⟨false, rfl⟩, rfl, rfl⟩
    | 2, _ =>
      exact ⟨⟨Demo.fits_of rfl, rfl, rfl, rfl⟩, rfl, ⟨_, rfl, rfl⟩, by decide, ⟨_, rfl, rfl, rfl⟩, by decide, rfl,
        ⟨false, rfl⟩, ⟨true, rfl⟩, rfl, rfl⟩
  · intro k hk
    match k, hk with
    | 0, _ => rfl
    | 1, _ => rfl
    | 2, _ => rfl
  · intro k hk ℓ hℓ
    simp only [timerLocs, List.mem_cons, List.not_mem_nil, or_false] at hℓ
    match k, hk with
    | 0, _ => rcases hℓ with rfl | rfl | rfl | rfl <;> rfl
    | 1, _ => rcases hℓ with rfl | rfl | rfl | rfl <;> rfl
  · intro k hk
    match k, hk with
    | 0, _ => exact ⟨_, rfl, rfl⟩
    | 1, _ => exact ⟨_, rfl, rfl⟩
    | 2, _ => exact ⟨_, rfl, rfl⟩

end Ladder.Props
