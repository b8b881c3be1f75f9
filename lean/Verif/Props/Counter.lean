import Verif.Lemmas.Track
import Verif.Spec.Demo

/-
C21, C22: the counters CTU and CTD.
-/

set_option autoImplicit false

namespace Ladder.Props

open Spec Op

/-! ### Specification -/

/-- The registers of counter `i`. -/
def counterLocs (i : Nat) : List Loc := [.C i, .Cr i, .Cd i]

/-- Locations a counter instruction may change. -/
def counterAll (n r c i : Nat) : List Loc := counterLocs i ++ [.cell n r c, .cell n (r + 1) c]

/-- Cell (r,c) of network `n` is a counter instruction on the existing counter `i` with preset `preset`; its count input
is `l`. -/
structure CounterCell (ctx : Ctx) (n r c i preset : Nat) (l : Bool) : Prop where
  site : Site ctx n r c l
  below : (load ctx (.cell n (r + 1) c)).isSome
  counter : ∃ d, operand? ctx n r c 0 = some d ∧ d.raw.toNat = i
  index : i < 2^31
  limit : ∃ p, operand? ctx n r c 1 = some p ∧ p.raw.toNat = preset
  count : (load ctx (.C i)).isSome
  edge : ∃ b : Bool, load ctx (.Cr i) = some b.toNat
  done : ∃ b : Bool, load ctx (.Cd i) = some b.toNat

/-- Such a cell that is not in the first column; its reset input (from the left on the row below) is `rst`. -/
structure CounterSite (ctx : Ctx) (n r c i preset : Nat) (l rst : Bool) : Prop extends CounterCell ctx n r c i preset l where
  column : 0 < c
  reset : leftPower ctx n (r + 1) c = some rst

/-- `N` consecutive executions of one counter instruction with reset input off: `pre k` and `post k` are the worlds before
and after execution `k`, `power k` the count input.  Between two executions anything may happen but for writing the
counter's registers; the cell's own state may be cleared. -/
structure CounterRun (env : Env) (code : Ins) (n r c i preset N : Nat) (pre post : Nat → World) (power : Nat → Bool) :
    Prop where
  site : ∀ k < N, CounterSite (pre k).ctx n r c i preset (power k) false
  exec : ∀ k < N, execIns env code r c (pre k) = .ok (.ok, post k)
  keep : ∀ k, k + 1 < N → ∀ ℓ ∈ counterLocs i, load (pre (k + 1)).ctx ℓ = load (post k).ctx ℓ
  state : ∀ k, k + 1 < N → load (pre (k + 1)).ctx (.cell n r c) = load (post k).ctx (.cell n r c) ∨
    load (pre (k + 1)).ctx (.cell n r c) = some 0

/-- Number of false-to-true transitions of an input up to and including execution `k` (the input counts as false before
the first execution). -/
def edges (power : Nat → Bool) (k : Nat) : Nat :=
  ((List.range (k + 1)).filter fun x => power x && (x == 0 || !power (x - 1))).length

theorem edges_zero (power : Nat → Bool) : edges power 0 = (power 0).toNat := by
  unfold edges; cases h : power 0 <;> simp [List.range, List.range.loop, h]

theorem edges_succ (power : Nat → Bool) (k : Nat) :
    edges power (k + 1) = edges power k + (power (k + 1) && !power k).toNat := by
  unfold edges
  rw [List.range_succ, List.filter_append, List.length_append]
  congr 1
  cases h1 : power (k + 1) <;> cases h2 : power k <;> simp [h1, h2]

/-! ### Running the model -/

section
variable {env : Env} {n r c i preset k : Nat} {l : Bool} {w0 w : World} {σ : Loc → Nat}

theorem CounterCell.start (hs : CounterCell w.ctx n r c i preset l) :
    Track (counterAll n r c i) w w (fun ℓ => (load w.ctx ℓ).getD 0) w.tick := by
  refine Track.start hs.site.fits _ fun ℓ hℓ => ?_
  have : (load w.ctx ℓ).isSome := by
    simp only [counterAll, counterLocs, List.cons_append, List.nil_append, List.mem_cons, List.not_mem_nil, or_false] at hℓ
    rcases hℓ with rfl | rfl | rfl | rfl | rfl
    · exact hs.count
    · obtain ⟨b, hb⟩ := hs.edge; rw [hb]; rfl
    · obtain ⟨b, hb⟩ := hs.done; rw [hb]; rfl
    · exact hs.site.cell
    · exact hs.below
  obtain ⟨x, hx⟩ := Option.isSome_iff_exists.1 this
  rw [hx]; simp

theorem counter_left {n r r' c i : Nat} : c = 0 ∨ Loc.cell n r' (c - 1) ∉ counterAll n r c i := by
  rcases Nat.eq_zero_or_pos c with h | h
  · exact .inl h
  · right
    simp only [counterAll, counterLocs, List.cons_append, List.nil_append, List.mem_cons, List.not_mem_nil, or_false,
      Loc.cell.injEq, reduceCtorEq, false_or]
    omega

/-- The counting part of the counters. -/
theorem ct_count (hs : CounterCell w0.ctx n r c i preset l) (h : Track (counterAll n r c i) w0 w σ k) {d : Value}
    (hd : d.raw.toNat = i) {cr cd : Bool} (hcr : σ (.Cr i) = cr.toNat) (hcd : σ (.Cd i) = cd.toNat) (f : W32 → W32) :
    ∃ w' σ', ctCount r c d.i32 f w = .ok ((), w') ∧ Track (counterAll n r c i) w0 w' σ' k ∧
      σ' (.Cr i) = (l && (cr || !cd)).toNat ∧ σ' (.Cd i) = cd.toNat ∧ σ' (.cell n r c) = σ (.cell n r c) ∧
      σ' (.C i) = if l && !cr && !cd then (f (BitVec.ofNat 32 (σ (.C i)))).toNat else σ (.C i) := by
  subst hd
  have hidx := hs.index
  have he := hs.site.exec
  have hCr : BArea.Cr.loc d.raw.toNat ∈ counterAll n r c d.raw.toNat := by simp [counterAll, counterLocs, BArea.loc]
  have hCd : BArea.Cd.loc d.raw.toNat ∈ counterAll n r c d.raw.toNat := by simp [counterAll, counterLocs, BArea.loc]
  have hC : Loc.C d.raw.toNat ∈ counterAll n r c d.raw.toNat := by simp [counterAll, counterLocs]
  have e0 := h.getLeft he hs.site.left counter_left
  have e1 := h.getB (b := cr) hidx hCr hcr
  have e2 := h.getB (b := cd) hidx hCd hcd
  cases l with
  | false =>
    obtain ⟨e3, h3⟩ := h.setB hidx hCr false
    obtain ⟨e4, h4⟩ := h3.setState (r := r + 1) (c := c) he (by simp [counterAll]) false
    exact ⟨_, _, by simp only [ctCount, bind_apply, e0, Bool.false_eq_true, if_false, pure_apply, Bool.not_false, if_true,
      e3, e4], h4, by simp [put, BArea.loc], by simp [put, BArea.loc, hcd], by simp [put, BArea.loc], by simp [put, BArea.loc]⟩
  | true =>
    cases cr with
    | true =>
      exact ⟨_, _, by simp only [ctCount, bind_apply, e0, if_true, e1, pure_apply, Bool.false_eq_true, if_false,
        Bool.not_true], h, by simp [hcr], hcd, rfl, by simp⟩
    | false =>
      cases cd with
      | true =>
        exact ⟨_, _, by simp only [ctCount, bind_apply, e0, if_true, e1, e2, pure_apply, Bool.false_eq_true, if_false,
          Bool.not_true], h, by simp [hcr], hcd, rfl, by simp⟩
      | false =>
        obtain ⟨e3, h3⟩ := h.setB hidx hCr true
        obtain ⟨e4, h4⟩ := h3.setState (r := r + 1) (c := c) he (by simp [counterAll]) true
        have e5 := h4.getC hidx hC
        rw [put_ne (by simp), put_ne (by simp [BArea.loc])] at e5
        obtain ⟨e6, h6⟩ := h4.setC hidx hC (f (BitVec.ofNat 32 (σ (.C d.raw.toNat))))
        have e7 := h6.getLeft he hs.site.left counter_left
        exact ⟨_, _, by simp only [ctCount, bind_apply, e0, if_true, e1, e2, pure_apply, Bool.false_eq_true, if_false,
          Bool.not_true, Bool.not_false, e3, e4, e5, e6, e7], h6, by simp [put, BArea.loc], by simp [put, BArea.loc, hcd],
          by simp [put, BArea.loc], by simp [put]⟩

/-- Setting the done flag and the output when `b` holds. -/
theorem ct_done (hs : CounterCell w0.ctx n r c i preset l) (h : Track (counterAll n r c i) w0 w σ k) {d : Value}
    (hd : d.raw.toNat = i) (b : Bool) :
    ∃ w', (if b then (do setB .Cd d.i32 true; setState r c true; pure Err.ok) else pure Err.ok : Op Err) w = .ok (.ok, w') ∧
      Only w0.ctx w'.ctx (counterAll n r c i) ∧ w'.trace = w0.trace ∧ w'.tick = k ∧
      load w'.ctx (.C i) = some (σ (.C i)) ∧ load w'.ctx (.Cr i) = some (σ (.Cr i)) ∧
      load w'.ctx (.Cd i) = some (if b then 1 else σ (.Cd i)) ∧
      load w'.ctx (.cell n r c) = some (if b then 1 else σ (.cell n r c)) := by
  subst hd
  have hCd : BArea.Cd.loc d.raw.toNat ∈ counterAll n r c d.raw.toNat := by simp [counterAll, counterLocs, BArea.loc]
  cases b with
  | false =>
    refine ⟨w, rfl, h.only, h.trace, h.tick, h.val _ ?_, h.val _ ?_, h.val _ ?_, h.val _ ?_⟩ <;>
      simp [counterAll, counterLocs]
  | true =>
    obtain ⟨e1, h1⟩ := h.setB hs.index hCd true
    obtain ⟨e2, h2⟩ := h1.setState (r := r) (c := c) hs.site.exec (by simp [counterAll]) true
    refine ⟨_, by simp only [if_true, bind_apply, e1, e2, pure_apply], h2.only, h2.trace, h2.tick, ?_, ?_, ?_, ?_⟩ <;>
      rw [h2.val _ (by simp [counterAll, counterLocs])] <;> simp [put, BArea.loc]

/-- One execution of CTU or CTD with the reset input off. -/
theorem ct_step (env : Env) (up : Bool) (hs : CounterSite w.ctx n r c i preset l false) {cr cd : Bool} {x s : Nat}
    (hcr : load w.ctx (.Cr i) = some cr.toNat) (hcd : load w.ctx (.Cd i) = some cd.toNat)
    (hx : load w.ctx (.C i) = some x) (hst : load w.ctx (.cell n r c) = some s) :
    ∃ w' x', execIns env (if up then .CTU else .CTD) r c w = .ok (.ok, w') ∧
      Only w.ctx w'.ctx (counterAll n r c i) ∧ w'.trace = w.trace ∧ w'.tick = w.tick ∧
      x' = (if l && !cr && !cd then (if up then (x + 1) % 2^32 else (x + 2^32 - 1) % 2^32) else x) ∧
      load w'.ctx (.C i) = some x' ∧ load w'.ctx (.Cr i) = some (l && (cr || !cd)).toNat ∧
      load w'.ctx (.Cd i) = some (if (if up then preset ≤ x' else x' = 0) then 1 else cd.toNat) ∧
      load w'.ctx (.cell n r c) = some (if (if up then preset ≤ x' else x' = 0) then 1 else s) := by
  have h := hs.start
  obtain ⟨d, hd, hdi⟩ := hs.counter
  obtain ⟨p, hp, hpv⟩ := hs.limit
  have hxlt : x < 2^32 := load_lt hx
  have hc : ¬ c = 0 := by have := hs.column; omega
  have e0 := h.getLeft (r := r + 1) hs.site.exec hs.reset counter_left
  have e1 := h.getDataExec hs.site.exec hd
  obtain ⟨w1, σ1, e2, h2, a1, a2, a3, a4⟩ := ct_count hs.toCounterCell h hdi (cr := cr) (cd := cd) (by simp [hcr]) (by simp [hcd])
    (if up then (· + 1) else (· - 1))
  have hlt1 : σ1 (.C i) < 2^32 := load_lt (h2.val (.C i) (by simp [counterAll, counterLocs]))
  have e3 : getC d.i32 w1 = .ok (BitVec.ofNat 32 (σ1 (.C i)), w1) := by
    rw [← hdi]; exact h2.getC (by rw [hdi]; exact hs.index) (by rw [hdi]; simp [counterAll, counterLocs])
  have e4 := h2.getDataExec hs.site.exec hp
  obtain ⟨w2, e5, ho, ht, hk, b1, b2, b3, b4⟩ := ct_done hs.toCounterCell h2 hdi (if up then decide (preset ≤ σ1 (.C i)) else decide (σ1 (.C i) = 0))
  refine ⟨w2, σ1 (.C i), ?_, ho, ht, hk, ?_, b1, by rw [b2, a1], ?_, ?_⟩
  · cases up with
    | true =>
      simp only [if_true] at e2 e5
      simp only [if_true, execIns, fnCTU, ctReset, hc, if_false, bind_apply, e0, e1, Bool.false_eq_true, e2, e3,
        e4, BitVec.toNat_ofNat, Nat.mod_eq_of_lt hlt1, hpv]
      simpa using e5
    | false =>
      simp only [Bool.false_eq_true, if_false] at e2 e5
      have hz : BitVec.ofNat 32 (σ1 (.C i)) = (0 : W32) ↔ σ1 (.C i) = 0 := by
        constructor
        · intro hz; have := congrArg BitVec.toNat hz; simp at this; omega
        · intro hz; rw [hz]; rfl
      simp only [Bool.false_eq_true, if_false, execIns, fnCTD, ctReset, hc, bind_apply, e0, e1, e2, e3, hz]
      simpa using e5
  · rw [a4, hx]
    have hu : ((BitVec.ofNat 32 x : W32) + 1).toNat = (x + 1) % 2^32 := by
      rw [BitVec.toNat_add, BitVec.toNat_ofNat, Nat.mod_eq_of_lt hxlt]; rfl
    have hd : ((BitVec.ofNat 32 x : W32) - 1).toNat = (x + 2^32 - 1) % 2^32 := by
      rw [BitVec.toNat_sub, BitVec.toNat_ofNat, Nat.mod_eq_of_lt hxlt]
      have : (1 : W32).toNat = 1 := rfl
      rw [this]; omega
    cases up
    · simp only [Option.getD_some, Bool.false_eq_true, if_false, hd]
    · simp only [Option.getD_some, if_true, hu]
  · rw [b3, a2]; cases up <;> simp
  · rw [b4, a3, hst]; cases up <;> simp

/-- The reset part of the counters. -/
theorem ct_reset (hs : CounterCell w0.ctx n r c i preset l) (h : Track (counterAll n r c i) w0 w σ k) {d : Value}
    (hd : d.raw.toNat = i) (x : W32) :
    ∃ w' σ', ctDoReset r c d.i32 x w = .ok ((), w') ∧ Track (counterAll n r c i) w0 w' σ' k ∧
      σ' (.C i) = x.toNat ∧ σ' (.Cr i) = 0 ∧ σ' (.Cd i) = 0 ∧ σ' (.cell n r c) = 0 := by
  subst hd
  have hidx := hs.index
  have he := hs.site.exec
  have hCr : BArea.Cr.loc d.raw.toNat ∈ counterAll n r c d.raw.toNat := by simp [counterAll, counterLocs, BArea.loc]
  have hCd : BArea.Cd.loc d.raw.toNat ∈ counterAll n r c d.raw.toNat := by simp [counterAll, counterLocs, BArea.loc]
  have hC : Loc.C d.raw.toNat ∈ counterAll n r c d.raw.toNat := by simp [counterAll, counterLocs]
  obtain ⟨e1, h1⟩ := h.setC hidx hC x
  obtain ⟨e2, h2⟩ := h1.setB hidx hCd false
  obtain ⟨e3, h3⟩ := h2.setB hidx hCr false
  obtain ⟨e4, h4⟩ := h3.setState (r := r) (c := c) he (by simp [counterAll]) false
  obtain ⟨e5, h5⟩ := h4.setState (r := r + 1) (c := c) he (by simp [counterAll]) false
  exact ⟨_, _, by simp only [ctDoReset, bind_apply, e1, e2, e3, e4, e5], h5, by simp [put, BArea.loc],
    by simp [put, BArea.loc], by simp [put, BArea.loc], by simp [put]⟩

/-- One execution of CTU or CTD with the reset condition met: the counter is reset and, when its input is on, counts once. -/
theorem ct_step_reset (env : Env) (up : Bool) (hs : CounterCell w.ctx n r c i preset l)
    (hr : ctReset r c w = .ok (true, w)) :
    ∃ w' x', execIns env (if up then .CTU else .CTD) r c w = .ok (.ok, w') ∧
      Only w.ctx w'.ctx (counterAll n r c i) ∧ w'.trace = w.trace ∧ w'.tick = w.tick ∧
      x' = (if up then l.toNat else if l then (preset + 2^32 - 1) % 2^32 else preset) ∧
      load w'.ctx (.C i) = some x' ∧ load w'.ctx (.Cr i) = some l.toNat ∧
      load w'.ctx (.Cd i) = some (if (if up then preset ≤ x' else x' = 0) then 1 else 0) ∧
      load w'.ctx (.cell n r c) = some (if (if up then preset ≤ x' else x' = 0) then 1 else 0) := by
  have h := hs.start
  obtain ⟨d, hd, hdi⟩ := hs.counter
  obtain ⟨p, hp, hpv⟩ := hs.limit
  have hplt : preset < 2^32 := by rw [← hpv]; exact p.raw.isLt
  have e1 := h.getDataExec hs.site.exec hd
  have e4' := h.getDataExec hs.site.exec hp
  obtain ⟨w0, σ0, e0, h0, c1, c2, c3, c4⟩ := ct_reset hs h hdi (if up then 0 else p.raw)
  obtain ⟨w1, σ1, e2, h2, a1, a2, a3, a4⟩ := ct_count hs h0 hdi (cr := false) (cd := false) c2 c3
    (if up then (· + 1) else (· - 1))
  have hlt1 : σ1 (.C i) < 2^32 := load_lt (h2.val (.C i) (by simp [counterAll, counterLocs]))
  have e3 : getC d.i32 w1 = .ok (BitVec.ofNat 32 (σ1 (.C i)), w1) := by
    rw [← hdi]; exact h2.getC (by rw [hdi]; exact hs.index) (by rw [hdi]; simp [counterAll, counterLocs])
  have e4 := h2.getDataExec hs.site.exec hp
  obtain ⟨w2, e5, ho, ht, hk, b1, b2, b3, b4⟩ := ct_done hs h2 hdi (if up then decide (preset ≤ σ1 (.C i)) else decide (σ1 (.C i) = 0))
  refine ⟨w2, σ1 (.C i), ?_, ho, ht, hk, ?_, b1, by rw [b2, a1]; simp, ?_, ?_⟩
  · cases up with
    | true =>
      simp only [if_true] at e0 e2 e5
      simp only [if_true, execIns, fnCTU, bind_apply, hr, e1, e0, e2, e3, e4, BitVec.toNat_ofNat, Nat.mod_eq_of_lt hlt1, hpv]
      simpa using e5
    | false =>
      simp only [Bool.false_eq_true, if_false] at e0 e2 e5
      have hz : BitVec.ofNat 32 (σ1 (.C i)) = (0 : W32) ↔ σ1 (.C i) = 0 := by
        constructor
        · intro hz; have := congrArg BitVec.toNat hz; simp at this; omega
        · intro hz; rw [hz]; rfl
      simp only [Bool.false_eq_true, if_false, execIns, fnCTD, if_true, bind_apply, hr, e1, e4', e0, e2, e3, hz]
      simpa using e5
  · rw [a4, c1]
    have hd : (BitVec.ofNat 32 preset - 1 : W32).toNat = (preset + 2^32 - 1) % 2^32 := by
      rw [BitVec.toNat_sub, BitVec.toNat_ofNat, Nat.mod_eq_of_lt hplt]
      have : (1 : W32).toNat = 1 := rfl
      rw [this]; omega
    cases up
    · simp only [Bool.false_eq_true, if_false, Bool.not_false, Bool.and_true, hpv, hd]
    · simp only [if_true, Bool.not_false, Bool.and_true]
      cases l <;> rfl
  · rw [b3, a2]; cases up <;> simp
  · rw [b4, a3, c4]; cases up <;> simp

end

/-! ### C21 -/

theorem edges_le_mono (power : Nat → Bool) (k : Nat) : edges power k ≤ edges power (k + 1) := by
  rw [edges_succ]; omega

/-- C21: over any number of executions of a CTU with reset input off, starting with a cleared counter and a positive preset,
the count is the number of false-to-true transitions of the input, stopping at the preset; the done flag and the output are
on exactly when the preset has been reached. -/
theorem C21_CTU {env : Env} {n r c i preset N : Nat} {pre post : Nat → World} {power : Nat → Bool}
    (h : CounterRun env .CTU n r c i preset N pre post power) (hpos : 0 < preset)
    (h0 : load (pre 0).ctx (.C i) = some 0 ∧ load (pre 0).ctx (.Cr i) = some 0 ∧ load (pre 0).ctx (.Cd i) = some 0 ∧
      load (pre 0).ctx (.cell n r c) = some 0) (k : Nat) (hk : k < N) :
    load (post k).ctx (.C i) = some (min (edges power k) preset) ∧
    load (post k).ctx (.Cd i) = some (if preset ≤ edges power k then 1 else 0) ∧
    load (post k).ctx (.cell n r c) = some (if preset ≤ edges power k then 1 else 0) := by
  have hlim : preset < 2^32 := by
    obtain ⟨p, -, hp⟩ := (h.site k hk).limit
    rw [← hp]; exact p.raw.isLt
  have main : ∀ k < N, ∃ cr : Bool, load (post k).ctx (.C i) = some (min (edges power k) preset) ∧
      load (post k).ctx (.Cd i) = some (if preset ≤ edges power k then 1 else 0) ∧
      load (post k).ctx (.cell n r c) = some (if preset ≤ edges power k then 1 else 0) ∧
      load (post k).ctx (.Cr i) = some cr.toNat ∧ (edges power k < preset → cr = power k) := by
    intro k
    induction k with
    | zero =>
      intro hk
      obtain ⟨w', x', e, -, -, -, hx', a1, a2, a3, a4⟩ := ct_step env true (h.site 0 hk) (cr := false) (cd := false) h0.2.1
        h0.2.2.1 h0.1 h0.2.2.2
      simp only [if_true] at e
      rw [h.exec 0 hk] at e; cases e
      have hx : x' = edges power 0 := by
        rw [edges_zero, hx']; cases power 0 <;> simp
      have hle : edges power 0 ≤ 1 := by rw [edges_zero]; exact Bool.toNat_le _
      refine ⟨power 0, ?_, ?_, ?_, ?_, fun _ => rfl⟩
      · rw [a1, hx, Nat.min_eq_left (by omega)]
      · rw [a3, hx]; simp
      · rw [a4, hx]; simp
      · rw [a2]; simp
    | succ k ih =>
      intro hk
      obtain ⟨cr, i1, i2, i3, i4, i5⟩ := ih (by omega)
      have kC := (h.keep k hk (.C i) (by simp [counterLocs])).trans i1
      have kCr := (h.keep k hk (.Cr i) (by simp [counterLocs])).trans i4
      have kCd := (h.keep k hk (.Cd i) (by simp [counterLocs])).trans i2
      have hcd : (if preset ≤ edges power k then 1 else 0) = (decide (preset ≤ edges power k)).toNat := by
        by_cases hp : preset ≤ edges power k <;> simp [hp]
      have kS : ∃ s, load (pre (k + 1)).ctx (.cell n r c) = some s ∧ (¬ preset ≤ edges power k → s = 0) := by
        rcases h.state k hk with hs | hs
        · exact ⟨_, hs.trans i3, fun hn => by rw [if_neg hn]⟩
        · exact ⟨0, hs, fun _ => rfl⟩
      obtain ⟨s, kS, hs0⟩ := kS
      obtain ⟨w', x', e, -, -, -, hx', a1, a2, a3, a4⟩ := ct_step env true (h.site (k + 1) hk) (cr := cr)
        (cd := decide (preset ≤ edges power k)) kCr (hcd ▸ kCd) kC kS
      simp only [if_true] at e
      rw [h.exec _ hk] at e; cases e
      by_cases hd : preset ≤ edges power k
      · have hmono := edges_le_mono power k
        have hx : x' = preset := by rw [hx']; simp [hd]
        refine ⟨_, ?_, ?_, ?_, a2, fun hlt => by omega⟩
        · rw [a1, hx, Nat.min_eq_right (by omega)]
        · rw [a3, hx, if_pos (show preset ≤ edges power (k + 1) by omega)]; simp
        · rw [a4, hx, if_pos (show preset ≤ edges power (k + 1) by omega)]; simp
      · have hcr := i5 (by omega)
        subst hcr
        have hx : x' = edges power (k + 1) := by
          rw [hx', edges_succ]
          have : min (edges power k) preset = edges power k := Nat.min_eq_left (by omega)
          rw [this]
          cases power (k + 1) <;> cases power k <;> simp [hd]
          omega
        have hle : edges power (k + 1) ≤ preset := by
          have : (power (k + 1) && !power k).toNat ≤ 1 := Bool.toNat_le _
          rw [edges_succ]; omega
        refine ⟨_, ?_, ?_, ?_, a2, fun hlt => by simp [hd]⟩
        · rw [a1, hx, Nat.min_eq_left hle]
        · rw [a3, hx]; simp [hd]
        · rw [a4, hx, hs0 hd]; simp
  obtain ⟨_, h1, h2, h3, -⟩ := main k hk
  exact ⟨h1, h2, h3⟩

theorem pred_mod {x : Nat} (h : 0 < x) (hl : x < 2^32) : (x + 2^32 - 1) % 2^32 = x - 1 := by omega

/-- C22 for a positive start value: over any number of executions of a CTD with reset input off the count is the start value
minus the number of false-to-true transitions, stopping at zero; the done flag and the output are on exactly when it has
reached zero. -/
theorem C22_CTD_partial {env : Env} {n r c i preset N start : Nat} {pre post : Nat → World} {power : Nat → Bool}
    (h : CounterRun env .CTD n r c i preset N pre post power) (hpos : 0 < start)
    (h0 : load (pre 0).ctx (.C i) = some start ∧ load (pre 0).ctx (.Cr i) = some 0 ∧ load (pre 0).ctx (.Cd i) = some 0 ∧
      load (pre 0).ctx (.cell n r c) = some 0) (k : Nat) (hk : k < N) :
    load (post k).ctx (.C i) = some (start - edges power k) ∧
    load (post k).ctx (.Cd i) = some (if start ≤ edges power k then 1 else 0) ∧
    load (post k).ctx (.cell n r c) = some (if start ≤ edges power k then 1 else 0) := by
  have hlim : start < 2^32 := load_lt h0.1
  have main : ∀ k < N, ∃ cr : Bool, load (post k).ctx (.C i) = some (start - edges power k) ∧
      load (post k).ctx (.Cd i) = some (if start ≤ edges power k then 1 else 0) ∧
      load (post k).ctx (.cell n r c) = some (if start ≤ edges power k then 1 else 0) ∧
      load (post k).ctx (.Cr i) = some cr.toNat ∧ (edges power k < start → cr = power k) := by
    intro k
    induction k with
    | zero =>
      intro hk
      obtain ⟨w', x', e, -, -, -, hx', a1, a2, a3, a4⟩ := ct_step env false (h.site 0 hk) (cr := false) (cd := false) h0.2.1
        h0.2.2.1 h0.1 h0.2.2.2
      simp only [Bool.false_eq_true, if_false] at e
      rw [h.exec 0 hk] at e; cases e
      have hx : x' = start - edges power 0 := by
        rw [edges_zero, hx', pred_mod hpos hlim]; cases power 0 <;> simp
      have hle : edges power 0 ≤ 1 := by rw [edges_zero]; exact Bool.toNat_le _
      have hiff : start - edges power 0 = 0 ↔ start ≤ edges power 0 := by omega
      refine ⟨power 0, ?_, ?_, ?_, ?_, fun _ => rfl⟩
      · rw [a1, hx]
      · rw [a3, hx]; simp [hiff]
      · rw [a4, hx]; simp [hiff]
      · rw [a2]; simp
    | succ k ih =>
      intro hk
      obtain ⟨cr, i1, i2, i3, i4, i5⟩ := ih (by omega)
      have kC := (h.keep k hk (.C i) (by simp [counterLocs])).trans i1
      have kCr := (h.keep k hk (.Cr i) (by simp [counterLocs])).trans i4
      have kCd := (h.keep k hk (.Cd i) (by simp [counterLocs])).trans i2
      have hcd : (if start ≤ edges power k then 1 else 0) = (decide (start ≤ edges power k)).toNat := by
        by_cases hp : start ≤ edges power k <;> simp [hp]
      have kS : ∃ s, load (pre (k + 1)).ctx (.cell n r c) = some s ∧ (¬ start ≤ edges power k → s = 0) := by
        rcases h.state k hk with hs | hs
        · exact ⟨_, hs.trans i3, fun hn => by rw [if_neg hn]⟩
        · exact ⟨0, hs, fun _ => rfl⟩
      obtain ⟨s, kS, hs0⟩ := kS
      obtain ⟨w', x', e, -, -, -, hx', a1, a2, a3, a4⟩ := ct_step env false (h.site (k + 1) hk) (cr := cr)
        (cd := decide (start ≤ edges power k)) kCr (hcd ▸ kCd) kC kS
      simp only [Bool.false_eq_true, if_false] at e
      rw [h.exec _ hk] at e; cases e
      by_cases hd : start ≤ edges power k
      · have hmono := edges_le_mono power k
        have hx : x' = 0 := by rw [hx']; simp [hd]
        refine ⟨_, ?_, ?_, ?_, a2, fun hlt => by omega⟩
        · rw [a1, hx]; congr 1; omega
        · rw [a3, hx, if_pos (show start ≤ edges power (k + 1) by omega)]; simp
        · rw [a4, hx, if_pos (show start ≤ edges power (k + 1) by omega)]; simp
      · have hcr := i5 (by omega)
        subst hcr
        have hx : x' = start - edges power (k + 1) := by
          rw [hx', edges_succ, pred_mod (by omega) (by omega)]
          cases power (k + 1) <;> cases power k <;> simp [hd]
          omega
        have hle : edges power (k + 1) ≤ start := by
          have : (power (k + 1) && !power k).toNat ≤ 1 := Bool.toNat_le _
          rw [edges_succ]; omega
        have hiff : start - edges power (k + 1) = 0 ↔ start ≤ edges power (k + 1) := by omega
        refine ⟨_, ?_, ?_, ?_, a2, fun hlt => by simp [hd]⟩
        · rw [a1, hx]
        · rw [a3, hx]; simp [hd, hiff]
        · rw [a4, hx, hs0 hd]; simp [hiff]
  obtain ⟨_, h1, h2, h3, -⟩ := main k hk
  exact ⟨h1, h2, h3⟩

/-- C21 in the first column, where the input is always on: a CTU in a running program counts its one transition, and is done
exactly when the preset is at most 1. -/
theorem C21_CTU_first_column (env : Env) {w : World} {n r i preset : Nat} {l : Bool}
    (hs : CounterCell w.ctx n r 0 i preset l) (hrun : w.ctx.state = .running) :
    ∃ w', execIns env .CTU r 0 w = .ok (.ok, w') ∧ load w'.ctx (.C i) = some 1 ∧
      load w'.ctx (.Cd i) = some (if preset ≤ 1 then 1 else 0) ∧
      load w'.ctx (.cell n r 0) = some (if preset ≤ 1 then 1 else 0) := by
  have hl : l = true := by
    have := hs.site.left
    simp [leftPower] at this
    exact this
  subst hl
  obtain ⟨w', x', e, -, -, -, hx, a1, -, a3, a4⟩ := ct_step_reset env true hs (by simp [ctReset, hrun, getCtx])
  have : x' = 1 := by simpa using hx
  subst this
  exact ⟨w', by simpa using e, a1, by simpa using a3, by simpa using a4⟩

/-! ### C61 -/

/-- C61 for a count input that is off: with its reset input on, a CTU is cleared and a CTD is set to its preset (positive
preset: not done). -/
theorem C61_reset_partial (env : Env) (up : Bool) {w : World} {n r c i preset : Nat} (hpos : 0 < preset)
    (hs : CounterSite w.ctx n r c i preset false true) :
    ∃ w', execIns env (if up then .CTU else .CTD) r c w = .ok (.ok, w') ∧
      load w'.ctx (.C i) = some (if up then 0 else preset) ∧ load w'.ctx (.Cr i) = some 0 ∧
      load w'.ctx (.Cd i) = some 0 ∧ load w'.ctx (.cell n r c) = some 0 ∧
      Only w.ctx w'.ctx [.C i, .Cr i, .Cd i, .cell n r c, .cell n (r + 1) c] := by
  have hc : ¬ c = 0 := by have := hs.column; omega
  have hr : ctReset r c w = .ok (true, w) := by
    rw [ctReset, if_neg hc]
    exact getLeft_ok hs.site.exec hs.reset
  obtain ⟨w', x', e, ho, -, -, hx, a1, a2, a3, a4⟩ := ct_step_reset env up hs.toCounterCell hr
  cases up with
  | true =>
    have : x' = 0 := by simpa using hx
    subst this
    exact ⟨w', by simpa using e, a1, a2, by simpa [Nat.not_le.2 hpos] using a3, by simpa [Nat.not_le.2 hpos] using a4, ho⟩
  | false =>
    have hx : x' = preset := by simpa using hx
    subst hx
    have hne : x' ≠ 0 := by omega
    exact ⟨w', by simpa using e, a1, a2, by simpa [hne] using a3, by simpa [hne] using a4, ho⟩

/-! ### Concrete cases -/

/-- A counter in column 1: the cell to its left (count input), the one below that (reset input), the preset, and the stored
count. -/
def demoCounter (code : Ins) (preset : Nat) (power reset : Bool) (count : W32) : World :=
  let w := Demo.world [Demo.net [[Demo.ins .CONN [] power, Demo.ins code [Demo.op .C 0, Demo.op .NONE preset]],
    [Demo.ins .CONN [] reset, Demo.ins .MULTI []]]]
  { w with ctx := { w.ctx with C := some [count, 0] } }

/-- Execution of the demo counter. -/
def countOnce (code : Ins) (w : World) : World :=
  match execIns Demo.env code 0 1 w with
  | .ok (_, w') => w'
  | .error _ => w

/-- The worlds before the executions, the count input given by a list. -/
def countRun (code : Ins) (preset : Nat) (count : W32) (ps : List Bool) : Nat → World
  | 0 => demoCounter code preset (ps.getD 0 false) false count
  | k + 1 =>
    match setState 0 0 (ps.getD (k + 1) false) (countOnce code (countRun code preset count ps k)) with
    | .ok (_, w') => w'
    | .error _ => countOnce code (countRun code preset count ps k)

/-- A CTU with preset 2 and input on, off, on: done after the third execution. -/
example : CounterRun Demo.env .CTU 0 0 1 0 2 3 (countRun .CTU 2 0 [true, false, true])
      (fun k => countOnce .CTU (countRun .CTU 2 0 [true, false, true] k)) (fun k => [true, false, true].getD k false) ∧
    load (countRun .CTU 2 0 [true, false, true] 0).ctx (.C 0) = some 0 ∧
    edges (fun k => [true, false, true].getD k false) 2 = 2 := by
  refine ⟨⟨?_, ?_, ?_, ?_⟩, rfl, rfl⟩
  · intro k hk
    match k, hk with
    | 0, _ => exact ⟨⟨⟨Demo.fits_of rfl, rfl, rfl, rfl⟩, rfl, ⟨_, rfl, rfl⟩, by decide, ⟨_, rfl, rfl⟩, rfl, ⟨false, rfl⟩,
        ⟨false, rfl⟩⟩, by decide, rfl⟩
    | 1, _ => exact ⟨⟨⟨Demo.fits_of rfl, rfl, rfl, rfl⟩, rfl, ⟨_, rfl, rfl⟩, by decide, ⟨_, rfl, rfl⟩, rfl, ⟨true, rfl⟩,
        ⟨false, rfl⟩⟩, by decide, rfl⟩
    | 2, _ => exact ⟨⟨⟨Demo.fits_of rfl, rfl, rfl, rfl⟩, rfl, ⟨_, rfl, rfl⟩, by decide, ⟨_, rfl, rfl⟩, rfl, ⟨false, rfl⟩,
        ⟨false, rfl⟩⟩, by decide, rfl⟩
  · intro k hk
    match k, hk with
    | 0, _ => rfl
    | 1, _ => rfl
    | 2, _ => rfl
  · intro k hk ℓ hℓ
    simp only [counterLocs, List.mem_cons, List.not_mem_nil, or_false] at hℓ
    match k, hk with
    | 0, _ => rcases hℓ with rfl | rfl | rfl <;> rfl
    | 1, _ => rcases hℓ with rfl | rfl | rfl <;> rfl
  · intro k hk
    match k, hk with
    | 0, _ => exact .inl rfl
    | 1, _ => exact .inl rfl

/-- C22 fails for the start value 0: the first transition takes the count to 4294967295, and the counter is not done. -/
theorem C22_refuted : CounterSite (demoCounter .CTD 5 true false 0).ctx 0 0 1 0 5 true false ∧
    load (demoCounter .CTD 5 true false 0).ctx (.C 0) = some 0 ∧
    load (demoCounter .CTD 5 true false 0).ctx (.Cr 0) = some 0 ∧
    load (demoCounter .CTD 5 true false 0).ctx (.Cd 0) = some 0 ∧
    ∃ w', execIns Demo.env .CTD 0 1 (demoCounter .CTD 5 true false 0) = .ok (.ok, w') ∧
      load w'.ctx (.C 0) = some 4294967295 ∧ load w'.ctx (.Cd 0) = some 0 := by
  exact ⟨⟨⟨⟨Demo.fits_of rfl, rfl, rfl, rfl⟩, rfl, ⟨_, rfl, rfl⟩, by decide, ⟨_, rfl, rfl⟩, rfl, ⟨false, rfl⟩,
        ⟨false, rfl⟩⟩, by decide, rfl⟩, rfl, rfl, rfl, _, rfl, rfl, rfl⟩

/-- C61 fails when the count input is on as well: after the reset the counter counts in the same execution. -/
theorem C61_refuted : CounterSite (demoCounter .CTU 1 true true 7).ctx 0 0 1 0 1 true true ∧
    ∃ w', execIns Demo.env .CTU 0 1 (demoCounter .CTU 1 true true 7) = .ok (.ok, w') ∧
      load w'.ctx (.C 0) = some 1 ∧ load w'.ctx (.Cd 0) = some 1 ∧ load w'.ctx (.cell 0 0 1) = some 1 := by
  exact ⟨⟨⟨⟨Demo.fits_of rfl, rfl, rfl, rfl⟩, rfl, ⟨_, rfl, rfl⟩, by decide, ⟨_, rfl, rfl⟩, rfl, ⟨false, rfl⟩,
        ⟨false, rfl⟩⟩, by decide, rfl⟩, _, rfl, rfl, rfl, rfl⟩

/-- The hypotheses of `C61_reset_partial` and of `C22_CTD_partial` can be met. -/
example : CounterSite (demoCounter .CTD 5 false true 3).ctx 0 0 1 0 5 false true ∧
    CounterSite (demoCounter .CTD 5 true false 3).ctx 0 0 1 0 5 true false := by
  constructor
  all_goals exact ⟨⟨⟨Demo.fits_of rfl, rfl, rfl, rfl⟩, rfl, ⟨_, rfl, rfl⟩, by decide, ⟨_, rfl, rfl⟩, rfl, ⟨false, rfl⟩,
        ⟨false, rfl⟩⟩, by decide, rfl⟩

end Ladder.Props
