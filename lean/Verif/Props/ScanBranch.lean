import Verif.Props.ScanOrder

/-
C28: rows joined by a vertical bar carry the OR of their outputs.
-/

set_option autoImplicit false

namespace Ladder.Props

open Spec Op

/-- Row `r` of network `n` carries power in column `c`. -/
def powered (ctx : Ctx) (n c r : Nat) : Bool := load ctx (.cell n r c) == some 1

theorem execCell_powered {ctx : Ctx} {k r c : Nat} {x : Cell} (he : ctx.exec = some k) (h : ctx.execCell r c = .ok x) :
    x.state = powered ctx k c r ∧ (load ctx (.cell k r c)).isSome := by
  obtain ⟨n, hn, hc⟩ := Chg.exnet_ok h
  rw [he] at hn
  cases hn
  cases hs : x.state <;> simp [powered, load, hc, hs]

theorem orStates_spec {k col : Nat} : ∀ (n gr : Nat) (acc : Bool) {w w' : World} {b : Bool}, w.ctx.exec = some k →
    orStates col gr n acc w = .ok (b, w') →
    w' = w ∧ b = (acc || (List.range' gr n).any (powered w.ctx k col)) ∧
      ∀ r ∈ List.range' gr n, (load w.ctx (.cell k r col)).isSome
  | 0, gr, acc, w, w', b, he, h => by
    simp only [orStates, pure_apply, Except.ok.injEq, Prod.mk.injEq] at h
    simp [h.1, h.2]
  | n + 1, gr, acc, w, w', b, he, h => by
    unfold orStates at h
    obtain ⟨x, w1, h1, h⟩ := bind_eq_ok.1 h
    rw [curCell, bind_getCtx] at h1
    obtain ⟨hx, e1⟩ := lift_eq_ok.1 h1
    obtain ⟨hs, hl⟩ := execCell_powered he hx
    rw [e1] at h
    obtain ⟨e, hb, ha⟩ := orStates_spec n (gr + 1) _ he h
    refine ⟨e, ?_, ?_⟩
    · rw [hb, hs, List.range'_succ, List.any_cons, Bool.or_assoc]
    · intro r hr
      rw [List.range'_succ, List.mem_cons] at hr
      rcases hr with rfl | hr
      · exact hl
      · exact ha r hr

theorem setStates_spec {k col : Nat} {b : Bool} : ∀ (n gr : Nat) {w w' : World} {u : Unit}, w.ctx.exec = some k →
    setStates col b gr n w = .ok (u, w') →
    Sets w w' ((List.range' gr n).map fun r => (.cell k r col, b.toNat))
  | 0, gr, w, w', u, he, h => by
    simp only [setStates, pure_apply, Except.ok.injEq, Prod.mk.injEq, true_and] at h
    rw [← h]
    exact ⟨rfl, rfl, Only.refl _, by simp⟩
  | n + 1, gr, w, w', u, he, h => by
    unfold setStates at h
    obtain ⟨u1, w1, h1, h⟩ := bind_eq_ok.1 h
    obtain ⟨m, hm, hl, e1⟩ := Chg.setState_eq h1
    rw [he] at hm
    cases hm
    have he1 : w1.ctx.exec = some k := by rw [e1]; exact he
    have ih := setStates_spec n (gr + 1) he1 h
    have hv : load w1.ctx (.cell k gr col) = some b.toNat := by
      rw [e1]; exact load_upd_self _ _ _ hl (Bool.toNat_lt b)
    refine ⟨by rw [ih.tick, e1]; rfl, by rw [ih.trace, e1]; rfl, ?_, ?_⟩
    · have h1 : Only w.ctx w1.ctx [.cell k gr col] := by rw [e1]; exact Only.upd _ _ _
      exact (h1.trans ih.only).mono (by
        intro ℓ hℓ
        rw [List.range'_succ]
        simpa using hℓ)
    · intro p hp
      rw [List.range'_succ, List.map_cons, List.mem_cons] at hp
      rcases hp with rfl | hp
      · rw [ih.only.2 _ (by simp; omega), hv]
      · exact ih.val p hp

/-- C28.  Evaluation of column `col` of the rung starting at row `gs` of network `k` either is skipped (nothing is
executed), or executes the rows of the branch group (`execLoop`, leading from `w0` to `w1`) and then gives every row of the
group, and nothing else, the disjunction of the outputs left by the instructions. -/
theorem C28_group_output {env : Env} (hk : Hooks env Steady) {k gs col cnt cnt' : Nat} {power : Bool} {net : Network}
    {w w' : World} (he : w.ctx.exec = some k) (hn : at? w.ctx.network k = some net)
    (h : scanColumn env k gs power col cnt w = .ok (some cnt', w')) :
    execs (news w w') = [] ∨
    ∃ w0 w1, execLoop env k col gs ((text net).group col gs).length w0 = .ok (false, w1) ∧
      execs (news w w0) = [] ∧
      Sets w1 w' (((text net).group col gs).map fun r =>
        (.cell k r col, (((text net).group col gs).any (powered w1.ctx k col)).toNat)) := by
  have ha : At k (text net) w.ctx.scan.maxScanCycles w.ctx.on.panic w := ⟨he, ⟨net, hn, rfl⟩, rfl, rfl⟩
  unfold scanColumn at h
  obtain ⟨net', w1, h1, h⟩ := bind_eq_ok.1 h
  obtain ⟨e1, -, hn'⟩ := ha.net h1
  rw [hn] at hn'
  cases hn'
  rw [e1] at h
  obtain ⟨ge, hge, h⟩ := bind_lift_eq_ok.1 h
  obtain ⟨-, hg, -⟩ := groupEnd_spec _ _ (by omega) hge
  have hlen : ge + 1 - gs = ((text net).group col gs).length := by rw [← hg, List.length_range']
  obtain ⟨o2, w2, h2, h⟩ := bind_eq_ok.1 h
  have ha2 := ha.of hk (SChg.skipLoop _ _ _ _) h2
  have hr2 : execs (news w w2) = [] := by
    obtain ⟨new, e, hx⟩ := Ran.idle (k := k) (T := text net) (SChg.skipLoop _ _ _ _) h2
    rw [news_of e, hx]; rfl
  rcases o2 with _ | ⟨safe, cnt2⟩
  · simp at h
  · simp only at h
    split at h
    · simp only [pure_apply, Except.ok.injEq, Prod.mk.injEq] at h
      rw [← h.2]
      exact .inl hr2
    · obtain ⟨b, w3, h3, h⟩ := bind_eq_ok.1 h
      have ha3 := ha2.of hk (SChg.execLoop (K := (· = k)) _ _ rfl _ _) h3
      split at h
      · simp at h
      · rename_i hb
        have hb : b = false := by simpa using hb
        subst hb
        obtain ⟨out, w4, h4, h⟩ := bind_eq_ok.1 h
        obtain ⟨u, w5, h5, h⟩ := bind_eq_ok.1 h
        simp only [pure_apply, Except.ok.injEq, Prod.mk.injEq] at h
        rw [← h.2]
        obtain ⟨e4, hout, -⟩ := orStates_spec _ _ _ ha3.exec h4
        rw [e4] at h5
        have hs := setStates_spec _ _ ha3.exec h5
        rw [hg] at hs hout
        rw [hlen] at h3
        rw [Bool.false_or] at hout
        rw [hout] at hs
        exact .inr ⟨w2, w3, h3, hr2, hs⟩

/-! ### The hypotheses can be met -/

/-- A contact that is off joined with one that is on, above a row of its own. -/
def branchDemo : World :=
  Demo.world [Demo.net [[Demo.ins .NO [Demo.op .I 256], Demo.ins .COIL [Demo.op .M 0]],
    [Demo.ins .NO [Demo.op .M 2] false true, Demo.ins .CONN []],
    [Demo.ins .NO [Demo.op .M 1], Demo.ins .COIL [Demo.op .M 1]]]]

/-- Both joined rows carry power after the first column, the row below does not. -/
example : ∃ w', scanColumn Demo.env 0 0 true 0 0 branchDemo = .ok (some 2, w') ∧
    powered w'.ctx 0 0 0 = true ∧ powered w'.ctx 0 0 1 = true ∧ powered w'.ctx 0 0 2 = false ∧
    execs (news branchDemo w') = [(0, 0, 0, .NO), (0, 1, 0, .NO)] := by
  have : (match scanColumn Demo.env 0 0 true 0 0 branchDemo with
    | .ok (o, w') => decide (o = some 2 ∧ powered w'.ctx 0 0 0 = true ∧ powered w'.ctx 0 0 1 = true ∧
        powered w'.ctx 0 0 2 = false ∧ execs (news branchDemo w') = [(0, 0, 0, .NO), (0, 1, 0, .NO)])
    | .error _ => false) = true := by decide +kernel
  split at this
  · rename_i h
    simp only [decide_eq_true_eq] at this
    exact ⟨_, by rw [h, this.1], this.2⟩
  · cases this

end Ladder.Props
