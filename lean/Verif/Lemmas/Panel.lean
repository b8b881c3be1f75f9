import Verif.Lemmas.Flash

/-
One cycle of the shipped program is one step of the panel.
-/

set_option autoImplicit false

namespace Ladder.Flash

open Spec Spec.Logic Spec.Flash Demo

theorem Shows.congr {a b d t u k p : Nat} {l : Lamp} {m m' : Image} (h : Shows a b d t u k p l m)
    (hm : ∀ ℓ ∈ lampLocs a b d t u k p, m' ℓ = m ℓ) : Shows a b d t u k p l m' := by
  simp only [lampLocs, List.mem_cons, List.not_mem_nil, or_false, forall_eq_or_imp, forall_eq] at hm
  obtain ⟨l1, l2, l3, l4, l5, l6, -, l8, l9, l10, -, l12, l13, l14, l15⟩ := hm
  exact ⟨l1.trans h.lit, l2.trans h.over, l3.trans h.full, l4.trans h.out, l5.trans h.run, l6.trans h.done, fun x hx => l8.trans (h.stamp x hx),
    l9.trans h.run', l10.trans h.done', fun x hx => l12.trans (h.stamp' x hx), l13.trans h.count, l14.trans h.counted, l15.trans h.ended, h.few⟩

/-- The image shows the panel. -/
structure Reflects (s : Panel) (m : Image) : Prop where
  first : Shows 1 2 3 0 1 0 0 s.first m
  second : Shows 6 5 4 2 3 1 1 s.second m
  key : m (.I 0 7) = some s.key.toNat
  third : m (.Q 0 3) = some s.key.toNat
  fourth : m (.Q 0 4) = some s.key.toNat
  marks : ∀ i ∈ [10, 12, 14], ∃ b : Bool, m (.M i) = some b.toNat
  rest : ∀ ℓ, (∃ n p, ℓ = .Q n p ∨ ℓ = .QW n p) → ℓ ∉ [Loc.Q 0 0, .Q 0 1, .Q 0 3, .Q 0 4] → m ℓ = Panel.outputs {} ℓ

theorem Reflects.orders {s : Panel} {m : Image} (h : Reflects s m) : orders m = s.outputs := by
  funext ℓ
  by_cases hq : ∃ n p, ℓ = .Q n p ∨ ℓ = .QW n p
  · have : Logic.orders m ℓ = m ℓ := by obtain ⟨n, p, rfl | rfl⟩ := hq <;> rfl
    rw [this]
    by_cases hl : ℓ ∈ [Loc.Q 0 0, .Q 0 1, .Q 0 3, .Q 0 4]
    · simp only [List.mem_cons, List.not_mem_nil, or_false] at hl
      rcases hl with rfl | rfl | rfl | rfl
      · exact h.first.out
      · exact h.second.out
      · exact h.third
      · exact h.fourth
    · rw [h.rest ℓ hq hl]
      simp only [List.mem_cons, List.not_mem_nil, or_false, not_or] at hl
      obtain ⟨n, p, rfl | rfl⟩ := hq
      · cases n with
        | succ n => rfl
        | zero =>
          simp only [Loc.Q.injEq, true_and] at hl
          show (if p < 8 then some _ else none) = if p < 8 then some _ else none
          congr 2
          split <;> first | rfl | omega | (split <;> first | rfl | omega)
      · cases n <;> rfl
  · have h1 : Logic.orders m ℓ = none := by
      cases ℓ <;> first | rfl | exact absurd ⟨_, _, .inl rfl⟩ hq | exact absurd ⟨_, _, .inr rfl⟩ hq
    have h2 : s.outputs ℓ = none := by
      cases ℓ <;> first | rfl | exact absurd ⟨_, _, .inl rfl⟩ hq | exact absurd ⟨_, _, .inr rfl⟩ hq
    rw [h1, h2]

/-! ### The parts of a cycle around the networks -/

/-- The location is not one of the history. -/
def fresh : Loc → Bool
  | .Mh _ | .Cdh _ | .Crh _ | .Tdh _ | .Trh _ | .Ih _ _ | .IWh _ _ | .Qh _ _ | .QWh _ _ => false
  | _ => true

theorem recall_kept {m : Image} {ℓ : Loc} (h : fresh ℓ = true) : recall kept m ℓ = m ℓ := by
  cases ℓ <;> first | rfl | cases h

theorem recall_sampled {m : Image} {ℓ : Loc} (h : fresh ℓ = true) : recall sampled m ℓ = m ℓ := by
  cases ℓ <;> first | rfl | cases h

theorem fired_ne {tm : Tm} {jobs : List CronJob} {i : Nat} (h : ∀ j ∈ jobs, j.flagReg ≠ i) (f : Nat → Option Byte) : fired tm jobs f i = f i := by
  induction jobs generalizing f with
  | nil => rfl
  | cons j js ih =>
    rw [fired]
    have ih := ih fun j hj => h j (List.mem_cons_of_mem _ hj)
    split
    · rw [ih, if_neg (Ne.symm (h j List.mem_cons_self))]
    · exact ih f

theorem calendar_M {tm : Tm} {jobs : List CronJob} {m : Image} {i : Nat} {b : Bool} (h : ∀ j ∈ jobs, j.flagReg ≠ i) (hm : m (.M i) = some b.toNat) :
    calendar tm jobs m (.M i) = m (.M i) := by
  show (fired tm jobs (cleared jobs fun i => (m (.M i)).map (BitVec.ofNat 8)) i).map (·.toNat) = _
  rw [fired_ne h, cleared, if_neg, hm]
  · cases b <;> rfl
  · rintro ⟨j, hj, -, -, e⟩
    exact h j hj e

theorem toNat_toggle (b : Bool) : (if b.toNat = 0 then 1 else 0) = (!b).toNat := by cases b <;> rfl

theorem pressed_key (typed : List Byte) (b : Bool) : pressed typed (.I 0 7) b.toNat = (b ^^ decide (typed.getLast? = some 55)).toNat := by
  show (if 7 < 8 ∧ typed.getLast? = some 55 then (if b.toNat = 0 then 1 else 0) else b.toNat) = _
  by_cases h : typed.getLast? = some 55
  · rw [if_pos ⟨by omega, h⟩, toNat_toggle, decide_eq_true h, Bool.xor_true]
  · rw [if_neg fun h' => h h'.2, decide_eq_false h, Bool.xor_false]

/-- The marks of the jobs are none of those of the program. -/
def Apart (jobs : List CronJob) : Prop := ∀ j ∈ jobs, ∀ i ∈ [1, 2, 3, 4, 5, 6, 10, 12, 14], j.flagReg ≠ i

/-- The image shows the panel, except for the outputs that follow the key. -/
structure Poised (s : Panel) (m : Image) : Prop where
  first : Shows 1 2 3 0 1 0 0 s.first m
  second : Shows 6 5 4 2 3 1 1 s.second m
  key : m (.I 0 7) = some s.key.toNat
  third : (m (.Q 0 3)).isSome
  fourth : (m (.Q 0 4)).isSome
  marks : ∀ i ∈ [10, 12, 14], ∃ b : Bool, m (.M i) = some b.toNat
  rest : ∀ ℓ, (∃ n p, ℓ = .Q n p ∨ ℓ = .QW n p) → ℓ ∉ [Loc.Q 0 0, .Q 0 1, .Q 0 3, .Q 0 4] → m ℓ = Panel.outputs {} ℓ

/-- The beginning of a cycle. -/
theorem Reflects.begin {s : Panel} {m : Image} (h : Reflects s m) {jobs : List CronJob} (hj : Apart jobs) (keys : Nat → List Byte) (a : Nat) (tm : Tm) :
    Poised { s with key := s.key ^^ decide ((keys a).getLast? = some 55) }
      (calendar tm jobs (acquire 1 (fun n => pressed (keys (a + n))) (recall sampled m))) := by
  have bits : ∀ i ∈ [1, 2, 3, 4, 5, 6, 10, 12, 14], ∃ b : Bool, m (.M i) = some b.toNat := fun i hi => by
    simp only [List.mem_cons, List.not_mem_nil, or_false] at hi
    rcases hi with rfl | rfl | rfl | rfl | rfl | rfl | rfl | rfl | rfl
    · exact ⟨_, h.first.lit⟩
    · exact ⟨_, h.first.over⟩
    · exact ⟨_, h.first.full⟩
    · exact ⟨_, h.second.full⟩
    · exact ⟨_, h.second.over⟩
    · exact ⟨_, h.second.lit⟩
    all_goals exact h.marks _ (by simp)
  have hM : ∀ i ∈ [1, 2, 3, 4, 5, 6, 10, 12, 14],
      calendar tm jobs (acquire 1 (fun n => pressed (keys (a + n))) (recall sampled m)) (.M i) = m (.M i) := fun i hi => by
    obtain ⟨b, hb⟩ := bits i hi
    rw [calendar_M (fun j hj' => hj j hj' i hi) (b := b) (by rw [← hb]; rfl)]
    rfl
  refine ⟨h.first.congr ?_, h.second.congr ?_, ?_, Option.isSome_of_eq_some h.third, Option.isSome_of_eq_some h.fourth, fun i hi => ?_, fun ℓ hq hl => ?_⟩
  · simp only [lampLocs, List.mem_cons, List.not_mem_nil, or_false, forall_eq_or_imp, forall_eq]
    exact ⟨hM 1 (by simp), hM 2 (by simp), hM 3 (by simp), rfl, rfl, rfl, rfl, rfl, rfl, rfl, rfl, rfl, rfl, rfl, rfl⟩
  · simp only [lampLocs, List.mem_cons, List.not_mem_nil, or_false, forall_eq_or_imp, forall_eq]
    exact ⟨hM 6 (by simp), hM 5 (by simp), hM 4 (by simp), rfl, rfl, rfl, rfl, rfl, rfl, rfl, rfl, rfl, rfl, rfl, rfl⟩
  · show (m (.I 0 7)).map (pressed (keys (a + 0)) (.I 0 7)) = _
    rw [h.key, Option.map_some, pressed_key]
    rfl
  · rw [hM i (by simp at hi ⊢; omega)]
    exact h.marks i hi
  · rw [← h.rest ℓ hq hl]
    obtain ⟨n, p, rfl | rfl⟩ := hq <;> rfl

theorem on_I {m : Image} {o p : Nat} {b : Bool} (h : place (op .I o) = some (.I 0 p)) (hm : m (.I 0 p) = some b.toNat) : on m (op .I o) = b := by
  have : now m (op .I o) = BitVec.ofNat 32 b.toNat := by
    show ((place (op .I o)).bind m |>.bind (decode .I)).getD 0 = _
    rw [h]
    simp [hm, decode]
  rw [on, this, ofNat_bit]

theorem place_Q0 : place (op .Q 0) = some (.Q 0 0) := by decide
theorem place_Q1 : place (op .Q 256) = some (.Q 0 1) := by decide
theorem place_Q3 : place (op .Q 768) = some (.Q 0 3) := by decide
theorem place_Q4 : place (op .Q 1024) = some (.Q 0 4) := by decide
theorem place_I7 : place (op .I 1792) = some (.I 0 7) := by decide

theorem program3 {a b c : Network} (ha : a.enable = true) (hb : b.enable = true) (hc : c.enable = true) (s : State) :
    Logic.program [a, b, c] s = Logic.network c (Logic.network b (Logic.network a s)) := by
  simp only [Logic.program, List.foldl_cons, List.foldl_nil, ha, hb, hc, if_true]

/-- The three networks. -/
theorem Poised.program {s : Panel} {m : Image} {b : Bool} (h : Poised s m) (time : Nat → Reading) :
    Reflects ⟨s.first.step true (time 0) (time 1), s.second.step (decide ((s.first.step true (time 0) (time 1)).flashes = 5)) (time 2) (time 3), s.key⟩
      (Logic.program [net0, net1, net2] ⟨m, time, b⟩).reg ∧
    (Logic.program [net0, net1, net2] ⟨m, time, b⟩).time = fun k => time (k + 4) := by
  rw [program3 rfl rfl rfl, network0]
  simp only [on_M (by decide) h.first.full, on_M (by decide) h.first.over]
  obtain ⟨g1, f1⟩ := h.first.stage (en := true) (q := time 0) (r := time 1) (by decide) (by decide) (by decide) (by decide) (by decide) (by decide)
    (by decide) place_Q0
  rw [Bool.true_and] at g1 f1
  generalize Flash.stage 1 2 3 0 1 0 0 (!full s.first && !over s.first) (time 0) (time 1) m = m1 at g1 f1 ⊢
  generalize s.first.step true (time 0) (time 1) = l1 at g1 ⊢
  have h2' := h.second.congr (m' := m1) fun ℓ hl => f1 ℓ (by revert hl; revert ℓ; decide)
  rw [network1]
  simp only [on_M (by decide) g1.full, on_M (by decide) h2'.full, on_M (by decide) h2'.over]
  have hfull : full l1 = decide (l1.flashes = 5) := by
    have := g1.few
    unfold full
    exact decide_eq_decide.2 (by omega)
  obtain ⟨g2, f2⟩ := h2'.stage (en := full l1) (q := time 2) (r := time 3) (by decide) (by decide) (by decide) (by decide) (by decide) (by decide)
    (by decide) place_Q1
  simp only [Nat.zero_add, Nat.reduceAdd] at *
  generalize Flash.stage 6 5 4 2 3 1 256 (full l1 && !full s.second && !over s.second) (time 2) (time 3) m1 = m2 at g2 f2 ⊢
  rw [hfull] at g2
  generalize s.second.step (decide (l1.flashes = 5)) (time 2) (time 3) = l2 at g2 ⊢
  have hout : ∀ ℓ, ℓ ∉ lampLocs 1 2 3 0 1 0 0 → ℓ ∉ lampLocs 6 5 4 2 3 1 1 → m2 ℓ = m ℓ := fun ℓ h1 h2 => (f2 ℓ h2).trans (f1 ℓ h1)
  have g1' := g1.congr (m' := m2) fun ℓ hl => f2 ℓ (by revert hl; revert ℓ; decide)
  rw [network2]
  simp only
  rw [on_I place_I7 ((hout _ (by decide) (by decide)).trans h.key)]
  generalize hm3 : put m2 (op .Q 768) (bit s.key) = m3
  have e3 : ∀ ℓ, m3 ℓ = if ℓ = .Q 0 3 then some s.key.toNat else m2 ℓ := fun ℓ => by
    rw [← hm3, put_at rfl place_Q3 (by rw [hout _ (by decide) (by decide)]; exact h.third)]
  generalize hm4 : put m3 (op .Q 1024) (bit s.key) = m4
  have e4 : ∀ ℓ, m4 ℓ = if ℓ = .Q 0 4 then some s.key.toNat else m3 ℓ := fun ℓ => by
    rw [← hm4, put_at rfl place_Q4 (by rw [e3, if_neg (by decide), hout _ (by decide) (by decide)]; exact h.fourth)]
  have mark : ∀ i ∈ [10, 12, 14], (m (.M i)).isSome := fun i hi => by
    obtain ⟨b, hb⟩ := h.marks i hi
    rw [hb]; rfl
  have b1 : (1 : W32) = bit true := rfl
  rw [b1]
  generalize hm5 : put m4 (op .M 10) (bit true) = m5
  have e5 : ∀ ℓ, m5 ℓ = if ℓ = .M 10 then some 1 else m4 ℓ := fun ℓ => by
    rw [← hm5, put_at rfl (place_M (by decide)) (by rw [e4, if_neg (by decide), e3, if_neg (by decide), hout _ (by decide) (by decide)]; exact mark 10 (by simp))]
    rfl
  generalize hm6 : put m5 (op .M 12) (bit true) = m6
  have e6 : ∀ ℓ, m6 ℓ = if ℓ = .M 12 then some 1 else m5 ℓ := fun ℓ => by
    rw [← hm6, put_at rfl (place_M (by decide)) (by rw [e5, if_neg (by decide), e4, if_neg (by decide), e3, if_neg (by decide), hout _ (by decide) (by decide)]; exact mark 12 (by simp))]
    rfl
  generalize hm7 : put m6 (op .M 14) (bit true) = m7
  have e7 : ∀ ℓ, m7 ℓ = if ℓ = .M 14 then some 1 else m6 ℓ := fun ℓ => by
    rw [← hm7, put_at rfl (place_M (by decide)) (by rw [e6, if_neg (by decide), e5, if_neg (by decide), e4, if_neg (by decide), e3, if_neg (by decide), hout _ (by decide) (by decide)]; exact mark 14 (by simp))]
    rfl
  have same : ∀ ℓ, ℓ ∉ [Loc.Q 0 3, .Q 0 4, .M 10, .M 12, .M 14] → m7 ℓ = m2 ℓ := fun ℓ hl => by
    simp only [List.mem_cons, List.not_mem_nil, or_false, not_or] at hl
    obtain ⟨l1, l2, l3, l4, l5⟩ := hl
    rw [e7, if_neg l5, e6, if_neg l4, e5, if_neg l3, e4, if_neg l2, e3, if_neg l1]
  refine ⟨⟨g1'.congr fun ℓ hl => same ℓ (by revert hl; revert ℓ; decide), g2.congr fun ℓ hl => same ℓ (by revert hl; revert ℓ; decide), ?_, ?_, ?_, ?_, ?_⟩, trivial⟩
  · rw [same _ (by decide), hout _ (by decide) (by decide), h.key]
  · rw [e7, if_neg (by decide), e6, if_neg (by decide), e5, if_neg (by decide), e4, if_neg (by decide), e3, if_pos rfl]
  · rw [e7, if_neg (by decide), e6, if_neg (by decide), e5, if_neg (by decide), e4, if_pos rfl]
  · intro i hi
    simp only [List.mem_cons, List.not_mem_nil, or_false] at hi
    refine ⟨true, ?_⟩
    rcases hi with rfl | rfl | rfl
    · rw [e7, if_neg (by decide), e6, if_neg (by decide), e5, if_pos rfl]; rfl
    · rw [e7, if_neg (by decide), e6, if_pos rfl]; rfl
    · rw [e7, if_pos rfl]; rfl
  · intro ℓ hq hl
    have hs : m7 ℓ = m ℓ := by
      simp only [List.mem_cons, List.not_mem_nil, or_false, not_or] at hl
      obtain ⟨q0, q1, q3, q4⟩ := hl
      obtain ⟨n, p, rfl | rfl⟩ := hq
      · rw [same _ (by simp [q3, q4]), hout _ (by simp [lampLocs, q0]) (by simp [lampLocs, q1])]
      · rw [same _ (by simp), hout _ (by simp [lampLocs]) (by simp [lampLocs])]
    rw [hs]
    exact h.rest ℓ hq hl

/-! ### A run -/

theorem prior_lt {us : List Reading} {rest : Nat → Reading} {k : Nat} (h : k < us.length) : Logic.prior us rest k = us[k] := by
  induction us generalizing k with
  | nil => simp at h
  | cons u us ih =>
    cases k with
    | zero => rfl
    | succ k => exact ih (by simpa using h)

theorem prior_ge {us : List Reading} {rest : Nat → Reading} {k : Nat} (h : us.length ≤ k) : Logic.prior us rest k = rest (k - us.length) := by
  induction us generalizing k with
  | nil => rfl
  | cons u us ih =>
    cases k with
    | zero => simp at h
    | succ k =>
      rw [List.length_cons, Nat.add_sub_add_right]
      exact ih (by simpa using h)

/-- A cycle that uses four readings of the clock, whatever follows, has four. -/
theorem four {us : List Reading} (h : ∀ rest, (fun k => Logic.prior us rest (k + 4)) = rest) : us.length = 4 := by
  rcases Nat.lt_or_ge 4 us.length with hl | hl
  · have h0 := congrFun (h fun _ => ⟨0, 0, 0⟩) 0
    have h1 := congrFun (h fun _ => ⟨1, 0, 0⟩) 0
    simp only [Nat.zero_add, prior_lt hl] at h0 h1
    rw [h0] at h1
    cases h1
  · have h0 := congrFun (h fun k => if k = 0 then ⟨0, 0, 0⟩ else ⟨1, 0, 0⟩) 0
    simp only [Nat.zero_add, prior_ge hl, if_true] at h0
    split at h0
    · omega
    · cases h0

theorem Reflects.congr {s : Panel} {m m' : Image} (h : Reflects s m) (hm : ∀ ℓ, fresh ℓ = true → m' ℓ = m ℓ) : Reflects s m' := by
  refine ⟨h.first.congr fun ℓ hl => hm ℓ (by revert hl; revert ℓ; decide), h.second.congr fun ℓ hl => hm ℓ (by revert hl; revert ℓ; decide),
    (hm _ rfl).trans h.key, (hm _ rfl).trans h.third, (hm _ rfl).trans h.fourth, fun i hi => ?_, fun ℓ hq hl => ?_⟩
  · rw [hm _ rfl]; exact h.marks i hi
  · rw [hm _ (by obtain ⟨n, p, rfl | rfl⟩ := hq <;> rfl)]
    exact h.rest ℓ hq hl

section

variable {jobs : List CronJob} (hj : Apart jobs) (keys : Nat → List Byte) (zone : Nat → Tm)
include hj

theorem Reflects.time {s : Panel} {m : Image} (h : Reflects s m) (rest : Nat → Reading) (e : Nat × List Reading) :
    (computed 1 (fun t => pressed (keys t)) zone jobs [net0, net1, net2] rest m e).time = fun k => Logic.prior e.2 rest (k + 4) :=
  ((h.begin hj keys e.1 (zone (e.1 + 1))).program _).2

theorem Reflects.turn {s : Panel} {m : Image} (h : Reflects s m) (rest : Nat → Reading) (e : Nat × List Reading) (he : e.2.length = 4) :
    Reflects (s.step (keys e.1, e.2)) (turn 1 (fun t => pressed (keys t)) zone jobs [net0, net1, net2] rest m e) := by
  obtain ⟨a, us⟩ := e
  match us, he with
  | [x, y, z, u], _ =>
    have := ((h.begin hj keys a (zone (a + 1))).program (b := true) (Logic.prior [x, y, z, u] rest)).1
    exact this.congr fun ℓ hl => recall_kept hl

/-- The outputs of a run. -/
theorem Reflects.run (as : List (Nat × List Reading)) {s : Panel} {m : (Nat → Reading) → Image} (h : ∀ rest, Reflects s (m rest))
    (hx : ∀ rest, Exhausts (computed 1 (fun t => pressed (keys t)) zone jobs [net0, net1, net2] rest) rest (m rest) as) :
    (∀ e ∈ as, e.2.length = 4) ∧ ∀ rest,
      (successive (Logic.turn 1 (fun t => pressed (keys t)) zone jobs [net0, net1, net2] rest) (m rest) as).map Logic.orders =
        (List.range as.length).map fun k => (((as.map fun e => (keys e.1, e.2)).take (k + 1)).foldl Panel.step s).outputs := by
  induction as generalizing s m with
  | nil => exact ⟨by simp, fun _ => rfl⟩
  | cons e as ih =>
    have h4 : e.2.length = 4 := four fun rest => ((h rest).time hj keys zone rest e).symm.trans (hx rest).1
    have h' := fun rest => (h rest).turn hj keys zone rest e h4
    obtain ⟨i1, i2⟩ := ih h' fun rest => (hx rest).2.2
    refine ⟨fun x hx => (List.mem_cons.1 hx).elim (fun e => e ▸ h4) (i1 x), fun rest => ?_⟩
    rw [successive, List.map_cons, i2 rest, List.length_cons, List.range_succ_eq_map, List.map_cons, List.map_map, (h' rest).orders]
    rfl

end

end Ladder.Flash
