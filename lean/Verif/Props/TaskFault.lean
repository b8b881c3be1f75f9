import Verif.Props.TaskHist
import Verif.Spec.Fault

/-
Faulted cycles: outputs (C35) and memory (C36).
-/

set_option autoImplicit false

namespace Ladder.Props

open Spec Op

variable {env : Env}

/-! ### The write callbacks -/

theorem writeLoop_shows (hp : ∀ t c, (env.panic t c).output = c.output) (hw : ∀ t n c, (env.write t n c).output = c.output) :
    ∀ (fuel n : Nat) {w w' : World} {u : Unit}, writeLoop env fuel n w = .ok (u, w') →
    ∃ new, w'.trace = w.trace ++ new ∧ ∀ e ∈ new, e = .panic ∨ ∃ i, e = .write i w.ctx.output
  | 0, _, _, _, _, h => by simp [writeLoop] at h
  | fuel + 1, n, w, w', u, h => by
    unfold writeLoop at h
    rw [bind_getCtx] at h
    split at h
    · rw [bind_lift_eq_ok] at h
      obtain ⟨b, -, h⟩ := h
      split at h
      · obtain ⟨new, e, hp⟩ := failPanic_trace h
        exact ⟨new, e, fun e he => .inl (hp e he)⟩
      · obtain ⟨u, w1, h1, h⟩ := bind_eq_ok.1 h
        rw [external_apply] at h1
        cases h1
        obtain ⟨new, e, c⟩ := writeLoop_shows hp hw fuel (n + 1) h
        refine ⟨.write n w.ctx.output :: new, by rw [e]; simp, ?_⟩
        intro e he
        rcases List.mem_cons.1 he with rfl | he
        · exact .inr ⟨n, rfl⟩
        · rcases c e he with h | ⟨i, h⟩
          · exact .inl h
          · exact .inr ⟨i, by rw [h]; simp only [hw]⟩
    · simp at h
      exact ⟨[], by rw [h]; simp, by simp⟩

/-- What follows the scan of a faulted cycle. -/
theorem fault_shape {w b v v' w' : World} (hc : cycle env w = .ok (.exit, w')) (hs : ScanOf env w b v v') :
    v'.ctx.state = .inv ∧ ∃ c c' out w1 w2, rollback { v'.ctx with state := .exitTsk } = .ok c ∧ savePrevious c = .ok c' ∧
      (if c'.writeOnFault then .ok c'.output else amapFirst safeOut c'.fnWriteQty c'.output) = .ok out ∧
      doWrites env { v' with ctx := { c' with output := out } } = .ok ((), w1) ∧ scanTime env w1 = .ok ((), w2) ∧
      callAfter env w2 = .ok ((), w') := by
  obtain ⟨w2, hr, ho⟩ := hs.steps
  cases cycleRun hc with
  | fault hb hr' ho' hs' hi hf =>
    rw [hs.before] at hb; cases hb
    rw [hr] at hr'; cases hr'
    rw [ho] at ho'; cases ho'
    rw [hs.scan] at hs'; cases hs'
    exact ⟨hi, faultPath_eq hf⟩

/-- The outputs handed to the write callbacks of a faulted cycle. -/
theorem fault_writes (hp : ∀ t c, (env.panic t c).output = c.output) (hw : ∀ t n c, (env.write t n c).output = c.output)
    {w b v v' w' : World} (hc : cycle env w = .ok (.exit, w')) (hs : ScanOf env w b v v') :
    ∃ c c' out new, rollback { v'.ctx with state := .exitTsk } = .ok c ∧ savePrevious c = .ok c' ∧
      (if c'.writeOnFault then .ok c'.output else amapFirst safeOut c'.fnWriteQty c'.output) = .ok out ∧
      w'.trace = v'.trace ++ new ∧ ∀ i o, Event.write i o ∈ new → o = out := by
  obtain ⟨-, c, c', out, w1, w2, h1, h2, h3, h4, h5, h6⟩ := fault_shape hc hs
  obtain ⟨n2, e2, p2⟩ := scanTime_trace h5
  obtain ⟨n3, e3, p3⟩ : ∃ new, w'.trace = w2.trace ++ new ∧ ∀ e ∈ new, e = .after := by
    rw [callAfter_apply] at h6
    cases h6
    split
    · exact ⟨_, rfl, by simp⟩
    · exact ⟨[], by simp, by simp⟩
  have : ∃ new, w1.trace = v'.trace ++ new ∧ ∀ e ∈ new, e = .panic ∨ ∃ i, e = .write i out := by
    unfold doWrites at h4
    rw [bind_getCtx] at h4
    split at h4
    · exact writeLoop_shows hp hw _ _ h4
    · simp at h4; exact ⟨[], by rw [← h4]; simp, by simp⟩
  obtain ⟨n1, e1, p1⟩ := this
  refine ⟨c, c', out, n1 ++ n2 ++ n3, h1, h2, h3, by rw [e3, e2, e1]; simp, ?_⟩
  intro i o ho
  rcases List.mem_append.1 ho with ho | ho
  · rcases List.mem_append.1 ho with ho | ho
    · rcases p1 _ ho with h | ⟨j, h⟩
      · cases h
      · cases h; rfl
    · cases p2 _ ho
  · cases p3 _ ho

/-! ### Reverting and clearing -/

theorem revertOut_eq {o o' : OutMod} (h : revertOut o = .ok o') : ∃ q qw,
    (q = o.Q ∧ (o.qQty = 0 ∨ o.Q.isNone ∨ o.Qh.isNone) ∨ acopy o.Q o.Qh o.qQty = .ok q) ∧
    (qw = o.QW ∧ ((o.qQty = 0 ∨ o.Q.isNone ∨ o.Qh.isNone) ∨ o.qwQty = 0 ∨ o.QW.isNone ∨ o.QWh.isNone) ∨
      acopy o.QW o.QWh o.qwQty = .ok qw) ∧ o' = { o with Q := q, QW := qw } := by
  unfold revertOut at h
  split at h
  · rename_i hc
    simp only [Except.ok.injEq] at h; exact ⟨o.Q, o.QW, .inl ⟨rfl, hc⟩, .inl ⟨rfl, .inl hc⟩, h.symm⟩
  · simp only [except_bind] at h
    obtain ⟨qh, h1, h⟩ := h
    split at h
    · rename_i hc
      simp only [Except.ok.injEq] at h; exact ⟨qh, o.QW, .inr h1, .inl ⟨rfl, .inr hc⟩, h.symm⟩
    · simp only [except_bind] at h
      obtain ⟨qwh, h2, h⟩ := h
      simp only [Except.ok.injEq] at h; exact ⟨qh, qwh, .inr h1, .inr h2, h.symm⟩

theorem safeOut_eq {o o' : OutMod} (h : safeOut o = .ok o') :
    (0 < o.qQty → o.Q.isSome → afill o.Q o.qQty 0 = .ok o'.Q) ∧
    (0 < o.qQty → o.Q.isSome → 0 < o.qwQty → o.QW.isSome → afill o.QW o.qwQty 0 = .ok o'.QW) := by
  unfold safeOut at h
  split at h
  · rename_i hc
    have nq : ∀ {P : Prop}, 0 < o.qQty → o.Q.isSome → P := by
      intro P h1 h2
      rcases hc with hc | hc
      · omega
      · simp only [Option.isNone_iff_eq_none] at hc; rw [hc] at h2; cases h2
    exact ⟨fun a b => nq a b, fun a b => nq a b⟩
  · simp only [except_bind] at h
    obtain ⟨q, h1, h⟩ := h
    split at h
    · rename_i hc
      simp only [Except.ok.injEq] at h
      subst h
      refine ⟨fun _ _ => h1, fun _ _ a b => ?_⟩
      rcases hc with hc | hc
      · omega
      · simp only [Option.isNone_iff_eq_none] at hc; rw [hc] at b; cases b
    · simp only [except_bind] at h
      obtain ⟨qw, h2, qh, h3, qwh, h4, h⟩ := h
      simp only [Except.ok.injEq] at h
      subst h
      exact ⟨fun _ _ => h1, fun _ _ _ _ => h2⟩

theorem plant_frame {a b : Ctx} (h : frame a = frame b) : plant a = plant b := by
  have bl : ∀ {α : Type} (z : α) (a : Arr α), (blank z a).map (·.length) = a.map (·.length) := by
    intro α z a; cases a <;> simp [blank]
  have e : ∀ c, plant (frame c) = plant c := by
    intro c
    simp only [plant, frame, Option.map_map, Function.comp_def, List.map_map, bl]
  rw [← e a, h, e]

/-- Modules after a scan compared with those before. -/
theorem plant_at {c c' : Ctx} (h : plant c' = plant c) : c'.fnWriteQty = c.fnWriteQty ∧ c'.writeOnFault = c.writeOnFault ∧
    ∀ m o, at? c.output m = some o → ∃ o', at? c'.output m = some o' ∧ o'.qQty = o.qQty ∧ o'.qwQty = o.qwQty ∧
      o'.Q.isSome = o.Q.isSome ∧ o'.QW.isSome = o.QW.isSome ∧ o'.Qh = o.Qh ∧ o'.QWh = o.QWh := by
  simp only [plant, Prod.mk.injEq] at h
  obtain ⟨h1, h2, h3⟩ := h
  refine ⟨h1, h2, ?_⟩
  intro m o ho
  have look := congrArg (fun a => at? a m) h3
  cases e1 : c.output with
  | none => rw [e1] at ho; cases ho
  | some l =>
    cases e2 : c'.output with
    | none => simp [e1, e2] at h3
    | some l' =>
      rw [e1] at ho
      simp only [e1, e2, at?, Option.map_some, Option.bind_some, List.getElem?_map] at look ho
      rw [ho] at look
      simp only [Option.map_some, Option.map_eq_some_iff, Prod.mk.injEq] at look
      obtain ⟨o', ho', a, b, c, d, e, f⟩ := look
      refine ⟨o', by simpa [at?] using ho', a, b, ?_, ?_, e, f⟩
      · have := congrArg Option.isSome c; simpa using this
      · have := congrArg Option.isSome d; simpa using this

theorem saveOut_keeps {o o' : OutMod} (h : saveOut o = .ok o') : o'.Q = o.Q ∧ o'.QW = o.QW ∧ o'.qQty = o.qQty ∧ o'.qwQty = o.qwQty := by
  obtain ⟨qh, qwh, -, -, e⟩ := saveOut_eq h
  subst e
  exact ⟨rfl, rfl, rfl, rfl⟩

/-- The module after reverting and saving. -/
theorem reverted {x c c' : Ctx} (h1 : rollback x = .ok c) (h2 : savePrevious c = .ok c') :
    c'.writeOnFault = x.writeOnFault ∧ c'.fnWriteQty = x.fnWriteQty ∧
    ∀ m o, m < x.fnWriteQty → at? x.output m = some o → ∃ o1 o2, at? c'.output m = some o2 ∧ revertOut o = .ok o1 ∧
      o2.Q = o1.Q ∧ o2.QW = o1.QW ∧ o2.qQty = o.qQty ∧ o2.qwQty = o.qwQty := by
  obtain ⟨out, m, cd, cr, td, tr, cc, ts, d, r, ho, -, -, -, -, -, -, -, -, -, e⟩ := rollback_eq h1
  obtain ⟨mh, cdh, crh, tdh, trh, out2, -, -, -, -, -, ho2, e2⟩ := savePrevious_eq h2
  subst e
  subst e2
  refine ⟨rfl, rfl, ?_⟩
  intro m o hm hat
  obtain ⟨o1, hat1, hr, -⟩ := amapFirst_back ho m hat
  obtain ⟨o2, hat2, hs, -⟩ := amapFirst_back ho2 m hat1
  obtain ⟨k1, k2, k3, k4⟩ := saveOut_keeps (hs hm)
  obtain ⟨q, qw, -, -, e⟩ := revertOut_eq (hr hm)
  refine ⟨o1, o2, hat2, hr hm, k1, k2, ?_, ?_⟩
  · rw [k3, e]
  · rw [k4, e]

/-- The digital output history is the present outputs when the scan starts. -/
theorem begun {w b v v' : World} (hs : ScanOf env w b v v') :
    (∀ m o, m < v.ctx.fnWriteQty → at? v.ctx.output m = some o →
      ((0 < o.qQty ∧ o.Q.isSome ∧ o.Qh.isSome) → ∀ p, p < o.qQty → at? o.Qh p = at? o.Q p) ∧
      ((0 < o.qQty ∧ o.Q.isSome ∧ o.Qh.isSome) → (0 < o.qwQty ∧ o.QW.isSome ∧ o.QWh.isSome) →
        ∀ p, p < o.qwQty → at? o.QWh p = at? o.QW p)) := by
  obtain ⟨w2, -, ho⟩ := hs.steps
  rcases outHistPhase_eq ho with ⟨h, -⟩ | ⟨-, out, hout, e⟩
  · cases h
  intro m o hm hat
  subst e
  simp only at hm hat
  rw [if_pos (by omega)] at hout
  obtain ⟨x, -, hx, -⟩ := amapFirst_at hout m hat
  have hx := hx hm
  unfold histOut at hx
  split at hx
  · rename_i hc
    simp only [Except.ok.injEq] at hx
    subst hx
    have nq : ∀ {P : Prop}, (0 < x.qQty ∧ x.Q.isSome ∧ x.Qh.isSome) → P := by
      rintro P ⟨a, b, c⟩
      rcases hc with hc | hc | hc
      · omega
      · simp only [Option.isNone_iff_eq_none] at hc; rw [hc] at b; cases b
      · simp only [Option.isNone_iff_eq_none] at hc; rw [hc] at c; cases c
    exact ⟨fun a => nq a, fun a => nq a⟩
  · simp only [except_bind] at hx
    obtain ⟨qh, h1, h⟩ := hx
    have d1 : ∀ p, p < x.qQty → at? qh p = at? x.Q p := fun p hp => by rw [acopy_at h1, if_pos hp]
    split at h
    · rename_i hc
      simp only [Except.ok.injEq] at h
      subst h
      refine ⟨fun _ => d1, ?_⟩
      rintro - ⟨a, b, c⟩
      rcases hc with hc | hc | hc
      · simp only at a; omega
      · simp only [Option.isNone_iff_eq_none] at hc; simp only at b; rw [hc] at b; cases b
      · simp only [Option.isNone_iff_eq_none] at hc; simp only at c; rw [hc] at c; cases c
    · simp only [except_bind] at h
      obtain ⟨qwh, h2, h⟩ := h
      simp only [Except.ok.injEq] at h
      subst h
      exact ⟨fun _ => d1, fun _ _ p hp => by simp only; rw [acopy_at h2, if_pos hp]⟩

/-! ### C35 -/

/-- C35, hold mode.  After a scan that left the invalid state, every write callback is handed, for every digital port with a
history, and every analog port with one in a module that also has digital ports, the value the port had when the scan began. -/
theorem C35_hold_partial (hd : Hooks env fun c c' => plant c' = plant c) (hp : ∀ t c, (env.panic t c).output = c.output)
    (hw : ∀ t n c, (env.write t n c).output = c.output) {w b v v' w' : World} (hc : cycle env w = .ok (.exit, w'))
    (hs : ScanOf env w b v v') (hm : v.ctx.writeOnFault = true) :
    ∃ new, w'.trace = v'.trace ++ new ∧ ∀ i outs, Event.write i outs ∈ new → ∀ ℓ, Held v.ctx ℓ → shown outs ℓ = load v.ctx ℓ := by
  obtain ⟨c, c', out, new, h1, h2, h3, h4, h5⟩ := fault_writes hp hw hc hs
  obtain ⟨p1, p2, p3⟩ := plant_at (scan_keeps (fun _ _ => plant_frame) hd hs.scan)
  obtain ⟨r1, r2, r3⟩ := reverted h1 h2
  simp only at r1 r2 r3
  rw [r1, p2, hm, if_pos rfl] at h3
  simp only [Except.ok.injEq] at h3
  refine ⟨new, h4, ?_⟩
  intro i outs hmem ℓ hℓ
  rw [h5 _ _ hmem, ← h3]
  cases ℓ <;> first | (exact absurd hℓ id) | skip
  · rename_i m p
    obtain ⟨hlt, o, hat, hpq, hQ, hQh⟩ := hℓ
    obtain ⟨o', hat', e1, e2, e3, e4, e5, e6⟩ := p3 m o hat
    obtain ⟨o1, o2, hat2, hr, f1, f2, f3, f4⟩ := r3 m o' (by omega) hat'
    obtain ⟨q, qw, a1, a2, e⟩ := revertOut_eq hr
    simp only [shown, load, hat2, hat, Option.bind_some]
    congr 1
    rw [f1, e]
    rcases a1 with ⟨-, hc⟩ | a1
    · exfalso
      rcases hc with hc | hc | hc
      · omega
      · rw [← Option.not_isSome, e3, hQ] at hc; cases hc
      · rw [← Option.not_isSome, e5, hQh] at hc; cases hc
    · rw [acopy_at a1, if_pos (by omega), e5]
      exact (begun hs m o hlt hat).1 ⟨by omega, hQ, hQh⟩ p hpq
  · rename_i m p
    obtain ⟨hlt, o, hat, hpq, hQW, hQWh, h0, hQ, hQh⟩ := hℓ
    obtain ⟨o', hat', e1, e2, e3, e4, e5, e6⟩ := p3 m o hat
    obtain ⟨o1, o2, hat2, hr, f1, f2, f3, f4⟩ := r3 m o' (by omega) hat'
    obtain ⟨q, qw, a1, a2, e⟩ := revertOut_eq hr
    simp only [shown, load, hat2, hat, Option.bind_some]
    congr 1
    rw [f2, e]
    rcases a2 with ⟨-, hc⟩ | a2
    · exfalso
      rcases hc with (hc | hc | hc) | hc | hc | hc
      · omega
      · rw [← Option.not_isSome, e3, hQ] at hc; cases hc
      · rw [← Option.not_isSome, e5, hQh] at hc; cases hc
      · omega
      · rw [← Option.not_isSome, e4, hQW] at hc; cases hc
      · rw [← Option.not_isSome, e6, hQWh] at hc; cases hc
    · rw [acopy_at a2, if_pos (by omega), e6]
      exact (begun hs m o hlt hat).2 ⟨h0, hQ, hQh⟩ ⟨by omega, hQW, hQWh⟩ p hpq

/-- C35, clear mode.  After such a scan every write callback is handed zero for every digital port, and every analog port of a
module that also has digital ports. -/
theorem C35_clear_partial (hd : Hooks env fun c c' => plant c' = plant c) (hp : ∀ t c, (env.panic t c).output = c.output)
    (hw : ∀ t n c, (env.write t n c).output = c.output) {w b v v' w' : World} (hc : cycle env w = .ok (.exit, w'))
    (hs : ScanOf env w b v v') (hm : v.ctx.writeOnFault = false) :
    ∃ new, w'.trace = v'.trace ++ new ∧ ∀ i outs, Event.write i outs ∈ new → ∀ ℓ, Cleared v.ctx ℓ → shown outs ℓ = some 0 := by
  obtain ⟨c, c', out, new, h1, h2, h3, h4, h5⟩ := fault_writes hp hw hc hs
  obtain ⟨p1, p2, p3⟩ := plant_at (scan_keeps (fun _ _ => plant_frame) hd hs.scan)
  obtain ⟨r1, r2, r3⟩ := reverted h1 h2
  simp only at r1 r2 r3
  rw [r1, p2, hm, if_neg (by simp)] at h3
  refine ⟨new, h4, ?_⟩
  intro i outs hmem ℓ hℓ
  rw [h5 _ _ hmem]
  have keep : ∀ {o o1 : OutMod}, revertOut o = .ok o1 → (o.Q.isSome → o1.Q.isSome) ∧ (o.QW.isSome → o1.QW.isSome) := by
    intro o o1 hr
    obtain ⟨q, qw, a1, a2, e⟩ := revertOut_eq hr
    rw [e]
    constructor
    · intro h
      rcases a1 with ⟨rfl, -⟩ | a1
      · exact h
      · exact (acopy_some a1).2.2
    · intro h
      rcases a2 with ⟨rfl, -⟩ | a2
      · exact h
      · exact (acopy_some a2).2.2
  cases ℓ <;> first | (exact absurd hℓ id) | skip
  · rename_i m p
    obtain ⟨hlt, o, hat, hpq, hQ⟩ := hℓ
    obtain ⟨o', hat', e1, e2, e3, e4, e5, e6⟩ := p3 m o hat
    obtain ⟨o1, o2, hat2, hr, f1, f2, f3, f4⟩ := r3 m o' (by omega) hat'
    obtain ⟨o3, hat3, hsafe, -⟩ := amapFirst_back h3 m hat2
    have hQ2 : o2.Q.isSome := by rw [f1]; exact (keep hr).1 (by rw [e3]; exact hQ)
    have := (safeOut_eq (hsafe (by omega))).1 (by omega) hQ2
    simp only [shown, hat3, Option.bind_some]
    rw [afill_at this, if_pos (by omega)]
    rfl
  · rename_i m p
    obtain ⟨hlt, o, hat, hpq, hQW, h0, hQ⟩ := hℓ
    obtain ⟨o', hat', e1, e2, e3, e4, e5, e6⟩ := p3 m o hat
    obtain ⟨o1, o2, hat2, hr, f1, f2, f3, f4⟩ := r3 m o' (by omega) hat'
    obtain ⟨o3, hat3, hsafe, -⟩ := amapFirst_back h3 m hat2
    have hQ2 : o2.Q.isSome := by rw [f1]; exact (keep hr).1 (by rw [e3]; exact hQ)
    have hQW2 : o2.QW.isSome := by rw [f2]; exact (keep hr).2 (by rw [e4]; exact hQW)
    have := (safeOut_eq (hsafe (by omega))).2 (by omega) hQ2 (by omega) hQW2
    simp only [shown, hat3, Option.bind_some]
    rw [afill_at this, if_pos (by omega)]
    rfl

/-! ### C36 -/

theorem zeroAcc_at {n : Nat} {a a' : Arr Timer} (h : zeroAcc n a = .ok a') {i : Nat} (hi : i < n) {t : Timer}
    (ht : at? a' i = some t) : t.acc = 0 := by
  unfold zeroAcc at h
  split at h
  · cases h
  · rename_i l
    cases hm : mapFirst (fun t : Timer => .ok { t with acc := 0 }) n l with
    | error e => rw [hm] at h; simp [Except.map] at h
    | ok l' =>
      rw [hm] at h
      simp only [Except.map, Except.ok.injEq] at h
      subst h
      obtain ⟨x, -, h2, -⟩ := mapFirst_at hm i t ht
      have := h2 hi
      simp only [Except.ok.injEq] at this
      rw [← this]

theorem memory_load {c c' : Ctx} (h : memory c' = memory c) {ℓ : Loc} (hℓ : FlagIn c ℓ ∨ RegIn c ℓ) : load c' ℓ = load c ℓ := by
  simp only [memory, Prod.mk.injEq, List.cons.injEq, and_true] at h
  obtain ⟨⟨h1, h2, h3, h4, h5⟩, ⟨h6, h7, h8⟩, h9⟩ := h
  cases ℓ <;> first | (exact (hℓ.elim id id).elim) | (simp only [load] <;> simp only [h1, h2, h3, h4, h5, h6, h7, h8, h9])

/-- C36, memory.  After a scan that left the invalid state, the flags have at the end of the cycle the values recorded in the
history when the scan began, and counters, timer accumulators, D and R registers are zero. -/
theorem C36_memory_partial (hd : Hooks env fun c c' => (c'.qty, history c') = (c.qty, history c))
    (hk : Quiet env fun c c' => memory c' = memory c) {w b v v' w' : World} (hc : cycle env w = .ok (.exit, w'))
    (hs : ScanOf env w b v v') :
    (∀ ℓ h, FlagIn v.ctx ℓ → prior ℓ = some h → load w'.ctx ℓ = load v.ctx h) ∧
    (∀ ℓ, RegIn v.ctx ℓ → (load w'.ctx ℓ).isSome → load w'.ctx ℓ = some 0) := by
  obtain ⟨-, c, c', out, w1, w2, h1, h2, -, h4, h5, h6⟩ := fault_shape hc hs
  have m1 : ∀ (c : Ctx) (s : St), memory { c with state := s } = memory c := fun _ _ => rfl
  have m2 : ∀ (c : Ctx) (s : ScanInt), memory { c with scan := s } = memory c := fun _ _ => rfl
  have em : memory w'.ctx = memory c := by
    obtain ⟨mh, cdh, crh, tdh, trh, out2, -, -, -, -, -, -, e2⟩ := savePrevious_eq h2
    refine (holds_after m1 m2 hk h6).trans ((holds_scanTime m1 m2 hk h5).trans ((holds_doWrites m1 m2 hk h4).trans ?_))
    rw [e2]
    rfl
  have eq := scan_keeps (f := fun c => (c.qty, history c)) (fun a b h => by
    rw [Prod.mk.injEq]
    exact ⟨by have : (frame a).qty = (frame b).qty := by rw [h]
              exact this, history_frame h⟩) hd hs.scan
  rw [Prod.mk.injEq] at eq
  obtain ⟨eq, eh⟩ := eq
  obtain ⟨ou, m, cd, cr, td, tr, cc, ts, d, r, -, b1, b2, b3, b4, b5, b6, b7, b8, b9, e⟩ := rollback_eq h1
  simp only [eq] at b1 b2 b3 b4 b5 b6 b7 b8 b9
  have fills : ∀ {a a' : Arr W32} {n i : Nat}, (if n > 0 ∧ a.isSome then afill a n 0 else .ok a) = .ok a' → i < n →
      ((at? a' i).map (·.toNat)).isSome → (at? a' i).map (·.toNat) = some 0 := by
    intro a a' n i h hi hx
    split at h
    · rw [afill_at h, if_pos hi]; rfl
    · rename_i hn
      simp only [Except.ok.injEq] at h
      subst h
      refine absurd ⟨by omega, ?_⟩ hn
      cases a with
      | none => cases hx
      | some l => rfl
  constructor
  · intro ℓ h hℓ hp
    have hh : load v'.ctx h = load v.ctx h := history_load eh (by
      cases ℓ <;> first | (exact absurd hℓ id) | (simp only [prior, Option.some.injEq] at hp; subst hp; rfl))
    rw [← hh, memory_load em (.inl (by rw [e]; cases ℓ <;> first | (exact absurd hℓ id) | (simp only [FlagIn, eq] at hℓ ⊢; exact hℓ)))]
    cases ℓ <;> first | (exact absurd hℓ id) | skip
    all_goals
      simp only [prior, Option.some.injEq] at hp
      subst hp
      simp only [load, FlagIn] at hℓ ⊢
      congr 1
      rw [e]
    · rw [acopy_at b1, if_pos hℓ]
    · rw [acopy_at b2, if_pos hℓ]
    · rw [acopy_at b3, if_pos hℓ]
    · rw [acopy_at b4, if_pos hℓ]
    · rw [acopy_at b5, if_pos hℓ]
  · intro ℓ hℓ
    rw [memory_load em (.inr (by rw [e]; cases ℓ <;> first | (exact absurd hℓ id) | (simp only [RegIn, eq] at hℓ ⊢; exact hℓ)))]
    cases ℓ <;> first | (exact absurd hℓ id) | skip
    all_goals
      simp only [load, RegIn] at hℓ ⊢
      rw [e]
      try simp only
    · exact fills b6 hℓ
    · exact fills b8 hℓ
    · exact fills b9 hℓ
    · intro hx
      split at b7
      · rename_i i _
        cases ht : at? ts i with
        | none => rw [ht] at hx; cases hx
        | some t => simp [zeroAcc_at b7 hℓ ht]
      · rename_i hn
        simp only [Except.ok.injEq] at b7
        subst b7
        refine absurd ⟨by omega, ?_⟩ hn
        cases hv : v'.ctx.timers with
        | none => rw [hv] at hx; cases hx
        | some l => rfl

/-- C36, flags over cycles.  If a cycle is followed by one whose scan leaves the invalid state, the flags with a history end the
latter with the values they had at the end of the former's scan. -/
theorem C36_previous_partial (hd : Hooks env fun c c' => (c'.qty, history c') = (c.qty, history c))
    (hm : Quiet env fun c c' => memory c' = memory c) (hk : Ports env fun c c' => kept c' = kept c)
    (hq : Ports env fun c c' => c'.qty = c.qty) {w b v v' w' u b2 v2 v2' w'' : World} {r : WaitRes}
    (hc : cycle env w = .ok (.again, w')) (hs : ScanOf env w b v v') (hw : waitLoop env maxWait w' = .ok (r, u))
    (hc2 : cycle env u = .ok (.exit, w'')) (hs2 : ScanOf env u b2 v2 v2') {ℓ : Loc} (hℓ : FlagIn v'.ctx ℓ)
    (h1 : (load v'.ctx ℓ).isSome) (h2 : (load w''.ctx ℓ).isSome) : load w''.ctx ℓ = load v'.ctx ℓ := by
  have e0 : v2.ctx.qty = v'.ctx.qty := by
    obtain ⟨c1, c2, out, hp, e, -, e2⟩ := next_keeps (f := Ctx.qty) (fun _ _ => rfl) (fun _ _ => rfl) (fun _ _ => rfl) hq hc hs hw hs2
    obtain ⟨mh, cdh, crh, tdh, trh, out2, -, -, -, -, -, -, e3⟩ := savePrevious_eq hp
    rw [e2]
    show c2.qty = _
    rw [e, e3]
  obtain ⟨h, hp⟩ : ∃ h, prior ℓ = some h := by
    cases ℓ <;> first | (exact absurd hℓ id) | exact ⟨_, rfl⟩
  have e : load w''.ctx ℓ = load v2.ctx h := by
    refine (C36_memory_partial hd hm hc2 hs2).1 ℓ h ?_ hp
    cases ℓ <;> first | (exact absurd hℓ id) | (simp only [FlagIn, e0] at hℓ ⊢; exact hℓ)
  rw [e] at h2 ⊢
  exact C44_previous_partial hk hc hs hw hs2 ℓ (.inl hℓ) h hp h1 h2

/-- C36, callbacks.  After a scan that left the invalid state the writes are made, then the after hook is called, once. -/
theorem C36_after_partial (hk : Quiet env fun c c' => c'.on.taskAfter = c.on.taskAfter)
    {w b v v' w' : World} (hc : cycle env w = .ok (.exit, w')) (hs : ScanOf env w b v v') :
    ∃ (new : List Event) (outs : List (Arr OutMod)), w'.trace = v'.trace ++ new ∧
      calm new = outs.mapIdx .write ++ ifOn v'.ctx.on.taskAfter .after := by
  obtain ⟨-, c, c', out, w1, w2, h1, h2, h3, h4, h5, h6⟩ := fault_shape hc hs
  have m1 : ∀ (c : Ctx) (s : St), ({ c with state := s } : Ctx).on.taskAfter = c.on.taskAfter := fun _ _ => rfl
  have m2 : ∀ (c : Ctx) (s : ScanInt), ({ c with scan := s } : Ctx).on.taskAfter = c.on.taskAfter := fun _ _ => rfl
  obtain ⟨n1, outs, e1, p1⟩ := doWrites_trace h4
  obtain ⟨n2, e2, p2⟩ := scanTime_trace h5
  have hon : w2.ctx.on.taskAfter = v'.ctx.on.taskAfter := by
    refine (holds_scanTime m1 m2 hk h5).trans ((holds_doWrites m1 m2 hk h4).trans ?_)
    obtain ⟨ou, m, cd, cr, td, tr, cc, ts, d, r, -, -, -, -, -, -, -, -, -, -, e⟩ := rollback_eq h1
    obtain ⟨mh, cdh, crh, tdh, trh, out2, -, -, -, -, -, -, e2⟩ := savePrevious_eq h2
    rw [e2, e]
  rw [callAfter_apply, hon] at h6
  refine ⟨n1 ++ n2 ++ ifOn v'.ctx.on.taskAfter .after, outs, ?_, ?_⟩
  · cases h6
    unfold ifOn
    split
    · simp [e2, e1]
    · simp [e2, e1]
  · rw [calm_append, calm_append, p1, calm_panics p2]
    unfold ifOn
    split <;> simp [calm]

/-- C36, end.  After such a cycle the task makes no further one: it calls the end hook, once, and returns. -/
theorem C36_ends {w w' u : World} (hx : w.ctx.state ≠ .exitTsk) (hw : waitLoop env maxWait w = .ok (.ready, u))
    (hc : cycle env u = .ok (.exit, w')) (n : Nat) :
    taskLoop env (n + 1) w = .ok (.ended, endHook env w') ∧ news w' (endHook env w') = ifOn w'.ctx.on.endTask .endTask := by
  constructor
  · rw [taskLoop, bind_getCtx, if_neg hx, bind_apply, taskIter, bind_apply, hw]
    dsimp only
    rw [hc]
    dsimp only
    rw [bind_apply, callEndTask_apply]
    rfl
  · unfold endHook ifOn
    split
    · exact news_of (new := [.endTask]) rfl
    · exact news_of (new := []) (by simp)

/-! ### Where C35 and C36 fail -/

/-- Overflow: the first network drives Q0.0 from I0.0, the second one exceeds the scan limit. -/
def leakDemo : World :=
  ⟨{ Demo.ctx [Demo.net [[Demo.ins .NO [Demo.op .I 0], Demo.ins .COIL [Demo.op .Q 0]]],
        Demo.net (List.replicate 6 [Demo.ins .NO [Demo.op .I 0]])] with
      scan := { actualScanTime := 0, startTime := 0, maxScanCycles := 4, targetScanMs := 0, minScanTime := 0
                maxScanTime := 0, totalScanTime := 0, avgScanTime := 0, scanCount := 0, overrun := false } }, 0, []⟩

/-- C35 and C36 are false for scans that fault by exceeding the scan limit: the half-computed output is written (it was 0), the
memory is not rolled back and the task goes on. -/
theorem C35_refuted_overflow : ∃ (env : Env) (w b v v' w' : World), ScanOf env w b v v' ∧ v'.ctx.state = .error ∧
    v'.ctx.last.err = .overflow ∧ load v.ctx (.Q 0 0) = some 0 ∧ Held v.ctx (.Q 0 0) ∧ cycle env w = .ok (.again, w') ∧
    (∃ outs, Event.write 0 outs ∈ news v' w' ∧ shown outs (.Q 0 0) = some 1) ∧ load w'.ctx (.D 0) = some 7 := by
  have key : (match scanPoints Demo.env leakDemo, cycle Demo.env leakDemo with
      | some (_, v, v'), .ok (r, w') => decide (r = .again ∧ v'.ctx.state = .error ∧ v'.ctx.last.err = .overflow ∧
          load v.ctx (.Q 0 0) = some 0 ∧ v.ctx.fnWriteQty = 1 ∧
          (at? v.ctx.output 0).map (fun o => (o.qQty, o.Q.isSome, o.Qh.isSome)) = some (2, true, true) ∧
          (news v' w').any (fun e => match e with | .write 0 outs => decide (shown outs (.Q 0 0) = some 1) | _ => false) = true ∧
          load w'.ctx (.D 0) = some 7)
      | _, _ => false) = true := by decide +kernel
  split at key
  · rename_i b v v' r w' h1 h2
    rw [decide_eq_true_iff] at key
    obtain ⟨rfl, k1, k2, k3, k4, k5, k6, k7⟩ := key
    obtain ⟨o, ho, k5⟩ := Option.map_eq_some_iff.1 k5
    simp only [Prod.mk.injEq] at k5
    refine ⟨Demo.env, leakDemo, b, v, v', w', scanPoints_of h1, k1, k2, k3, ⟨by omega, o, ho, by omega, k5.2⟩, h2, ?_, k7⟩
    rw [List.any_eq_true] at k6
    obtain ⟨e, he, hm⟩ := k6
    split at hm
    · exact ⟨_, he, by simpa using hm⟩
    · cases hm
  · cases key

/-- A faulting program (the operands of MOVE are of different kinds), after Q0.0 and QW0.0 have been written. -/
def faultNet : Network :=
  Demo.net [[Demo.ins .NO [Demo.op .I 0], Demo.ins .COIL [Demo.op .Q 0]],
    [Demo.ins .CONN [], Demo.ins .MOVE [Demo.op .D 0, Demo.op .QW 0]], [Demo.ins .CONN [], Demo.ins .MOVE [Demo.op .D 0, Demo.op .R 0]]]

/-- The same with an output module that has an analog port and no digital ones. -/
def analogLeak (hold : Bool) : World :=
  ⟨{ Demo.ctx [Demo.net [[Demo.ins .NO [Demo.op .I 0], Demo.ins .MOVE [Demo.op .D 0, Demo.op .QW 0]],
        [Demo.ins .CONN [], Demo.ins .MOVE [Demo.op .D 0, Demo.op .R 0]]]] with
      writeOnFault := hold
      output := some [{ qQty := 0, qwQty := 1, Q := none, QW := some [5], Qh := none, QWh := some [5] }] }, 0, []⟩

/-- C35 is false for analog outputs of modules without digital ones, in both modes: the port held 5, the scan wrote 7 and
faulted, and 7 is handed to the callback. -/
theorem C35_refuted_analog (hold : Bool) : ∃ (env : Env) (w b v v' w' : World), ScanOf env w b v v' ∧ v.ctx.writeOnFault = hold ∧
    v'.ctx.state = .inv ∧ load v.ctx (.QW 0 0) = some 5 ∧ cycle env w = .ok (.exit, w') ∧
    ∃ outs, Event.write 0 outs ∈ news v' w' ∧ shown outs (.QW 0 0) = some 7 := by
  have key : (match scanPoints Demo.env (analogLeak hold), cycle Demo.env (analogLeak hold) with
      | some (_, v, v'), .ok (r, w') => decide (r = .exit ∧ v.ctx.writeOnFault = hold ∧ v'.ctx.state = .inv ∧
          load v.ctx (.QW 0 0) = some 5 ∧
          (news v' w').any (fun e => match e with | .write 0 outs => decide (shown outs (.QW 0 0) = some 7) | _ => false) = true)
      | _, _ => false) = true := by cases hold <;> decide +kernel
  split at key
  · rename_i b v v' r w' h1 h2
    rw [decide_eq_true_iff] at key
    obtain ⟨rfl, k1, k2, k3, k6⟩ := key
    refine ⟨Demo.env, analogLeak hold, b, v, v', w', scanPoints_of h1, k1, k2, k3, h2, ?_⟩
    rw [List.any_eq_true] at k6
    obtain ⟨e, he, hm⟩ := k6
    split at hm
    · exact ⟨_, he, by simpa using hm⟩
    · cases hm
  · cases key

/-! ### Cases that meet the hypotheses -/

/-- The faulting program with the usual modules. -/
def faultDemo (hold : Bool) : World := ⟨{ Demo.ctx [faultNet] with writeOnFault := hold, on := { taskAfter := true } }, 0, []⟩

theorem faultDemo_run (hold : Bool) : ∃ b v v' w', ScanOf Demo.env (faultDemo hold) b v v' ∧
    cycle Demo.env (faultDemo hold) = .ok (.exit, w') ∧ v.ctx.writeOnFault = hold ∧ Held v.ctx (.Q 0 0) ∧ Held v.ctx (.QW 0 0) ∧
    load v.ctx (.Q 0 0) = some 0 ∧ load v'.ctx (.Q 0 0) = some 1 ∧ load v.ctx (.QW 0 0) = some 5 ∧ load v'.ctx (.QW 0 0) = some 7 ∧
    FlagIn v.ctx (.M 0) ∧ RegIn v.ctx (.D 0) ∧ load v'.ctx (.D 0) = some 7 := by
  have key : (match scanPoints Demo.env (faultDemo hold), cycle Demo.env (faultDemo hold) with
      | some (_, v, v'), .ok (r, _) => decide (r = .exit ∧ v.ctx.writeOnFault = hold ∧ v.ctx.fnWriteQty = 1 ∧
          (at? v.ctx.output 0).map (fun o => (o.qQty, o.Q.isSome, o.Qh.isSome)) = some (2, true, true) ∧
          (at? v.ctx.output 0).map (fun o => (o.qwQty, o.QW.isSome, o.QWh.isSome)) = some (1, true, true) ∧
          load v.ctx (.Q 0 0) = some 0 ∧ load v'.ctx (.Q 0 0) = some 1 ∧ load v.ctx (.QW 0 0) = some 5 ∧
          load v'.ctx (.QW 0 0) = some 7 ∧ v.ctx.qty.m = 3 ∧ v.ctx.qty.d = 3 ∧ load v'.ctx (.D 0) = some 7)
      | _, _ => false) = true := by cases hold <;> decide +kernel
  split at key
  · rename_i b v v' r w' h1 h2
    rw [decide_eq_true_iff] at key
    obtain ⟨rfl, k1, k2, k3, k4, k5, k6, k7, k8, k9, k10, k11⟩ := key
    obtain ⟨o, ho, k3⟩ := Option.map_eq_some_iff.1 k3
    rw [ho, Option.map_some, Option.some.injEq] at k4
    simp only [Prod.mk.injEq] at k3 k4
    exact ⟨b, v, v', w', scanPoints_of h1, h2, k1, ⟨by omega, o, ho, by omega, k3.2⟩,
      ⟨by omega, o, ho, by omega, k4.2.1, k4.2.2, by omega, k3.2⟩, k5, k6, k7, k8, by show 0 < _; omega, by show 0 < _; omega, k11⟩
  · cases key

example : ∃ (v' w' : World) (new : List Event), w'.trace = v'.trace ++ new ∧ load v'.ctx (.QW 0 0) = some 7 ∧
    ∀ i outs, Event.write i outs ∈ new → shown outs (.Q 0 0) = some 0 ∧ shown outs (.QW 0 0) = some 5 := by
  obtain ⟨b, v, v', w', hs, hc, hm, h1, h2, h3, -, h5, h6, -⟩ := faultDemo_run true
  obtain ⟨new, e, hn⟩ := C35_hold_partial (demoHooks _ fun _ => rfl) (fun _ _ => rfl) (fun _ _ _ => rfl) hc hs hm
  exact ⟨v', w', new, e, h6, fun i outs hi => ⟨(hn i outs hi _ h1).trans h3, (hn i outs hi _ h2).trans h5⟩⟩

example : ∃ (v' w' : World) (new : List Event), w'.trace = v'.trace ++ new ∧ load v'.ctx (.QW 0 0) = some 7 ∧
    ∀ i outs, Event.write i outs ∈ new → shown outs (.Q 0 0) = some 0 ∧ shown outs (.QW 0 0) = some 0 := by
  obtain ⟨b, v, v', w', hs, hc, hm, ⟨a1, o, a2, a3, a4, a5⟩, ⟨b1, o2, b2, b3, b4, b5, b6, b7, b8⟩, -, -, -, h6, -⟩ := faultDemo_run false
  obtain ⟨new, e, hn⟩ := C35_clear_partial (demoHooks _ fun _ => rfl) (fun _ _ => rfl) (fun _ _ _ => rfl) hc hs hm
  exact ⟨v', w', new, e, h6, fun i outs hi => ⟨hn i outs hi (.Q 0 0) ⟨a1, o, a2, a3, a4⟩,
    hn i outs hi (.QW 0 0) ⟨b1, o2, b2, b3, b4, b6, b7⟩⟩⟩

theorem demoQuiet (P : Ctx → Ctx → Prop) (h : ∀ c, P c c) : Quiet Demo.env P := (demoTaskHooks P h).ports.toQuiet

example : ∃ v v' w' : World, load w'.ctx (.M 0) = load v.ctx (.Mh 0) ∧ load v'.ctx (.D 0) = some 7 ∧
    ((load w'.ctx (.D 0)).isSome → load w'.ctx (.D 0) = some 0) := by
  obtain ⟨b, v, v', w', hs, hc, -, -, -, -, -, -, -, h1, h2, h3⟩ := faultDemo_run true
  obtain ⟨k1, k2⟩ := C36_memory_partial (demoHooks _ fun _ => rfl) (demoQuiet _ fun _ => rfl) hc hs
  exact ⟨v, v', w', k1 _ _ h1 rfl, h3, k2 _ h2⟩

example : ∃ (w' : World), taskLoop Demo.env 1 (faultDemo true) = .ok (.ended, w') := by
  obtain ⟨b, v, v', w', hs, hc, -⟩ := faultDemo_run true
  exact ⟨_, (C36_ends (env := Demo.env) (by decide) (u := faultDemo true) rfl hc 0).1⟩

/-- M0 toggles, and is the number of the foreign function called; there is only number 0, so the second scan faults. -/
def backDemo : World :=
  ⟨{ Demo.ctx [Demo.net [[Demo.ins .NC [Demo.op .M 0], Demo.ins .COIL [Demo.op .M 0]],
        [Demo.ins .CONN [], Demo.ins .FOREIGN [Demo.op .M 0]]]] with
      foreignQty := 1, foreign := some [{ id := 0, desc := ⟨1, 1, 1, 1⟩, hasDeinit := false }] }, 0, []⟩

/-- The same after one cycle. -/
def backNext : World :=
  ⟨{ backDemo.ctx with
      last := { instr := .FOREIGN, network := 0, col := 1, row := 1, err := .ok }
      M := some [0, 0, 1], Mh := some [0, 0, 1], Cdh := some [0, 1]
      input := some [{ iQty := 2, iwQty := 1, I := some [1, 0], IW := some [300], Ih := some [1, 0], IWh := some [300] }]
      network := some [Demo.net [[Demo.ins .NC [Demo.op .M 0], Demo.ins .COIL [Demo.op .M 0]],
        [Demo.ins .CONN [] true, Demo.ins .FOREIGN [Demo.op .M 0]]]]
      scan := { actualScanTime := 40, startTime := 40, maxScanCycles := 1000, targetScanMs := 0, minScanTime := 40
                maxScanTime := 40, totalScanTime := 40, avgScanTime := 40, scanCount := 1, overrun := false } }, 5,
    [.read 0, .exec 0 0 0 .NC, .ret 0 0 0 .ok, .exec 0 0 1 .COIL, .ret 0 0 1 .ok, .exec 0 1 0 .CONN, .ret 0 1 0 .ok,
      .exec 0 1 1 .FOREIGN, .foreign 0 1 1, .ret 0 1 1 .ok,
      .write 0 (some [{ qQty := 2, qwQty := 1, Q := some [0, 1], QW := some [5], Qh := some [0, 1], QWh := some [5] }])]⟩

/-- M0 is 1 when the second scan faults, and 0 at the end of its cycle, as after the first scan. -/
example : ∃ v' v2' w'' : World, load v'.ctx (.M 0) = some 0 ∧ load v2'.ctx (.M 0) = some 1 ∧ load w''.ctx (.M 0) = some 0 := by
  have k1 : (match cycle Demo.env backDemo with
      | .ok (r, w') => decide (r = .again ∧ w'.ctx = backNext.ctx ∧ w'.tick = backNext.tick ∧ w'.trace = backNext.trace)
      | .error _ => false) = true := by decide +kernel
  have hc : cycle Demo.env backDemo = .ok (.again, backNext) := by
    split at k1
    · rename_i r w' h
      rw [decide_eq_true_iff] at k1
      obtain ⟨rfl, h1, h2, h3⟩ := k1
      obtain ⟨c, t, tr⟩ := w'
      subst h1; subst h2; subst h3
      exact h
    · cases k1
  have k2 : (match scanPoints Demo.env backDemo with
      | some (_, _, v') => decide (load v'.ctx (.M 0) = some 0 ∧ v'.ctx.qty.m = 3)
      | none => false) = true := by decide +kernel
  have k3 : (match scanPoints Demo.env backNext, cycle Demo.env backNext with
      | some (_, _, v'), .ok (r, w') => decide (r = .exit ∧ load v'.ctx (.M 0) = some 1 ∧ (load w'.ctx (.M 0)).isSome = true)
      | _, _ => false) = true := by decide +kernel
  split at k2
  · rename_i b v v' h1
    rw [decide_eq_true_iff] at k2
    split at k3
    · rename_i b2 v2 v2' r w'' h2 h3
      rw [decide_eq_true_iff] at k3
      obtain ⟨rfl, k3, k4⟩ := k3
      have := C36_previous_partial (demoHooks _ fun _ => rfl) (demoQuiet _ fun _ => rfl)
        (demoTaskHooks (fun c c' => kept c' = kept c) fun _ => rfl).ports (demoTaskHooks (fun c c' => c'.qty = c.qty) fun _ => rfl).ports
        hc (scanPoints_of h1) (r := .ready) (u := backNext) rfl h3 (scanPoints_of h2)
        (ℓ := .M 0) (by show 0 < _; omega) (by rw [k2.1]; rfl) k4
      exact ⟨v', v2', w'', k2.1, k3, this.trans k2.1⟩
    · cases k3
  · cases k2

end Ladder.Props
