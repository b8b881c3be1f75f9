import Verif.Lemmas.Area
import Verif.Lemmas.Ports
import Verif.Props.TaskEnd
import Verif.Props.Latch
import Verif.Spec.History

/-
The previous-value history over cycles (C44) and edge contacts over cycles (C08).
-/

set_option autoImplicit false

namespace Ladder.Props

open Spec Op

variable {env : Env}

/-- The scan of the cycle begun in `w` runs from `v` to `v'`; `b` is the moment before the reads. -/
structure ScanOf (env : Env) (w b v v' : World) : Prop where
  before : callBefore env (startOf env w) = .ok ((), b)
  steps : ∃ w2, readPhase env b = .ok (true, w2) ∧ outHistPhase env w2 = .ok (true, v)
  scan : scan env v = .ok ((), v')

/-! ### History and scan -/

theorem history_frame {a b : Ctx} (h : frame a = frame b) : history a = history b := by
  have e : ∀ c, history (frame c) = history c := by
    intro c
    simp only [history, frame, Option.map_map, Function.comp_def, List.map_map]
  rw [← e a, h, e]

/-- C44: at no point of a scan is the history changed, if the callbacks made during the scan keep it. -/
theorem C44_during (hk : Hooks env fun c c' => history c' = history c) {K : Nat → Prop} {E : Prop} {v u : World}
    (h : Star (SChange env K E) v u) : history u.ctx = history v.ctx :=
  h.lift (S := fun w w' => history w'.ctx = history w.ctx) (fun _ => rfl) (by intro a b c h h'; exact h'.trans h)
    (fun _ _ => frame_schange (fun _ _ => history_frame) hk)

/-- Every scan is such a chain of changes. -/
theorem C44_scan (hk : Hooks env fun c c' => history c' = history c) {v v' : World} (h : scan env v = .ok ((), v')) :
    history v'.ctx = history v.ctx :=
  C44_during hk (SChg.scan (K := fun _ => True) (E := True) trivial (fun _ => trivial) _ _ _ h)

theorem history_load {c c' : Ctx} (h : history c' = history c) {ℓ : Loc} (hl : ℓ.isHist = true) : load c' ℓ = load c ℓ := by
  simp only [history, Prod.mk.injEq, List.cons.injEq, and_true] at h
  obtain ⟨⟨h1, h2, h3, h4, h5⟩, hi, ho⟩ := h
  have key : ∀ {α β : Type} (f : α → β) {a a' : Arr α}, a'.map (·.map f) = a.map (·.map f) → ∀ i, (at? a' i).map f = (at? a i).map f := by
    intro α β f a a' h i
    cases a <;> cases a' <;> simp at h
    · rfl
    · simp only [at?, Option.bind_some, ← List.getElem?_map, h]
  cases ℓ <;> first | (cases hl; done) | skip
  · simp only [load, h1]
  · simp only [load, h2]
  · simp only [load, h3]
  · simp only [load, h4]
  · simp only [load, h5]
  all_goals
    rename_i m p
    simp only [load]
    first
      | (have := key _ hi m
         cases e1 : at? c.input m <;> cases e2 : at? c'.input m <;> simp [e1, e2] at this ⊢ <;> simp [this])
      | (have := key _ ho m
         cases e1 : at? c.output m <;> cases e2 : at? c'.output m <;> simp [e1, e2] at this ⊢ <;> simp [this])

/-! ### Between scans -/

/-- What callbacks outside of the scan must leave alone: the history of the flags and the outputs. -/
def kept (c : Ctx) : List (Arr Byte) × Arr OutMod := ([c.Mh, c.Cdh, c.Crh, c.Tdh, c.Trh], c.output)

theorem kept_flag {c c' : Ctx} (h : kept c' = kept c) {ℓ : Loc} {i : Nat} (hl : ℓ = .Mh i ∨ ℓ = .Cdh i ∨ ℓ = .Crh i ∨ ℓ = .Tdh i ∨ ℓ = .Trh i) :
    load c' ℓ = load c ℓ := by
  simp only [kept, Prod.mk.injEq, List.cons.injEq, and_true] at h
  obtain ⟨⟨h1, h2, h3, h4, h5⟩, -⟩ := h
  rcases hl with rfl | rfl | rfl | rfl | rfl <;> simp only [load] <;> simp only [h1, h2, h3, h4, h5]

/-- Saving records the flags. -/
theorem saved_flags {c c' : Ctx} (h : savePrevious c = .ok c') {ℓ : Loc} (hℓ : FlagIn c ℓ) : Recalls c' c ℓ := by
  obtain ⟨mh, cdh, crh, tdh, trh, out, h1, h2, h3, h4, h5, -, e⟩ := savePrevious_eq h
  have key : ∀ {a a' s : Arr Byte} {n i : Nat}, acopyIf a s n = .ok a' → i < n → ((at? s i).map (·.toNat)).isSome →
      ((at? a' i).map (·.toNat)).isSome → (at? a' i).map (·.toNat) = (at? s i).map (·.toNat) := by
    intro a a' s n i h hi h1 h2
    simp only [Option.isSome_map] at h1 h2
    rw [acopyIf_at h hi h1 h2]
  intro hh hp
  subst e
  cases ℓ <;> first | (exact absurd hℓ id) | skip
  all_goals
    simp only [prior, Option.some.injEq] at hp
    subst hp
    simp only [load, FlagIn] at hℓ ⊢
  · exact key h1 hℓ
  · exact key h2 hℓ
  · exact key h3 hℓ
  · exact key h4 hℓ
  · exact key h5 hℓ

theorem saveOut_eq {o o' : OutMod} (h : saveOut o = .ok o') : ∃ qh qwh, acopyIf o.Qh o.Q o.qQty = .ok qh ∧
    acopyIf o.QWh o.QW o.qwQty = .ok qwh ∧ o' = { o with Qh := qh, QWh := qwh } := by
  unfold saveOut at h
  simp only [except_bind] at h
  obtain ⟨qh, h1, qwh, h2, h⟩ := h
  cases h
  exact ⟨qh, qwh, h1, h2, rfl⟩

theorem histOut_eq {o o' : OutMod} (h : histOut o = .ok o') : ∃ qh qwh, (qh = o.Qh ∨ acopy o.Qh o.Q o.qQty = .ok qh) ∧
    (qwh = o.QWh ∨ acopy o.QWh o.QW o.qwQty = .ok qwh) ∧ o' = { o with Qh := qh, QWh := qwh } := by
  unfold histOut at h
  split at h
  · simp only [Except.ok.injEq] at h; exact ⟨o.Qh, o.QWh, .inl rfl, .inl rfl, h.symm⟩
  · simp only [except_bind] at h
    obtain ⟨qh, h1, h⟩ := h
    split at h
    · simp only [Except.ok.injEq] at h; exact ⟨qh, o.QWh, .inr h1, .inl rfl, h.symm⟩
    · simp only [except_bind] at h
      obtain ⟨qwh, h2, h⟩ := h
      simp only [Except.ok.injEq] at h; exact ⟨qh, qwh, .inr h1, .inr h2, h.symm⟩

theorem histIn_eq {o o' : InMod} (h : histIn o = .ok o') : ∃ ih iwh,
    (ih = o.Ih ∧ (o.iQty = 0 ∨ o.I.isNone ∨ o.Ih.isNone) ∨ acopy o.Ih o.I o.iQty = .ok ih) ∧
    (iwh = o.IWh ∧ ((o.iQty = 0 ∨ o.I.isNone ∨ o.Ih.isNone) ∨ o.iwQty = 0 ∨ o.IW.isNone ∨ o.IWh.isNone) ∨
      acopy o.IWh o.IW o.iwQty = .ok iwh) ∧ o' = { o with Ih := ih, IWh := iwh } := by
  unfold histIn at h
  split at h
  · rename_i hc
    simp only [Except.ok.injEq] at h; exact ⟨o.Ih, o.IWh, .inl ⟨rfl, hc⟩, .inl ⟨rfl, .inl hc⟩, h.symm⟩
  · simp only [except_bind] at h
    obtain ⟨qh, h1, h⟩ := h
    split at h
    · rename_i hc
      simp only [Except.ok.injEq] at h; exact ⟨qh, o.IWh, .inr h1, .inl ⟨rfl, .inr hc⟩, h.symm⟩
    · simp only [except_bind] at h
      obtain ⟨qwh, h2, h⟩ := h
      simp only [Except.ok.injEq] at h; exact ⟨qh, qwh, .inr h1, .inr h2, h.symm⟩

/-- Saving records the outputs, and the output history phase of the next cycle does not disturb that. -/
theorem saved_outputs {c c1 c2 : Ctx} (h : savePrevious c = .ok c1) (hk : c2.output = c1.output) {out : Arr OutMod} {n : Nat}
    (ho : amapFirst histOut n c2.output = .ok out) {ℓ : Loc} (hℓ : OutputIn c ℓ) : Recalls { c2 with output := out } c ℓ := by
  obtain ⟨mh, cdh, crh, tdh, trh, out1, -, -, -, -, -, h1, e⟩ := savePrevious_eq h
  have hout : c2.output = out1 := by rw [hk, e]
  rw [hout] at ho
  intro hh hp
  cases ℓ <;> first | (exact absurd hℓ id) | skip
  all_goals
    rename_i m p
    simp only [prior, Option.some.injEq] at hp
    subst hp
    obtain ⟨hm, o, hat, hlt⟩ := hℓ
    obtain ⟨o1, hat1, hs1, -⟩ := amapFirst_back h1 m hat
    obtain ⟨o2, hat2, hs2, hs3⟩ := amapFirst_back ho m hat1
    obtain ⟨qh, qwh, a1, a2, e1⟩ := saveOut_eq (hs1 hm)
    have e2 : ∃ qh' qwh', (qh' = o1.Qh ∨ acopy o1.Qh o1.Q o1.qQty = .ok qh') ∧
        (qwh' = o1.QWh ∨ acopy o1.QWh o1.QW o1.qwQty = .ok qwh') ∧ o2 = { o1 with Qh := qh', QWh := qwh' } := by
      by_cases hn : m < n
      · exact histOut_eq (hs2 hn)
      · exact ⟨o1.Qh, o1.QWh, .inl rfl, .inl rfl, hs3 (by omega)⟩
    obtain ⟨qh', qwh', b1, b2, e2⟩ := e2
    simp only [load, hat, hat2, Option.bind_some, Option.isSome_map]
    intro hs hd
    congr 1
    subst e2
    subst e1
    simp only at b1 b2 hd ⊢
  · rcases b1 with rfl | b1
    · exact acopyIf_at a1 hlt hs hd
    · rw [acopy_at b1, if_pos hlt]
  · rcases b2 with rfl | b2
    · exact acopyIf_at a2 hlt hs hd
    · rw [acopy_at b2, if_pos hlt]

/-- Between the end of a scan and the next scan. -/
theorem next_keeps {β : Type} {f : Ctx → β} (h1 : ∀ c s, f { c with state := s } = f c)
    (h2 : ∀ c s, f { c with scan := s } = f c) (h3 : ∀ c i, f { c with input := i } = f c)
    (hk : Ports env fun c c' => f c' = f c) {w b v v' w' u b2 v2 v2' : World} {r : WaitRes}
    (hc : cycle env w = .ok (.again, w')) (hs : ScanOf env w b v v') (hw : waitLoop env maxWait w' = .ok (r, u))
    (hs2 : ScanOf env u b2 v2 v2') :
    ∃ c1 c2 out, savePrevious v'.ctx = .ok c1 ∧ f c2 = f c1 ∧
      (if c2.fnWriteQty > 0 then amapFirst histOut c2.fnWriteQty c2.output else .ok c2.output) = .ok out ∧
      v2.ctx = { c2 with output := out } := by
  obtain ⟨w2, hr, ho⟩ := hs.steps
  obtain ⟨x2, hr2, ho2⟩ := hs2.steps
  have fin : ∃ c1, savePrevious v'.ctx = .ok c1 ∧ f w'.ctx = f c1 := by
    cases cycleRun hc with
    | noInput hb hr' =>
      rw [hs.before] at hb; cases hb
      rw [hr] at hr'; cases hr'
    | noOutput hb hr' ho' =>
      rw [hs.before] at hb; cases hb
      rw [hr] at hr'; cases hr'
      rw [ho] at ho'; cases ho'
    | normal hb hr' ho' hs' hi hp hw ht hd ha =>
      rw [hs.before] at hb; cases hb
      rw [hr] at hr'; cases hr'
      rw [ho] at ho'; cases ho'
      rw [hs.scan] at hs'; cases hs'
      exact ⟨_, hp, (holds_after h1 h2 hk.toQuiet ha).trans ((holds_pad h1 h2 hk.toQuiet hd).trans
        ((holds_scanTime h1 h2 hk.toQuiet ht).trans (holds_doWrites h1 h2 hk.toQuiet hw)))⟩
  obtain ⟨c1, hp, e1⟩ := fin
  have e2 : f b2.ctx = f c1 :=
    (holds_before h1 h2 hk.toQuiet hs2.before).trans ((holds_start h1 h2 hk.toQuiet u).trans ((holds_waitLoop h1 h2 hk.toQuiet _ hw).trans e1))
  have e3 : f x2.ctx = f b2.ctx := by
    rcases readPhase_eq hr2 with ⟨h, -⟩ | ⟨-, inp, -, ⟨-, -, h⟩ | ⟨-, h⟩⟩
    · cases h
    · exact holds_readLoop (w := { b2 with ctx := { b2.ctx with input := inp } }) h1 h2 hk _ _ h |>.trans (h3 _ _)
    · rw [h]; exact h3 _ _
  rcases outHistPhase_eq ho2 with ⟨h, -⟩ | ⟨-, out, hout, e⟩
  · cases h
  · exact ⟨c1, x2.ctx, out, hp, e3.trans e2, hout, by rw [e]⟩

theorem next_scan (hk : Ports env fun c c' => kept c' = kept c) {w b v v' w' u b2 v2 v2' : World} {r : WaitRes}
    (hc : cycle env w = .ok (.again, w')) (hs : ScanOf env w b v v') (hw : waitLoop env maxWait w' = .ok (r, u))
    (hs2 : ScanOf env u b2 v2 v2') :
    ∃ c1 c2 out, savePrevious v'.ctx = .ok c1 ∧ kept c2 = kept c1 ∧
      (if c2.fnWriteQty > 0 then amapFirst histOut c2.fnWriteQty c2.output else .ok c2.output) = .ok out ∧
      v2.ctx = { c2 with output := out } :=
  next_keeps (fun _ _ => rfl) (fun _ _ => rfl) (fun _ _ => rfl) hk hc hs hw hs2

/-- C44, flags and outputs.  The scan of a cycle that follows another one finds, as previous values of the flags and outputs
(digital and analog), those they had at the end of the previous scan.  Callbacks outside of scans are assumed not to touch the
history of flags and the outputs; nothing is assumed about those made during scans. -/
theorem C44_previous_partial (hk : Ports env fun c c' => kept c' = kept c) {w b v v' w' u b2 v2 v2' : World} {r : WaitRes}
    (hc : cycle env w = .ok (.again, w')) (hs : ScanOf env w b v v') (hw : waitLoop env maxWait w' = .ok (r, u))
    (hs2 : ScanOf env u b2 v2 v2') (ℓ : Loc) (hℓ : FlagIn v'.ctx ℓ ∨ OutputIn v'.ctx ℓ) : Recalls v2.ctx v'.ctx ℓ := by
  obtain ⟨c1, c2, out, hp, hkept, hout, e⟩ := next_scan hk hc hs hw hs2
  have ho : c2.output = c1.output := congrArg (fun x => x.2) hkept
  rcases hℓ with hℓ | hℓ
  · have := saved_flags hp hℓ
    intro h hpr h1 h2
    have e2 : load v2.ctx h = load c1 h := by
      have : load v2.ctx h = load c2 h := by
        rw [e]
        cases ℓ <;> first | (exact absurd hℓ id) | (simp only [prior, Option.some.injEq] at hpr; subst hpr; rfl)
      rw [this]
      cases ℓ <;> first | (exact absurd hℓ id) | skip
      all_goals
        simp only [prior, Option.some.injEq] at hpr
        subst hpr
        exact kept_flag hkept
          (by simp only [Loc.Mh.injEq, Loc.Cdh.injEq, Loc.Crh.injEq, Loc.Tdh.injEq, Loc.Trh.injEq, reduceCtorEq,
            false_or, or_false]; rfl)
    rw [e2] at h2 ⊢
    exact this h hpr h1 h2
  · rw [e]
    split at hout
    · exact saved_outputs hp ho hout hℓ
    · simp only [Except.ok.injEq] at hout
      rw [← hout]
      exact saved_outputs (n := 0) hp ho (by unfold amapFirst; cases c2.output <;> rfl) hℓ

/-- C44, inputs.  The scan finds, as previous values of the inputs, those they had before the reads of its cycle (for analog
inputs only in modules that also have digital ones).  Read and panic callbacks are assumed not to touch the input history. -/
theorem C44_inputs_partial (hk : Ports env fun c c' => c'.input.map (·.map fun o => (o.Ih, o.IWh)) =
      c.input.map (·.map fun o => (o.Ih, o.IWh))) {w b v v' : World}
    (hs : ScanOf env w b v v') (ℓ : Loc) (hℓ : InputIn b.ctx ℓ) : Recalls v.ctx b.ctx ℓ := by
  obtain ⟨w2, hr, ho⟩ := hs.steps
  have h1 : ∀ (c : Ctx) (s : St), (fun c : Ctx => c.input.map (·.map fun o => (o.Ih, o.IWh))) { c with state := s } =
    (fun c : Ctx => c.input.map (·.map fun o => (o.Ih, o.IWh))) c := fun _ _ => rfl
  have h2 : ∀ (c : Ctx) (s : ScanInt), (fun c : Ctx => c.input.map (·.map fun o => (o.Ih, o.IWh))) { c with scan := s } =
    (fun c : Ctx => c.input.map (·.map fun o => (o.Ih, o.IWh))) c := fun _ _ => rfl
  have pos : b.ctx.fnReadQty > 0 := by
    cases ℓ <;> first | (exact absurd hℓ id) | (have := hℓ.1; omega)
  have hin : ∃ inp, amapFirst histIn b.ctx.fnReadQty b.ctx.input = .ok inp ∧
      v.ctx.input.map (·.map fun o => (o.Ih, o.IWh)) = inp.map (·.map fun o => (o.Ih, o.IWh)) := by
    have e : v.ctx.input = w2.ctx.input := by
      rcases outHistPhase_eq ho with ⟨h, -⟩ | ⟨-, out, hout, e⟩
      · cases h
      · rw [e]
    rw [e]
    rcases readPhase_eq hr with ⟨h, -⟩ | ⟨-, inp, hi, hh⟩
    · cases h
    · rw [if_pos pos] at hi
      refine ⟨inp, hi, ?_⟩
      rcases hh with ⟨-, -, h⟩ | ⟨-, h⟩
      · exact holds_readLoop (w := { b with ctx := { b.ctx with input := inp } }) h1 h2 hk _ _ h
      · rw [h]
  obtain ⟨inp, hi, hv⟩ := hin
  have look : ∀ m, (at? v.ctx.input m).map (fun o => (o.Ih, o.IWh)) = (at? inp m).map fun o => (o.Ih, o.IWh) := by
    intro m
    cases e1 : v.ctx.input <;> cases e2 : inp <;> simp [e1, e2] at hv
    · rfl
    · simp only [at?, Option.bind_some, ← List.getElem?_map, hv]
  intro hh hp
  cases ℓ <;> first | (exact absurd hℓ id) | skip
  · rename_i m p
    simp only [prior, Option.some.injEq] at hp
    subst hp
    obtain ⟨hm, o, hat, hlt⟩ := hℓ
    obtain ⟨o1, hat1, hs1, -⟩ := amapFirst_back hi m hat
    obtain ⟨ih, iwh, a1, a2, e1⟩ := histIn_eq (hs1 hm)
    have hl := look m
    rw [hat1] at hl
    simp only [Option.map_some, Option.map_eq_some_iff] at hl
    obtain ⟨o2, hat2, hl⟩ := hl
    simp only [Prod.mk.injEq] at hl
    simp only [load, hat, hat2, Option.bind_some, Option.isSome_map, hl.1]
    intro hs hd
    congr 1
    subst e1
    simp only at hd ⊢
    rcases a1 with ⟨rfl, hc⟩ | a1
    · exfalso
      rcases hc with hc | hc | hc
      · omega
      · simp only [Option.isNone_iff_eq_none] at hc; rw [hc] at hs; cases hs
      · simp only [Option.isNone_iff_eq_none] at hc; rw [hc] at hd; cases hd
    · rw [acopy_at a1, if_pos hlt]
  · rename_i m p
    simp only [prior, Option.some.injEq] at hp
    subst hp
    obtain ⟨hm, o, hat, hlt, hq, hI, hIh⟩ := hℓ
    obtain ⟨o1, hat1, hs1, -⟩ := amapFirst_back hi m hat
    obtain ⟨ih, iwh, a1, a2, e1⟩ := histIn_eq (hs1 hm)
    have hl := look m
    rw [hat1] at hl
    simp only [Option.map_some, Option.map_eq_some_iff] at hl
    obtain ⟨o2, hat2, hl⟩ := hl
    simp only [Prod.mk.injEq] at hl
    simp only [load, hat, hat2, Option.bind_some, Option.isSome_map, hl.2]
    intro hs hd
    congr 1
    subst e1
    simp only at hd ⊢
    rcases a2 with ⟨rfl, hc⟩ | a2
    · exfalso
      rcases hc with (hc | hc | hc) | hc | hc | hc
      · omega
      · simp only [Option.isNone_iff_eq_none] at hc; rw [hc] at hI; cases hI
      · simp only [Option.isNone_iff_eq_none] at hc; rw [hc] at hIh; cases hIh
      · omega
      · simp only [Option.isNone_iff_eq_none] at hc; rw [hc] at hs; cases hs
      · simp only [Option.isNone_iff_eq_none] at hc; rw [hc] at hd; cases hd
    · rw [acopy_at a2, if_pos hlt]

/-! ### Edge contacts over cycles -/

/-- Inputs are left alone between the scan and the reads of the next cycle. -/
theorem inputs_between (hk : Quiet env fun c c' => c'.input = c.input) {w b v v' w' u b2 v2 v2' : World} {r : WaitRes}
    (hc : cycle env w = .ok (.again, w')) (hs : ScanOf env w b v v') (hw : waitLoop env maxWait w' = .ok (r, u))
    (hs2 : ScanOf env u b2 v2 v2') : b2.ctx.input = v'.ctx.input := by
  have h1 : ∀ (c : Ctx) (s : St), Ctx.input { c with state := s } = c.input := fun _ _ => rfl
  have h2 : ∀ (c : Ctx) (s : ScanInt), Ctx.input { c with scan := s } = c.input := fun _ _ => rfl
  obtain ⟨w2, hr, ho⟩ := hs.steps
  have fin : w'.ctx.input = v'.ctx.input := by
    cases cycleRun hc with
    | noInput hb hr' =>
      rw [hs.before] at hb; cases hb
      rw [hr] at hr'; cases hr'
    | noOutput hb hr' ho' =>
      rw [hs.before] at hb; cases hb
      rw [hr] at hr'; cases hr'
      rw [ho] at ho'; cases ho'
    | normal hb hr' ho' hs' hi hp hw ht hd ha =>
      rw [hs.before] at hb; cases hb
      rw [hr] at hr'; cases hr'
      rw [ho] at ho'; cases ho'
      rw [hs.scan] at hs'; cases hs'
      obtain ⟨mh, cdh, crh, tdh, trh, out, -, -, -, -, -, -, e⟩ := savePrevious_eq hp
      refine (holds_after h1 h2 hk ha).trans ((holds_pad h1 h2 hk hd).trans
        ((holds_scanTime h1 h2 hk ht).trans ((holds_doWrites h1 h2 hk hw).trans ?_)))
      simp only [e]
  exact (holds_before h1 h2 hk hs2.before).trans ((holds_start h1 h2 hk u).trans ((holds_waitLoop h1 h2 hk _ hw).trans fin))

/-- The previous value of a digital input, at any point of the second of two consecutive scans, is its value at the end of the
first.  Read callbacks may change the inputs but not their history; other callbacks outside of scans leave the inputs alone;
callbacks during scans leave the history alone. -/
theorem input_recalled (hk : Quiet env fun c c' => c'.input = c.input)
    (hr : ∀ t n c, (env.read t n c).input.map (·.map fun o => (o.Ih, o.IWh)) = c.input.map (·.map fun o => (o.Ih, o.IWh)))
    (hd : Hooks env fun c c' => history c' = history c) {w b v v' w' u b2 v2 v2' x : World} {r : WaitRes}
    (hc : cycle env w = .ok (.again, w')) (hs : ScanOf env w b v v') (hw : waitLoop env maxWait w' = .ok (r, u))
    (hs2 : ScanOf env u b2 v2 v2') {K : Nat → Prop} {E : Prop} (hx : Star (SChange env K E) v2 x) {m p : Nat}
    (hin : InputIn b2.ctx (.I m p)) {q : Nat} (hq : load v'.ctx (.I m p) = some q) (he : (load x.ctx (.Ih m p)).isSome) :
    load x.ctx (.Ih m p) = some q := by
  have hh := history_load (C44_during hd hx) (ℓ := .Ih m p) rfl
  have hp : Ports env fun c c' => c'.input.map (·.map fun o => (o.Ih, o.IWh)) = c.input.map (·.map fun o => (o.Ih, o.IWh)) :=
    { panic := fun _ _ => by rw [hk.panic], before := fun _ _ => by rw [hk.before], after := fun _ _ => by rw [hk.after]
      endTask := fun _ _ => by rw [hk.endTask], delay := fun _ _ => by rw [hk.delay], write := fun _ _ _ => by rw [hk.write]
      read := hr }
  have e : load b2.ctx (.I m p) = some q := by
    rw [← hq]; simp only [load, inputs_between hk hc hs hw hs2]
  rw [hh] at he ⊢
  rw [← e]
  exact C44_inputs_partial hp hs2 (.I m p) hin _ rfl (by rw [e]; rfl) he

/-- C08, rising edge over cycles: executed at any point `x` of the second of two consecutive scans, a rising-edge contact on a
digital input conducts iff it is powered, the input is non-zero now and was zero at the end of the previous scan. -/
theorem C08_rising (hk : Quiet env fun c c' => c'.input = c.input)
    (hr : ∀ t n c, (env.read t n c).input.map (·.map fun o => (o.Ih, o.IWh)) = c.input.map (·.map fun o => (o.Ih, o.IWh)))
    (hd : Hooks env fun c c' => history c' = history c) {w b v v' w' u b2 v2 v2' x : World} {res : WaitRes}
    (hc : cycle env w = .ok (.again, w')) (hs : ScanOf env w b v v') (hw : waitLoop env maxWait w' = .ok (res, u))
    (hs2 : ScanOf env u b2 v2 v2') {K : Nat → Prop} {E : Prop} (hx : Star (SChange env K E) v2 x) {m p : Nat}
    (hin : InputIn b2.ctx (.I m p)) (he : (load x.ctx (.Ih m p)).isSome) {n r c : Nat} {l : Bool} (hsite : Site x.ctx n r c l)
    {o : Value} (ho : operand? x.ctx n r c 0 = some o) (ht : o.type = .I) (hpl : place o = some (.I m p)) {was now : Nat}
    (h0 : load v'.ctx (.I m p) = some was) (h1 : load x.ctx (.I m p) = some now) :
    ∃ x', execIns env .RE r c x = .ok (.ok, x') ∧
      Sets x x' [(.cell n r c, (l && decide (now ≠ 0) && decide (was = 0)).toNat)] := by
  have hrec := input_recalled hk hr hd hc hs hw hs2 hx hin h0 he
  have b0 := load_lt h0
  have b1 := load_lt h1
  have hrd : Reads x.ctx n r c 0 (BitVec.ofNat 32 now) := ⟨o, ho, by simp [value, ht, hpl, h1, decode]⟩
  have hpp : prevPlace o = some (.Ih m p) := by
    simp only [place, ht, Option.some.injEq, Loc.I.injEq] at hpl
    simp [prevPlace, ht, hpl]
  have hpv : ReadsPrev x.ctx n r c 0 (BitVec.ofNat 32 was) := ⟨o, ho, by simp [prevOf, hpp, hrec, ht, decode]⟩
  obtain ⟨x', hx', hset⟩ := C08_RE env hsite hrd hpv
  refine ⟨x', hx', ?_⟩
  have z : ∀ k : Nat, k < 256 → (BitVec.ofNat 32 k = 0#32 ↔ k = 0) := by
    intro k hk; rw [← BitVec.toNat_inj]; simp; omega
  simpa [z _ b0, z _ b1] using hset

/-- C08, falling edge over cycles. -/
theorem C08_falling (hk : Quiet env fun c c' => c'.input = c.input)
    (hr : ∀ t n c, (env.read t n c).input.map (·.map fun o => (o.Ih, o.IWh)) = c.input.map (·.map fun o => (o.Ih, o.IWh)))
    (hd : Hooks env fun c c' => history c' = history c) {w b v v' w' u b2 v2 v2' x : World} {res : WaitRes}
    (hc : cycle env w = .ok (.again, w')) (hs : ScanOf env w b v v') (hw : waitLoop env maxWait w' = .ok (res, u))
    (hs2 : ScanOf env u b2 v2 v2') {K : Nat → Prop} {E : Prop} (hx : Star (SChange env K E) v2 x) {m p : Nat}
    (hin : InputIn b2.ctx (.I m p)) (he : (load x.ctx (.Ih m p)).isSome) {n r c : Nat} {l : Bool} (hsite : Site x.ctx n r c l)
    {o : Value} (ho : operand? x.ctx n r c 0 = some o) (ht : o.type = .I) (hpl : place o = some (.I m p)) {was now : Nat}
    (h0 : load v'.ctx (.I m p) = some was) (h1 : load x.ctx (.I m p) = some now) :
    ∃ x', execIns env .FE r c x = .ok (.ok, x') ∧
      Sets x x' [(.cell n r c, (l && decide (now = 0) && decide (was ≠ 0)).toNat)] := by
  have hrec := input_recalled hk hr hd hc hs hw hs2 hx hin h0 he
  have b0 := load_lt h0
  have b1 := load_lt h1
  have hrd : Reads x.ctx n r c 0 (BitVec.ofNat 32 now) := ⟨o, ho, by simp [value, ht, hpl, h1, decode]⟩
  have hpp : prevPlace o = some (.Ih m p) := by
    simp only [place, ht, Option.some.injEq, Loc.I.injEq] at hpl
    simp [prevPlace, ht, hpl]
  have hpv : ReadsPrev x.ctx n r c 0 (BitVec.ofNat 32 was) := ⟨o, ho, by simp [prevOf, hpp, hrec, ht, decode]⟩
  obtain ⟨x', hx', hset⟩ := C08_FE env hsite hrd hpv
  refine ⟨x', hx', ?_⟩
  have z : ∀ k : Nat, k < 256 → (BitVec.ofNat 32 k = 0#32 ↔ k = 0) := by
    intro k hk; rw [← BitVec.toNat_inj]; simp; omega
  simpa [z _ b0, z _ b1] using hset

/-! ### Where C44 fails -/

/-- The points of the scan of a cycle, for concrete cases. -/
def scanPoints (env : Env) (w : World) : Option (World × World × World) :=
  match callBefore env (startOf env w) with
  | .ok (_, b) => match readPhase env b with
    | .ok (true, w2) => match outHistPhase env w2 with
      | .ok (true, v) => match scan env v with
        | .ok (_, v') => some (b, v, v')
        | _ => none
      | _ => none
    | _ => none
  | _ => none

theorem scanPoints_of {w b v v' : World} (h : scanPoints env w = some (b, v, v')) : ScanOf env w b v v' := by
  unfold scanPoints at h
  split at h <;> try cases h
  rename_i h1
  split at h <;> try cases h
  rename_i h2
  split at h <;> try cases h
  rename_i h3
  split at h <;> try cases h
  rename_i h4
  exact ⟨h1, ⟨_, h2, h3⟩, h4⟩

/-- An input module with an analog port and no digital ones. -/
def analogDemo : World :=
  ⟨{ Demo.ctx [Demo.net [[Demo.ins .NO [Demo.op .M 0]]]] with
      input := some [{ iQty := 0, iwQty := 1, I := none, IW := some [300], Ih := none, IWh := some [7] }] }, 0, []⟩

/-- C44 is false as stated: the history of an analog input of a module without digital inputs is not recorded. -/
theorem C44_refuted : ∃ (env : Env) (w b v v' : World), ScanOf env w b v v' ∧ 0 < b.ctx.fnReadQty ∧
    load b.ctx (.IW 0 0) = some 300 ∧ load v.ctx (.IWh 0 0) = some 7 := by
  have key : (match scanPoints Demo.env analogDemo with
      | some (b, v, _) => decide (0 < b.ctx.fnReadQty ∧ load b.ctx (.IW 0 0) = some 300 ∧ load v.ctx (.IWh 0 0) = some 7)
      | none => false) = true := by decide +kernel
  split at key
  · rename_i b v v' h
    rw [decide_eq_true_iff] at key
    exact ⟨Demo.env, analogDemo, b, v, v', scanPoints_of h, key⟩
  · cases key

/-- The analog history is not even consulted: a rising-edge contact on an analog input that is 300 and was 0 does not conduct. -/
theorem C44_refuted_analog_edge : ∃ (w w' : World), load w.ctx (.IW 0 0) = some 300 ∧ load w.ctx (.IWh 0 0) = some 0 ∧
    operand? w.ctx 0 0 0 0 = some (Demo.op .IW 0) ∧ Site w.ctx 0 0 0 true ∧ execIns Demo.env .RE 0 0 w = .ok (.ok, w') ∧
    Sets w w' [(.cell 0 0 0, 0)] := by
  let w : World := ⟨{ Demo.ctx [Demo.net [[Demo.ins .RE [Demo.op .IW 0]]]] with
      input := some [{ iQty := 2, iwQty := 1, I := some [1, 0], IW := some [300], Ih := some [0, 0], IWh := some [0] }] }, 0, []⟩
  have hs : Site w.ctx 0 0 0 true := ⟨Demo.fits_of rfl, rfl, by decide, rfl⟩
  exact ⟨w, w.upd (.cell 0 0 0) 0, rfl, rfl, rfl, hs, rfl, Sets.one hs.cell (by decide)⟩

/-! ### Cases that meet the hypotheses -/

/-- The input I0.0 reads 0 in the first cycle and 1 afterwards. -/
def edgeEnv : Env :=
  { Demo.env with
    read := fun t _ c => { c with input := c.input.map (·.map fun o => { o with I := some [if t < 2 then 0 else 1, 0] }) } }

/-- M0 is driven by the rising edge of I0.0. -/
def edgeDemo : World := Demo.world [Demo.net [[Demo.ins .RE [Demo.op .I 0], Demo.ins .COIL [Demo.op .M 0]]]]

/-- The same after one cycle. -/
def edgeNext : World :=
  ⟨{ edgeDemo.ctx with
      last := { instr := .COIL, network := 0, col := 1, row := 0, err := .ok }
      M := some [0, 0, 1], Mh := some [0, 0, 1], Cdh := some [0, 1]
      input := some [{ iQty := 2, iwQty := 1, I := some [0, 0], IW := some [300], Ih := some [1, 0], IWh := some [300] }]
      scan := { actualScanTime := 30, startTime := 30, maxScanCycles := 1000, targetScanMs := 0, minScanTime := 30
                maxScanTime := 30, totalScanTime := 30, avgScanTime := 30, scanCount := 1, overrun := false } }, 4,
    [.read 0, .exec 0 0 0 .RE, .ret 0 0 0 .ok, .exec 0 0 1 .COIL, .ret 0 0 1 .ok,
      .write 0 (some [{ qQty := 2, qwQty := 1, Q := some [0, 1], QW := some [5], Qh := some [0, 1], QWh := some [5] }])]⟩

theorem edge_first : cycle edgeEnv edgeDemo = .ok (.again, edgeNext) := by
  have key : (match cycle edgeEnv edgeDemo with
      | .ok (r, w') => decide (r = .again ∧ w'.ctx = edgeNext.ctx ∧ w'.tick = edgeNext.tick ∧ w'.trace = edgeNext.trace)
      | .error _ => false) = true := by decide +kernel
  split at key
  · rename_i r w' h
    rw [decide_eq_true_iff] at key
    obtain ⟨rfl, h1, h2, h3⟩ := key
    obtain ⟨c, t, tr⟩ := w'
    subst h1; subst h2; subst h3
    exact h
  · cases key

theorem edge_scans : (∃ b v v', ScanOf edgeEnv edgeDemo b v v' ∧ load v'.ctx (.I 0 0) = some 0 ∧ FlagIn v'.ctx (.M 2) ∧
      load v'.ctx (.M 2) = some 1) ∧
    ∃ b v v', ScanOf edgeEnv edgeNext b v v' ∧ InputIn b.ctx (.I 0 0) ∧ Site v.ctx 0 0 0 true ∧
      operand? v.ctx 0 0 0 0 = some (Demo.op .I 0) ∧ load v.ctx (.I 0 0) = some 1 ∧ (load v.ctx (.Ih 0 0)).isSome ∧
      (load v.ctx (.Mh 2)).isSome := by
  constructor
  · have key : (match scanPoints edgeEnv edgeDemo with
        | some (_, _, v') => decide (load v'.ctx (.I 0 0) = some 0 ∧ v'.ctx.qty.m = 3 ∧ load v'.ctx (.M 2) = some 1)
        | none => false) = true := by decide +kernel
    split at key
    · rename_i b v v' h
      rw [decide_eq_true_iff] at key
      exact ⟨b, v, v', scanPoints_of h, key.1, by show 2 < _; omega, key.2.2⟩
    · cases key
  · have key : (match scanPoints edgeEnv edgeNext with
        | some (b, v, _) => decide (b.ctx.fnReadQty = 1 ∧ (at? b.ctx.input 0).map (·.iQty) = some 2 ∧
            Demo.fitsOk v.ctx = true ∧ v.ctx.exec = some 0 ∧ (load v.ctx (.cell 0 0 0)).isSome ∧ leftPower v.ctx 0 0 0 = some true ∧
            operand? v.ctx 0 0 0 0 = some (Demo.op .I 0) ∧ load v.ctx (.I 0 0) = some 1 ∧ (load v.ctx (.Ih 0 0)).isSome ∧
            (load v.ctx (.Mh 2)).isSome)
        | none => false) = true := by decide +kernel
    split at key
    · rename_i b v v' h
      rw [decide_eq_true_iff] at key
      obtain ⟨h1, h2, h3, h4, h5, h6, h7⟩ := key
      obtain ⟨o, ho, h2⟩ := Option.map_eq_some_iff.1 h2
      exact ⟨b, v, v', scanPoints_of h, ⟨by omega, o, ho, by omega⟩, ⟨Demo.fits_of h3, h4, h5, h6⟩, h7⟩
    · cases key

theorem edge_wait : waitLoop edgeEnv maxWait edgeNext = .ok (.ready, edgeNext) := rfl

theorem edge_reads (t n : Nat) (c : Ctx) : (edgeEnv.read t n c).input.map (·.map fun o => (o.Ih, o.IWh)) =
    c.input.map (·.map fun o => (o.Ih, o.IWh)) := by
  simp only [edgeEnv, Option.map_map, Function.comp_def, List.map_map]

/-- The contact conducts in the second cycle. -/
example : ∃ x x' : World, execIns edgeEnv .RE 0 0 x = .ok (.ok, x') ∧ Sets x x' [(.cell 0 0 0, 1)] := by
  obtain ⟨⟨b, v, v', hs, h0, -⟩, b2, v2, v2', hs2, hin, hsite, ho, h1, he, -⟩ := edge_scans
  obtain ⟨x', hx⟩ := C08_rising (env := edgeEnv) (K := fun _ => True) (E := True)
    (by constructor <;> intros <;> rfl) edge_reads (by constructor <;> intros <;> rfl) edge_first hs edge_wait hs2 .refl hin he
    hsite ho rfl rfl h0 h1
  exact ⟨v2, x', hx⟩

/-- The previous value of M2 in the second cycle. -/
example : ∃ v : World, load v.ctx (.Mh 2) = some 1 := by
  obtain ⟨⟨b, v, v', hs, -, hf, hm⟩, b2, v2, v2', hs2, -, -, -, -, -, he⟩ := edge_scans
  exact ⟨v2, (C44_previous_partial (env := edgeEnv) { panic := fun _ _ => rfl, before := fun _ _ => rfl, after := fun _ _ => rfl
                                                      endTask := fun _ _ => rfl, delay := fun _ _ => rfl, write := fun _ _ _ => rfl, read := fun _ _ _ => rfl }
    edge_first hs edge_wait hs2 (.M 2) (.inl hf) _ rfl (by rw [hm]; rfl) he).trans hm⟩

end Ladder.Props
