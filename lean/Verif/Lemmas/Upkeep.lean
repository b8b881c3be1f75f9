import Verif.Lemmas.Blocks

/-
The housekeeping of the task (history, rollback, clearing) never fails on memory blocks of the right sizes; what it does to each
location.
-/

set_option autoImplicit false

namespace Ladder

open Spec Logic

/-- Every location still exists, and holds 0 or what some location of the same kind held. -/
def Moved (c c' : Ctx) : Prop := ∀ ℓ, (load c' ℓ).isSome = (load c ℓ).isSome ∧
  ∀ x, load c' ℓ = some x → x = 0 ∨ ∃ k, isFlag k = isFlag ℓ ∧ load c k = some x

theorem Moved.trans {a b c : Ctx} (h : Moved a b) (h' : Moved b c) : Moved a c := fun ℓ => by
  refine ⟨(h' ℓ).1.trans (h ℓ).1, fun x hx => ?_⟩
  rcases (h' ℓ).2 x hx with h0 | ⟨k, hk, hx⟩
  · exact .inl h0
  · rcases (h k).2 x hx with h0 | ⟨k', hk', hx⟩
    · exact .inl h0
    · exact .inr ⟨k', hk'.trans hk, hx⟩

theorem Moved.flags {c c' : Ctx} (h : Moved c c') (hf : Flags c) : Flags c' := fun ℓ x hl hx => by
  rcases (h ℓ).2 x hx with h0 | ⟨k, hk, hx⟩
  · omega
  · exact hf k x (hk.trans hl) hx

/-- A change that keeps everything but the contents of the locations. -/
structure Kempt (c c' : Ctx) : Prop where
  fits : Fits c'
  shell : Spec.shell c' = Spec.shell c
  moved : Moved c c'

theorem Kempt.trans {a b c : Ctx} (h : Kempt a b) (h' : Kempt b c) : Kempt a c := ⟨h'.fits, h'.shell.trans h.shell, h.moved.trans h'.moved⟩

theorem Kempt.alike {B c c' : Ctx} (h : Kempt c c') (ha : Alike B c) : Alike B c' := by
  have e := h.shell
  exact ⟨h.fits, (congrArg Ctx.network e : _).trans ha.text, fun ℓ => (h.moved ℓ).1.trans (ha.places ℓ),
    (congrArg (·.qty.networks) e : _).trans ha.networks, (congrArg Ctx.millis e : _).trans ha.millis,
    (congrArg Ctx.cron e : _).trans ha.cron, (congrArg Ctx.foreignQty e : _).trans ha.foreign.1,
    (congrArg Ctx.foreign e : _).trans ha.foreign.2⟩

/-! ### Modules -/

/-- An input module after its history was taken. -/
structure InKept (x y : InMod) : Prop where
  sizes : y.iQty = x.iQty ∧ y.iwQty = x.iwQty ∧ y.I = x.I ∧ y.IW = x.IW
  fits : InFits y
  digital : Copied x.Ih x.I y.Ih
  analog : y.IWh = x.IWh ∨ Copied x.IWh x.IW y.IWh
  both : (∃ p, (at? x.I p).isSome ∧ (at? x.Ih p).isSome) → Copied x.IWh x.IW y.IWh

theorem empty_at {α : Type} {a : Arr α} {n : Nat} (h : Sized a n) (h0 : n = 0) (i : Nat) : at? a i = none := by
  cases a with
  | none => rfl
  | some l =>
    have := h l rfl
    exact List.getElem?_eq_none (by omega)

theorem copied_empty {α : Type} {d s : Arr α} {n : Nat} (h : Sized d n) (h0 : n = 0 ∨ s.isNone = true ∨ d.isNone = true) : Copied d s d := by
  rcases h0 with h0 | h0
  · exact ⟨rfl, fun i => by rw [empty_at h h0, over_none']⟩
  · exact copied_null h0

theorem isSome_of_not {α : Type} {a : Arr α} (h : ¬a.isNone = true) : a.isSome := by cases a <;> simp at h ⊢

theorem histIn_total {x : InMod} (h : InFits x) : ∃ y, histIn x = .ok y ∧ InKept x y := by
  unfold histIn
  split
  · rename_i h0
    refine ⟨x, rfl, ⟨rfl, rfl, rfl, rfl⟩, h, copied_empty h.Ih h0, .inl rfl, ?_⟩
    rintro ⟨p, h1, h2⟩
    rcases h0 with h0 | h0 | h0
    · rw [empty_at h.I h0] at h1; cases h1
    · cases hx : x.I <;> simp [hx, at?] at h0 h1
    · cases hx : x.Ih <;> simp [hx, at?] at h0 h2
  · rename_i h0
    simp only [not_or] at h0
    obtain ⟨b, e1, s1, c1⟩ := acopy_sized h.Ih h.I (isSome_of_not h0.2.2) (isSome_of_not h0.2.1)
    rw [e1]
    simp only [bind, Except.bind]
    split
    · rename_i h2
      have := copied_empty h.IWh h2
      exact ⟨_, rfl, ⟨rfl, rfl, rfl, rfl⟩, ⟨h.I, h.IW, s1, h.IWh⟩, c1, .inl rfl, fun _ => this⟩
    · rename_i h2
      simp only [not_or] at h2
      obtain ⟨b', e2, s2, c2⟩ := acopy_sized h.IWh h.IW (isSome_of_not h2.2.2) (isSome_of_not h2.2.1)
      rw [e2]
      exact ⟨_, rfl, ⟨rfl, rfl, rfl, rfl⟩, ⟨h.I, h.IW, s1, s2⟩, c1, .inr c2, fun _ => c2⟩

/-- An output module after its history was taken. -/
structure OutKept (x y : OutMod) : Prop where
  sizes : y.qQty = x.qQty ∧ y.qwQty = x.qwQty ∧ y.Q = x.Q ∧ y.QW = x.QW
  fits : OutFits y
  digital : Copied x.Qh x.Q y.Qh
  analog : y.QWh = x.QWh ∨ Copied x.QWh x.QW y.QWh

theorem histOut_total {x : OutMod} (h : OutFits x) : ∃ y, histOut x = .ok y ∧ OutKept x y := by
  unfold histOut
  split
  · rename_i h0
    exact ⟨x, rfl, ⟨rfl, rfl, rfl, rfl⟩, h, copied_empty h.Qh h0, .inl rfl⟩
  · rename_i h0
    simp only [not_or] at h0
    obtain ⟨b, e1, s1, c1⟩ := acopy_sized h.Qh h.Q (isSome_of_not h0.2.2) (isSome_of_not h0.2.1)
    rw [e1]
    simp only [bind, Except.bind]
    split
    · rename_i h2
      exact ⟨_, rfl, ⟨rfl, rfl, rfl, rfl⟩, ⟨h.Q, h.QW, s1, h.QWh⟩, c1, .inl rfl⟩
    · rename_i h2
      simp only [not_or] at h2
      obtain ⟨b', e2, s2, c2⟩ := acopy_sized h.QWh h.QW (isSome_of_not h2.2.2) (isSome_of_not h2.2.1)
      rw [e2]
      exact ⟨_, rfl, ⟨rfl, rfl, rfl, rfl⟩, ⟨h.Q, h.QW, s1, s2⟩, c1, .inr c2⟩

theorem saveOut_total {x : OutMod} (h : OutFits x) : ∃ y, saveOut x = .ok y ∧ OutKept x y ∧ Copied x.QWh x.QW y.QWh := by
  unfold saveOut
  obtain ⟨b, e1, s1, c1⟩ := acopyIf_sized h.Qh h.Q
  obtain ⟨b', e2, s2, c2⟩ := acopyIf_sized h.QWh h.QW
  rw [e1]
  simp only [bind, Except.bind]
  rw [e2]
  exact ⟨_, rfl, ⟨⟨rfl, rfl, rfl, rfl⟩, ⟨h.Q, h.QW, s1, s2⟩, c1, .inr c2⟩, c2⟩

/-- An output port holds 0 or what a port of the same module and kind held. -/
structure OutMoved (x y : OutMod) : Prop where
  sizes : y.qQty = x.qQty ∧ y.qwQty = x.qwQty
  fits : OutFits y
  Q : ∀ p, (at? y.Q p).isSome = (at? x.Q p).isSome ∧ ∀ v, at? y.Q p = some v → v = 0 ∨ at? x.Q p = some v ∨ at? x.Qh p = some v
  QW : ∀ p, (at? y.QW p).isSome = (at? x.QW p).isSome ∧ ∀ v, at? y.QW p = some v → v = 0 ∨ at? x.QW p = some v ∨ at? x.QWh p = some v
  Qh : ∀ p, (at? y.Qh p).isSome = (at? x.Qh p).isSome ∧ ∀ v, at? y.Qh p = some v → v = 0 ∨ at? x.Q p = some v ∨ at? x.Qh p = some v
  QWh : ∀ p, (at? y.QWh p).isSome = (at? x.QWh p).isSome ∧ ∀ v, at? y.QWh p = some v → v = 0 ∨ at? x.QW p = some v ∨ at? x.QWh p = some v

theorem Copied.isSome {α : Type} {d s b : Arr α} (h : Copied d s b) (i : Nat) : (at? b i).isSome = (at? d i).isSome := by
  rw [h.elem, isSome_over]

theorem Copied.from {α : Type} {d s b : Arr α} (h : Copied d s b) {i : Nat} {v : α} (hv : at? b i = some v) :
    at? s i = some v ∨ at? d i = some v := over_eq_some (by rw [← h.elem]; exact hv)

theorem OutKept.moved {x y : OutMod} (h : OutKept x y) : OutMoved x y where
  sizes := ⟨h.sizes.1, h.sizes.2.1⟩
  fits := h.fits
  Q := fun p => by rw [h.sizes.2.2.1]; exact ⟨rfl, fun v hv => .inr (.inl hv)⟩
  QW := fun p => by rw [h.sizes.2.2.2]; exact ⟨rfl, fun v hv => .inr (.inl hv)⟩
  Qh := fun p => ⟨h.digital.isSome p, fun v hv => .inr (h.digital.from hv)⟩
  QWh := fun p => by
    rcases h.analog with e | e
    · rw [e]; exact ⟨rfl, fun v hv => .inr (.inr hv)⟩
    · exact ⟨e.isSome p, fun v hv => .inr (e.from hv)⟩

theorem revertOut_total {x : OutMod} (h : OutFits x) : ∃ y, revertOut x = .ok y ∧ OutMoved x y := by
  unfold revertOut
  have idQ : ∀ p, (at? x.Q p).isSome = (at? x.Q p).isSome ∧ ∀ v, at? x.Q p = some v → v = 0 ∨ at? x.Q p = some v ∨ at? x.Qh p = some v :=
    fun p => ⟨rfl, fun v hv => .inr (.inl hv)⟩
  have idQW : ∀ p, (at? x.QW p).isSome = (at? x.QW p).isSome ∧ ∀ v, at? x.QW p = some v → v = 0 ∨ at? x.QW p = some v ∨ at? x.QWh p = some v :=
    fun p => ⟨rfl, fun v hv => .inr (.inl hv)⟩
  have idQh : ∀ p, (at? x.Qh p).isSome = (at? x.Qh p).isSome ∧ ∀ v, at? x.Qh p = some v → v = 0 ∨ at? x.Q p = some v ∨ at? x.Qh p = some v :=
    fun p => ⟨rfl, fun v hv => .inr (.inr hv)⟩
  have idQWh : ∀ p, (at? x.QWh p).isSome = (at? x.QWh p).isSome ∧ ∀ v, at? x.QWh p = some v → v = 0 ∨ at? x.QW p = some v ∨ at? x.QWh p = some v :=
    fun p => ⟨rfl, fun v hv => .inr (.inr hv)⟩
  split
  · exact ⟨x, rfl, ⟨rfl, rfl⟩, h, idQ, idQW, idQh, idQWh⟩
  · rename_i h0
    simp only [not_or] at h0
    obtain ⟨b, e1, s1, c1⟩ := acopy_sized h.Q h.Qh (isSome_of_not h0.2.1) (isSome_of_not h0.2.2)
    rw [e1]
    simp only [bind, Except.bind]
    have k1 : ∀ p, (at? b p).isSome = (at? x.Q p).isSome ∧ ∀ v, at? b p = some v → v = 0 ∨ at? x.Q p = some v ∨ at? x.Qh p = some v :=
      fun p => ⟨c1.isSome p, fun v hv => .inr (c1.from hv).symm⟩
    split
    · exact ⟨_, rfl, ⟨rfl, rfl⟩, ⟨s1, h.QW, h.Qh, h.QWh⟩, k1, idQW, idQh, idQWh⟩
    · rename_i h2
      simp only [not_or] at h2
      obtain ⟨b', e2, s2, c2⟩ := acopy_sized h.QW h.QWh (isSome_of_not h2.2.1) (isSome_of_not h2.2.2)
      rw [e2]
      exact ⟨_, rfl, ⟨rfl, rfl⟩, ⟨s1, s2, h.Qh, h.QWh⟩, k1, fun p => ⟨c2.isSome p, fun v hv => .inr (c2.from hv).symm⟩, idQh, idQWh⟩

theorem filled {α : Type} {b d : Arr α} {x : α} (h : ∀ i, at? b i = (at? d i).map fun _ => x) (i : Nat) :
    (at? b i).isSome = (at? d i).isSome ∧ ∀ v, at? b i = some v → v = x := by
  rw [h i]
  refine ⟨by simp, fun v hv => ?_⟩
  cases hd : at? d i <;> simp [hd] at hv
  exact hv.symm

theorem safeOut_total {x : OutMod} (h : OutFits x) : ∃ y, safeOut x = .ok y ∧ OutMoved x y := by
  unfold safeOut
  have idQ : ∀ p, (at? x.Q p).isSome = (at? x.Q p).isSome ∧ ∀ v, at? x.Q p = some v → v = 0 ∨ at? x.Q p = some v ∨ at? x.Qh p = some v :=
    fun p => ⟨rfl, fun v hv => .inr (.inl hv)⟩
  have idQW : ∀ p, (at? x.QW p).isSome = (at? x.QW p).isSome ∧ ∀ v, at? x.QW p = some v → v = 0 ∨ at? x.QW p = some v ∨ at? x.QWh p = some v :=
    fun p => ⟨rfl, fun v hv => .inr (.inl hv)⟩
  have idQh : ∀ p, (at? x.Qh p).isSome = (at? x.Qh p).isSome ∧ ∀ v, at? x.Qh p = some v → v = 0 ∨ at? x.Q p = some v ∨ at? x.Qh p = some v :=
    fun p => ⟨rfl, fun v hv => .inr (.inr hv)⟩
  have idQWh : ∀ p, (at? x.QWh p).isSome = (at? x.QWh p).isSome ∧ ∀ v, at? x.QWh p = some v → v = 0 ∨ at? x.QW p = some v ∨ at? x.QWh p = some v :=
    fun p => ⟨rfl, fun v hv => .inr (.inr hv)⟩
  split
  · exact ⟨x, rfl, ⟨rfl, rfl⟩, h, idQ, idQW, idQh, idQWh⟩
  · rename_i h0
    simp only [not_or] at h0
    obtain ⟨b, e1, s1, t1, c1⟩ := afill_sized 0 h.Q (isSome_of_not h0.2)
    rw [e1]
    simp only [bind, Except.bind]
    have f1 := filled c1
    have k1 : ∀ p, (at? b p).isSome = (at? x.Q p).isSome ∧ ∀ v, at? b p = some v → v = 0 ∨ at? x.Q p = some v ∨ at? x.Qh p = some v :=
      fun p => ⟨(f1 p).1, fun v hv => .inl ((f1 p).2 v hv)⟩
    split
    · exact ⟨_, rfl, ⟨rfl, rfl⟩, ⟨s1, h.QW, h.Qh, h.QWh⟩, k1, idQW, idQh, idQWh⟩
    · rename_i h2
      simp only [not_or] at h2
      obtain ⟨b', e2, s2, t2, c2⟩ := afill_sized 0 h.QW (isSome_of_not h2.2)
      rw [e2]
      have f2 := filled c2
      have k2 : ∀ p, (at? b' p).isSome = (at? x.QW p).isSome ∧ ∀ v, at? b' p = some v → v = 0 ∨ at? x.QW p = some v ∨ at? x.QWh p = some v :=
        fun p => ⟨(f2 p).1, fun v hv => .inl ((f2 p).2 v hv)⟩
      have hq : ∃ c, (if x.Qh.isSome then acopy x.Qh b x.qQty else .ok x.Qh) = .ok c ∧ Sized c x.qQty ∧
          ∀ p, (at? c p).isSome = (at? x.Qh p).isSome ∧ ∀ v, at? c p = some v → v = 0 ∨ at? x.Q p = some v ∨ at? x.Qh p = some v := by
        split
        · rename_i hs
          obtain ⟨c, e, s, k⟩ := acopy_sized h.Qh s1 hs (by rw [t1]; exact isSome_of_not h0.2)
          refine ⟨c, e, s, fun p => ⟨k.isSome p, fun v hv => ?_⟩⟩
          rcases k.from hv with hv | hv
          · exact .inl ((f1 p).2 v hv)
          · exact .inr (.inr hv)
        · exact ⟨_, rfl, h.Qh, idQh⟩
      have hqw : ∃ c, (if x.QWh.isSome then acopy x.QWh b' x.qwQty else .ok x.QWh) = .ok c ∧ Sized c x.qwQty ∧
          ∀ p, (at? c p).isSome = (at? x.QWh p).isSome ∧ ∀ v, at? c p = some v → v = 0 ∨ at? x.QW p = some v ∨ at? x.QWh p = some v := by
        split
        · rename_i hs
          obtain ⟨c, e, s, k⟩ := acopy_sized h.QWh s2 hs (by rw [t2]; exact isSome_of_not h2.2)
          refine ⟨c, e, s, fun p => ⟨k.isSome p, fun v hv => ?_⟩⟩
          rcases k.from hv with hv | hv
          · exact .inl ((f2 p).2 v hv)
          · exact .inr (.inr hv)
        · exact ⟨_, rfl, h.QWh, idQWh⟩
      obtain ⟨c, e3, s3, k3⟩ := hq
      obtain ⟨c', e4, s4, k4⟩ := hqw
      dsimp only
      rw [e3]
      dsimp only
      rw [e4]
      exact ⟨_, rfl, ⟨rfl, rfl⟩, ⟨s1, s2, s3, s4⟩, k1, k2, k3, k4⟩

/-! ### Contexts -/

theorem Mapped.map {α β : Type} {R : α → α → Prop} {f : α → β} (hR : ∀ x y, R x y → f y = f x) {a b : Arr α} (h : Mapped R a b) :
    b.map (·.map f) = a.map (·.map f) := by
  cases b with
  | none => have := h.there; cases a <;> simp at this ⊢
  | some l' =>
    obtain ⟨l, rfl, hl, -⟩ := h.back _ rfl
    simp only [Option.map_some, Option.some.injEq]
    refine List.ext_getElem? fun i => ?_
    rw [List.getElem?_map, List.getElem?_map]
    cases hi : l[i]? with
    | none => rw [show l'[i]? = none from h.out i hi]
    | some x =>
      obtain ⟨y, hy, hr⟩ := h.get i x hi
      rw [show l'[i]? = some y from hy]
      simp [hR x y hr]

theorem load_I (c : Ctx) (m p : Nat) : load c (.I m p) = (at? c.input m).bind fun o => (at? o.I p).map (·.toNat) := rfl
theorem load_IW (c : Ctx) (m p : Nat) : load c (.IW m p) = (at? c.input m).bind fun o => (at? o.IW p).map (·.toNat) := rfl
theorem load_Ih (c : Ctx) (m p : Nat) : load c (.Ih m p) = (at? c.input m).bind fun o => (at? o.Ih p).map (·.toNat) := rfl
theorem load_IWh (c : Ctx) (m p : Nat) : load c (.IWh m p) = (at? c.input m).bind fun o => (at? o.IWh p).map (·.toNat) := rfl
theorem load_Q (c : Ctx) (m p : Nat) : load c (.Q m p) = (at? c.output m).bind fun o => (at? o.Q p).map (·.toNat) := rfl
theorem load_QW (c : Ctx) (m p : Nat) : load c (.QW m p) = (at? c.output m).bind fun o => (at? o.QW p).map (·.toNat) := rfl
theorem load_Qh (c : Ctx) (m p : Nat) : load c (.Qh m p) = (at? c.output m).bind fun o => (at? o.Qh p).map (·.toNat) := rfl
theorem load_QWh (c : Ctx) (m p : Nat) : load c (.QWh m p) = (at? c.output m).bind fun o => (at? o.QWh p).map (·.toNat) := rfl

theorem InKept.moved {c : Ctx} {inp : Arr InMod} (h : Mapped InKept c.input inp) : Moved c { c with input := inp } := by
  intro ℓ
  have other : ∀ {ℓ : Loc}, load { c with input := inp } ℓ = load c ℓ → (load { c with input := inp } ℓ).isSome = (load c ℓ).isSome ∧
      ∀ x, load { c with input := inp } ℓ = some x → x = 0 ∨ ∃ k, isFlag k = isFlag ℓ ∧ load c k = some x :=
    fun {ℓ} e => ⟨by rw [e], fun x hx => .inr ⟨ℓ, rfl, by rw [← e]; exact hx⟩⟩
  cases ℓ <;> first
    | exact other rfl
    | skip
  all_goals
    rename_i m p
    simp only [load_I, load_IW, load_Ih, load_IWh]
    rcases hm : at? c.input m with _ | o
    · rw [h.out m hm]; exact ⟨rfl, fun x hx => by cases hx⟩
    obtain ⟨o', ho', hk⟩ := h.get m o hm
    rw [ho']
    simp only [Option.bind_some, Option.isSome_map]
  · rw [hk.sizes.2.2.1]
    exact ⟨rfl, fun x hx => .inr ⟨.I m p, rfl, by simp only [load, hm, Option.bind_some]; exact hx⟩⟩
  · rw [hk.sizes.2.2.2]
    exact ⟨rfl, fun x hx => .inr ⟨.IW m p, rfl, by simp only [load, hm, Option.bind_some]; exact hx⟩⟩
  · refine ⟨hk.digital.isSome p, fun x hx => ?_⟩
    obtain ⟨v, hv, rfl⟩ := Option.map_eq_some_iff.1 hx
    rcases hk.digital.from hv with hv | hv
    · exact .inr ⟨.I m p, rfl, by simp only [load, hm, Option.bind_some, hv, Option.map_some]⟩
    · exact .inr ⟨.Ih m p, rfl, by simp only [load, hm, Option.bind_some, hv, Option.map_some]⟩
  · rcases hk.analog with e | e
    · rw [e]
      exact ⟨rfl, fun x hx => .inr ⟨.IWh m p, rfl, by simp only [load, hm, Option.bind_some]; exact hx⟩⟩
    · refine ⟨e.isSome p, fun x hx => ?_⟩
      obtain ⟨v, hv, rfl⟩ := Option.map_eq_some_iff.1 hx
      rcases e.from hv with hv | hv
      · exact .inr ⟨.IW m p, rfl, by simp only [load, hm, Option.bind_some, hv, Option.map_some]⟩
      · exact .inr ⟨.IWh m p, rfl, by simp only [load, hm, Option.bind_some, hv, Option.map_some]⟩

theorem OutMoved.moved {c : Ctx} {out : Arr OutMod} (h : Mapped OutMoved c.output out) : Moved c { c with output := out } := by
  intro ℓ
  have other : ∀ {ℓ : Loc}, load { c with output := out } ℓ = load c ℓ → (load { c with output := out } ℓ).isSome = (load c ℓ).isSome ∧
      ∀ x, load { c with output := out } ℓ = some x → x = 0 ∨ ∃ k, isFlag k = isFlag ℓ ∧ load c k = some x :=
    fun {ℓ} e => ⟨by rw [e], fun x hx => .inr ⟨ℓ, rfl, by rw [← e]; exact hx⟩⟩
  cases ℓ <;> first
    | exact other rfl
    | skip
  all_goals
    rename_i m p
    simp only [load_Q, load_QW, load_Qh, load_QWh]
    rcases hm : at? c.output m with _ | o
    · rw [h.out m hm]; exact ⟨rfl, fun x hx => by cases hx⟩
    obtain ⟨o', ho', hk⟩ := h.get m o hm
    rw [ho']
    simp only [Option.bind_some, Option.isSome_map]
  · refine ⟨(hk.Q p).1, fun x hx => ?_⟩
    obtain ⟨v, hv, rfl⟩ := Option.map_eq_some_iff.1 hx
    rcases (hk.Q p).2 v hv with rfl | hv | hv
    · exact .inl rfl
    · exact .inr ⟨.Q m p, rfl, by simp only [load, hm, Option.bind_some, hv, Option.map_some]⟩
    · exact .inr ⟨.Qh m p, rfl, by simp only [load, hm, Option.bind_some, hv, Option.map_some]⟩
  · refine ⟨(hk.QW p).1, fun x hx => ?_⟩
    obtain ⟨v, hv, rfl⟩ := Option.map_eq_some_iff.1 hx
    rcases (hk.QW p).2 v hv with rfl | hv | hv
    · exact .inl rfl
    · exact .inr ⟨.QW m p, rfl, by simp only [load, hm, Option.bind_some, hv, Option.map_some]⟩
    · exact .inr ⟨.QWh m p, rfl, by simp only [load, hm, Option.bind_some, hv, Option.map_some]⟩
  · refine ⟨(hk.Qh p).1, fun x hx => ?_⟩
    obtain ⟨v, hv, rfl⟩ := Option.map_eq_some_iff.1 hx
    rcases (hk.Qh p).2 v hv with rfl | hv | hv
    · exact .inl rfl
    · exact .inr ⟨.Q m p, rfl, by simp only [load, hm, Option.bind_some, hv, Option.map_some]⟩
    · exact .inr ⟨.Qh m p, rfl, by simp only [load, hm, Option.bind_some, hv, Option.map_some]⟩
  · refine ⟨(hk.QWh p).1, fun x hx => ?_⟩
    obtain ⟨v, hv, rfl⟩ := Option.map_eq_some_iff.1 hx
    rcases (hk.QWh p).2 v hv with rfl | hv | hv
    · exact .inl rfl
    · exact .inr ⟨.QW m p, rfl, by simp only [load, hm, Option.bind_some, hv, Option.map_some]⟩
    · exact .inr ⟨.QWh m p, rfl, by simp only [load, hm, Option.bind_some, hv, Option.map_some]⟩

theorem InKept.kempt {c : Ctx} (hf : Fits c) {inp : Arr InMod} (h : Mapped InKept c.input inp) : Kempt c { c with input := inp } := by
  refine ⟨{ hf with input := fun l' e => ?_, noInput := fun e => ?_ }, ?_, InKept.moved h⟩
  · obtain ⟨l, hl, hlen, hb⟩ := h.back l' e
    obtain ⟨h1, h2⟩ := hf.input l hl
    exact ⟨hlen.trans h1, fun o ho => by obtain ⟨x, -, hx⟩ := hb o ho; exact hx.fits⟩
  · refine hf.noInput ?_
    have := h.there
    rw [show inp = none from e] at this
    cases hc : c.input <;> simp [hc] at this ⊢
  · have e := h.map (f := fun o => ({ o with I := none, IW := none, Ih := none, IWh := none } : InMod))
      fun x y hk => by rw [hk.sizes.1, hk.sizes.2.1]
    exact (congrArg (fun a => { Spec.shell c with input := a }) e :)

theorem OutMoved.kempt {c : Ctx} (hf : Fits c) {out : Arr OutMod} (h : Mapped OutMoved c.output out) : Kempt c { c with output := out } := by
  refine ⟨{ hf with output := fun l' e => ?_, noOutput := fun e => ?_ }, ?_, OutMoved.moved h⟩
  · obtain ⟨l, hl, hlen, hb⟩ := h.back l' e
    obtain ⟨h1, h2⟩ := hf.output l hl
    exact ⟨hlen.trans h1, fun o ho => by obtain ⟨x, -, hx⟩ := hb o ho; exact hx.fits⟩
  · refine hf.noOutput ?_
    have := h.there
    rw [show out = none from e] at this
    cases hc : c.output <;> simp [hc] at this ⊢
  · have e := h.map (f := fun o => ({ o with Q := none, QW := none, Qh := none, QWh := none } : OutMod))
      fun x y hk => by rw [hk.sizes.1, hk.sizes.2]
    exact (congrArg (fun a => { Spec.shell c with output := a }) e :)

theorem Mapped.mono {α : Type} {R S : α → α → Prop} (hR : ∀ x y, R x y → S x y) {a b : Arr α} (h : Mapped R a b) : Mapped S a b :=
  ⟨h.there, fun i x hi => by obtain ⟨y, h1, h2⟩ := h.get i x hi; exact ⟨y, h1, hR _ _ h2⟩, h.out, fun l' e => by
    obtain ⟨l, h1, h2, h3⟩ := h.back l' e
    exact ⟨l, h1, h2, fun y hy => by obtain ⟨x, h4, h5⟩ := h3 y hy; exact ⟨x, h4, hR _ _ h5⟩⟩⟩

/-- The input history of all modules. -/
theorem inHist_total {c : Ctx} (hf : Fits c) : ∃ inp, amapFirst histIn c.fnReadQty c.input = .ok inp ∧ Mapped InKept c.input inp :=
  amapFirst_all (fun l e => (hf.input l e).1) fun l e x hx => histIn_total ((hf.input l e).2 x hx)

theorem outHist_total {c : Ctx} (hf : Fits c) : ∃ out, amapFirst histOut c.fnWriteQty c.output = .ok out ∧ Mapped OutKept c.output out :=
  amapFirst_all (fun l e => (hf.output l e).1) fun l e x hx => histOut_total ((hf.output l e).2 x hx)

theorem inHist_recall {c : Ctx} {inp : Arr InMod} (h : Mapped InKept c.input inp) (hp : Paired (load c)) (ℓ : Loc) :
    load { c with input := inp } ℓ = recall sampled (load c) ℓ := by
  cases ℓ <;> simp only [recall, sampled] <;> first
    | rfl
    | skip
  all_goals
    rename_i m p
    simp only [load]
    rcases hm : at? c.input m with _ | o
    · rw [h.out m hm] <;> rfl
    obtain ⟨o', ho', hk⟩ := h.get m o hm
    rw [ho']
    simp only [Option.bind_some]
  · rw [hk.sizes.2.2.1]
  · rw [hk.sizes.2.2.2]
  · rw [hk.digital.elem, over_map]
  · rw [over_map]
    by_cases hb : ∃ p, (at? o.I p).isSome ∧ (at? o.Ih p).isSome
    · rw [(hk.both hb).elem]
    · rcases hk.analog with e | e
      · rw [e]
        cases h1 : at? o.IW p with
        | none => rw [over_none]
        | some x =>
          cases h2 : at? o.IWh p with
          | none => rfl
          | some y =>
            obtain ⟨q, hq⟩ := hp m p (by simp [load, hm, h1]) (by simp [load, hm, h2])
            simp only [load, hm, Option.bind_some, Option.isSome_map] at hq
            exact absurd ⟨q, hq⟩ hb
      · rw [e.elem]

theorem outHist_recall {c : Ctx} {out : Arr OutMod} (h : Mapped OutKept c.output out) (ℓ : Loc) :
    load { c with output := out } ℓ = load c ℓ ∨ load { c with output := out } ℓ = recall kept (load c) ℓ := by
  cases ℓ <;> first
    | exact .inl rfl
    | skip
  all_goals
    rename_i m p
    simp only [recall, kept, load]
    rcases hm : at? c.output m with _ | o
    · rw [h.out m hm]; exact .inl rfl
    obtain ⟨o', ho', hk⟩ := h.get m o hm
    rw [ho']
    simp only [Option.bind_some]
  · rw [hk.sizes.2.2.1]; exact .inl rfl
  · rw [hk.sizes.2.2.2]; exact .inl rfl
  · rw [hk.digital.elem, over_map]; exact .inr rfl
  · rcases hk.analog with e | e
    · rw [e]; exact .inl rfl
    · rw [e.elem, over_map]; exact .inr rfl

/-- Taking the history of flags and outputs. -/
theorem savePrevious_total {c : Ctx} (hf : Fits c) : ∃ c', savePrevious c = .ok c' ∧ Kempt c c' ∧ ∀ ℓ, load c' ℓ = recall kept (load c) ℓ := by
  obtain ⟨mh, e1, s1, c1⟩ := acopyIf_sized hf.Mh hf.M
  obtain ⟨cdh, e2, s2, c2⟩ := acopyIf_sized hf.Cdh hf.Cd
  obtain ⟨crh, e3, s3, c3⟩ := acopyIf_sized hf.Crh hf.Cr
  obtain ⟨tdh, e4, s4, c4⟩ := acopyIf_sized hf.Tdh hf.Td
  obtain ⟨trh, e5, s5, c5⟩ := acopyIf_sized hf.Trh hf.Tr
  obtain ⟨out, e6, h6⟩ := amapFirst_all (R := fun x y => OutKept x y ∧ Copied x.QWh x.QW y.QWh)
    (fun l e => (hf.output l e).1) fun l e x hx => saveOut_total ((hf.output l e).2 x hx)
  have ht := OutMoved.kempt hf (h6.mono fun _ _ h => h.1.moved)
  have hl : ∀ ℓ, load { c with Mh := mh, Cdh := cdh, Crh := crh, Tdh := tdh, Trh := trh, output := out } ℓ = recall kept (load c) ℓ := by
    intro ℓ
    cases ℓ <;> simp only [recall, kept] <;> first
      | rfl
      | (simp only [load]; rw [c1.elem, over_map]; done)
      | (simp only [load]; rw [c2.elem, over_map]; done)
      | (simp only [load]; rw [c3.elem, over_map]; done)
      | (simp only [load]; rw [c4.elem, over_map]; done)
      | (simp only [load]; rw [c5.elem, over_map]; done)
      | skip
    all_goals
      rename_i m p
      simp only [load]
      rcases hm : at? c.output m with _ | o
      · rw [h6.out m hm] <;> rfl
      obtain ⟨o', ho', hk, hk'⟩ := h6.get m o hm
      rw [ho']
      simp only [Option.bind_some]
    · rw [hk.sizes.2.2.1]
    · rw [hk.sizes.2.2.2]
    · rw [hk.digital.elem, over_map]
    · rw [hk'.elem, over_map]
  refine ⟨{ c with Mh := mh, Cdh := cdh, Crh := crh, Tdh := tdh, Trh := trh, output := out }, ?_, ⟨⟨hf.M, s1, hf.Cd, s2, hf.Cr, s3, hf.C, hf.Td, s4, hf.Tr, s5, hf.timers, hf.D, hf.R, hf.input,
    ht.fits.output, hf.network, hf.noInput, ht.fits.noOutput⟩, ht.shell, fun ℓ => ?_⟩, hl⟩
  · unfold savePrevious
    simp only [except_bind]
    exact ⟨_, e1, _, e2, _, e3, _, e4, _, e5, _, e6, rfl⟩
  · rw [hl ℓ]
    unfold recall
    split
    · rename_i k hk
      have hf : isFlag k = isFlag ℓ := by
        cases ℓ <;> simp only [kept, Option.some.injEq] at hk <;> first | (subst hk; rfl) | cases hk
      refine ⟨isSome_over _ _, fun x hx => .inr ?_⟩
      rcases over_eq_some hx with hx | hx
      · exact ⟨k, hf, hx⟩
      · exact ⟨ℓ, rfl, hx⟩
    · exact ⟨rfl, fun x hx => .inr ⟨ℓ, rfl, hx⟩⟩

/-- Clearing an area, when it exists. -/
theorem afillIf_sized {α : Type} {d : Arr α} {n : Nat} (x : α) (hd : Sized d n) :
    ∃ b, (if n > 0 ∧ d.isSome then afill d n x else .ok d) = .ok b ∧ Sized b n ∧
      ∀ i, (at? b i).isSome = (at? d i).isSome ∧ ∀ v, at? b i = some v → v = x ∨ at? d i = some v := by
  split
  · rename_i h
    obtain ⟨b, e, s, -, k⟩ := afill_sized x hd h.2
    exact ⟨b, e, s, fun i => ⟨(filled k i).1, fun v hv => .inl ((filled k i).2 v hv)⟩⟩
  · exact ⟨d, rfl, hd, fun i => ⟨rfl, fun v hv => .inr hv⟩⟩

theorem zeroAccIf_sized {d : Arr Timer} {n : Nat} (hd : Sized d n) :
    ∃ b, (if n > 0 ∧ d.isSome then zeroAcc n d else .ok d) = .ok b ∧ Sized b n ∧
      Mapped (fun x y => (y.acc = 0 ∨ y.acc = x.acc) ∧ y.timeStamp = x.timeStamp) d b := by
  split
  · rename_i h
    obtain ⟨b, e, k⟩ := amapFirst_all (R := fun x y => (y.acc = 0 ∨ y.acc = x.acc) ∧ y.timeStamp = x.timeStamp)
      (f := fun t : Timer => .ok { t with acc := 0 }) hd fun l _ x _ => ⟨_, rfl, .inl rfl, rfl⟩
    refine ⟨b, ?_, fun l' e' => ?_, k⟩
    · obtain ⟨l, rfl⟩ := Option.isSome_iff_exists.1 h.2
      exact e
    · obtain ⟨l, h1, h2, -⟩ := k.back l' e'
      rw [h2]
      exact hd l h1
  · exact ⟨d, rfl, hd, Mapped.refl (fun x => ⟨.inr rfl, rfl⟩) d⟩

/-- The flag areas that the rollback restores. -/
structure Restorable (c : Ctx) : Prop where
  M : c.M.isSome ∧ c.Mh.isSome
  Cd : c.Cd.isSome ∧ c.Cdh.isSome
  Cr : c.Cr.isSome ∧ c.Crh.isSome
  Td : c.Td.isSome ∧ c.Tdh.isSome
  Tr : c.Tr.isSome ∧ c.Trh.isSome

theorem rollback_total {c : Ctx} (hf : Fits c) (hr : Restorable c) : ∃ c', rollback c = .ok c' ∧ Kempt c c' := by
  obtain ⟨out, e0, h0⟩ := amapFirst_all (fun l e => (hf.output l e).1) fun l e x hx => revertOut_total ((hf.output l e).2 x hx)
  obtain ⟨m, e1, s1, c1⟩ := acopy_sized hf.M hf.Mh hr.M.1 hr.M.2
  obtain ⟨cd, e2, s2, c2⟩ := acopy_sized hf.Cd hf.Cdh hr.Cd.1 hr.Cd.2
  obtain ⟨cr, e3, s3, c3⟩ := acopy_sized hf.Cr hf.Crh hr.Cr.1 hr.Cr.2
  obtain ⟨td, e4, s4, c4⟩ := acopy_sized hf.Td hf.Tdh hr.Td.1 hr.Td.2
  obtain ⟨tr, e5, s5, c5⟩ := acopy_sized hf.Tr hf.Trh hr.Tr.1 hr.Tr.2
  obtain ⟨cc, e6, s6, c6⟩ := afillIf_sized 0 hf.C
  obtain ⟨ts, e7, s7, c7⟩ := zeroAccIf_sized hf.timers
  obtain ⟨d, e8, s8, c8⟩ := afillIf_sized 0 hf.D
  obtain ⟨r, e9, s9, c9⟩ := afillIf_sized 0 hf.R
  have ht := OutMoved.kempt hf h0
  refine ⟨{ c with output := out, M := m, Cd := cd, Cr := cr, Td := td, Tr := tr, C := cc, timers := ts, D := d, R := r }, ?_,
    ⟨s1, hf.Mh, s2, hf.Cdh, s3, hf.Crh, s6, s4, hf.Tdh, s5, hf.Trh, s7, s8, s9, hf.input, ht.fits.output, hf.network, hf.noInput,
      ht.fits.noOutput⟩, ht.shell, fun ℓ => ?_⟩
  · unfold rollback
    simp only [except_bind]
    exact ⟨_, e0, _, e1, _, e2, _, e3, _, e4, _, e5, _, e6, _, e7, _, e8, _, e9, rfl⟩
  · have copied : ∀ {n : Nat} {a s b : Arr (BitVec n)} (_ : Copied a s b) (i : Nat) (ℓ k : Loc) (_ : isFlag k = isFlag ℓ)
        (_ : load c ℓ = (at? a i).map (·.toNat)) (_ : load c k = (at? s i).map (·.toNat)),
        ((at? b i).map (·.toNat)).isSome = (load c ℓ).isSome ∧
          ∀ x, (at? b i).map (·.toNat) = some x → x = 0 ∨ ∃ k, isFlag k = isFlag ℓ ∧ load c k = some x := by
      intro n a s b h i ℓ k hk h1 h2
      rw [h1]
      refine ⟨by rw [Option.isSome_map, Option.isSome_map, h.isSome], fun x hx => .inr ?_⟩
      obtain ⟨v, hv, rfl⟩ := Option.map_eq_some_iff.1 hx
      rcases h.from hv with hv | hv
      · exact ⟨k, hk, by rw [h2, hv]; rfl⟩
      · exact ⟨ℓ, rfl, by rw [h1, hv]; rfl⟩
    have cleared : ∀ {n : Nat} {a b : Arr (BitVec n)}
        (_ : ∀ i, (at? b i).isSome = (at? a i).isSome ∧ ∀ v, at? b i = some v → v = 0 ∨ at? a i = some v) (i : Nat) (ℓ : Loc)
        (_ : load c ℓ = (at? a i).map (·.toNat)), ((at? b i).map (·.toNat)).isSome = (load c ℓ).isSome ∧
          ∀ x, (at? b i).map (·.toNat) = some x → x = 0 ∨ ∃ k, isFlag k = isFlag ℓ ∧ load c k = some x := by
      intro n a b h i ℓ h1
      rw [h1]
      refine ⟨by rw [Option.isSome_map, Option.isSome_map, (h i).1], fun x hx => ?_⟩
      obtain ⟨v, hv, rfl⟩ := Option.map_eq_some_iff.1 hx
      rcases (h i).2 v hv with rfl | hv
      · exact .inl (by simp)
      · exact .inr ⟨ℓ, rfl, by rw [h1, hv]; rfl⟩
    have same : ∀ {ℓ : Loc}, (load c ℓ).isSome = (load c ℓ).isSome ∧
        ∀ x, load c ℓ = some x → x = 0 ∨ ∃ k, isFlag k = isFlag ℓ ∧ load c k = some x := fun {ℓ} => ⟨rfl, fun x hx => .inr ⟨ℓ, rfl, hx⟩⟩
    cases ℓ with
    | M i => exact copied c1 i (.M i) (.Mh i) rfl rfl rfl
    | Cd i => exact copied c2 i (.Cd i) (.Cdh i) rfl rfl rfl
    | Cr i => exact copied c3 i (.Cr i) (.Crh i) rfl rfl rfl
    | Td i => exact copied c4 i (.Td i) (.Tdh i) rfl rfl rfl
    | Tr i => exact copied c5 i (.Tr i) (.Trh i) rfl rfl rfl
    | C i => exact cleared c6 i (.C i) rfl
    | D i => exact cleared c8 i (.D i) rfl
    | R i => exact cleared c9 i (.R i) rfl
    | acc i =>
      show ((at? ts i).map (·.acc.toNat)).isSome = ((at? c.timers i).map (·.acc.toNat)).isSome ∧
        ∀ x, (at? ts i).map (·.acc.toNat) = some x → x = 0 ∨ ∃ k, isFlag k = false ∧ load c k = some x
      rcases hi : at? c.timers i with _ | t
      · rw [c7.out i hi]; exact ⟨rfl, fun x hx => by cases hx⟩
      · obtain ⟨t', h1, h2, -⟩ := c7.get i t hi
        rw [h1]
        refine ⟨rfl, fun x hx => ?_⟩
        cases hx
        rcases h2 with h2 | h2
        · exact .inl (by simp [h2])
        · exact .inr ⟨.acc i, rfl, by simp [load, hi, h2]⟩
    | stamp i =>
      show ((at? ts i).map (·.timeStamp.toNat)).isSome = ((at? c.timers i).map (·.timeStamp.toNat)).isSome ∧
        ∀ x, (at? ts i).map (·.timeStamp.toNat) = some x → x = 0 ∨ ∃ k, isFlag k = false ∧ load c k = some x
      rcases hi : at? c.timers i with _ | t
      · rw [c7.out i hi]; exact ⟨rfl, fun x hx => by cases hx⟩
      · obtain ⟨t', h1, -, h2⟩ := c7.get i t hi
        rw [h1]
        refine ⟨rfl, fun x hx => ?_⟩
        cases hx
        exact .inr ⟨.stamp i, rfl, by simp [load, hi, h2]⟩
    | Q m p => exact ht.moved (.Q m p)
    | QW m p => exact ht.moved (.QW m p)
    | Qh m p => exact ht.moved (.Qh m p)
    | QWh m p => exact ht.moved (.QWh m p)
    | Mh i => exact same (ℓ := .Mh i)
    | Cdh i => exact same (ℓ := .Cdh i)
    | Crh i => exact same (ℓ := .Crh i)
    | Tdh i => exact same (ℓ := .Tdh i)
    | Trh i => exact same (ℓ := .Trh i)
    | I m p => exact same (ℓ := .I m p)
    | IW m p => exact same (ℓ := .IW m p)
    | Ih m p => exact same (ℓ := .Ih m p)
    | IWh m p => exact same (ℓ := .IWh m p)
    | cell n r k => exact same (ℓ := .cell n r k)

theorem safeAll_total {c : Ctx} (hf : Fits c) : ∃ out, amapFirst safeOut c.fnWriteQty c.output = .ok out ∧ Kempt c { c with output := out } := by
  obtain ⟨out, e, h⟩ := amapFirst_all (fun l e => (hf.output l e).1) fun l e x hx => safeOut_total ((hf.output l e).2 x hx)
  exact ⟨out, e, OutMoved.kempt hf h⟩

theorem Kempt.refl {c : Ctx} (hf : Fits c) : Kempt c c := ⟨hf, rfl, fun ℓ => ⟨rfl, fun _ hx => .inr ⟨ℓ, rfl, hx⟩⟩⟩

end Ladder
