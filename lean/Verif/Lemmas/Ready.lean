import Verif.Spec.Ready
import Verif.Props.Check

/-
Lemmas: a program that the checker accepts is well-formed.
-/

set_option autoImplicit false

namespace Ladder

open Spec

section cell

variable {c : Ctx} {n r k : Nat} {x : Cell} (hr : Ready c) (ha : Accepts c) (hw : Within c n r k) (hx : cell? c n r k = some x)

include hr ha hw hx

/-- What acceptance says about one operand. -/
theorem accepted_operand {i : Nat} (hi : i < x.dataQty) : ∃ v, at? x.data i = some v ∧ operand? c n r k i = some v ∧
    Takes x.code i v.type ∧ (names x.code i v.type → v.type ≠ .R → (timing x.code = true → i < 2) → Designates c v) := by
  obtain ⟨v, h1, h2⟩ := (C51_operand_kinds ha hw hx).1 i hi
  refine ⟨v, ?_, h1, h2, fun hn hR hT => C51_operands_exist_partial hr.full ha hw hx h1 hn hR ?_⟩
  · simp only [operand?, hx, Option.bind_some, if_pos hi] at h1
    exact h1
  · rintro ⟨h3, h4, -⟩
    have := hT h3
    omega

theorem accepted_readable {i : Nat} (hi : i < x.dataQty) (ht : timing x.code = false) (hf : NoFloat x i) : Readable c n r k i := by
  obtain ⟨v, h1, h2, -, h4⟩ := accepted_operand hr ha hw hx hi
  have hR := hf v h1
  refine ⟨v, h2, hR, ?_⟩
  by_cases e1 : v.type = .NONE
  · exact .inl e1
  by_cases e2 : v.type = .S
  · exact .inr (.inl e2)
  exact .inr (.inr (.inr (h4 ⟨e1, e2, by simp [ht]⟩ hR (by simp [ht]))))

theorem accepted_integer {i : Nat} (hi : i < x.dataQty) (ht : timing x.code = false) (hf : Integer x i) :
    ∃ v ℓ, operand? c n r k i = some v ∧ integral v.type = true ∧ place v = some ℓ ∧ Owns c ℓ := by
  obtain ⟨v, h1, h2, -, h4⟩ := accepted_operand hr ha hw hx hi
  have hk := hf v h1
  obtain ⟨ℓ, h5, h6⟩ := h4 ⟨(by intro e; rw [e] at hk; cases hk), (by intro e; rw [e] at hk; cases hk), by simp [ht]⟩
    (by intro e; rw [e] at hk; cases hk) (by simp [ht])
  exact ⟨v, ℓ, h2, hk, h5, h6⟩

theorem accepted_storable {i : Nat} (hi : i < x.dataQty) (ht : timing x.code = false) (hf : Integer x i) :
    Storable c false n r k i := by
  obtain ⟨v, ℓ, h1, hk, h2, h3⟩ := accepted_integer hr ha hw hx hi ht hf
  refine ⟨v, ℓ, h1, ?_, fun _ => ?_, h2, h3⟩ <;> cases h : v.type <;> simp_all [integral, writableKind, isBoolKind]

theorem accepted_constant {i : Nat} {p : W32 → Prop} (hi : i < x.dataQty) (hf : Literal x i p) : Constant c n r k i p := by
  obtain ⟨v, h1, h2, -⟩ := accepted_operand hr ha hw hx hi
  exact ⟨v, h2, hf v h1⟩

/-- Operands of arithmetic and logic are no flags. -/
theorem accepted_sink {i : Nat} (hi : i < x.dataQty) (hc : x.code ∈ [Ins.AND, .OR, .XOR, .NOT, .DIV, .MOD]) : Sink c n r k i := by
  obtain ⟨v, -, h2, h3, -⟩ := accepted_operand hr ha hw hx hi
  have h3 : v.type ∈ [Reg.D, .R, .NONE, .C, .IW, .QW] := by
    simp only [List.mem_cons, List.not_mem_nil, or_false] at hc
    rcases hc with e | e | e | e | e | e <;> (rw [e] at h3; exact h3)
  simp only [List.mem_cons, List.not_mem_nil, or_false] at h3
  exact ⟨v, h2, by rcases h3 with e | e | e | e | e | e <;> rw [e] <;> rfl⟩

end cell

/-- The previous value of an existing digital register or port is kept. -/
theorem designates_kept {c : Ctx} (hr : Ready c) {v : Value} (hv : v.type ∈ [Reg.I, .Q, .M, .Cd, .Cr, .Td, .Tr])
    (hd : Designates c v) : ∃ ℓ, prevPlace v = some ℓ ∧ Owns c ℓ := by
  have hF := hr.full.fits
  have hK := hr.kept
  have hio : v.type = .I ∨ v.type = .Q ∨ indexed v.type = true := by
    simp only [List.mem_cons, List.not_mem_nil, or_false] at hv
    rcases hv with h | h | h | h | h | h | h <;> simp [h, indexed]
  rcases hio with h | h | h
  · obtain ⟨o, ho, hp⟩ := (designates_in hr.full (.inl h)).1 hd
    obtain ⟨l, hl, hm⟩ := mem_of_at? ho
    have hfit := (hF.input l hl).2 o hm
    rw [h] at hp
    have hp : v.port < o.iQty := hp
    refine ⟨.Ih v.module v.port, by simp only [prevPlace, h, module_eq, port_eq], ?_⟩
    unfold Owns
    simp only [load, ho, Option.bind_some, Option.isSome_map]
    exact (at?_some_iff hfit.Ih (hK.ins _ o ho)).2 hp
  · obtain ⟨o, ho, hp⟩ := (designates_out hr.full (.inl h)).1 hd
    obtain ⟨l, hl, hm⟩ := mem_of_at? ho
    have hfit := (hF.output l hl).2 o hm
    rw [h] at hp
    have hp : v.port < o.qQty := hp
    refine ⟨.Qh v.module v.port, by simp only [prevPlace, h, module_eq, port_eq], ?_⟩
    unfold Owns
    simp only [load, ho, Option.bind_some, Option.isSome_map]
    exact (at?_some_iff hfit.Qh (hK.outs _ o ho)).2 hp
  · obtain ⟨h31, hq⟩ := (designates_index hr.full h).1 hd
    simp only [List.mem_cons, List.not_mem_nil, or_false] at hv
    rcases hv with e | e | e | e | e | e | e
    · rw [e] at h; cases h
    · rw [e] at h; cases h
    all_goals
      refine ⟨_, by simp only [prevPlace, e]; exact if_pos h31, ?_⟩
      rw [e] at hq
      unfold Owns
      simp only [load, Option.isSome_map]
    · exact (at?_some_iff hF.Mh hK.Mh).2 hq
    · exact (at?_some_iff hF.Cdh hK.Cdh).2 hq
    · exact (at?_some_iff hF.Crh hK.Crh).2 hq
    · exact (at?_some_iff hF.Tdh hK.Tdh).2 hq
    · exact (at?_some_iff hF.Trh hK.Trh).2 hq

/-- A cell of a stored grid. -/
theorem solid_cell {c : Ctx} (hf : Fits c) (hs : Solid c) {n r k : Nat} (hw : Within c n r k) : ∃ x, cell? c n r k = some x := by
  obtain ⟨hn, net, h1, h2, h3⟩ := hw
  obtain ⟨net', h4, h5, -⟩ := hs.2 n hn
  rw [h1] at h4
  obtain rfl := Option.some.inj h4
  obtain ⟨l, hl, hm⟩ := mem_of_at? h1
  have hg := hf.network l hl net hm
  obtain ⟨row, hrow⟩ := at?_of_lt hg.rows h5 h2
  obtain ⟨rows, hrows, hmem⟩ := mem_of_at? hrow
  have hlen := hg.cols rows hrows row hmem
  refine ⟨row[k]'(by omega), ?_⟩
  simp only [cell?, h1, Option.bind_some, hrow]
  exact List.getElem?_eq_getElem _

/-- The cells below the first one of an instruction are there. -/
theorem accepted_below {c : Ctx} (hr : Ready c) (ha : Accepts c) {n r k : Nat} {x : Cell} (hw : Within c n r k)
    (hx : cell? c n r k = some x) (hm : x.code ≠ .MULTI) {j : Nat} (hj : j < span c x.code (callee x)) :
    Within c n (r + j) k := by
  obtain ⟨⟨net, h1, h2⟩, -⟩ := (C64_laid_out_partial hr.tall ha).whole n r k x hw hx hm
  obtain ⟨hn, net', h3, h4, h5⟩ := hw
  rw [h1] at h3
  obtain rfl := Option.some.inj h3
  exact ⟨hn, net, h1, by omega, h5⟩

theorem owns_cell {c : Ctx} (hf : Fits c) (hs : Solid c) {n r k : Nat} (hw : Within c n r k) : Owns c (.cell n r k) := by
  obtain ⟨x, hx⟩ := solid_cell hf hs hw
  unfold Owns
  simp only [load, hx, Option.map_some, Option.isSome_some]

/-- **Acceptance and the limits of `Tame` make a cell well-formed.** -/
theorem accepted_cell {c : Ctx} (hr : Ready c) (hs : Solid c) (ha : Accepts c) (hq : Complete c) {n r k : Nat} {x : Cell}
    (hw : Within c n r k) (hx : cell? c n r k = some x) (ht : Tame c x) : WellCell c n r k x.code := by
  have hop := fun {i : Nat} (hi : i < x.dataQty) => accepted_operand hr ha hw hx hi
  have hqty := hq n r k x hw hx
  have hread := fun {i : Nat} (hi : i < x.dataQty) => accepted_readable hr ha hw hx hi
  have hstore := fun {i : Nat} (hi : i < x.dataQty) => accepted_storable hr ha hw hx hi
  have hconst := fun {i : Nat} {p : W32 → Prop} (hi : i < x.dataQty) => accepted_constant (p := p) hr ha hw hx hi
  have hsink := fun {i : Nat} (hi : i < x.dataQty) => accepted_sink hr ha hw hx hi
  have hF := hr.full.fits
  have digital : x.code ∈ [Ins.NO, .NC, .RE, .FE] → ∃ v, at? x.data 0 = some v ∧ operand? c n r k 0 = some v ∧
      (v.type = .NONE ∨ v.type ∈ [Reg.I, .Q, .M, .Cd, .Cr, .Td, .Tr] ∧ Designates c v) := by
    intro hm
    have h1 : 0 < x.dataQty := by
      simp only [List.mem_cons, List.not_mem_nil, or_false] at hm
      rcases hm with e | e | e | e <;> simp [e, arity] at hqty <;> omega
    obtain ⟨v, h2, h3, h4, h5⟩ := hop h1
    refine ⟨v, h2, h3, ?_⟩
    have h4 : v.type ∈ [Reg.NONE, .I, .Q, .M, .Cd, .Cr, .Td, .Tr] := by
      simp only [List.mem_cons, List.not_mem_nil, or_false] at hm
      rcases hm with e | e | e | e <;> (rw [e] at h4; exact h4.2)
    rcases List.mem_cons.1 h4 with h4 | h4
    · exact .inl h4
    · refine .inr ⟨h4, h5 ?_ ?_ ?_⟩
      · refine ⟨?_, ?_, ?_⟩
        · intro e; rw [e] at h4; simp at h4
        · intro e; rw [e] at h4; simp at h4
        · simp
      · intro e; rw [e] at h4; simp at h4
      · intro _; decide
  have coil : x.code ∈ [Ins.COIL, .COILL, .COILU] → Storable c true n r k 0 ∧ Recalled c n r k 0 := by
    intro hm
    have h1 : 0 < x.dataQty := by
      simp only [List.mem_cons, List.not_mem_nil, or_false] at hm
      rcases hm with e | e | e <;> simp [e, arity] at hqty <;> omega
    obtain ⟨v, h2, h3, h4, h5⟩ := hop h1
    have h4 : v.type ∈ [Reg.Q, .M] := by
      simp only [List.mem_cons, List.not_mem_nil, or_false] at hm
      rcases hm with e | e | e <;> (rw [e] at h4; exact h4.2)
    have hd : Designates c v := by
      refine h5 ⟨?_, ?_, by simp⟩ ?_ fun _ => by decide
      all_goals (intro e; rw [e] at h4; simp at h4)
    obtain ⟨ℓ, h6, h7⟩ := hd
    refine ⟨⟨v, ℓ, h3, ?_, by simp, h6, h7⟩, ?_⟩
    · simp only [List.mem_cons, List.not_mem_nil, or_false] at h4
      rcases h4 with e | e <;> rw [e] <;> rfl
    · obtain ⟨ℓ', h8, h9⟩ := designates_kept hr (v := v) (by
        simp only [List.mem_cons, List.not_mem_nil, or_false] at h4 ⊢
        rcases h4 with e | e <;> simp [e]) ⟨ℓ, h6, h7⟩
      exact ⟨v, h3, .inr ⟨ℓ', h8, h9⟩⟩
  have timer : timing x.code = true → x.code ≠ .MULTI → 2 ≤ arity c x.code 0 → x.code ≠ .FOREIGN → span c x.code (callee x) = 2 →
      TimerWell c n r k := by
    intro htm hmu hn hfo hsp
    have hq2 := hqty hmu hfo
    obtain ⟨v, h2, h3, h4, h5⟩ := hop (i := 0) (by omega)
    obtain ⟨p, h6, h7, h8, h9⟩ := hop (i := 1) (by omega)
    have hv : v.type = .T := by cases hc : x.code <;> simp [hc, timing] at htm <;> (rw [hc] at h4; exact h4.1 rfl)
    have hp : p.type ∈ [Reg.NONE, .M, .Q, .I, .Cd] := by
      cases hc : x.code <;> simp [hc, timing] at htm <;> (rw [hc] at h8; exact h8.2.1 rfl)
    have hd : Designates c v := h5 ⟨by simp [hv], by simp [hv], by simp⟩ (by simp [hv]) (fun _ => by decide)
    obtain ⟨h31, hlt⟩ := (designates_index hr.full (by rw [hv]; rfl)).1 hd
    rw [hv] at hlt
    refine ⟨⟨v, h3, hv, h31, ?_, ?_, ?_⟩, ⟨p, h7, ?_⟩, ?_, hr.clock⟩
    · unfold Owns; simp only [load, Option.isSome_map]; exact (at?_some_iff hF.timers hr.full.timers).2 hlt
    · unfold Owns; simp only [load, Option.isSome_map]; exact (at?_some_iff hF.Tr hr.full.Tr).2 hlt
    · unfold Owns; simp only [load, Option.isSome_map]; exact (at?_some_iff hF.Td hr.full.Td).2 hlt
    · simp only [List.mem_cons, List.not_mem_nil, or_false] at hp
      rcases hp with e | e | e | e | e <;> rw [e] <;> decide
    · exact owns_cell hF hs (accepted_below hr ha hw hx hmu (j := 1) (by omega))
  have counter : x.code = .CTU ∨ x.code = .CTD → CounterWell c n r k := by
    intro hcode
    have hq2 : 2 ≤ x.dataQty := by rcases hcode with e | e <;> simp [e, arity] at hqty <;> exact hqty
    have hsp : span c x.code (callee x) = 2 := by rcases hcode with e | e <;> rw [e] <;> rfl
    have hmu : x.code ≠ .MULTI := by rcases hcode with e | e <;> simp [e]
    obtain ⟨v, h2, h3, h4, h5⟩ := hop (i := 0) (by omega)
    obtain ⟨p, h6, h7, -, -⟩ := hop (i := 1) (by omega)
    have hv : v.type = .C := by
      rcases hcode with e | e <;> (rw [e] at h4; rcases h4 with h | h; exact h.2; exact absurd h.1 (by decide))
    have hd : Designates c v := h5 ⟨by simp [hv], by simp [hv], by simp⟩ (by simp [hv]) (fun _ => by decide)
    obtain ⟨h31, hlt⟩ := (designates_index hr.full (by rw [hv]; rfl)).1 hd
    rw [hv] at hlt
    have hb := accepted_below hr ha hw hx hmu (j := 1) (by omega)
    refine ⟨⟨v, h3, h31, ?_, ?_, ?_⟩, ⟨p, h7⟩, owns_cell hF hs hb, ?_⟩
    · unfold Owns; simp only [load, Option.isSome_map]; exact (at?_some_iff hF.C hr.full.C).2 hlt
    · unfold Owns; simp only [load, Option.isSome_map]; exact (at?_some_iff hF.Cr hr.full.Cr).2 hlt
    · unfold Owns; simp only [load, Option.isSome_map]; exact (at?_some_iff hF.Cd hr.full.Cd).2 hlt
    · refine .inr (owns_cell hF hs ?_)
      obtain ⟨h1, net, h2, h3, h4⟩ := hb
      exact ⟨h1, net, h2, h3, by omega⟩
  unfold Tame at ht
  cases hc : x.code <;> simp only [hc] at ht <;> unfold WellCell
  case NO | NC =>
    obtain ⟨v, -, h2, h3⟩ := digital (by simp [hc])
    refine ⟨v, h2, ?_, ?_⟩
    · rcases h3 with h | ⟨h, -⟩
      · simp [h]
      · intro e; rw [e] at h; simp at h
    · rcases h3 with h | ⟨-, h⟩
      · exact .inl h
      · exact .inr (.inr (.inr h))
  case RE | FE =>
    obtain ⟨v, h1, h2, h3⟩ := digital (by simp [hc])
    refine ⟨⟨v, h2, ?_, ?_⟩, v, h2, ?_⟩
    · rcases h3 with h | ⟨h, -⟩
      · simp [h]
      · intro e; rw [e] at h; simp at h
    · rcases h3 with h | ⟨-, h⟩
      · exact .inl h
      · exact .inr (.inr (.inr h))
    · rcases h3 with h | ⟨h4, h5⟩
      · exact .inl h
      · exact .inr (designates_kept hr h4 h5)
  case COIL => exact (coil (by simp [hc])).1
  case COILL | COILU => exact coil (by simp [hc])
  case TON | TOF | TP => exact timer (by rw [hc]; rfl) (by simp [hc]) (by simp [hc, arity]) (by simp [hc]) (by rw [hc]; rfl)
  case CTU | CTD => exact counter (by simp [hc])
  case FOREIGN => exact hconst (by omega) ht.2
  case MOVE =>
    have hq2 := hqty (by simp [hc]) (by simp [hc])
    simp only [hc, arity] at hq2
    obtain ⟨s, ℓ, h1, h2, h3, h4⟩ := accepted_integer hr ha hw hx (i := 0) (by omega) (by rw [hc]; rfl) ht.1
    obtain ⟨d, ℓ', h5, h6, h7, h8⟩ := accepted_integer hr ha hw hx (i := 1) (by omega) (by rw [hc]; rfl) ht.2
    exact ⟨s, d, ℓ, ℓ', h1, h5, h3, h4, h7, h8, .inl ⟨.inl h2, h6⟩⟩
  case NOP | CONN | NEG | MULTI => trivial
  all_goals
    have hq2 := hqty (by simp [hc]) (by simp [hc])
    simp only [hc, arity] at hq2
    have htm : timing x.code = false := by rw [hc]; rfl
    first
    | exact ⟨hread (by omega) htm ht.1, hread (by omega) htm ht.2⟩
    | exact ⟨hread (by omega) htm ht.1, hread (by omega) htm ht.2, hsink (by omega) (by simp [hc])⟩
    | exact ⟨hread (by omega) htm ht.1, hconst (by omega) ht.2, hsink (by omega) (by simp [hc])⟩
    | exact ⟨hread (by omega) htm ht, hsink (by omega) (by simp [hc])⟩
    | exact ⟨hread (by omega) htm (fun v hv e => by have := ht.1 v hv; rw [e] at this; cases this), hread (by omega) htm ht.2,
        hstore (by omega) htm ht.1⟩
    | exact ⟨hread (by omega) htm (fun v hv e => by have := ht.1 v hv; rw [e] at this; cases this), hconst (by omega) ht.2,
        hstore (by omega) htm ht.1⟩

/-- An accepted program within the limits is well-formed. -/
theorem accepted_well {c : Ctx} (hr : Ready c) (hs : Solid c) (hwd : Wide c) (ha : Accepts c) (hq : Complete c) (ht : TameProgram c) :
    Well c where
  count := hr.count
  nets := by
    intro n hn
    obtain ⟨net, h1, h2, h3, h4⟩ := hs.2 n hn
    refine ⟨net, h1, h2, fun he => ⟨h2, h3, h4, hwd n net h1 he, ?_⟩⟩
    intro r k hr' hk
    have hw : Within c n r k := ⟨hn, net, h1, hr', hk⟩
    obtain ⟨x, hx⟩ := solid_cell hr.full.fits hs hw
    exact ⟨x, hx, accepted_cell hr hs ha hq hw hx (ht n r k x hw hx)⟩
  some := hs.1
  cron := hr.cron

end Ladder
