import Verif.Lemmas.Check
import Verif.Spec.Demo

/-
C51, C52, C64, C65: the program checker.
-/

set_option autoImplicit false

namespace Ladder

open Spec

/-- The checker accepts: it returns a status without error. -/
def Accepts (c : Ctx) : Prop := ∃ s, programCheck c = .ok (some s) ∧ s.error = .ok

/-- Foreign functions cover between 1 and 255 cells (the field is a `uint8_t`). -/
def Tall (c : Ctx) : Prop := ∀ i g, at? c.foreign i = some g → 1 ≤ g.desc.cells ∧ g.desc.cells ≤ 255

theorem checkCell_pass {ctx : Ctx} {rows r e e' : Nat} {x : Cell} : checkCell ctx rows r x e = .ok (.inr e') ↔
    (0 < e ∧ Marker x ∧ e' = e - 1) ∨ (e = 0 ∧ x.code ≠ .MULTI ∧
      (∀ i, i < x.dataQty → ∃ v, at? x.data i = some v ∧ checkOperand ctx x.code x.dataQty i v = .ok none) ∧
      checkSpan ctx rows r x = .ok (.inr e')) := by
  unfold checkCell
  by_cases he : e > 0
  · rw [if_pos he]
    have : e ≠ 0 := by omega
    simp only [this, false_and, or_false, show 0 < e from he, true_and]
    unfold Marker
    by_cases h1 : x.code = .MULTI
    · rw [if_neg (by simp [h1])]
      by_cases h2 : x.dataQty ≠ 0 ∨ x.data.isSome = true
      · rw [if_pos h2]
        simp only [reduceCtorEq, Except.ok.injEq, false_iff]
        rintro ⟨⟨-, h3, h4⟩, -⟩
        simp [h3, h4] at h2
      · rw [if_neg h2]
        rw [not_or] at h2
        have h3 : x.dataQty = 0 := by omega
        have h4 : x.data = none := by simpa using h2.2
        simp only [Except.ok.injEq, Sum.inr.injEq, h1, h3, h4, true_and]
        exact eq_comm
    · rw [if_pos h1]
      simp [h1]
  · rw [if_neg he]
    have : e = 0 := by omega
    simp only [this, Nat.lt_irrefl, false_and, false_or, true_and]
    by_cases h1 : x.code = .MULTI
    · simp [h1]
    · rw [if_neg h1]
      have hp := checkOperands_pass (ctx := ctx) (x := x) x.dataQty 0
      simp only [Nat.zero_le, Nat.zero_add, forall_const] at hp
      rw [← hp]
      simp only [h1, not_false_eq_true, ne_eq, true_and]
      rcases checkOperands ctx x 0 x.dataQty with _ | _ | _ <;> simp

theorem checkSpan_pass {ctx : Ctx} {rows r e : Nat} {x : Cell} (ht : Tall ctx) (hr : r < rows) (_hm : x.code ≠ .MULTI) :
    checkSpan ctx rows r x = .ok (.inr e) →
    e + 1 = span ctx x.code (callee x) ∧ r + span ctx x.code (callee x) ≤ rows := by
  unfold checkSpan
  cases hc : x.code <;> simp only [iocd, span] <;> intro h
  all_goals first
    | (simp only [Except.ok.injEq, Sum.inr.injEq] at h; omega)
    | (split at h <;> simp only [Except.ok.injEq, Sum.inr.injEq, reduceCtorEq] at h; omega)
    | (exact absurd hc _hm)
    | skip
  split at h
  · simp at h
  · split at h
    · simp at h
    · rename_i v hv
      rw [aget_eq_ok] at hv
      split at h
      · simp at h
      · split at h
        · simp at h
        · rename_i g hg
          rw [aget_eq_ok] at hg
          have hcal : callee x = v.raw.toNat := by simp [callee, hv]
          have := ht _ _ hg
          rw [hcal, hg]
          simp only [Option.map_some, Option.getD_some]
          split at h
          · simp at h
          · simp only [Except.ok.injEq, Sum.inr.injEq] at h
            omega

theorem accepts_columns {c : Ctx} (h : Accepts c) : ∀ n, n < c.qty.networks →
    ∃ net, at? c.network n = some net ∧ ∀ k, k < net.cols → ColumnPasses c net k := by
  obtain ⟨s, h, hs⟩ := h
  unfold programCheck at h
  split at h
  · simp at h
  · rename_i s' hst
    simp only [Except.ok.injEq, Option.some.injEq] at h
    subst h
    exact absurd hs (checkNets_stop _ _ _ _ hst).1
  · rename_i l hl
    intro n hn
    exact (checkNets_go _ 0 none).1 ⟨l, hl⟩ n (by omega) (by omega)

/-- Of a passing column: the cell at each row, and what was expected there. -/
theorem column_cells {c : Ctx} {net : Network} {n k : Nat} (hn : at? c.network n = some net) (hp : ColumnPasses c net k) :
    ∃ es : Nat → Nat, es 0 = 0 ∧ ∀ i, i < net.rows → ∃ x, cell? c n i k = some x ∧
      checkCell c net.rows i x (es i) = .ok (.inr (es (i + 1))) := by
  obtain ⟨es, h0, h⟩ := hp
  refine ⟨es, h0, fun i hi => ?_⟩
  obtain ⟨x, hx, hc⟩ := h i hi
  exact ⟨x, (cell_eq_ok hn).1 hx, hc⟩

/-- Each operand of a cell within the dimensions of an accepted program passed its checks. -/
theorem accepts_operand {c : Ctx} (h : Accepts c) {n r k : Nat} (hw : Within c n r k) {x : Cell} (hx : cell? c n r k = some x)
    {i : Nat} (hi : i < x.dataQty) : ∃ v, at? x.data i = some v ∧ checkOperand c x.code x.dataQty i v = .ok none := by
  obtain ⟨hq, net, hn, hr, hk⟩ := hw
  obtain ⟨net', hn', hp⟩ := accepts_columns h n hq
  rw [hn] at hn'
  obtain rfl := Option.some.inj hn'
  obtain ⟨es, -, hes⟩ := column_cells hn (hp k hk)
  obtain ⟨y, hy, hc⟩ := hes r hr
  rw [hx] at hy
  obtain rfl := Option.some.inj hy
  rcases checkCell_pass.1 hc with ⟨-, hm, -⟩ | ⟨-, -, ho, -⟩
  · exact absurd hi (by rw [hm.2.1]; omega)
  · exact ho i hi

/-! ### C64: layout -/

/-- C64.  In an accepted program every instruction fits in its column and the rest of its cells are continuation markers
without operands, and every continuation marker belongs to an instruction above it.
Missing for the full claim: foreign functions that cover no cell (`Tall`); see `C64_refuted`. -/
theorem C64_laid_out_partial {c : Ctx} (ht : Tall c) (h : Accepts c) : LaidOut c := by
  have key : ∀ n r k, Within c n r k → ∃ net, at? c.network n = some net ∧ ∃ es : Nat → Nat, es 0 = 0 ∧
      (∀ i, i < net.rows → ∃ x, cell? c n i k = some x ∧ checkCell c net.rows i x (es i) = .ok (.inr (es (i + 1)))) ∧
      r < net.rows := by
    rintro n r k ⟨hq, net, hn, hr, hk⟩
    obtain ⟨net', hn', hp⟩ := accepts_columns h n hq
    rw [hn] at hn'
    obtain rfl := Option.some.inj hn'
    obtain ⟨es, h0, hes⟩ := column_cells hn (hp k hk)
    exact ⟨net, hn, es, h0, hes, hr⟩
  constructor
  · intro n r k x hw hx hm
    obtain ⟨net, hn, es, -, hes, hr⟩ := key n r k hw
    obtain ⟨y, hy, hc⟩ := hes r hr
    rw [hx] at hy
    obtain rfl := Option.some.inj hy
    rcases checkCell_pass.1 hc with ⟨-, hm', -⟩ | ⟨-, -, -, hsp⟩
    · exact absurd hm'.1 hm
    · obtain ⟨he, hle⟩ := checkSpan_pass ht hr hm hsp
      refine ⟨⟨net, hn, hle⟩, fun j h1 h2 => ?_⟩
      have hrun : ∀ d, r + 1 + d < r + span c x.code (callee x) → es (r + 1 + d) + d = es (r + 1) := by
        intro d
        induction d with
        | zero => intro _; rfl
        | succ d ih =>
          intro hd
          have ih := ih (by omega)
          obtain ⟨y, hy, hcy⟩ := hes (r + 1 + d) (by omega)
          rcases checkCell_pass.1 hcy with ⟨-, -, h3⟩ | ⟨h3, -⟩
          · rw [show r + 1 + (d + 1) = r + 1 + d + 1 by omega, h3]; omega
          · omega
      have := hrun (j - (r + 1)) (by omega)
      rw [show r + 1 + (j - (r + 1)) = j by omega] at this
      obtain ⟨y, hy, hcy⟩ := hes j (by omega)
      refine ⟨y, hy, ?_⟩
      rcases checkCell_pass.1 hcy with ⟨-, hmk, -⟩ | ⟨h3, -⟩
      · exact hmk
      · omega
  · intro n r k x hw hx hm
    obtain ⟨net, hn, es, h0, hes, hr⟩ := key n r k hw
    have hown : ∀ j, j ≤ net.rows → 0 < es j → ∃ r0 y, r0 < j ∧ cell? c n r0 k = some y ∧ y.code ≠ .MULTI ∧
        r0 + span c y.code (callee y) = j + es j := by
      intro j
      induction j with
      | zero => intro _ h; omega
      | succ j ih =>
        intro hj hpos
        obtain ⟨y, hy, hcy⟩ := hes j (by omega)
        rcases checkCell_pass.1 hcy with ⟨h1, -, h3⟩ | ⟨h1, h2, -, h4⟩
        · obtain ⟨r0, z, h5, h6, h7, h8⟩ := ih (by omega) h1
          exact ⟨r0, z, by omega, h6, h7, by omega⟩
        · have := checkSpan_pass ht (by omega) h2 h4
          exact ⟨j, y, by omega, hy, h2, by omega⟩
    obtain ⟨y, hy, hcy⟩ := hes r hr
    rw [hx] at hy
    obtain rfl := Option.some.inj hy
    rcases checkCell_pass.1 hcy with ⟨h1, h2, -⟩ | ⟨-, h2, -⟩
    · obtain ⟨r0, z, h5, h6, h7, h8⟩ := hown r (by omega) h1
      exact ⟨h2, r0, z, h5, h6, h7, by omega⟩
    · exact absurd hm h2

/-! ### C51: operands -/

theorem timing_eq (f : Ins) : isTimer f = timing f := by cases f <;> rfl

theorem raw_lt {v : Value} (h : ¬ v.i32 < 0) : v.raw.toNat < 2^31 := by
  unfold Value.i32 at h
  rw [BitVec.toInt_eq_toNat_cond] at h
  split at h <;> omega

theorem not_neg_of_lt {v : Value} (h : v.raw.toNat < 2^31) : ¬ v.i32 < 0 := by
  unfold Value.i32
  rw [toInt_of_lt h]
  omega

theorem designates_place {c : Ctx} {v : Value} {ℓ : Loc} (h : place v = some ℓ) : Designates c v ↔ (load c ℓ).isSome = true := by
  unfold Designates
  constructor
  · rintro ⟨ℓ', h1, h2⟩
    rw [h] at h1
    obtain rfl := Option.some.inj h1
    exact h2
  · exact fun h1 => ⟨ℓ, h, h1⟩

theorem at?_some_iff {α : Type} {a : Arr α} {n i : Nat} (hf : ∀ l, a = some l → l.length = n) (ha : 0 < n → a.isSome) :
    (at? a i).isSome ↔ i < n := by
  constructor
  · intro h
    obtain ⟨x, hx⟩ := Option.isSome_iff_exists.1 h
    exact lt_of_at? hf hx
  · intro h
    obtain ⟨x, hx⟩ := at?_of_lt hf (ha (by omega)) h
    simp [hx]

/-- Number of registers of a kind. -/
def quantity (c : Ctx) : Reg → Nat
  | .M => c.qty.m
  | .Cd | .Cr | .C => c.qty.c
  | .Td | .Tr | .T => c.qty.t
  | .D => c.qty.d
  | .R => c.qty.r
  | _ => 0

/-- Kinds whose operands are register indices. -/
def indexed : Reg → Bool
  | .M | .Cd | .Cr | .C | .Td | .Tr | .T | .D | .R => true
  | _ => false

theorem designates_index {c : Ctx} (hf : Full c) {v : Value} (hk : indexed v.type = true) :
    Designates c v ↔ v.raw.toNat < 2^31 ∧ v.raw.toNat < quantity c v.type := by
  have hF := hf.fits
  by_cases h31 : v.raw.toNat < 2^31
  · rw [and_iff_right h31]
    cases hv : v.type <;> simp only [hv, indexed, reduceCtorEq, Bool.false_eq_true] at hk
    all_goals
      rw [designates_place (by simp only [place, hv]; exact if_pos h31)]
      simp only [load, Option.isSome_map, quantity]
    · exact at?_some_iff hF.M hf.M
    · exact at?_some_iff hF.Cd hf.Cd
    · exact at?_some_iff hF.Cr hf.Cr
    · exact at?_some_iff hF.Td hf.Td
    · exact at?_some_iff hF.Tr hf.Tr
    · exact at?_some_iff hF.C hf.C
    · exact at?_some_iff hF.timers hf.timers
    · exact at?_some_iff hF.D hf.D
    · exact at?_some_iff hF.R hf.R
  · constructor
    · rintro ⟨ℓ, hp, -⟩
      cases hv : v.type <;> simp only [hv, indexed, reduceCtorEq, Bool.false_eq_true] at hk <;>
        (simp only [place, hv] at hp; rw [if_neg h31] at hp; cases hp)
    · exact fun h => absurd h.1 h31

theorem checkIndex_pass {c : Ctx} {v : Value} (hk : indexed v.type = true) (hr : v.type ≠ .R) :
    checkIndex c v = none ↔ v.raw.toNat < 2^31 ∧ v.raw.toNat < quantity c v.type := by
  have key : ∀ q, (if v.i32 < 0 ∨ v.raw.toNat ≥ q then some ChkErr.fail else none) = none ↔
      v.raw.toNat < 2^31 ∧ v.raw.toNat < q := by
    intro q
    split
    · rename_i h
      simp only [reduceCtorEq, false_iff]
      rintro ⟨h1, h2⟩
      rcases h with h | h
      · exact not_neg_of_lt h1 h
      · omega
    · rename_i h
      rw [not_or] at h
      simp only [true_iff]
      exact ⟨raw_lt h.1, by omega⟩
  unfold checkIndex
  cases hv : v.type <;> simp only [hv, indexed, reduceCtorEq, Bool.false_eq_true] at hk <;> simp only [quantity]
  all_goals first
    | exact key _
    | exact absurd hv hr

theorem designates_in {c : Ctx} (hf : Full c) {v : Value} (hk : v.type = .I ∨ v.type = .IW) :
    Designates c v ↔ ∃ o, at? c.input v.module = some o ∧ v.port < inPorts v.type o := by
  have hin : ∀ o, at? c.input v.module = some o → InFits o := by
    intro o ho
    obtain ⟨l, hl, hmem⟩ := mem_of_at? ho
    exact (hf.fits.input l hl).2 o hmem
  rcases hk with hk | hk
  all_goals
    rw [designates_place (by simp only [place, hk]; rfl)]
    simp only [load, ← module_eq, ← port_eq, inPorts, hk, if_true, reduceCtorEq, if_false]
    cases ho : at? c.input v.module with
    | none => simp
    | some o =>
      simp only [Option.bind_some, Option.isSome_map, Option.some.injEq, exists_eq_left']
      first
        | exact at?_some_iff (hin o ho).I (hf.ins _ o ho).1
        | exact at?_some_iff (hin o ho).IW (hf.ins _ o ho).2

theorem designates_out {c : Ctx} (hf : Full c) {v : Value} (hk : v.type = .Q ∨ v.type = .QW) :
    Designates c v ↔ ∃ o, at? c.output v.module = some o ∧ v.port < outPorts v.type o := by
  have hin : ∀ o, at? c.output v.module = some o → OutFits o := by
    intro o ho
    obtain ⟨l, hl, hmem⟩ := mem_of_at? ho
    exact (hf.fits.output l hl).2 o hmem
  rcases hk with hk | hk
  all_goals
    rw [designates_place (by simp only [place, hk]; rfl)]
    simp only [load, ← module_eq, ← port_eq, outPorts, hk, if_true, reduceCtorEq, if_false]
    cases ho : at? c.output v.module with
    | none => simp
    | some o =>
      simp only [Option.bind_some, Option.isSome_map, Option.some.injEq, exists_eq_left']
      first
        | exact at?_some_iff (hin o ho).Q (hf.outs _ o ho).1
        | exact at?_some_iff (hin o ho).QW (hf.outs _ o ho).2

theorem checkPort_pass {α : Type} {a : Arr α} {g : α → Nat} {q : Nat} {v : Value} {e1 e2 e3 : ChkErr}
    (hq : ∀ x, at? a v.module = some x → v.module < q) :
    checkPort q (fun m => (aget a m).map g) v e1 e2 e3 = .ok none ↔ ∃ o, at? a v.module = some o ∧ v.port < g o := by
  unfold checkPort
  cases ho : at? a v.module with
  | none =>
    simp only [reduceCtorEq, false_and, exists_false, iff_false]
    split
    · simp
    · split
      · simp
      · split
        · simp
        · rename_i n hn
          exfalso
          cases ha : aget a v.module with
          | error e => rw [ha] at hn; cases hn
          | ok y => rw [aget_eq_ok.1 ha] at ho; cases ho
  | some o =>
    have := hq o ho
    rw [if_neg (by omega), if_neg (by omega)]
    simp only [aget_eq_ok.2 ho, Except.map, Option.some.injEq, exists_eq_left']
    split <;> simp <;> omega

theorem checkIO_in {c : Ctx} (hf : Full c) {v : Value} (hk : v.type = .I ∨ v.type = .IW) :
    checkIO c v = .ok none ↔ Designates c v := by
  rw [designates_in hf hk]
  have hq : ∀ o, at? c.input v.module = some o → v.module < c.fnReadQty := by
    intro o ho
    exact lt_of_at? (fun l hl => (hf.fits.input l hl).1) ho
  unfold checkIO
  rcases hk with hk | hk <;> simp only [hk] <;> exact checkPort_pass hq

theorem checkIO_out {c : Ctx} (hf : Full c) {v : Value} (hk : v.type = .Q ∨ v.type = .QW) :
    checkIO c v = .ok none ↔ Designates c v := by
  rw [designates_out hf hk]
  have hq : ∀ o, at? c.output v.module = some o → v.module < c.fnWriteQty := by
    intro o ho
    exact lt_of_at? (fun l hl => (hf.fits.output l hl).1) ho
  unfold checkIO
  rcases hk with hk | hk <;> simp only [hk] <;> exact checkPort_pass hq

theorem passes_designates {c : Ctx} (hf : Full c) {f : Ins} {q i : Nat} {v : Value} (hp : checkOperand c f q i v = .ok none)
    (hn : names f i v.type) (hR : v.type ≠ .R) (hT : ¬ (timing f = true ∧ 2 ≤ i ∧ hardware v.type = true)) :
    Designates c v := by
  obtain ⟨ht, hio, hidx, -⟩ := checkOperand_pass.1 hp
  by_cases hk : indexed v.type = true
  · exact (designates_index hf hk).2 ((checkIndex_pass hk hR).1 hidx)
  · have hh : v.type = .INV ∨ hardware v.type = true := by
      cases hv : v.type <;> simp_all [indexed, hardware, names]
    rcases hh with hh | hh
    · simp [checkIndex, hh] at hidx
    · cases htf : timing f
      · have := hio (by rw [timing_eq, htf])
        cases hv : v.type <;> simp_all only [hardware, reduceCtorEq, Bool.false_eq_true]
        · exact (checkIO_out hf (.inl hv)).1 this
        · exact (checkIO_in hf (.inl hv)).1 this
        · exact (checkIO_in hf (.inr hv)).1 this
        · exact (checkIO_out hf (.inr hv)).1 this
      · have h1 := ht (by rw [timing_eq, htf])
        have : i = 0 := by
          rcases Nat.lt_or_ge i 2 with h | h
          · have := hn.2.2
            rw [htf] at this
            simp only [true_and] at this
            omega
          · exact absurd ⟨htf, h, hh⟩ hT
        subst this
        unfold checkTimer at h1
        split at h1
        · simp at h1
        · simp only [if_true] at h1
          split at h1
          · simp at h1
          · rename_i hty
            have hty : v.type = .T := by simpa using hty
            rw [hty] at hh
            cases hh

/-- C51.  In an accepted program every operand that names a register or port designates an existing one.
Missing for the full claim: float registers, whose index the checker does not look at (`C51_refuted_float`), and ports among
the surplus operands of a timer (`C51_refuted_timer`). -/
theorem C51_operands_exist_partial {c : Ctx} (hf : Full c) (h : Accepts c) {n r k : Nat} (hw : Within c n r k) {x : Cell}
    (hx : cell? c n r k = some x) {i : Nat} {v : Value} (hv : operand? c n r k i = some v) (hn : names x.code i v.type)
    (hR : v.type ≠ .R) (hT : ¬ (timing x.code = true ∧ 2 ≤ i ∧ hardware v.type = true)) : Designates c v := by
  simp only [operand?, hx, Option.bind_some] at hv
  split at hv
  · rename_i hi
    obtain ⟨v', hv', hp⟩ := accepts_operand h hw hx hi
    rw [hv] at hv'
    obtain rfl := Option.some.inj hv'
    exact passes_designates hf hp hn hR hT
  · simp at hv

/-- C51.  In an accepted program every operand is of a kind its instruction takes, the operands of a cell are all stored, and
a timer does not have a single one. -/
theorem C51_operand_kinds {c : Ctx} (h : Accepts c) {n r k : Nat} (hw : Within c n r k) {x : Cell}
    (hx : cell? c n r k = some x) :
    (∀ i, i < x.dataQty → ∃ v, operand? c n r k i = some v ∧ Takes x.code i v.type) ∧
    (timing x.code = true → x.dataQty ≠ 1) := by
  constructor
  · intro i hi
    obtain ⟨v, hv, hp⟩ := accepts_operand h hw hx hi
    refine ⟨v, by simp [operand?, hx, hi, hv], ?_⟩
    obtain ⟨ht, -, hidx, hkind⟩ := checkOperand_pass.1 hp
    have hinv : v.type ≠ .INV := by
      intro hv
      simp [checkIndex, hv] at hidx
    by_cases htm : timing x.code = true
    · have h1 := ht (by rw [timing_eq, htm])
      have hA : (i = 0 → v.type = .T) ∧ (i = 1 → v.type ∈ [Reg.NONE, .M, .Q, .I, .Cd]) ∧ v.type ≠ .INV := by
        refine ⟨?_, ?_, hinv⟩
        · rintro rfl
          unfold checkTimer at h1
          split at h1
          · simp at h1
          · simp only [if_true] at h1
            split at h1
            · simp at h1
            · rename_i h2
              simpa using h2
        · rintro rfl
          unfold checkTimer at h1
          split at h1
          · simp at h1
          · simp only [Nat.one_ne_zero, if_false, if_true] at h1
            split at h1
            · simp at h1
            · rename_i h2
              cases hv : v.type <;> simp_all [Reg.code]
      cases hc : x.code <;> simp only [hc, timing, Bool.false_eq_true] at htm <;> exact hA
    · cases hc : x.code <;> simp only [hc, timing, not_true_eq_false] at htm <;>
        simp only [hc, kindOk, Option.some.injEq, reduceCtorEq, Bool.and_eq_true, Bool.or_eq_true, decide_eq_true_eq] at hkind <;>
        simp only [Takes, List.mem_cons, List.not_mem_nil, or_false]
      all_goals first
        | exact hinv
        | simpa only [or_assoc] using hkind
  · intro ht h1
    obtain ⟨v, -, hp⟩ := accepts_operand h hw hx (i := 0) (by omega)
    have := (checkOperand_pass.1 hp).1 (by rw [timing_eq, ht])
    simp [checkTimer, h1] at this

/-! ### C52: no access outside the program -/

/-- No port operand of an instruction other than a timer has a module number equal to the number of modules. -/
def Inboard (c : Ctx) : Prop := ∀ n r k x i v, cell? c n r k = some x → operand? c n r k i = some v → timing x.code = false →
  (v.type = .I ∨ v.type = .IW → 0 < c.fnReadQty → v.raw.toNat % 256 ≠ c.fnReadQty) ∧
  (v.type = .Q ∨ v.type = .QW → 0 < c.fnWriteQty → v.raw.toNat % 256 ≠ c.fnWriteQty)

theorem checkPort_total {α : Type} {a : Arr α} {g : α → Nat} {q : Nat} {v : Value} {e1 e2 e3 : ChkErr}
    (ha : ∀ m, m < q → (at? a m).isSome) (hm : 0 < q → v.module ≠ q) :
    ∃ o, checkPort q (fun m => (aget a m).map g) v e1 e2 e3 = .ok o := by
  unfold checkPort
  by_cases h0 : q = 0
  · exact ⟨_, if_pos h0⟩
  · rw [if_neg h0]
    by_cases h1 : v.module > q
    · exact ⟨_, if_pos h1⟩
    · rw [if_neg h1]
      have := hm (by omega)
      obtain ⟨x, hx⟩ := Option.isSome_iff_exists.1 (ha v.module (by omega))
      simp only [aget_eq_ok.2 hx, Except.map]
      split
      · exact ⟨_, rfl⟩
      · exact ⟨_, rfl⟩

theorem checkOperand_total {c : Ctx} (hs : Stored c) {f : Ins} {q d : Nat} {v : Value}
    (hv : timing f = false → (v.type = .I ∨ v.type = .IW → 0 < c.fnReadQty → v.raw.toNat % 256 ≠ c.fnReadQty) ∧
      (v.type = .Q ∨ v.type = .QW → 0 < c.fnWriteQty → v.raw.toNat % 256 ≠ c.fnWriteQty)) :
    ∃ o, checkOperand c f q d v = .ok o := by
  have hio : timing f = false → ∃ o, checkIO c v = .ok o := by
    intro ht
    obtain ⟨h1, h2⟩ := hv ht
    rw [← module_eq] at h1 h2
    unfold checkIO
    dsimp only
    split
    · rename_i hk; exact checkPort_total hs.input (h1 (.inl hk))
    · rename_i hk; exact checkPort_total hs.input (h1 (.inr hk))
    · rename_i hk; exact checkPort_total hs.output (h2 (.inl hk))
    · rename_i hk; exact checkPort_total hs.output (h2 (.inr hk))
    · exact ⟨_, rfl⟩
  unfold checkOperand
  split
  · exact ⟨_, rfl⟩
  · split
    · rename_i e he
      split at he
      · simp at he
      · rename_i ht
        obtain ⟨o, ho⟩ := hio (by rw [← timing_eq]; simpa using ht)
        rw [ho] at he
        simp at he
    · exact ⟨_, rfl⟩
    · split
      · exact ⟨_, rfl⟩
      · split
        · exact ⟨_, rfl⟩
        · exact ⟨_, rfl⟩

theorem checkOperands_total {c : Ctx} {x : Cell} : ∀ (n d : Nat), (∀ i, d ≤ i → i < d + n → ∃ v, at? x.data i = some v ∧
    ∃ o, checkOperand c x.code x.dataQty i v = .ok o) → ∃ o, checkOperands c x d n = .ok o
  | 0, d, _ => ⟨_, rfl⟩
  | n + 1, d, h => by
    obtain ⟨v, hv, o, ho⟩ := h d (Nat.le_refl _) (by omega)
    unfold checkOperands
    rw [aget_eq_ok.2 hv]
    simp only [ho]
    cases o with
    | some e => exact ⟨_, rfl⟩
    | none => exact checkOperands_total n (d + 1) fun i h1 h2 => h i (by omega) (by omega)

theorem checkSpan_total {c : Ctx} (hs : Stored c) {rows r : Nat} {x : Cell} (hd : ∀ i, i < x.dataQty → (at? x.data i).isSome) :
    ∃ o, checkSpan c rows r x = .ok o := by
  unfold checkSpan
  dsimp only
  split
  all_goals try (exact ⟨_, rfl⟩)
  · split
    · exact ⟨_, rfl⟩
    · obtain ⟨v, hv⟩ := Option.isSome_iff_exists.1 (hd 0 (by omega))
      rw [aget_eq_ok.2 hv]
      dsimp only
      split
      · exact ⟨_, rfl⟩
      · obtain ⟨g, hg⟩ := Option.isSome_iff_exists.1 (hs.foreign v.raw.toNat (by omega))
        rw [aget_eq_ok.2 hg]
        dsimp only
        split
        · exact ⟨_, rfl⟩
        · exact ⟨_, rfl⟩
  · have : ∃ d, iocd x.code = .ok d := by
      cases hc : x.code <;> simp_all [iocd]
    obtain ⟨d, hd⟩ := this
    rw [hd]
    dsimp only
    split
    · exact ⟨_, rfl⟩
    · exact ⟨_, rfl⟩

theorem checkCell_total {c : Ctx} (hs : Stored c) (hm : Inboard c) {n r k rows e : Nat} {x : Cell} (hx : cell? c n r k = some x) :
    ∃ o, checkCell c rows r x e = .ok o := by
  unfold checkCell
  split
  · split
    · exact ⟨_, rfl⟩
    · split
      · exact ⟨_, rfl⟩
      · exact ⟨_, rfl⟩
  · split
    · exact ⟨_, rfl⟩
    · have hd := hs.data n r k x hx
      obtain ⟨o, ho⟩ := checkOperands_total (c := c) (x := x) x.dataQty 0 (by
        intro i _ hi
        obtain ⟨v, hv⟩ := Option.isSome_iff_exists.1 (hd i (by omega))
        exact ⟨v, hv, checkOperand_total hs (hm n r k x i v hx (by simp [operand?, hx, hv]; omega))⟩)
      rw [ho]
      cases o with
      | some e => exact ⟨_, rfl⟩
      | none => exact checkSpan_total hs hd

theorem checkRows_total {c : Ctx} (hs : Stored c) (hm : Inboard c) {nt k : Nat} {net : Network} (hn : at? c.network nt = some net)
    (hc : ∀ r, r < net.rows → (cell? c nt r k).isSome) : ∀ (n r e : Nat) (last : Option ChkStatus), r + n ≤ net.rows →
    ∃ o, checkRows c net nt k r n e last = .ok o
  | 0, r, e, last, _ => ⟨_, rfl⟩
  | n + 1, r, e, last, h => by
    obtain ⟨x, hx⟩ := Option.isSome_iff_exists.1 (hc r (by omega))
    unfold checkRows
    rw [(cell_eq_ok hn).2 hx]
    obtain ⟨o, ho⟩ := checkCell_total hs hm (rows := net.rows) (e := e) hx
    simp only [ho]
    cases o with
    | inl e => exact ⟨_, rfl⟩
    | inr e => exact checkRows_total hs hm hn hc n _ _ _ (by omega)

theorem checkCols_total {c : Ctx} (hs : Stored c) (hm : Inboard c) {nt : Nat} {net : Network} (hn : at? c.network nt = some net)
    (hc : ∀ r k, r < net.rows → k < net.cols → (cell? c nt r k).isSome) : ∀ (n k : Nat) (last : Option ChkStatus),
    k + n ≤ net.cols → ∃ o, checkCols c net nt k n last = .ok o
  | 0, k, last, _ => ⟨_, rfl⟩
  | n + 1, k, last, h => by
    obtain ⟨o, ho⟩ := checkRows_total hs hm hn (fun r hr => hc r k hr (by omega)) net.rows 0 0 last (by omega)
    unfold checkCols
    rw [ho]
    cases o with
    | stop s => exact ⟨_, rfl⟩
    | go l => exact checkCols_total hs hm hn hc n _ _ (by omega)

theorem checkNets_total {c : Ctx} (hs : Stored c) (hm : Inboard c) : ∀ (n t : Nat) (last : Option ChkStatus),
    t + n ≤ c.qty.networks → ∃ o, checkNets c t n last = .ok o
  | 0, t, last, _ => ⟨_, rfl⟩
  | n + 1, t, last, h => by
    obtain ⟨net, hn, hc⟩ := hs.grids t (by omega)
    obtain ⟨o, ho⟩ := checkCols_total hs hm hn hc net.cols 0 last (by omega)
    unfold checkNets
    rw [aget_eq_ok.2 hn]
    simp only [ho]
    cases o with
    | stop s => exact ⟨_, rfl⟩
    | go l => exact checkNets_total hs hm n _ _ (by omega)

/-- C52.  Checking a stored program never accesses memory outside the configured areas, and the verdict is definite as soon as
the program has a cell: the status then names a cell of the program and its instruction.
Missing for the full claim: a module number equal to the number of modules (`Inboard`, see `C52_refuted`), and programs without
cells, for which the status is an uninitialised object (the `none` below, see `C52_refuted_empty`). -/
theorem C52_verdict_partial {c : Ctx} (hs : Stored c) (hm : Inboard c) : ∃ st, programCheck c = .ok st ∧
    (st = none ↔ ∀ n r k, ¬ Within c n r k) ∧
    ∀ s, st = some s → Within c s.network s.row s.column ∧
      ∃ x, cell? c s.network s.row s.column = some x ∧ x.code = s.code := by
  obtain ⟨o, ho⟩ := checkNets_total hs hm c.qty.networks 0 none (by omega)
  unfold programCheck
  rw [ho]
  cases o with
  | stop s =>
    obtain ⟨-, -, h2, net, hn, hr, hk, x, hx, hcode⟩ := checkNets_stop _ _ _ _ ho
    have hw : Within c s.network s.row s.column := ⟨by omega, net, hn, hr, hk⟩
    refine ⟨some s, rfl, ⟨fun h => by simp at h, fun h => absurd hw (h _ _ _)⟩, ?_⟩
    rintro s' ⟨⟩
    exact ⟨hw, x, (cell_eq_ok hn).1 hx, hcode⟩
  | go l =>
    refine ⟨l, rfl, ?_⟩
    rcases checkNets_last _ _ _ _ (by omega) ho with ⟨h, rfl⟩ | ⟨⟨j, net, -, hj, hn, hr, hk⟩, s, rfl, -, hw, hx⟩
    · refine ⟨⟨fun _ n r k hw => ?_, fun _ => rfl⟩, fun s h => by simp at h⟩
      obtain ⟨hq, net, hn, hr, hk⟩ := hw
      obtain ⟨net', hn', h'⟩ := h n (by omega) (by omega)
      rw [hn] at hn'
      obtain rfl := Option.some.inj hn'
      omega
    · refine ⟨⟨fun h => by simp at h, fun h => absurd hw (h _ _ _)⟩, ?_⟩
      rintro s' ⟨⟩
      exact ⟨hw, hx⟩

/-! ### C65: valid programs -/

/-- A valid program: laid out consistently, with operands of the right kinds that designate existing registers and ports. -/
structure Valid (c : Ctx) : Prop where
  laid : LaidOut c
  takes : ∀ n r k x i v, Within c n r k → cell? c n r k = some x → operand? c n r k i = some v →
    Takes x.code i v.type ∧ (names x.code i v.type → Designates c v)
  timers : ∀ n r k x, Within c n r k → cell? c n r k = some x → timing x.code = true → 2 ≤ x.dataQty
  calls : ∀ n r k x, Within c n r k → cell? c n r k = some x → x.code = .FOREIGN → 1 ≤ x.dataQty ∧ callee x < c.foreignQty

/-- The presets of timers with a time base of 10 ms or of one minute are smaller than the number of flags or of counters: these
time bases have the codes of the register kinds M and Cd. -/
def ShortPresets (c : Ctx) : Prop := ∀ n r k x v, Within c n r k → cell? c n r k = some x → timing x.code = true →
  operand? c n r k 1 = some v → v.raw.toNat < 2^31 ∧
    (v.type = .M → v.raw.toNat < c.qty.m) ∧ (v.type = .Cd → v.raw.toNat < c.qty.c)

theorem valid_operand {c : Ctx} (hf : Full c) (hv : Valid c) (hp : ShortPresets c) {n r k : Nat} {x : Cell} {i : Nat} {v : Value}
    (hw : Within c n r k) (hx : cell? c n r k = some x) (hi : i < x.dataQty) (ho : at? x.data i = some v) :
    checkOperand c x.code x.dataQty i v = .ok none := by
  have hop : operand? c n r k i = some v := by simp [operand?, hx, hi, ho]
  obtain ⟨htk, hd⟩ := hv.takes n r k x i v hw hx hop
  have hinv : v.type ≠ .INV := by
    intro h
    rw [h] at htk
    cases hc : x.code <;> simp [hc, Takes] at htk
  rw [checkOperand_pass]
  refine ⟨fun ht => ?_, fun ht => ?_, ?_, ?_⟩
  · rw [timing_eq] at ht
    have h2 := hv.timers n r k x hw hx ht
    have htk' : (i = 0 → v.type = .T) ∧ (i = 1 → v.type ∈ [Reg.NONE, .M, .Q, .I, .Cd]) ∧ v.type ≠ .INV := by
      cases hc : x.code <;> simp only [hc, timing, Bool.false_eq_true] at ht <;> simpa only [hc, Takes] using htk
    unfold checkTimer
    rw [if_neg (by omega)]
    split
    · rename_i h0
      have hT := htk'.1 h0
      rw [if_neg (by simp [hT]), if_neg]
      rintro ⟨-, h⟩
      have := (designates_index hf (by rw [hT]; rfl)).1 (hd ⟨by simp [hT], by simp [hT], by rintro ⟨-, h1⟩; omega⟩)
      simp only [hT, quantity] at this
      omega
    · split
      · rename_i h1
        have := htk'.2.1 h1
        rw [if_neg]
        simp only [List.mem_cons, List.not_mem_nil, or_false] at this
        rcases this with h | h | h | h | h <;> simp [h, Reg.code]
      · rfl
  · rw [timing_eq] at ht
    have hnm : hardware v.type = true → Designates c v := fun h => hd ⟨by rintro h'; simp [h', hardware] at h,
      by rintro h'; simp [h', hardware] at h, by simp [ht]⟩
    cases hk : v.type
    case Q => exact (checkIO_out hf (.inl hk)).2 (hnm (by rw [hk]; rfl))
    case QW => exact (checkIO_out hf (.inr hk)).2 (hnm (by rw [hk]; rfl))
    case I => exact (checkIO_in hf (.inl hk)).2 (hnm (by rw [hk]; rfl))
    case IW => exact (checkIO_in hf (.inr hk)).2 (hnm (by rw [hk]; rfl))
    all_goals simp only [checkIO, hk]
  · by_cases hidx : indexed v.type = true ∧ v.type ≠ .R
    · rw [checkIndex_pass hidx.1 hidx.2]
      by_cases hnm : names x.code i v.type
      · exact (designates_index hf hidx.1).1 (hd hnm)
      · have h1 : timing x.code = true ∧ i = 1 := by
          unfold names at hnm
          have h2 : v.type ≠ .NONE := by rintro h; rw [h] at hidx; exact absurd hidx.1 (by decide)
          have h3 : v.type ≠ .S := by rintro h; rw [h] at hidx; exact absurd hidx.1 (by decide)
          by_cases h4 : timing x.code = true ∧ i = 1
          · exact h4
          · exact absurd ⟨h2, h3, h4⟩ hnm
        obtain ⟨ht, rfl⟩ := h1
        have h5 := hp n r k x v hw hx ht hop
        have htk' : v.type ∈ [Reg.NONE, .M, .Q, .I, .Cd] := by
          cases hc : x.code <;> simp only [hc, timing, Bool.false_eq_true] at ht <;>
            (simp only [hc, Takes] at htk; exact htk.2.1 trivial)
        refine ⟨h5.1, ?_⟩
        simp only [List.mem_cons, List.not_mem_nil, or_false] at htk'
        rcases htk' with h | h | h | h | h
        · simp [h, indexed] at hidx
        · rw [h]; exact h5.2.1 h
        · simp [h, indexed] at hidx
        · simp [h, indexed] at hidx
        · rw [h]; exact h5.2.2 h
    · cases hk : v.type <;> simp_all [checkIndex, indexed]
  · cases hc : x.code <;> simp only [hc, Takes, List.mem_cons, List.not_mem_nil, or_false] at htk <;> simp only [kindOk]
    all_goals first
      | exact absurd htk id
      | simpa [or_assoc] using htk

theorem valid_span {c : Ctx} (hs : Stored c) (ht : Tall c) (hv : Valid c) {n r k : Nat} {x : Cell} {net : Network}
    (hn : at? c.network n = some net) (hw : Within c n r k) (hx : cell? c n r k = some x) (hm : x.code ≠ .MULTI) :
    checkSpan c net.rows r x = .ok (.inr (span c x.code (callee x) - 1)) := by
  obtain ⟨⟨net', hn', hle⟩, -⟩ := hv.laid.whole n r k x hw hx hm
  rw [hn] at hn'
  obtain rfl := Option.some.inj hn'
  unfold checkSpan
  cases hc : x.code <;> simp only [hc, span] at hle <;> simp only [iocd, span]
  all_goals first
    | (rw [if_neg (by omega)]; done)
    | exact absurd hc hm
    | skip
  have hcall := hv.calls n r k x hw hx hc
  obtain ⟨v, hv'⟩ := Option.isSome_iff_exists.1 (hs.data n r k x hx 0 (by omega))
  have hcal : callee x = v.raw.toNat := by simp [callee, hv']
  rw [hcal] at hcall hle
  obtain ⟨g, hg⟩ := Option.isSome_iff_exists.1 (hs.foreign _ hcall.2)
  have := ht _ _ hg
  simp only [hg, Option.map_some, Option.getD_some] at hle
  rw [if_neg (by omega), aget_eq_ok.2 hv']
  simp only [hcal, hg, Option.map_some, Option.getD_some]
  rw [if_neg (by omega), aget_eq_ok.2 hg]
  have hmod : (g.desc.cells + (2^32 - 1)) % 2^32 = g.desc.cells - 1 := by omega
  dsimp only
  rw [if_neg (by omega), hmod]

/-- What the checker expects at each row of a column, computed from the heights of the instructions. -/
def course (c : Ctx) (n k : Nat) : Nat → Nat
  | 0 => 0
  | r + 1 => if course c n k r > 0 then course c n k r - 1 else
    match cell? c n r k with
    | some x => span c x.code (callee x) - 1
    | none => 0

/-- C65.  The checker accepts every valid stored program that has a cell.
Missing for the full claim: timers with a time base of 10 ms or one minute whose preset is not smaller than the number of flags or
counters (`ShortPresets`, see `C65_refuted`), and foreign functions that cover no cell (`Tall`). -/
theorem C65_valid_accepted_partial {c : Ctx} (hf : Full c) (hs : Stored c) (ht : Tall c) (hv : Valid c) (hp : ShortPresets c)
    (hex : ∃ n r k, Within c n r k) : Accepts c := by
  have hgo : ∃ l, checkNets c 0 c.qty.networks none = .ok (.go l) := by
    refine (checkNets_go _ _ _).2 fun n _ hq => ?_
    obtain ⟨net, hn, hcell⟩ := hs.grids n (by omega)
    refine ⟨net, hn, fun k hk => ?_⟩
    have hspan : ∀ x : Cell, x.code ≠ .MULTI → x.code ≠ .FOREIGN → 1 ≤ span c x.code (callee x) := by
      intro x h1 h2
      cases hc : x.code <;> simp_all [span]
    have hspan' : ∀ r x, r < net.rows → cell? c n r k = some x → x.code ≠ .MULTI → 1 ≤ span c x.code (callee x) := by
      intro r x hr hx h1
      by_cases h2 : x.code = .FOREIGN
      · have hw : Within c n r k := ⟨by omega, net, hn, hr, hk⟩
        obtain ⟨g, hg⟩ := Option.isSome_iff_exists.1 (hs.foreign _ (hv.calls n r k x hw hx h2).2)
        simp only [h2, span, hg, Option.map_some, Option.getD_some]
        exact (ht _ _ hg).1
      · exact hspan x h1 h2
    have inv : ∀ r, r ≤ net.rows →
        (0 < course c n k r → ∃ r0 y, r0 < r ∧ cell? c n r0 k = some y ∧ y.code ≠ .MULTI ∧
          r0 + span c y.code (callee y) = r + course c n k r) ∧
        (∀ r0 y, r0 < r → cell? c n r0 k = some y → y.code ≠ .MULTI →
          r0 + span c y.code (callee y) ≤ r + course c n k r) ∧
        (∀ i, i < r → ∃ x, cell? c n i k = some x ∧
          checkCell c net.rows i x (course c n k i) = .ok (.inr (course c n k (i + 1)))) := by
      intro r
      induction r with
      | zero => intro _; exact ⟨fun h => absurd h (Nat.lt_irrefl _), fun r0 y h => by omega, fun i h => by omega⟩
      | succ r ih =>
        intro hr
        obtain ⟨i1, i2, i3⟩ := ih (by omega)
        have hw : Within c n r k := ⟨by omega, net, hn, by omega, hk⟩
        obtain ⟨x, hx⟩ := Option.isSome_iff_exists.1 (hcell r k (by omega) hk)
        by_cases hpos : 0 < course c n k r
        · obtain ⟨r0, y, h1, h2, h3, h4⟩ := i1 hpos
          have hw0 : Within c n r0 k := ⟨by omega, net, hn, by omega, hk⟩
          obtain ⟨x', hx', hmk⟩ := (hv.laid.whole n r0 k y hw0 h2 h3).2 r h1 (by omega)
          rw [hx] at hx'
          obtain rfl := Option.some.inj hx'
          have hstep : course c n k (r + 1) = course c n k r - 1 := by rw [course, if_pos hpos]
          refine ⟨fun _ => ⟨r0, y, by omega, h2, h3, by omega⟩, fun r1 z h5 h6 h7 => ?_, fun i hi => ?_⟩
          · rcases Nat.lt_or_ge r1 r with h8 | h8
            · have := i2 r1 z h8 h6 h7
              omega
            · obtain rfl : r1 = r := by omega
              rw [hx] at h6
              obtain rfl := Option.some.inj h6
              exact absurd hmk.1 h7
          · rcases Nat.lt_or_ge i r with h8 | h8
            · exact i3 i h8
            · obtain rfl : i = r := by omega
              exact ⟨x, hx, checkCell_pass.2 (.inl ⟨hpos, hmk, hstep⟩)⟩
        · have h0 : course c n k r = 0 := by omega
          have hnm : x.code ≠ .MULTI := by
            intro hm
            obtain ⟨-, r0, y, h1, h2, h3, h4⟩ := hv.laid.owned n r k x hw hx hm
            have := i2 r0 y h1 h2 h3
            omega
          have h1s := hspan' r x (by omega) hx hnm
          have hstep : course c n k (r + 1) = span c x.code (callee x) - 1 := by rw [course, if_neg hpos, hx]
          refine ⟨fun _ => ⟨r, x, by omega, hx, hnm, by omega⟩, fun r1 z h5 h6 h7 => ?_, fun i hi => ?_⟩
          · rcases Nat.lt_or_ge r1 r with h8 | h8
            · have := i2 r1 z h8 h6 h7
              omega
            · obtain rfl : r1 = r := by omega
              rw [hx] at h6
              obtain rfl := Option.some.inj h6
              omega
          · rcases Nat.lt_or_ge i r with h8 | h8
            · exact i3 i h8
            · obtain rfl : i = r := by omega
              refine ⟨x, hx, checkCell_pass.2 (.inr ⟨h0, hnm, fun j hj => ?_, ?_⟩)⟩
              · obtain ⟨v, hv'⟩ := Option.isSome_iff_exists.1 (hs.data n i k x hx j hj)
                exact ⟨v, hv', valid_operand hf hv hp hw hx hj hv'⟩
              · rw [hstep]
                exact valid_span hs ht hv hn hw hx hnm
    refine ⟨course c n k, rfl, fun i hi => ?_⟩
    obtain ⟨x, hx, hc⟩ := (inv net.rows (Nat.le_refl _)).2.2 i hi
    exact ⟨x, (cell_eq_ok hn).2 hx, hc⟩
  obtain ⟨l, hl⟩ := hgo
  rcases checkNets_last _ _ _ _ (by omega) hl with ⟨h, rfl⟩ | ⟨-, s, rfl, hok, -⟩
  · obtain ⟨n, r, k, hq, net, hn, hr, hk⟩ := hex
    obtain ⟨net', hn', h'⟩ := h n (by omega) (by omega)
    rw [hn] at hn'
    obtain rfl := Option.some.inj hn'
    omega
  · exact ⟨s, by unfold programCheck; rw [hl], hok⟩

/-! ### Examples and refutations -/

/-- Outcomes can be compared. -/
local instance {α β : Type} [DecidableEq α] [DecidableEq β] : DecidableEq (Except α β)
  | .ok a, .ok b => if h : a = b then isTrue (by rw [h]) else isFalse (by rintro ⟨⟩; exact h rfl)
  | .error a, .error b => if h : a = b then isTrue (by rw [h]) else isFalse (by rintro ⟨⟩; exact h rfl)
  | .ok _, .error _ => isFalse (by rintro ⟨⟩)
  | .error _, .ok _ => isFalse (by rintro ⟨⟩)

/-- Checks `Stored`. -/
def storedOk (c : Ctx) : Bool :=
  Demo.fitsOk c && (c.network.getD []).all (fun net => (net.cells.getD []).all fun row => row.all fun x =>
    decide (x.dataQty = 0) || x.data.isSome) && (c.network.getD []).all (fun net => net.cells.isSome) &&
  decide (c.qty.networks ≤ (c.network.getD []).length) && decide (c.foreignQty ≤ (c.foreign.getD []).length)

theorem stored_of {c : Ctx} (h : storedOk c = true) : Stored c := by
  simp only [storedOk, Bool.and_eq_true, decide_eq_true_eq, List.all_eq_true, Bool.or_eq_true] at h
  obtain ⟨⟨⟨⟨h1, h2⟩, h3⟩, h4⟩, h5⟩ := h
  have hF := Demo.fits_of h1
  have hgrid : ∀ n net, at? c.network n = some net → net ∈ c.network.getD [] ∧ GridFits net := by
    intro n net hn
    obtain ⟨l, hl, hmem⟩ := mem_of_at? hn
    exact ⟨by simpa [hl] using hmem, hF.network l hl net hmem⟩
  refine ⟨fun n hn => ?_, fun n r k x hx i hi => ?_, fun m hm => ?_, fun m hm => ?_, fun i hi => ?_⟩
  · cases hl : c.network with
    | none => simp [hl] at h4; omega
    | some l =>
      simp only [hl, Option.getD_some] at h3 h4
      have hat : at? (some l) n = some (l[n]'(by omega)) := by simp [at?]
      refine ⟨_, hat, fun r k hr hk => ?_⟩
      have hat' : at? c.network n = some (l[n]'(by omega)) := by rw [hl]; exact hat
      obtain ⟨-, hg⟩ := hgrid n _ hat'
      have hc := h3 _ (List.getElem_mem (by omega : n < l.length))
      obtain ⟨rows, hrows⟩ := Option.isSome_iff_exists.1 hc
      have h6 := hg.rows rows hrows
      have h7 := hg.cols rows hrows (rows[r]'(by omega)) (List.getElem_mem _)
      unfold cell?
      rw [hat', Option.bind_some, hrows]
      show ((rows[r]?).bind (·[k]?)).isSome = true
      rw [List.getElem?_eq_getElem (by omega), Option.bind_some, List.getElem?_eq_getElem (by omega)]
      rfl
  · simp only [cell?, Option.bind_eq_some_iff] at hx
    obtain ⟨net, hn, row, hr, hc⟩ := hx
    obtain ⟨hmem, hg⟩ := hgrid n net hn
    obtain ⟨rows, hrows, hrmem⟩ := mem_of_at? hr
    have hxmem := List.mem_of_getElem? hc
    have := h2 net hmem row (by simpa [hrows] using hrmem) x hxmem
    rcases this with h6 | h6
    · omega
    · obtain ⟨v, hv⟩ := at?_of_lt (hg.data rows hrows row hrmem x hxmem) h6 hi
      simp [hv]
  · cases hl : c.input with
    | none => have := hF.noInput hl; omega
    | some l =>
      obtain ⟨v, hv⟩ := at?_of_lt (a := c.input) (fun l hl => (hF.input l hl).1) (by simp [hl]) hm
      rw [← hl]; simp [hv]
  · cases hl : c.output with
    | none => have := hF.noOutput hl; omega
    | some l =>
      obtain ⟨v, hv⟩ := at?_of_lt (a := c.output) (fun l hl => (hF.output l hl).1) (by simp [hl]) hm
      rw [← hl]; simp [hv]
  · cases hl : c.foreign with
    | none => simp [hl] at h5; omega
    | some l =>
      simp only [hl, Option.getD_some] at h5
      simp only [at?, Option.bind_some]
      rw [List.getElem?_eq_getElem (by omega)]
      rfl

/-- Checks the areas of `Full`. -/
theorem full_of {nets : List Network} (h : Demo.fitsOk (Demo.ctx nets) = true) : Full (Demo.ctx nets) := by
  refine { fits := Demo.fits_of h, M := fun _ => rfl, Cd := fun _ => rfl, Cr := fun _ => rfl, C := fun _ => rfl, Td := fun _ => rfl,
           Tr := fun _ => rfl, timers := fun _ => rfl, D := fun _ => rfl, R := fun _ => rfl, ins := ?_, outs := ?_ }
  · intro m o ho
    cases m with
    | zero => obtain rfl := Option.some.inj ho; exact ⟨fun _ => rfl, fun _ => rfl⟩
    | succ m => simp [Demo.ctx, at?] at ho
  · intro m o ho
    cases m with
    | zero => obtain rfl := Option.some.inj ho; exact ⟨fun _ => rfl, fun _ => rfl⟩
    | succ m => simp [Demo.ctx, at?] at ho

/-- An empty cell. -/
def bare : Cell := {}

/-- A continuation marker. -/
def contMark : Cell := { code := .MULTI }

/-- Three columns of five rows with contacts, a timer, an addition, a counter and coils. -/
def checkDemo : Ctx := Demo.ctx [Demo.net [
  [Demo.ins .NO [Demo.op .I 256], Demo.ins .TON [Demo.op .T 1, Demo.op .I 5], Demo.ins .COIL [Demo.op .Q 256]],
  [Demo.ins .NC [Demo.op .M 2],   contMark,                                       Demo.ins .COILL [Demo.op .M 0]],
  [bare, Demo.ins .ADD [Demo.op .D 0, Demo.op .NONE 3, Demo.op .D 1],        Demo.ins .CTU [Demo.op .C 1, Demo.op .NONE 9]],
  [bare,                         contMark,                                       contMark],
  [Demo.ins .CONN [],             contMark,                                       bare]]]

theorem checkDemo_accepted : Accepts checkDemo := ⟨⟨0, 4, 2, .NOP, .ok⟩, by decide +kernel, rfl⟩

theorem checkDemo_full : Full checkDemo := full_of (by decide +kernel)

theorem checkDemo_stored : Stored checkDemo := stored_of (by decide +kernel)

theorem tall_demo (nets : List Network) : Tall (Demo.ctx nets) := by
  intro i g h
  simp [Demo.ctx, at?] at h

/-- The hypotheses of C51 and C64 can be met, and the conclusion of C64 then tells that row 3 of column 1 belongs to the addition. -/
example : Full checkDemo ∧ Accepts checkDemo ∧ Within checkDemo 0 0 0 ∧ names .NO 0 .I ∧
    operand? checkDemo 0 0 0 0 = some (Demo.op .I 256) ∧ LaidOut checkDemo :=
  ⟨checkDemo_full, checkDemo_accepted, ⟨by decide, _, rfl, by decide, by decide⟩, by simp [names, timing], rfl,
    C64_laid_out_partial (tall_demo _) checkDemo_accepted⟩

theorem within_demo {nets : List Network} {n r k : Nat} (h : Within (Demo.ctx nets) n r k) :
    ∃ net, nets[n]? = some net ∧ r < net.rows ∧ k < net.cols := by
  obtain ⟨-, net, hn, hr, hk⟩ := h
  exact ⟨net, by simpa [Demo.ctx, at?] using hn, hr, hk⟩

/-- Hypotheses of C65. -/
example : Full checkDemo ∧ Stored checkDemo ∧ Tall checkDemo ∧ Valid checkDemo ∧ ShortPresets checkDemo ∧
    ∃ n r k, Within checkDemo n r k := by
  have hpos : ∀ n r k, Within checkDemo n r k → n = 0 ∧ r < 5 ∧ k < 3 := by
    intro n r k h
    obtain ⟨net, hn, hr, hk⟩ := within_demo h
    cases n with
    | zero => obtain rfl := Option.some.inj hn; exact ⟨rfl, hr, hk⟩
    | succ n => simp at hn
  have hall : ∀ r, r < 5 → ∀ k, k < 3 → ∀ x, cell? checkDemo 0 r k = some x →
      (timing x.code = true → 2 ≤ x.dataQty) ∧ x.code ≠ .FOREIGN ∧
      (timing x.code = true → operand? checkDemo 0 r k 1 = some (Demo.op .I 5)) ∧
      (∀ i v, operand? checkDemo 0 r k i = some v → v.type ≠ .R ∧ i < 2 + (if timing x.code then 0 else 1)) := by
    have hb : ∀ r, r < 5 → ∀ k, k < 3 → ((cell? checkDemo 0 r k).all fun x =>
        (!timing x.code || decide (2 ≤ x.dataQty)) && decide (x.code ≠ .FOREIGN) &&
        (!timing x.code || decide (operand? checkDemo 0 r k 1 = some (Demo.op .I 5))) &&
        (x.data.getD []).all (fun v => decide (v.type ≠ .R)) &&
        decide (x.dataQty ≤ 2 + (if timing x.code then 0 else 1))) = true := by decide +kernel
    intro r hr k hk x hx
    have := hb r hr k hk
    simp only [hx, Option.all_some, Bool.and_eq_true, Bool.or_eq_true, decide_eq_true_eq, Bool.not_eq_true',
      List.all_eq_true] at this
    obtain ⟨⟨⟨⟨h1, h2⟩, h3⟩, h4⟩, h5⟩ := this
    refine ⟨fun h => by simpa [h] using h1, h2, fun h => by simpa [h] using h3, fun i v hv => ?_⟩
    simp only [operand?, hx, Option.bind_some] at hv
    split at hv
    · obtain ⟨l, hl, hmem⟩ := mem_of_at? hv
      refine ⟨h4 v (by simpa [hl] using hmem), by omega⟩
    · simp at hv
  refine ⟨checkDemo_full, checkDemo_stored, tall_demo _, ⟨?_, ?_, ?_, ?_⟩, ?_, 0, 0, 0, by decide, _, rfl, by decide, by decide⟩
  · exact C64_laid_out_partial (tall_demo _) checkDemo_accepted
  · intro n r k x i v hw hx hv
    obtain ⟨rfl, hr, hk⟩ := hpos n r k hw
    obtain ⟨-, -, -, h4⟩ := hall r hr k hk x hx
    have h5 := h4 i v hv
    have hi : i < x.dataQty := by
      simp only [operand?, hx, Option.bind_some] at hv
      split at hv
      · assumption
      · simp at hv
    obtain ⟨v', hv', htk⟩ := (C51_operand_kinds checkDemo_accepted hw hx).1 i hi
    rw [hv] at hv'
    obtain rfl := Option.some.inj hv'
    refine ⟨htk, fun hn => C51_operands_exist_partial checkDemo_full checkDemo_accepted hw hx hv hn h5.1 ?_⟩
    rintro ⟨ht, h2, -⟩
    have := h5.2
    simp only [ht, if_true] at this
    omega
  · intro n r k x hw hx ht
    obtain ⟨rfl, hr, hk⟩ := hpos n r k hw
    exact (hall r hr k hk x hx).1 ht
  · intro n r k x hw hx hc
    obtain ⟨rfl, hr, hk⟩ := hpos n r k hw
    exact absurd hc (hall r hr k hk x hx).2.1
  · intro n r k x v hw hx ht hv
    obtain ⟨rfl, hr, hk⟩ := hpos n r k hw
    rw [(hall r hr k hk x hx).2.2.1 ht] at hv
    obtain rfl := Option.some.inj hv
    exact ⟨by decide, fun h => absurd h (by decide), fun h => absurd h (by decide)⟩

/-- Hypotheses of C52: the demonstration program, and a program the checker rejects. -/
example : Stored checkDemo ∧ Inboard checkDemo := by
  refine ⟨checkDemo_stored, fun n r k x i v hx hv _ => ?_⟩
  have hb : (checkDemo.network.getD []).all (fun net => (net.cells.getD []).all fun row => row.all fun x =>
      (x.data.getD []).all fun v => decide (hardware v.type = true → v.raw.toNat % 256 ≠ 1)) = true := by decide +kernel
  simp only [List.all_eq_true, decide_eq_true_eq] at hb
  simp only [operand?, hx, Option.bind_some] at hv
  split at hv
  · simp only [cell?, Option.bind_eq_some_iff] at hx
    obtain ⟨net, hn, row, hr, hc⟩ := hx
    obtain ⟨l, hl, hl'⟩ := mem_of_at? hn
    obtain ⟨rows, hrows, hr'⟩ := mem_of_at? hr
    obtain ⟨d, hd, hd'⟩ := mem_of_at? hv
    have := hb net (by simpa [hl] using hl') row (by simpa [hrows] using hr') x (List.mem_of_getElem? hc) v (by simpa [hd] using hd')
    constructor
    · rintro (h | h) - <;> exact this (by rw [h]; rfl)
    · rintro (h | h) - <;> exact this (by rw [h]; rfl)
  · simp at hv

/-- C51 is refuted for float registers: a program that moves the missing register R200 is accepted. -/
theorem C51_refuted_float : ∃ c, Full c ∧ Stored c ∧ Accepts c ∧ Within c 0 0 0 ∧
    operand? c 0 0 0 0 = some (Demo.op .R 200) ∧ ¬ Designates c (Demo.op .R 200) := by
  refine ⟨Demo.ctx [Demo.net [[Demo.ins .MOVE [Demo.op .R 200, Demo.op .D 0]], [contMark]]], full_of (by decide +kernel),
    stored_of (by decide +kernel), ⟨⟨0, 1, 0, .MULTI, .ok⟩, by decide +kernel, rfl⟩, ⟨by decide, _, rfl, by decide, by decide⟩, rfl, ?_⟩
  rw [designates_index (full_of (by decide +kernel)) rfl]
  decide

/-- C51 is refuted for surplus operands of timers: a timer with input 9.9 (there is only module 0) as third operand is accepted. -/
theorem C51_refuted_timer : ∃ c, Full c ∧ Stored c ∧ Accepts c ∧ Within c 0 0 0 ∧
    operand? c 0 0 0 2 = some (Demo.op .I 0x909) ∧ ¬ Designates c (Demo.op .I 0x909) := by
  refine ⟨Demo.ctx [Demo.net [[Demo.ins .TON [Demo.op .T 0, Demo.op .NONE 5, Demo.op .I 0x909]], [contMark]]], full_of (by decide +kernel),
    stored_of (by decide +kernel), ⟨⟨0, 1, 0, .MULTI, .ok⟩, by decide +kernel, rfl⟩, ⟨by decide, _, rfl, by decide, by decide⟩, rfl, ?_⟩
  rintro ⟨ℓ, h1, h2⟩
  obtain rfl := Option.some.inj h1
  exact absurd h2 (by decide +kernel)

/-- C52 is refuted: with a single input module, checking a contact on module 1 reads outside the module table. -/
theorem C52_refuted : ∃ c, Full c ∧ Stored c ∧ programCheck c = .error .oob :=
  ⟨Demo.ctx [Demo.net [[Demo.ins .NO [Demo.op .I 1]]]], full_of (by decide +kernel), stored_of (by decide +kernel), by decide +kernel⟩

/-- C52 is refuted for programs without networks: the status returned is uninitialised. -/
theorem C52_refuted_empty : ∃ c, Full c ∧ Stored c ∧ programCheck c = .ok none :=
  ⟨Demo.ctx [], full_of (by decide +kernel), stored_of (by decide +kernel), by decide +kernel⟩

/-- C64 is refuted for foreign functions that cover no cell: the continuation marker below one is accepted, but belongs to nothing. -/
theorem C64_refuted : ∃ c, Stored c ∧ Accepts c ∧ ¬ LaidOut c := by
  refine ⟨{ Demo.ctx [Demo.net [[Demo.ins .FOREIGN [Demo.op .NONE 0]], [contMark]]] with
    foreignQty := 1, foreign := some [⟨0, ⟨1, 1, 0, 1⟩, false⟩] }, stored_of (by decide +kernel),
    ⟨⟨0, 1, 0, .MULTI, .ok⟩, by decide +kernel, rfl⟩, fun h => ?_⟩
  obtain ⟨-, r0, y, h1, h2, -, h4⟩ := h.owned 0 1 0 contMark ⟨by decide, _, rfl, by decide, by decide⟩ rfl rfl
  obtain rfl : r0 = 0 := by omega
  obtain rfl := Option.some.inj h2
  exact absurd h4 (by decide +kernel)

/-- C65 is refuted: a timer of 50 times 10 ms is rejected when there are only three flags. -/
theorem C65_refuted : ∃ c, Full c ∧ Stored c ∧ Tall c ∧ Valid c ∧ Within c 0 0 0 ∧
    programCheck c = .ok (some ⟨0, 0, 0, .TON, .fail⟩) := by
  have hpos : ∀ n r k, Within (Demo.ctx [Demo.net [[Demo.ins .TON [Demo.op .T 0, Demo.op .M 50]], [contMark]]]) n r k →
      n = 0 ∧ (r = 0 ∨ r = 1) ∧ k = 0 := by
    intro n r k h
    obtain ⟨net, hn, hr, hk⟩ := within_demo h
    cases n with
    | zero =>
      obtain rfl := Option.some.inj hn
      have hr : r < 2 := hr
      have hk : k < 1 := hk
      exact ⟨rfl, by omega, by omega⟩
    | succ n => simp at hn
  refine ⟨Demo.ctx [Demo.net [[Demo.ins .TON [Demo.op .T 0, Demo.op .M 50]], [contMark]]], full_of (by decide +kernel),
    stored_of (by decide +kernel), tall_demo _, ⟨⟨?_, ?_⟩, ?_, ?_, ?_⟩, ⟨by decide, _, rfl, by decide, by decide⟩, by decide +kernel⟩
  · intro n r k x hw hx hm
    obtain ⟨rfl, rfl | rfl, rfl⟩ := hpos n r k hw
    · obtain rfl := Option.some.inj hx
      refine ⟨⟨_, rfl, by decide⟩, fun j h1 h2 => ?_⟩
      have h2 : j < 2 := h2
      obtain rfl : j = 1 := by omega
      exact ⟨contMark, rfl, rfl, rfl, rfl⟩
    · obtain rfl := Option.some.inj hx
      exact absurd rfl hm
  · intro n r k x hw hx hm
    obtain ⟨rfl, rfl | rfl, rfl⟩ := hpos n r k hw
    · obtain rfl := Option.some.inj hx
      cases hm
    · obtain rfl := Option.some.inj hx
      exact ⟨⟨rfl, rfl, rfl⟩, 0, _, by omega, rfl, by decide, by decide⟩
  · intro n r k x i v hw hx hv
    obtain ⟨rfl, rfl | rfl, rfl⟩ := hpos n r k hw
    · obtain rfl := Option.some.inj hx
      match i with
      | 0 =>
        obtain rfl := Option.some.inj hv
        exact ⟨⟨fun _ => rfl, fun h => absurd h (by decide), by decide⟩, fun _ => ⟨_, rfl, by decide⟩⟩
      | 1 =>
        obtain rfl := Option.some.inj hv
        exact ⟨⟨fun h => absurd h (by decide), fun _ => by decide, by decide⟩, fun h => absurd ⟨rfl, rfl⟩ h.2.2⟩
      | i + 2 => cases hv
    · obtain rfl := Option.some.inj hx
      cases hv
  · intro n r k x hw hx ht
    obtain ⟨rfl, rfl | rfl, rfl⟩ := hpos n r k hw
    · obtain rfl := Option.some.inj hx
      decide
    · obtain rfl := Option.some.inj hx
      cases ht
  · intro n r k x hw hx hc
    obtain ⟨rfl, rfl | rfl, rfl⟩ := hpos n r k hw
    · obtain rfl := Option.some.inj hx
      cases hc
    · obtain rfl := Option.some.inj hx
      cases hc

end Ladder
