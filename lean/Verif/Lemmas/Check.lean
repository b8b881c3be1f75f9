import Verif.Lemmas.Prim
import Verif.Model.Check
import Verif.Spec.Check

/-
The loops of the program checker as statements about the cells they visit.
-/

set_option autoImplicit false

namespace Ladder

open Spec

theorem cell_eq_ok {ctx : Ctx} {net : Network} {n r k : Nat} {x : Cell} (hn : at? ctx.network n = some net) :
    net.cell r k = .ok x ↔ cell? ctx n r k = some x := by
  simp only [cell?, hn, Option.bind_some, Network.cell]
  cases net.cells with
  | none => simp [at?]
  | some l =>
    simp only [at?, Option.bind_some]
    cases l[r]? with
    | none => simp
    | some row => cases h : row[k]? <;> simp [h]

theorem checkOperand_pass {ctx : Ctx} {f : Ins} {q d : Nat} {v : Value} : checkOperand ctx f q d v = .ok none ↔
    (isTimer f = true → checkTimer ctx q d v = none) ∧ (isTimer f = false → checkIO ctx v = .ok none) ∧
    checkIndex ctx v = none ∧ kindOk f d v.type = some true := by
  unfold checkOperand
  cases hf : isTimer f
  · simp only [Bool.false_eq_true, if_false, forall_const, false_imp_iff, true_and]
    rcases checkIO ctx v with _ | _ | _ <;> simp
    cases checkIndex ctx v <;> simp
    rcases kindOk f d v.type with _ | _ | _ <;> simp
  · simp only [if_true, forall_const, Bool.true_eq_false, false_imp_iff, true_and]
    cases checkTimer ctx q d v <;> simp
    cases checkIndex ctx v <;> simp
    rcases kindOk f d v.type with _ | _ | _ <;> simp

theorem checkOperands_pass {ctx : Ctx} {x : Cell} : ∀ (n d : Nat), checkOperands ctx x d n = .ok none ↔
    ∀ i, d ≤ i → i < d + n → ∃ v, at? x.data i = some v ∧ checkOperand ctx x.code x.dataQty i v = .ok none
  | 0, d => by simp only [checkOperands, true_iff]; omega
  | n + 1, d => by
    have ih := checkOperands_pass (ctx := ctx) (x := x) n (d + 1)
    unfold checkOperands
    constructor
    · intro h i h1 h2
      split at h
      · simp at h
      · rename_i v hv
        rw [aget_eq_ok] at hv
        split at h
        · simp at h
        · simp at h
        · rename_i ho
          rcases Nat.eq_or_lt_of_le h1 with rfl | h1
          · exact ⟨v, hv, ho⟩
          · exact ih.1 h i h1 (by omega)
    · intro h
      obtain ⟨v, hv, ho⟩ := h d (Nat.le_refl _) (by omega)
      rw [aget_eq_ok.2 hv]
      simp only [ho]
      exact ih.2 fun i h1 h2 => h i (by omega) (by omega)

/-- The verdict on one cell is never the error code `ok`. -/
theorem checkPort_ne_ok {q : Nat} {p : Nat → Except UB Nat} {v : Value} {a b c : ChkErr} (ha : a ≠ .ok) (hb : b ≠ .ok)
    (hc : c ≠ .ok) : checkPort q p v a b c ≠ .ok (some .ok) := by
  unfold checkPort
  split
  · simpa using ha
  · split
    · simpa using hb
    · split
      · simp
      · split
        · simpa using hc
        · simp

theorem checkOperand_ne_ok {ctx : Ctx} {f : Ins} {q d : Nat} {v : Value} : checkOperand ctx f q d v ≠ .ok (some .ok) := by
  unfold checkOperand
  split
  · rename_i e he
    intro h
    simp only [Except.ok.injEq, Option.some.injEq] at h
    subst h
    split at he
    · unfold checkTimer at he
      split at he <;> (try split at he) <;> (try split at he) <;> (try split at he) <;> simp_all
    · simp at he
  · split
    · simp
    · rename_i e he
      intro h
      simp only [Except.ok.injEq, Option.some.injEq] at h
      subst h
      split at he
      · simp at he
      · unfold checkIO at he
        dsimp only at he
        split at he
        · exact checkPort_ne_ok (by simp) (by simp) (by simp) he
        · exact checkPort_ne_ok (by simp) (by simp) (by simp) he
        · exact checkPort_ne_ok (by simp) (by simp) (by simp) he
        · exact checkPort_ne_ok (by simp) (by simp) (by simp) he
        · simp at he
    · split
      · rename_i e he
        intro h
        simp only [Except.ok.injEq, Option.some.injEq] at h
        subst h
        unfold checkIndex at he
        dsimp only at he
        split at he <;> (try split at he) <;> simp_all
      · split <;> simp

theorem checkOperands_ne_ok {ctx : Ctx} {x : Cell} : ∀ (n d : Nat), checkOperands ctx x d n ≠ .ok (some .ok)
  | 0, d => by simp [checkOperands]
  | n + 1, d => by
    unfold checkOperands
    split
    · simp
    · split
      · simp
      · rename_i e he
        intro h
        simp only [Except.ok.injEq, Option.some.injEq] at h
        subst h
        exact checkOperand_ne_ok he
      · exact checkOperands_ne_ok n (d + 1)

theorem checkSpan_ne_ok {ctx : Ctx} {rows r : Nat} {x : Cell} : checkSpan ctx rows r x ≠ .ok (.inl .ok) := by
  unfold checkSpan
  dsimp only
  split <;> try (simp; done)
  · split
    · simp
    · split
      · simp
      · split
        · simp
        · split
          · simp
          · split <;> simp
  · split
    · simp
    · split <;> simp

theorem checkCell_ne_ok {ctx : Ctx} {rows r e : Nat} {x : Cell} : checkCell ctx rows r x e ≠ .ok (.inl .ok) := by
  unfold checkCell
  split
  · split
    · simp
    · split <;> simp
  · split
    · simp
    · split
      · simp
      · rename_i e he
        intro h
        simp only [Except.ok.injEq, Sum.inl.injEq] at h
        subst h
        exact checkOperands_ne_ok _ _ he
      · exact checkSpan_ne_ok

/-- The row loop runs to its end exactly when some course of `expected_multi` passes every row. -/
theorem checkRows_go {ctx : Ctx} {net : Network} {nt k : Nat} : ∀ (n r e : Nat) (last : Option ChkStatus),
    (∃ l, checkRows ctx net nt k r n e last = .ok (.go l)) ↔
    ∃ es : Nat → Nat, es r = e ∧ ∀ i, r ≤ i → i < r + n →
      ∃ x, net.cell i k = .ok x ∧ checkCell ctx net.rows i x (es i) = .ok (.inr (es (i + 1)))
  | 0, r, e, last => by
    constructor
    · rintro -
      exact ⟨fun _ => e, rfl, by omega⟩
    · rintro -
      exact ⟨last, rfl⟩
  | n + 1, r, e, last => by
    constructor
    · rintro ⟨l, h⟩
      unfold checkRows at h
      split at h
      · simp at h
      · rename_i x hx
        split at h
        · simp at h
        · simp at h
        · rename_i e' he'
          obtain ⟨es, h0, hs⟩ := (checkRows_go n (r + 1) e' _).1 ⟨l, h⟩
          refine ⟨fun i => if i = r then e else es i, by simp, fun i h1 h2 => ?_⟩
          by_cases hi : i = r
          · subst hi
            refine ⟨x, hx, ?_⟩
            simp only [if_true]
            rw [if_neg (by omega), h0, he']
          · obtain ⟨y, hy, hc⟩ := hs i (by omega) (by omega)
            refine ⟨y, hy, ?_⟩
            simp only [hi, if_false]
            rw [if_neg (by omega), hc]
    · rintro ⟨es, h0, hs⟩
      obtain ⟨x, hx, hc⟩ := hs r (Nat.le_refl _) (by omega)
      unfold checkRows
      rw [hx]
      simp only
      rw [h0] at hc
      rw [hc]
      exact (checkRows_go n (r + 1) _ _).2 ⟨es, rfl, fun i h1 h2 => hs i (by omega) (by omega)⟩

/-- Column `k` passes. -/
def ColumnPasses (ctx : Ctx) (net : Network) (k : Nat) : Prop :=
  ∃ es : Nat → Nat, es 0 = 0 ∧ ∀ i, i < net.rows →
    ∃ x, net.cell i k = .ok x ∧ checkCell ctx net.rows i x (es i) = .ok (.inr (es (i + 1)))

theorem checkRows_passes {ctx : Ctx} {net : Network} {nt k : Nat} {last : Option ChkStatus} :
    (∃ l, checkRows ctx net nt k 0 net.rows 0 last = .ok (.go l)) ↔ ColumnPasses ctx net k := by
  rw [checkRows_go]
  unfold ColumnPasses
  simp

theorem checkCols_go {ctx : Ctx} {net : Network} {nt : Nat} : ∀ (n k : Nat) (last : Option ChkStatus),
    (∃ l, checkCols ctx net nt k n last = .ok (.go l)) ↔ ∀ j, k ≤ j → j < k + n → ColumnPasses ctx net j
  | 0, k, last => by
    simp only [checkCols, Except.ok.injEq, Walk.go.injEq, exists_eq', true_iff]; omega
  | n + 1, k, last => by
    unfold checkCols
    constructor
    · rintro ⟨l, h⟩ j h1 h2
      split at h
      · rename_i l1 hr
        rcases Nat.eq_or_lt_of_le h1 with rfl | h1
        · exact checkRows_passes.1 ⟨l1, hr⟩
        · exact (checkCols_go n (k + 1) l1).1 ⟨l, h⟩ j h1 (by omega)
      · rename_i h'
        exact absurd h (h' l)
    · intro h
      obtain ⟨l, hl⟩ := (checkRows_passes (nt := nt) (last := last)).2 (h k (Nat.le_refl _) (by omega))
      rw [hl]
      exact (checkCols_go n (k + 1) l).2 fun j h1 h2 => h j (by omega) (by omega)

theorem checkNets_go {ctx : Ctx} : ∀ (n t : Nat) (last : Option ChkStatus),
    (∃ l, checkNets ctx t n last = .ok (.go l)) ↔
    ∀ j, t ≤ j → j < t + n → ∃ net, at? ctx.network j = some net ∧ ∀ k, k < net.cols → ColumnPasses ctx net k
  | 0, t, last => by
    simp only [checkNets, Except.ok.injEq, Walk.go.injEq, exists_eq', true_iff]; omega
  | n + 1, t, last => by
    unfold checkNets
    constructor
    · rintro ⟨l, h⟩ j h1 h2
      split at h
      · simp at h
      · rename_i net hn
        rw [aget_eq_ok] at hn
        split at h
        · rename_i l1 hr
          rcases Nat.eq_or_lt_of_le h1 with rfl | h1
          · exact ⟨net, hn, fun k hk => (checkCols_go net.cols 0 last).1 ⟨l1, hr⟩ k (by omega) (by omega)⟩
          · exact (checkNets_go n (t + 1) l1).1 ⟨l, h⟩ j h1 (by omega)
        · rename_i h'
          exact absurd h (h' l)
    · intro h
      obtain ⟨net, hn, hk⟩ := h t (Nat.le_refl _) (by omega)
      rw [aget_eq_ok.2 hn]
      obtain ⟨l, hl⟩ := (checkCols_go (nt := t) net.cols 0 last).2 fun k _ h2 => hk k (by omega)
      simp only [hl]
      exact (checkNets_go n (t + 1) l).2 fun j h1 h2 => h j (by omega) (by omega)

/-! ### Where the loops stop -/

theorem checkRows_stop {ctx : Ctx} {net : Network} {nt k : Nat} : ∀ (n r e : Nat) (last : Option ChkStatus) (s : ChkStatus),
    checkRows ctx net nt k r n e last = .ok (.stop s) → s.error ≠ .ok ∧ s.network = nt ∧ s.column = k ∧ r ≤ s.row ∧
      s.row < r + n ∧ ∃ x, net.cell s.row k = .ok x ∧ x.code = s.code
  | 0, r, e, last, s, h => by simp [checkRows] at h
  | n + 1, r, e, last, s, h => by
    unfold checkRows at h
    split at h
    · simp at h
    · rename_i x hx
      split at h
      · simp at h
      · rename_i er he
        simp only [Except.ok.injEq, Walk.stop.injEq] at h
        subst h
        refine ⟨?_, rfl, rfl, Nat.le_refl _, by simp, x, hx, rfl⟩
        rintro rfl
        exact checkCell_ne_ok he
      · obtain ⟨h1, h2, h3, h4, h5, h6⟩ := checkRows_stop n _ _ _ _ h
        exact ⟨h1, h2, h3, by omega, by omega, h6⟩

theorem checkCols_stop {ctx : Ctx} {net : Network} {nt : Nat} : ∀ (n k : Nat) (last : Option ChkStatus) (s : ChkStatus),
    checkCols ctx net nt k n last = .ok (.stop s) → s.error ≠ .ok ∧ s.network = nt ∧ k ≤ s.column ∧ s.column < k + n ∧
      s.row < net.rows ∧ ∃ x, net.cell s.row s.column = .ok x ∧ x.code = s.code
  | 0, k, last, s, h => by simp [checkCols] at h
  | n + 1, k, last, s, h => by
    unfold checkCols at h
    split at h
    · obtain ⟨h1, h2, h3, h4, h5⟩ := checkCols_stop n _ _ _ h
      exact ⟨h1, h2, by omega, by omega, h5⟩
    · obtain ⟨h1, h2, h3, h4, h5, h6⟩ := checkRows_stop _ _ _ _ _ h
      exact ⟨h1, h2, by omega, by omega, by omega, by rw [h3]; exact h6⟩

theorem checkNets_stop {ctx : Ctx} : ∀ (n t : Nat) (last : Option ChkStatus) (s : ChkStatus),
    checkNets ctx t n last = .ok (.stop s) → s.error ≠ .ok ∧ t ≤ s.network ∧ s.network < t + n ∧
      ∃ net, at? ctx.network s.network = some net ∧ s.row < net.rows ∧ s.column < net.cols ∧
        ∃ x, net.cell s.row s.column = .ok x ∧ x.code = s.code
  | 0, t, last, s, h => by simp [checkNets] at h
  | n + 1, t, last, s, h => by
    unfold checkNets at h
    split at h
    · simp at h
    · rename_i net hn
      rw [aget_eq_ok] at hn
      split at h
      · obtain ⟨h1, h2, h3, h4⟩ := checkNets_stop n _ _ _ h
        exact ⟨h1, by omega, by omega, h4⟩
      · obtain ⟨h1, h2, h3, h4, h5, h6⟩ := checkCols_stop _ _ _ _ h
        exact ⟨h1, by omega, by omega, net, by rw [h2]; exact hn, h5, by omega, h6⟩

/-! ### The status of a walk that does not stop -/

/-- A status that reports no error at an existing cell. -/
def Fine (ctx : Ctx) (s : ChkStatus) : Prop :=
  s.error = .ok ∧ Within ctx s.network s.row s.column ∧ ∃ x, cell? ctx s.network s.row s.column = some x ∧ x.code = s.code

theorem checkRows_last {ctx : Ctx} {net : Network} {nt k : Nat} (hq : nt < ctx.qty.networks) (hn : at? ctx.network nt = some net)
    (hk : k < net.cols) : ∀ (n r e : Nat) (last : Option ChkStatus) (l : Option ChkStatus), r + n ≤ net.rows →
    checkRows ctx net nt k r n e last = .ok (.go l) → (n = 0 ∧ l = last) ∨ (0 < n ∧ ∃ s, l = some s ∧ Fine ctx s)
  | 0, r, e, last, l, _, h => by
    simp only [checkRows, Except.ok.injEq, Walk.go.injEq] at h
    exact .inl ⟨rfl, h.symm⟩
  | n + 1, r, e, last, l, hr, h => by
    unfold checkRows at h
    split at h
    · simp at h
    · rename_i x hx
      split at h
      · simp at h
      · simp at h
      · rcases checkRows_last hq hn hk n _ _ _ _ (by omega) h with ⟨-, rfl⟩ | ⟨-, h1⟩
        · exact .inr ⟨by omega, _, rfl, rfl, ⟨hq, net, hn, by dsimp only; omega, hk⟩, x, (cell_eq_ok hn).1 hx, rfl⟩
        · exact .inr ⟨by omega, h1⟩

theorem checkCols_last {ctx : Ctx} {net : Network} {nt : Nat} (hq : nt < ctx.qty.networks) (hn : at? ctx.network nt = some net) :
    ∀ (n k : Nat) (last l : Option ChkStatus), k + n ≤ net.cols → checkCols ctx net nt k n last = .ok (.go l) →
    ((n = 0 ∨ net.rows = 0) ∧ l = last) ∨ (0 < n ∧ 0 < net.rows ∧ ∃ s, l = some s ∧ Fine ctx s)
  | 0, k, last, l, _, h => by
    simp only [checkCols, Except.ok.injEq, Walk.go.injEq] at h
    exact .inl ⟨.inl rfl, h.symm⟩
  | n + 1, k, last, l, hk, h => by
    unfold checkCols at h
    split at h
    · rename_i l1 h1
      have ha := checkRows_last hq hn (by omega) _ _ _ _ _ (by omega) h1
      have hb := checkCols_last hq hn n _ _ _ (by omega) h
      rcases hb with ⟨hb, rfl⟩ | hb
      · rcases ha with ⟨ha, rfl⟩ | ⟨ha, s, hs⟩
        · exact .inl ⟨.inr ha, rfl⟩
        · exact .inr ⟨by omega, ha, s, hs⟩
      · exact .inr ⟨by omega, hb.2.1, hb.2.2⟩
    · rename_i h'
      exact absurd h (h' l)

theorem checkNets_last {ctx : Ctx} : ∀ (n t : Nat) (last l : Option ChkStatus), t + n ≤ ctx.qty.networks →
    checkNets ctx t n last = .ok (.go l) →
    ((∀ j, t ≤ j → j < t + n → ∃ net, at? ctx.network j = some net ∧ (net.rows = 0 ∨ net.cols = 0)) ∧ l = last) ∨
    (∃ j net, t ≤ j ∧ j < t + n ∧ at? ctx.network j = some net ∧ 0 < net.rows ∧ 0 < net.cols) ∧ ∃ s, l = some s ∧ Fine ctx s
  | 0, t, last, l, _, h => by
    simp only [checkNets, Except.ok.injEq, Walk.go.injEq] at h
    exact .inl ⟨by omega, h.symm⟩
  | n + 1, t, last, l, ht, h => by
    unfold checkNets at h
    split at h
    · simp at h
    · rename_i net hn
      rw [aget_eq_ok] at hn
      split at h
      · rename_i l1 h1
        have ha := checkCols_last (by omega) hn _ _ _ _ (by omega) h1
        have hb := checkNets_last n _ _ _ (by omega) h
        rcases hb with ⟨hb, rfl⟩ | ⟨⟨j, nj, h2, h3, h4⟩, hb⟩
        · rcases ha with ⟨ha, rfl⟩ | ⟨h2, h3, s, hs⟩
          · refine .inl ⟨fun j h2 h3 => ?_, rfl⟩
            rcases Nat.eq_or_lt_of_le h2 with rfl | h2
            · exact ⟨net, hn, ha.symm⟩
            · exact hb j h2 (by omega)
          · exact .inr ⟨⟨t, net, by omega, by omega, hn, h3, h2⟩, s, hs⟩
        · exact .inr ⟨⟨j, nj, by omega, by omega, h4⟩, hb⟩
      · rename_i h'
        exact absurd h (h' l)

end Ladder
