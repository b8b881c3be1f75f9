import Verif.Lemmas.Prim

/-
Case analysis of operand reads and writes in both directions.
-/

namespace Ladder

open Spec Op

theorem isSome_load_of_lt {α : Type} {a : Arr α} {l : List α} {i : Nat} {f : α → Nat} (ha : a = some l)
    (h : i < l.length) : ((at? a i).map f).isSome := by
  subst ha; simp [at?, h]

theorem i32_nonneg {v : Value} (h : ¬ v.i32 < 0) : v.raw.toNat < 2^31 := by
  by_cases h' : v.raw.toNat < 2^31
  · exact h'
  · exact absurd (toInt_neg_of_ge h') h

/-- What `writeValue` does, whatever the sizes: reject unchanged, or store to the designated, existing location. -/
theorem writeValue_cases {ctx ctx' : Ctx} {v : Value} {x : W32} {e : Err}
    (h : writeValue ctx v x = .ok (e, ctx')) :
    (e ≠ .ok ∧ ctx' = ctx) ∨
    (e = .ok ∧ writableKind v.type = true ∧ ∃ ℓ, place v = some ℓ ∧ (load ctx ℓ).isSome ∧
      ctx' = upd ctx ℓ (x.toNat % ℓ.size)) := by
  unfold writeValue at h
  cases ht : v.type <;> simp only [ht] at h
  case NONE => left; simp at h; simp [← h.1, h.2]
  case T => left; simp at h; simp [← h.1, h.2]
  case S => left; simp at h; simp [← h.1, h.2]
  case INV => left; simp at h; simp [← h.1, h.2]
  case Q =>
    cases hs : safeModPort ctx .Q v.module v.port with
    | error u => simp [hs] at h
    | ok o =>
      cases o with
      | some err =>
        simp only [hs, Except.ok.injEq, Prod.mk.injEq] at h
        left
        refine ⟨?_, h.2.symm⟩
        rw [← h.1]
        unfold safeModPort at hs
        simp only at hs
        repeat' split at hs
        all_goals simp_all
        all_goals (rw [← hs]; decide)
      | none =>
        simp only [hs, storePort] at h
        cases ho : aget ctx.output v.module with
        | error u => simp [ho] at h
        | ok o =>
          simp only [ho] at h
          cases hq : o.Q with
          | none => simp only [hq, Except.ok.injEq, Prod.mk.injEq] at h; left; simp [← h.1, h.2]
          | some l =>
            simp only [hq] at h
            split at h
            · simp only [Except.ok.injEq, Prod.mk.injEq] at h
              right
              refine ⟨h.1.symm, rfl, .Q (v.raw.toNat % 256) (v.raw.toNat / 256 % 256), by simp [place, ht], ?_, ?_⟩
              · rw [module_eq, aget_eq_ok] at ho
                rw [port_eq] at *
                simp only [load, ho, Option.bind_some]
                exact isSome_load_of_lt hq ‹_›
              · rw [← h.2]; simp [upd, module_eq, port_eq, Loc.size, lowByte_eq, ofNat_mod]
            · simp at h
  case I =>
    cases hs : safeModPort ctx .I v.module v.port with
    | error u => simp [hs] at h
    | ok o =>
      cases o with
      | some err =>
        simp only [hs, Except.ok.injEq, Prod.mk.injEq] at h
        left
        refine ⟨?_, h.2.symm⟩
        rw [← h.1]
        unfold safeModPort at hs
        simp only at hs
        repeat' split at hs
        all_goals simp_all
        all_goals (rw [← hs]; decide)
      | none =>
        simp only [hs, storePort] at h
        cases ho : aget ctx.input v.module with
        | error u => simp [ho] at h
        | ok o =>
          simp only [ho] at h
          cases hq : o.I with
          | none => simp only [hq, Except.ok.injEq, Prod.mk.injEq] at h; left; simp [← h.1, h.2]
          | some l =>
            simp only [hq] at h
            split at h
            · simp only [Except.ok.injEq, Prod.mk.injEq] at h
              right
              refine ⟨h.1.symm, rfl, .I (v.raw.toNat % 256) (v.raw.toNat / 256 % 256), by simp [place, ht], ?_, ?_⟩
              · rw [module_eq, aget_eq_ok] at ho
                rw [port_eq] at *
                simp only [load, ho, Option.bind_some]
                exact isSome_load_of_lt hq ‹_›
              · rw [← h.2]; simp [upd, module_eq, port_eq, Loc.size, lowByte_eq, ofNat_mod]
            · simp at h
  case IW =>
    cases hs : safeModPort ctx .IW v.module v.port with
    | error u => simp [hs] at h
    | ok o =>
      cases o with
      | some err =>
        simp only [hs, Except.ok.injEq, Prod.mk.injEq] at h
        left
        refine ⟨?_, h.2.symm⟩
        rw [← h.1]
        unfold safeModPort at hs
        simp only at hs
        repeat' split at hs
        all_goals simp_all
        all_goals (rw [← hs]; decide)
      | none =>
        simp only [hs, storePort] at h
        cases ho : aget ctx.input v.module with
        | error u => simp [ho] at h
        | ok o =>
          simp only [ho] at h
          cases hq : o.IW with
          | none => simp only [hq, Except.ok.injEq, Prod.mk.injEq] at h; left; simp [← h.1, h.2]
          | some l =>
            simp only [hq] at h
            split at h
            · simp only [Except.ok.injEq, Prod.mk.injEq] at h
              right
              refine ⟨h.1.symm, rfl, .IW (v.raw.toNat % 256) (v.raw.toNat / 256 % 256), by simp [place, ht], ?_, ?_⟩
              · rw [module_eq, aget_eq_ok] at ho
                rw [port_eq] at *
                simp only [load, ho, Option.bind_some]
                exact isSome_load_of_lt hq ‹_›
              · rw [← h.2]; simp [upd, module_eq, port_eq, Loc.size, ofNat_mod32]
            · simp at h
  case QW =>
    cases hs : safeModPort ctx .QW v.module v.port with
    | error u => simp [hs] at h
    | ok o =>
      cases o with
      | some err =>
        simp only [hs, Except.ok.injEq, Prod.mk.injEq] at h
        left
        refine ⟨?_, h.2.symm⟩
        rw [← h.1]
        unfold safeModPort at hs
        simp only at hs
        repeat' split at hs
        all_goals simp_all
        all_goals (rw [← hs]; decide)
      | none =>
        simp only [hs, storePort] at h
        cases ho : aget ctx.output v.module with
        | error u => simp [ho] at h
        | ok o =>
          simp only [ho] at h
          cases hq : o.QW with
          | none => simp only [hq, Except.ok.injEq, Prod.mk.injEq] at h; left; simp [← h.1, h.2]
          | some l =>
            simp only [hq] at h
            split at h
            · simp only [Except.ok.injEq, Prod.mk.injEq] at h
              right
              refine ⟨h.1.symm, rfl, .QW (v.raw.toNat % 256) (v.raw.toNat / 256 % 256), by simp [place, ht], ?_, ?_⟩
              · rw [module_eq, aget_eq_ok] at ho
                rw [port_eq] at *
                simp only [load, ho, Option.bind_some]
                exact isSome_load_of_lt hq ‹_›
              · rw [← h.2]; simp [upd, module_eq, port_eq, Loc.size, ofNat_mod32]
            · simp at h
  all_goals
    split at h
    · rename_i err hs
      simp only [Except.ok.injEq, Prod.mk.injEq] at h
      left
      refine ⟨?_, h.2.symm⟩
      rw [← h.1]
      unfold safeIndex at hs
      simp only at hs
      repeat' split at hs
      all_goals simp_all
      all_goals (rw [← hs]; decide)
    · rename_i idx hs
      unfold safeIndex at hs
      simp only at hs
      split at hs
      · simp at hs
      · rename_i hneg
        have hlt := i32_nonneg hneg
        split at hs
        · simp at hs
        · split at hs
          · simp at hs
          · simp only [Except.ok.injEq, toNat_raw hlt] at hs
            subst hs
            simp only [storeReg] at h
            split at h
            · simp only [Except.ok.injEq, Prod.mk.injEq] at h; left; simp [← h.1, h.2]
            · rename_i l hal
              split at h
              · rename_i hlen
                simp only [Except.ok.injEq, Prod.mk.injEq] at h
                right
                refine ⟨h.1.symm, rfl, _, by simp [place, ht]; exact ⟨by omega, rfl⟩, ?_, ?_⟩
                · simp only [load]; exact isSome_load_of_lt hal hlen
                · rw [← h.2]; simp [upd, Loc.size, ofNat_mod32, lowByte_eq, ofNat_mod]
              · simp at h

theorem at?_isSome_of_aget {α : Type} {a : Arr α} {i : Nat} {x : α} (h : aget a i = .ok x) : at? a i = some x :=
  aget_eq_ok.1 h

theorem aget_of_lt {α : Type} {a : Arr α} {n i : Nat} (hf : ∀ l, a = some l → l.length = n) (ha : a.isSome)
    (h : i < n) : ∃ x, aget a i = .ok x ∧ ∃ l, a = some l ∧ x ∈ l := by
  obtain ⟨x, hx⟩ := at?_of_lt hf ha h
  exact ⟨x, aget_eq_ok.2 hx, mem_of_at? hx⟩

/-- With consistent sizes a write never has undefined behaviour. -/
theorem writeValue_total {ctx : Ctx} (hf : Fits ctx) (v : Value) (x : W32) :
    ∃ e ctx', writeValue ctx v x = .ok (e, ctx') := by
  unfold writeValue
  cases ht : v.type <;> simp only
  case NONE => exact ⟨_, _, rfl⟩
  case T => exact ⟨_, _, rfl⟩
  case S => exact ⟨_, _, rfl⟩
  case INV => exact ⟨_, _, rfl⟩
  case Q =>
    simp only [safeModPort]
    split
    · rename_i hs
      split at hs
      · simp at hs
      · rename_i hout
        split at hs
        · simp at hs
        · obtain ⟨o, ho, l, hl, hm⟩ := aget_of_lt (fun l h => (hf.output l h).1)
            (by cases h : ctx.output <;> simp_all) (Nat.lt_of_not_le ‹_›)
          simp only [ho, Except.map] at hs
          split at hs <;> simp at hs
    · exact ⟨_, _, rfl⟩
    · rename_i hs
      split at hs
      · simp at hs
      · rename_i hout
        split at hs
        · simp at hs
        · obtain ⟨o, ho, l, hl, hm⟩ := aget_of_lt (fun l h => (hf.output l h).1)
            (by cases h : ctx.output <;> simp_all) (Nat.lt_of_not_le ‹_›)
          simp only [ho, Except.map] at hs
          split at hs
          · simp at hs
          · simp only [storePort, ho]
            split
            · exact ⟨_, _, rfl⟩
            · rename_i q hq
              rw [if_pos (by rw [((hf.output l hl).2 o hm).Q _ hq]; omega)]
              exact ⟨_, _, rfl⟩
  case QW =>
    simp only [safeModPort]
    split
    · rename_i hs
      split at hs
      · simp at hs
      · rename_i hout
        split at hs
        · simp at hs
        · obtain ⟨o, ho, l, hl, hm⟩ := aget_of_lt (fun l h => (hf.output l h).1)
            (by cases h : ctx.output <;> simp_all) (Nat.lt_of_not_le ‹_›)
          simp only [ho, Except.map] at hs
          split at hs <;> simp at hs
    · exact ⟨_, _, rfl⟩
    · rename_i hs
      split at hs
      · simp at hs
      · rename_i hout
        split at hs
        · simp at hs
        · obtain ⟨o, ho, l, hl, hm⟩ := aget_of_lt (fun l h => (hf.output l h).1)
            (by cases h : ctx.output <;> simp_all) (Nat.lt_of_not_le ‹_›)
          simp only [ho, Except.map] at hs
          split at hs
          · simp at hs
          · simp only [storePort, ho]
            split
            · exact ⟨_, _, rfl⟩
            · rename_i q hq
              rw [if_pos (by rw [((hf.output l hl).2 o hm).QW _ hq]; omega)]
              exact ⟨_, _, rfl⟩
  case I =>
    simp only [safeModPort]
    split
    · rename_i hs
      split at hs
      · simp at hs
      · rename_i hout
        split at hs
        · simp at hs
        · obtain ⟨o, ho, l, hl, hm⟩ := aget_of_lt (fun l h => (hf.input l h).1)
            (by cases h : ctx.input <;> simp_all) (Nat.lt_of_not_le ‹_›)
          simp only [ho, Except.map] at hs
          split at hs <;> simp at hs
    · exact ⟨_, _, rfl⟩
    · rename_i hs
      split at hs
      · simp at hs
      · rename_i hout
        split at hs
        · simp at hs
        · obtain ⟨o, ho, l, hl, hm⟩ := aget_of_lt (fun l h => (hf.input l h).1)
            (by cases h : ctx.input <;> simp_all) (Nat.lt_of_not_le ‹_›)
          simp only [ho, Except.map] at hs
          split at hs
          · simp at hs
          · simp only [storePort, ho]
            split
            · exact ⟨_, _, rfl⟩
            · rename_i q hq
              rw [if_pos (by rw [((hf.input l hl).2 o hm).I _ hq]; omega)]
              exact ⟨_, _, rfl⟩
  case IW =>
    simp only [safeModPort]
    split
    · rename_i hs
      split at hs
      · simp at hs
      · rename_i hout
        split at hs
        · simp at hs
        · obtain ⟨o, ho, l, hl, hm⟩ := aget_of_lt (fun l h => (hf.input l h).1)
            (by cases h : ctx.input <;> simp_all) (Nat.lt_of_not_le ‹_›)
          simp only [ho, Except.map] at hs
          split at hs <;> simp at hs
    · exact ⟨_, _, rfl⟩
    · rename_i hs
      split at hs
      · simp at hs
      · rename_i hout
        split at hs
        · simp at hs
        · obtain ⟨o, ho, l, hl, hm⟩ := aget_of_lt (fun l h => (hf.input l h).1)
            (by cases h : ctx.input <;> simp_all) (Nat.lt_of_not_le ‹_›)
          simp only [ho, Except.map] at hs
          split at hs
          · simp at hs
          · simp only [storePort, ho]
            split
            · exact ⟨_, _, rfl⟩
            · rename_i q hq
              rw [if_pos (by rw [((hf.input l hl).2 o hm).IW _ hq]; omega)]
              exact ⟨_, _, rfl⟩
  all_goals
    split
    · exact ⟨_, _, rfl⟩
    · rename_i idx hs
      unfold safeIndex at hs
      simp only at hs
      split at hs
      · simp at hs
      · split at hs
        · simp at hs
        · split at hs
          · simp at hs
          · simp only [Except.ok.injEq] at hs
            subst hs
            simp only [storeReg]
            split
            · exact ⟨_, _, rfl⟩
            · rename_i l hal
              have := hf.M; have := hf.Cd; have := hf.Cr; have := hf.Td; have := hf.Tr
              have := hf.C; have := hf.D; have := hf.R
              rw [if_pos (by simp_all)]
              exact ⟨_, _, rfl⟩

/-- An area of the context has not been allocated. -/
theorem safeIndex_err {ctx : Ctx} {k : Reg} {i : Int} {e : Err} (h : safeIndex ctx k i = .error e)
    (hk : k = .M ∨ k = .Cd ∨ k = .Cr ∨ k = .Td ∨ k = .Tr ∨ k = .C ∨ k = .T ∨ k = .D ∨ k = .R) :
    e = .outOfRange ∨ (e = .fail ∧ areaMissing ctx k) := by
  unfold safeIndex at h
  simp only at h
  split at h
  · simp at h; left; exact h.symm
  · rcases hk with rfl | rfl | rfl | rfl | rfl | rfl | rfl | rfl | rfl <;> simp only at h <;>
      (split at h
       · rename_i hn
         right
         simp only [Except.error.injEq] at h
         exact ⟨h.symm, by simpa [areaMissing] using hn⟩
       · split at h
         · left; simp at h; exact h.symm
         · simp at h)

/-- Effect of reading an operand. -/
theorem readValue_effect {env : Env} {v : Value} {w w' : World} {x : W32} (h : readValue env v w = .ok (x, w')) :
    w' = w ∨
    w' = { w with ctx := { w.ctx with last := { w.ctx.last with err := .outOfRange } } } ∨
    (areaMissing w.ctx v.type ∧
      let c := { w.ctx with last := { w.ctx.last with err := .fail }, state := .error }
      if w.ctx.on.panic then w' = { ctx := env.panic w.tick c, tick := w.tick + 1, trace := w.trace ++ [.panic] }
      else w' = { w with ctx := c }) := by
  simp only [readValue, bind_apply, getCtx_apply] at h
  cases ht : v.type <;> simp only [ht] at h
  case NONE => simp at h; left; exact h.2.symm
  case S => simp at h; left; exact h.2.symm
  case INV => simp at h; left; exact h.2.symm
  case Q =>
    left
    rw [ite_apply] at h
    split at h
    · simp at h; exact h.2.symm
    · rw [bind_eq_ok] at h
      obtain ⟨o, w1, h1, h2⟩ := h
      rw [lift_eq_ok] at h1 h2
      rw [h2.2, h1.2]
  case I =>
    left
    rw [ite_apply] at h
    split at h
    · simp at h; exact h.2.symm
    · rw [bind_eq_ok] at h
      obtain ⟨o, w1, h1, h2⟩ := h
      rw [lift_eq_ok] at h1 h2
      rw [h2.2, h1.2]
  case IW =>
    left
    rw [ite_apply] at h
    split at h
    · simp at h; exact h.2.symm
    · rw [bind_eq_ok] at h
      obtain ⟨o, w1, h1, h2⟩ := h
      rw [lift_eq_ok] at h1 h2
      rw [h2.2, h1.2]
  case QW =>
    left
    rw [ite_apply] at h
    split at h
    · simp at h; exact h.2.symm
    · rw [bind_eq_ok] at h
      obtain ⟨o, w1, h1, h2⟩ := h
      rw [lift_eq_ok] at h1 h2
      rw [h2.2, h1.2]
  all_goals
    generalize hs : safeIndex w.ctx _ v.i32 = si at h
    cases si with
    | error err =>
      rcases safeIndex_err hs (by simp) with rfl | ⟨rfl, hm⟩
      · right; left
        simp at h
        exact h.2.symm
      · right; right
        refine ⟨hm, ?_⟩
        simp [callPanic] at h
        simp only
        split
        · rename_i hp
          simp [hp] at h
          exact h.2.symm
        · rename_i hp
          simp [hp] at h
          exact h.2.symm
    | ok idx =>
      simp only [lift_eq_ok] at h
      left; exact h.2

end Ladder
