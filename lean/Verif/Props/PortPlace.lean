import Verif.Props.Place
import Verif.Props.Setup
import Verif.Model.Port

/-
C84, placement: the shipped foreign function as a block of a program.
-/

set_option autoImplicit false

namespace Ladder.Props

open Spec

/-- **C84** (placement): once registered, the shipped foreign function can be placed wherever three cells below each other are
empty; it takes these three cells and has three operands. -/
theorem C84_placed {c : Ctx} {fns : List Foreign} (hg : Spec.Grids c) (hf : Foreigners c fns) (hl : fns.length < 100)
    {n row col : Nat} (hn : n < c.qty.networks) (hi : Inside c n row 3 col)
    (he : ∀ k, k < 3 → ∃ x, cell? c n (row + k) col = some x ∧ x.code = .NOP) :
    ∃ c1 c2, addForeign true c Port.foreignInit 1 = (true, c1) ∧ Foreigners c1 (fns ++ [(Port.foreignInit (fresh fns.length)).2]) ∧
      fnCell true c1 n row col .FOREIGN fns.length = .ok (true, c2) ∧ Placed c1 c2 n row col .FOREIGN 3 3 := by
  have hs := C48_step hf ⟨true, Port.foreignInit, 1⟩
  have e : addForeign true c Port.foreignInit 1 = (true, (addForeign true c Port.foreignInit 1).2) := by
    unfold addForeign
    have : ¬ (1 = 0 ∨ (c.foreignQty + 1) % 2^32 > 100) := by
      rw [hf.qty]
      omega
    rw [if_neg this]
    rfl
  rcases hs with ⟨-, -, h3, h4, -⟩ | ⟨h1, -⟩
  · generalize hc1 : (addForeign true c Port.foreignInit 1).2 = c1 at e h3 h4
    have hat : at? c1.foreign fns.length = some (Port.foreignInit (fresh fns.length)).2 := by
      have := h3.table
      unfold Table at this
      rw [this, if_neg (by simp)]
      simp [at?]
    have hnet : c1.network = c.network := (congrArg Ctx.network h4 :)
    have hq : c1.qty = c.qty := (congrArg Ctx.qty h4 :)
    have hcell : ∀ n r k, cell? c1 n r k = cell? c n r k := by intro n r k; simp only [cell?, hnet]
    have hg1 : Spec.Grids c1 := by
      intro m hm
      rw [hq] at hm
      obtain ⟨net, a, b⟩ := hg m hm
      exact ⟨net, by rw [hnet]; exact a, fun r k hr hk => by rw [hcell]; exact b r k hr hk⟩
    have hspan : span c1 .FOREIGN fns.length = 3 := by simp only [span, hat]; rfl
    have har : arity c1 .FOREIGN fns.length = 3 := by simp only [arity, hat]; rfl
    have hp : Placeable c1 .FOREIGN fns.length := by
      refine ⟨by decide, fun _ g hgg => ?_⟩
      rw [hat] at hgg
      cases hgg
      exact ⟨by show 1 ≤ 3; omega, .inr (by show 1 ≤ 3; omega)⟩
    have hin : Inside c1 n row 3 col := by
      obtain ⟨net, a, b⟩ := hi
      exact ⟨net, by rw [hnet]; exact a, b⟩
    rcases C49_step_partial hg1 h3 hp n row col with ⟨er, -, hno⟩ | ⟨c2, h5, -, -, h8⟩
    · refine absurd ⟨by rw [hq]; exact hn, fun _ => by simp, by rw [hspan]; exact hin, ?_⟩ hno
      rw [hspan]
      intro k hk
      rw [hcell]
      exact he k hk
    · rw [hspan, har] at h8
      exact ⟨c1, c2, e, h3, h5, h8⟩
  · rw [e] at h1
    cases h1

/-- A configuration just initialised, and a place in its second column. -/
example : Spec.Grids (initCtx demoArgs) ∧ Foreigners (initCtx demoArgs) [] ∧ 0 < (initCtx demoArgs).qty.networks ∧
    Inside (initCtx demoArgs) 0 0 3 1 ∧ ∀ k, k < 3 → ∃ x, cell? (initCtx demoArgs) 0 (0 + k) 1 = some x ∧ x.code = .NOP := by
  have e : ∀ n, n < demoArgs.networks → at? (initCtx demoArgs).network n = some
      { enable := false, rows := demoArgs.rows, cols := demoArgs.cols
        cells := some (List.replicate demoArgs.rows (List.replicate demoArgs.cols {})) } := by
    intro n hn
    have : demoArgs.initNetwork = true := rfl
    simp only [initCtx, this, if_true, at?, Option.bind_some, List.getElem?_replicate, if_pos hn]
  have hcell : ∀ n r k, n < demoArgs.networks → r < demoArgs.rows → k < demoArgs.cols →
      cell? (initCtx demoArgs) n r k = some {} := by
    intro n r k hn hr hk
    unfold cell?
    rw [e n hn]
    simp [at?, hr, hk]
  refine ⟨fun n hn => ⟨_, e n hn, fun r k hr hk => by rw [hcell n r k hn hr hk]; rfl⟩, ⟨rfl, rfl⟩, by decide,
    ⟨_, e 0 (by decide), by decide, by decide, by decide⟩, fun k hk => ⟨{}, hcell 0 (0 + k) 1 (by decide) ?_ (by decide), rfl⟩⟩
  have : 3 ≤ demoArgs.rows := by decide
  omega

end Ladder.Props
