import Verif.Lemmas.Mem

/-
Preservation of `Fits`.
-/

namespace Ladder

open Spec

theorem length_aset {α : Type} {a : Arr α} {i n : Nat} {x : α} (h : ∀ l, a = some l → l.length = n) :
    ∀ l, aset a i x = some l → l.length = n := by
  intro l hl
  cases a with
  | none => simp [aset] at hl
  | some l' => simp [aset] at hl; subst hl; simpa using h l' rfl

theorem mem_modify {α : Type} {l : List α} {i : Nat} {f : α → α} {x : α} (h : x ∈ l.modify i f) :
    x ∈ l ∨ ∃ y ∈ l, x = f y := by
  rw [List.mem_iff_getElem?] at h
  obtain ⟨j, hj⟩ := h
  rw [List.getElem?_modify] at hj
  cases hl : l[j]? with
  | none => simp [hl] at hj
  | some y =>
    simp only [hl] at hj
    have hy : y ∈ l := List.mem_of_getElem? hl
    split at hj
    · right; exact ⟨y, hy, by simpa [eq_comm] using hj⟩
    · left; simp at hj; subst hj; exact hy

theorem Spec.GridFits.modify {net : Network} (h : GridFits net) (r c : Nat) (f : Cell → Cell)
    (hf : ∀ cell, (∀ d, cell.data = some d → d.length = cell.dataQty) →
      ∀ d, (f cell).data = some d → d.length = (f cell).dataQty) :
    GridFits { net with cells := net.cells.map fun rows => rows.modify r fun row => row.modify c f } := by
  cases hc : net.cells with
  | none => constructor <;> simp
  | some rows =>
    constructor
    · intro l hl
      simp at hl; subst hl; simpa using h.rows _ hc
    · intro l hl row hrow
      simp at hl; subst hl
      rcases mem_modify hrow with h' | ⟨y, hy, rfl⟩
      · exact h.cols _ hc _ h'
      · simpa using h.cols _ hc _ hy
    · intro l hl row hrow cell hcell
      simp at hl; subst hl
      rcases mem_modify hrow with h' | ⟨y, hy, rfl⟩
      · exact h.data _ hc _ h' _ hcell
      · rcases mem_modify hcell with h' | ⟨z, hz, rfl⟩
        · exact h.data _ hc _ hy _ h'
        · exact hf _ (h.data _ hc _ hy _ hz)

theorem Spec.Fits.modCell {ctx : Ctx} (h : Fits ctx) (n r c : Nat) (f : Cell → Cell)
    (hf : ∀ cell, (∀ d, cell.data = some d → d.length = cell.dataQty) →
      ∀ d, (f cell).data = some d → d.length = (f cell).dataQty) : Fits (ctx.modCell n r c f) := by
  refine { h with network := ?_ }
  intro l hl net hnet
  cases hc : ctx.network with
  | none => simp [Ctx.modCell, hc] at hl
  | some nets =>
    simp [Ctx.modCell, hc] at hl; subst hl
    rcases mem_modify hnet with h' | ⟨y, hy, rfl⟩
    · exact h.network _ hc _ h'
    · exact (h.network _ hc _ hy).modify r c f hf

theorem Spec.Fits.modOut {ctx : Ctx} (h : Fits ctx) (m : Nat) (f : OutMod → OutMod)
    (hf : ∀ o, OutFits o → OutFits (f o)) : Fits (ctx.modOut m f) := by
  refine { h with output := ?_, noOutput := ?_ }
  · intro l hl
    cases hc : ctx.output with
    | none => simp [Ctx.modOut, hc] at hl
    | some mods =>
      simp [Ctx.modOut, hc] at hl; subst hl
      refine ⟨by simpa [Ctx.modOut] using (h.output _ hc).1, fun o ho => ?_⟩
      rcases mem_modify ho with h' | ⟨y, hy, rfl⟩
      · exact (h.output _ hc).2 _ h'
      · exact hf _ ((h.output _ hc).2 _ hy)
  · intro hn
    exact h.noOutput (by simpa [Ctx.modOut] using hn)

theorem Spec.Fits.modIn {ctx : Ctx} (h : Fits ctx) (m : Nat) (f : InMod → InMod)
    (hf : ∀ o, InFits o → InFits (f o)) : Fits (ctx.modIn m f) := by
  refine { h with input := ?_, noInput := ?_ }
  · intro l hl
    cases hc : ctx.input with
    | none => simp [Ctx.modIn, hc] at hl
    | some mods =>
      simp [Ctx.modIn, hc] at hl; subst hl
      refine ⟨by simpa [Ctx.modIn] using (h.input _ hc).1, fun o ho => ?_⟩
      rcases mem_modify ho with h' | ⟨y, hy, rfl⟩
      · exact (h.input _ hc).2 _ h'
      · exact hf _ ((h.input _ hc).2 _ hy)
  · intro hn
    exact h.noInput (by simpa [Ctx.modIn] using hn)

theorem Spec.Fits.upd {ctx : Ctx} (h : Fits ctx) (ℓ : Loc) (v : Nat) : Fits (upd ctx ℓ v) := by
  cases ℓ
  case M i => exact { h with M := length_aset h.M }
  case Cd i => exact { h with Cd := length_aset h.Cd }
  case Cr i => exact { h with Cr := length_aset h.Cr }
  case Td i => exact { h with Td := length_aset h.Td }
  case Tr i => exact { h with Tr := length_aset h.Tr }
  case Mh i => exact { h with Mh := length_aset h.Mh }
  case Cdh i => exact { h with Cdh := length_aset h.Cdh }
  case Crh i => exact { h with Crh := length_aset h.Crh }
  case Tdh i => exact { h with Tdh := length_aset h.Tdh }
  case Trh i => exact { h with Trh := length_aset h.Trh }
  case C i => exact { h with C := length_aset h.C }
  case D i => exact { h with D := length_aset h.D }
  case R i => exact { h with R := length_aset h.R }
  case acc i =>
    refine { h with timers := ?_ }
    intro l hl
    cases hc : ctx.timers with
    | none => simp [Ladder.upd, hc] at hl
    | some ts => simp [Ladder.upd, hc] at hl; subst hl; simpa using h.timers _ hc
  case stamp i =>
    refine { h with timers := ?_ }
    intro l hl
    cases hc : ctx.timers with
    | none => simp [Ladder.upd, hc] at hl
    | some ts => simp [Ladder.upd, hc] at hl; subst hl; simpa using h.timers _ hc
  case I m p => exact h.modIn _ _ fun o ho => { ho with I := length_aset ho.I }
  case IW m p => exact h.modIn _ _ fun o ho => { ho with IW := length_aset ho.IW }
  case Ih m p => exact h.modIn _ _ fun o ho => { ho with Ih := length_aset ho.Ih }
  case IWh m p => exact h.modIn _ _ fun o ho => { ho with IWh := length_aset ho.IWh }
  case Q m p => exact h.modOut _ _ fun o ho => { ho with Q := length_aset ho.Q }
  case QW m p => exact h.modOut _ _ fun o ho => { ho with QW := length_aset ho.QW }
  case Qh m p => exact h.modOut _ _ fun o ho => { ho with Qh := length_aset ho.Qh }
  case QWh m p => exact h.modOut _ _ fun o ho => { ho with QWh := length_aset ho.QWh }
  case cell n r c => exact h.modCell _ _ _ _ fun cell hc => hc

end Ladder
