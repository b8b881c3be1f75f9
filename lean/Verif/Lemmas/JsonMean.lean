import Verif.Lemmas.JsonDoc
import Verif.Lemmas.Area

/-
Lemmas about the program that results from a document.
-/

set_option autoImplicit false

namespace Ladder

open Spec

theorem loadValue_of {H : Host} {code : Ins} {d : Nat} {j : Json} {v : Value} (h : loadValue H code d j = some v) :
    OperandOf H code d j v := by
  unfold loadValue at h
  split at h
  case h_2 => cases h
  rename_i ms
  split at h
  case h_2 => cases h
  rename_i name ty w e1 e2 e3
  have num : ∀ {t : Reg}, (numberOf w).map (fun raw => ({ type := t, raw := raw } : Value)) = some v →
      v.type = t ∧ ∀ k, k < 2 ^ 32 → w = toString k → v.raw.toNat = k := by
    intro t hv
    rw [Option.map_eq_some_iff] at hv
    obtain ⟨raw, hr, rfl⟩ := hv
    refine ⟨rfl, fun k hk e => ?_⟩
    rw [e, numberOf_toString hk] at hr
    cases hr
    simp only [BitVec.toNat_ofNat]
    exact Nat.mod_eq_of_lt hk
  refine ⟨ms, ty, w, rfl, strMember_iff.1 e2, strMember_iff.1 e3, ?_⟩
  by_cases hb : IsBase code d
  · rw [if_pos (timed_iff.2 hb)] at h
    split at h
    · cases h
    · rename_i t ht
      obtain ⟨rfl, h2⟩ := num h
      exact ⟨fun _ => baseOf_table ht, fun x => absurd hb x, fun x => absurd hb x, fun x => absurd hb x, fun x => absurd hb x,
        fun _ => h2⟩
  · rw [if_neg fun x => hb (timed_iff.1 x)] at h
    have htab : v.type = regOf ty → regOf ty ≠ .INV → (ty, v.type) ∈ typeTable ∨ (ty ∉ types ∧ (ty, v.type) ∈ baseTable) := by
      intro e hi
      rw [e]
      exact (regOf_table rfl).resolve_left hi
    refine ⟨fun x => absurd x hb, fun _ => ?_, fun _ => ?_, fun _ => ?_, fun _ => ?_, ?_⟩
    · refine htab ?_ ?_
      · revert h
        generalize regOf ty = t
        intro h
        cases t
        case S => cases h; rfl
        case R => cases h; rfl
        case INV => cases h
        case I => unfold operandOf at h; simp only [Option.map_eq_some_iff] at h; obtain ⟨_, _, rfl⟩ := h; rfl
        case Q => unfold operandOf at h; simp only [Option.map_eq_some_iff] at h; obtain ⟨_, _, rfl⟩ := h; rfl
        all_goals exact (num h).1
      · intro e; rw [e] at h; cases h
    all_goals
      revert h
      generalize regOf ty = t
      intro h
      cases t
      case S => cases h; first | exact fun x => absurd x hb | simp [hb]
      case R => cases h; first | exact fun x => absurd x hb | simp [hb]
      case INV => cases h
      case I =>
        unfold operandOf at h; simp only [Option.map_eq_some_iff] at h; obtain ⟨raw, hr, rfl⟩ := h
        first
        | (intro _ m p hm hp e
           rw [e, modPortOf_toString hm hp] at hr
           cases hr
           simp only [BitVec.toNat_ofNat]
           omega)
        | (intro h; cases h; done)
        | (rintro (x | x) <;> first | exact absurd x hb | exact absurd rfl x.2.2.1)
      case Q =>
        unfold operandOf at h; simp only [Option.map_eq_some_iff] at h; obtain ⟨raw, hr, rfl⟩ := h
        first
        | (intro _ m p hm hp e
           rw [e, modPortOf_toString hm hp] at hr
           cases hr
           simp only [BitVec.toNat_ofNat]
           omega)
        | (intro h; cases h; done)
        | (rintro (x | x) <;> first | exact absurd x hb | exact absurd rfl x.2.2.2)
      all_goals
        obtain ⟨ht, hk⟩ := num h
        first
        | (intro x; rw [ht] at x; cases x; done)
        | (rintro (x | x) <;> (rw [ht] at x; cases x); done)
        | exact fun _ => hk

theorem loadValues_of {H : Host} {code : Ins} : ∀ {js : List Json} {d : Nat} {vs : List Value},
    loadValues H code d js = some vs → ∀ i y, js[i]? = some y → ∃ v, vs[i]? = some v ∧ OperandOf H code (d + i) y v
  | [], d, vs, h => by simp
  | j :: js, d, vs, h => by
    unfold loadValues at h
    split at h
    · cases h
    · rename_i v hv
      split at h
      · cases h
      · rename_i vs' hvs
        cases h
        intro i y hy
        cases i with
        | zero => cases hy; exact ⟨v, rfl, loadValue_of hv⟩
        | succ i =>
          obtain ⟨w, h1, h2⟩ := loadValues_of hvs i y hy
          exact ⟨w, h1, by rwa [Nat.add_assoc, Nat.add_comm 1 i] at h2⟩

theorem loadCell_of {H : Host} {j : Json} {x : Cell} (h : loadCell H j = .ok (some x)) : CellOf H j x := by
  unfold loadCell at h
  split at h
  case h_2 => cases h
  rename_i ms
  split at h
  · cases h
  rename_i s hs
  split at h
  · cases h
  rename_i hi
  split at h
  case h_2 => cases h
  rename_i bar hb
  split at h
  case h_2 => cases h
  rename_i l hl
  unfold loadData at h
  split at h
  · cases h
  rename_i q hq
  split at h
  case isFalse => cases h
  rename_i hlq
  have hqty : insOf s ≠ .MULTI → l.length = operands (insOf s) := fun hm => by rw [hlq]; exact (tableQty_ok hq).2 hm
  split at h
  · rename_i h0
    have := List.length_eq_zero_iff.1 h0
    subst this
    cases h
    exact ⟨ms, s, [], rfl, strMember_iff.1 hs, insOf_symbols hi, has_member.2 hb, rfl, has_member.2 hl, rfl, hqty, by simp, by simp⟩
  · rename_i h0
    injection h with h
    rw [Option.map_eq_some_iff] at h
    obtain ⟨vs, hv, rfl⟩ := h
    refine ⟨ms, s, l, rfl, strMember_iff.1 hs, insOf_symbols hi, has_member.2 hb, rfl, has_member.2 hl, rfl, hqty, ?_, ?_⟩
    · constructor
      · intro e; cases e
      · rintro rfl; exact absurd rfl h0
    · intro d y hy
      obtain ⟨v, h1, h2⟩ := loadValues_of hv d y hy
      rw [Nat.zero_add] at h2
      exact ⟨v, h1, h2⟩

theorem loadAll_at {α : Type} {f : Json → Except UB (Option α)} : ∀ {l : List Json} {xs : List α}, loadAll f l = .ok (some xs) →
    ∀ (i : Nat) (x : α), xs[i]? = some x → ∃ j, l[i]? = some j ∧ f j = .ok (some x)
  | [], xs, h => by cases h; simp
  | j :: js, xs, h => by
    unfold loadAll at h
    split at h
    · cases h
    · cases h
    · rename_i x hx
      split at h
      · cases h
      · cases h
      · rename_i ys hys
        cases h
        intro i y hy
        cases i with
        | zero => cases hy; exact ⟨j, rfl, hx⟩
        | succ i => exact loadAll_at hys i y hy

theorem loadShape_of {H : Host} {ms : List (String × Json)} {net : Network} (h : loadShape H ms = .ok (true, net)) :
    NetOf H (.obj ms) net := by
  unfold loadShape at h
  split at h
  case h_2 => cases h
  rename_i r hr
  split at h
  · cases h
  rename_i rows hrows
  split at h
  case h_2 => cases h
  rename_i c hc
  split at h
  · cases h
  rename_i cols hcols
  obtain ⟨e1, b1⟩ := u32_ok hrows
  obtain ⟨e2, b2⟩ := u32_ok hcols
  unfold loadGrid at h
  split at h
  case h_2 => cases h
  rename_i l hl
  split at h
  case isFalse => cases h
  rename_i hlen
  split at h
  · cases h
  · cases h
  rename_i g hg
  cases h
  refine ⟨ms, l, g, rfl, ⟨_, has_member.2 hr, e1⟩, ⟨_, has_member.2 hc, e2⟩, has_member.2 hl, b1, b2, rfl, rfl, ?_, hlen.symm, ?_⟩
  · exact (loadAll_doc hg).1.trans hlen.symm
  · intro r row hrow
    obtain ⟨j, h1, h2⟩ := loadAll_at hg r row hrow
    obtain ⟨-, h3, -⟩ := loadRow_doc h2
    refine ⟨h3, ?_⟩
    unfold loadRow at h2
    split at h2
    case h_2 => cases h2
    rename_i cells
    split at h2
    case isFalse => cases h2
    rename_i hcl
    refine ⟨cells, h1, hcl.symm, ?_⟩
    intro k x hx
    obtain ⟨y, h4, h5⟩ := loadAll_at h2 k x hx
    exact ⟨y, h4, loadCell_of h5⟩

/-- The last description of network `n` in the list, if any, and otherwise the old network. -/
theorem loadNets_of {H : Host} : ∀ {js : List Json} {c c' : Ctx}, loadNets H c js = .ok (true, c') →
    ∀ n net, at? c'.network n = some net →
      (∃ a j b, js = a ++ j :: b ∧ Names n j ∧ (∀ k ∈ b, ¬ Names n k) ∧ NetOf H j net) ∨
      ((∀ k ∈ js, ¬ Names n k) ∧ at? c.network n = some net)
  | [], c, c', h => by cases h; exact fun n net hn => .inr ⟨by simp, hn⟩
  | j :: js, c, c', h => by
    unfold loadNets at h
    split at h
    · cases h
    · cases h
    · rename_i c1 h1
      intro n net hn
      rcases loadNets_of h n net hn with ⟨a, k, b, rfl, h2, h3, h4⟩ | ⟨h2, h3⟩
      · exact .inl ⟨j :: a, k, b, rfl, h2, h3, h4⟩
      · rcases loadNet_cases h1 with ⟨h, -⟩ | ⟨ms, t, m, new, rfl, ht, hm, hq, hs, rfl⟩
        · cases h
        obtain ⟨em, -⟩ := u32_ok hm
        by_cases e : m = n
        · subst e
          refine .inl ⟨[], .obj ms, js, rfl, ⟨ms, rfl, _, has_member.2 ht, em⟩, h2, ?_⟩
          have : net = new := by
            unfold at? at h3
            cases hc : c.network with
            | none => simp [hc] at h3
            | some l =>
              simp only [hc, Option.map_some, Option.bind_some, List.getElem?_set_self'] at h3
              obtain ⟨_, _, e⟩ := Option.map_eq_some_iff.1 h3
              exact e.symm
          rw [this]
          exact loadShape_of hs
        · refine .inr ⟨?_, ?_⟩
          · intro k hk
            rcases List.mem_cons.1 hk with rfl | hk
            · rintro ⟨ms', e1, x, e2, e3⟩
              cases e1
              rw [has_member, ht] at e2
              cases e2
              rw [em] at e3
              injection e3 with e3
              exact e (by omega)
            · exact h2 k hk
          · unfold at? at h3 ⊢
            cases hc : c.network with
            | none => simp [hc] at h3
            | some l =>
              simp only [hc, Option.map_some, Option.bind_some] at h3 ⊢
              rwa [List.getElem?_set_ne e] at h3

/-! ### What is left after clearing -/

theorem clearCell_blank {x y : Cell} (h : clearCell x = .ok y) : Blank y := by
  unfold clearCell at h
  simp only at h
  split at h
  · rename_i hd; cases h; exact ⟨rfl, rfl, rfl, hd⟩
  · split at h
    · cases h; exact ⟨rfl, rfl, rfl, rfl⟩
    · cases h

theorem clearNetwork_keeps {old net : Network} (h : clearNetwork old = .ok net) :
    net.enable = old.enable ∧ net.rows = old.rows ∧ net.cols = old.cols ∧ net.cells.isSome = old.cells.isSome ∧
      ∀ r k x, r < net.rows → k < net.cols → (net.cells.bind (·[r]?)).bind (·[k]?) = some x → Blank x := by
  unfold clearNetwork at h
  split at h
  · split at h
    · rename_i hn h0
      cases h
      exact ⟨rfl, rfl, rfl, rfl, by simp [hn]⟩
    · cases h
  · split at h
    · rename_i h0
      cases h
      exact ⟨rfl, rfl, rfl, rfl, fun r k x _ hk => by omega⟩
    · split at h
      · cases h
      · rename_i rows hc h0 rows' hm
        cases h
        refine ⟨rfl, rfl, rfl, by rw [rows]; rfl, ?_⟩
        intro r k x hr hk hx
        simp only [Option.bind_some] at hx
        cases hrow : rows'[r]? with
        | none => rw [hrow] at hx; cases hx
        | some row =>
          rw [hrow] at hx
          obtain ⟨row0, -, h1, -⟩ := mapFirst_at hm r row hrow
          obtain ⟨x0, -, h2, -⟩ := mapFirst_at (h1 hr) k x hx
          exact clearCell_blank (h2 hk)

theorem clearProgram_at {c c' : Ctx} (h : clearProgram c = .ok c') :
    (∃ a, c' = { c with network := a } ∧ a.map List.length = c.network.map List.length) ∧
      ∀ n net, n < c.qty.networks → at? c'.network n = some net → ∃ old, at? c.network n = some old ∧ clearNetwork old = .ok net := by
  unfold clearProgram at h
  split at h
  · cases h; exact ⟨⟨_, rfl, rfl⟩, fun n net hn => by omega⟩
  · split at h
    · cases h
    · rename_i nets hn
      split at h
      · cases h
      · rename_i nets' hm
        cases h
        refine ⟨⟨_, rfl, by rw [hn, Option.map_some, Option.map_some, (mapFirst_length hm).1]⟩, ?_⟩
        intro n net hq hx
        obtain ⟨old, h1, h2, -⟩ := mapFirst_at hm n net hx
        exact ⟨old, by rw [hn]; exact h1, h2 hq⟩

theorem tidy_erased {old net : Network} (h : clearNetwork old = .ok net) (ht : GridFits net) : Erased old net := by
  obtain ⟨h1, h2, h3, h0, h4⟩ := clearNetwork_keeps h
  refine ⟨h1, h2, h3, h0, ?_⟩
  intro g hg row hrow x hx
  obtain ⟨r, hr⟩ := List.mem_iff_getElem?.1 hrow
  obtain ⟨k, hk⟩ := List.mem_iff_getElem?.1 hx
  refine h4 r k x ?_ ?_ ?_
  · rw [← ht.rows g hg]; exact (List.getElem?_eq_some_iff.1 hr).1
  · rw [← ht.cols g hg row hrow]; exact (List.getElem?_eq_some_iff.1 hk).1
  · rw [hg, Option.bind_some, hr, Option.bind_some, hk]

theorem loadNets_tidy {H : Host} : ∀ {js : List Json} {c c' : Ctx}, loadNets H c js = .ok (true, c') →
    (∀ l, c.network = some l → ∀ net ∈ l, Tidy net) → ∀ l, c'.network = some l → ∀ net ∈ l, Tidy net
  | [], c, c', h => by cases h; exact id
  | j :: js, c, c', h => by
    unfold loadNets at h
    split at h
    · cases h
    · cases h
    · rename_i c1 h1
      intro ht
      refine loadNets_tidy h ?_
      rcases loadNet_cases h1 with ⟨h, -⟩ | ⟨ms, t, m, new, rfl, -, -, -, hs, rfl⟩
      · cases h
      obtain ⟨_, _, _, -, -, -, -, -, h2, h3, -⟩ := loadShape_doc hs
      intro l hl net hnet
      cases hc : c.network with
      | none => simp [hc] at hl
      | some l0 =>
        simp only [hc, Option.map_some, Option.some.injEq] at hl
        subst hl
        rcases List.mem_or_eq_of_mem_set hnet with hm | rfl
        · exact ht l0 hc net hm
        · exact ⟨h2, fun x => absurd x h3⟩

end Ladder
