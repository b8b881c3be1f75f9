import Verif.Lemmas.JsonLoad

/-
Lemmas about documents: what a successful load says about the document, and when loading cannot fault.
-/

set_option autoImplicit false

namespace Ladder

open Spec

theorem loadValue_doc {H : Host} {code : Ins} {d : Nat} {j : Json} {v : Value} (h : loadValue H code d j = some v) :
    OperandDoc code d j := by
  unfold loadValue at h
  split at h
  case h_2 => cases h
  rename_i ms
  split at h
  case h_2 => cases h
  rename_i name ty w e1 e2 e3
  refine ⟨ms, name, ty, w, rfl, strMember_iff.1 e1, strMember_iff.1 e2, strMember_iff.1 e3, ?_, ?_⟩
  · intro hb
    rw [if_pos (timed_iff.2 hb)] at h
    split at h
    · cases h
    · rename_i e; exact baseOf_bases e
  · intro hb
    rw [if_neg fun x => hb (timed_iff.1 x)] at h
    rcases regOf_types (s := ty) rfl with e | e
    · rw [e] at h; cases h
    · exact e

theorem loadValues_doc {H : Host} {code : Ins} : ∀ {js : List Json} {d : Nat} {vs : List Value},
    loadValues H code d js = some vs → vs.length = js.length ∧ ∀ i x, js[i]? = some x → OperandDoc code (d + i) x
  | [], d, vs, h => by cases h; exact ⟨rfl, by simp⟩
  | j :: js, d, vs, h => by
    unfold loadValues at h
    split at h
    · cases h
    · rename_i v hv
      split at h
      · cases h
      · rename_i vs' hvs
        cases h
        obtain ⟨h1, h2⟩ := loadValues_doc hvs
        refine ⟨by simp [h1], ?_⟩
        intro i x hx
        cases i with
        | zero => cases hx; exact loadValue_doc hv
        | succ i =>
          have := h2 i x hx
          rwa [Nat.add_assoc, Nat.add_comm 1 i] at this

theorem tableQty_ok {H : Host} {code : Ins} {q : Nat} (h : tableQty H code = .ok q) :
    (code = .MULTI → H.beyond = some q) ∧ (code ≠ .MULTI → q = operands code) := by
  constructor
  · rintro rfl
    unfold tableQty iocd at h
    simp only at h
    split at h
    · cases h
    · rename_i e; cases h; exact e
  · intro hm
    rw [tableQty_operands hm] at h
    cases h; rfl

/-- The operand block of a cell has the size the cell says. -/
def CellFits (x : Cell) : Prop := ∀ d, x.data = some d → d.length = x.dataQty

theorem loadData_doc {H : Host} {code : Ins} {bar : Bool} {l : List Json} {x : Cell} (h : loadData H code bar l = .ok (some x)) :
    CellFits x ∧ (code = .MULTI → H.beyond = some l.length) ∧ (code ≠ .MULTI → l.length = operands code) ∧
      ∀ d y, l[d]? = some y → OperandDoc code d y := by
  unfold loadData at h
  split at h
  · cases h
  rename_i q hq
  obtain ⟨q1, q2⟩ := tableQty_ok hq
  split at h
  case isFalse => cases h
  rename_i hl
  split at h
  · rename_i h0
    cases h
    refine ⟨(by intro d hd; cases hd), fun e => by rw [q1 e, hl], fun e => by rw [hl, q2 e], ?_⟩
    rw [List.length_eq_zero_iff.1 h0]
    simp
  · injection h with h
    rw [Option.map_eq_some_iff] at h
    obtain ⟨vs, hv, rfl⟩ := h
    obtain ⟨h1, h2⟩ := loadValues_doc hv
    refine ⟨by intro d hd; cases hd; exact h1, fun e => by rw [q1 e, hl], fun e => by rw [hl, q2 e], ?_⟩
    intro d y hy
    have := h2 d y hy
    rwa [Nat.zero_add] at this

theorem loadCell_doc {H : Host} {j : Json} {x : Cell} (h : loadCell H j = .ok (some x)) : CellDoc H j ∧ CellFits x := by
  unfold loadCell at h
  split at h
  case h_2 => cases h
  rename_i ms
  split at h
  · cases h
  rename_i s hs
  split at h
  · cases h
  rename_i hi
  split at h
  case h_2 => cases h
  rename_i bar hb
  split at h
  case h_2 => cases h
  rename_i l hl
  obtain ⟨h1, h2, h3, h4⟩ := loadData_doc h
  exact ⟨⟨ms, s, insOf s, bar, l, rfl, strMember_iff.1 hs, insOf_symbols hi, has_member.2 hb, has_member.2 hl, h2, h3, h4⟩, h1⟩

theorem loadAll_doc {α : Type} {f : Json → Except UB (Option α)} : ∀ {l : List Json} {xs : List α}, loadAll f l = .ok (some xs) →
    xs.length = l.length ∧ (∀ j ∈ l, ∃ x, f j = .ok (some x)) ∧ ∀ x ∈ xs, ∃ j, j ∈ l ∧ f j = .ok (some x)
  | [], xs, h => by cases h; exact ⟨rfl, by simp, by simp⟩
  | j :: js, xs, h => by
    unfold loadAll at h
    split at h
    · cases h
    · cases h
    · rename_i x hx
      split at h
      · cases h
      · cases h
      · rename_i ys hys
        cases h
        obtain ⟨h1, h2, h3⟩ := loadAll_doc hys
        refine ⟨by simp [h1], ?_, ?_⟩
        · intro k hk
          rcases List.mem_cons.1 hk with rfl | hk
          · exact ⟨x, hx⟩
          · exact h2 k hk
        · intro y hy
          rcases List.mem_cons.1 hy with rfl | hy
          · exact ⟨j, by simp, hx⟩
          · obtain ⟨k, hk, e⟩ := h3 y hy
            exact ⟨k, by simp [hk], e⟩

theorem loadRow_doc {H : Host} {cols : Nat} {j : Json} {row : List Cell} (h : loadRow H cols j = .ok (some row)) :
    RowDoc H cols j ∧ row.length = cols ∧ ∀ x ∈ row, CellFits x := by
  unfold loadRow at h
  split at h
  case h_2 => cases h
  rename_i l
  split at h
  case isFalse => cases h
  rename_i hc
  obtain ⟨h1, h2, h3⟩ := loadAll_doc h
  refine ⟨⟨l, rfl, hc.symm, ?_⟩, h1.trans hc.symm, ?_⟩
  · intro x hx
    obtain ⟨y, hy⟩ := h2 x hx
    exact (loadCell_doc hy).1
  · intro x hx
    obtain ⟨k, -, e⟩ := h3 x hx
    exact (loadCell_doc e).2

theorem u32_ok {t : Option Int} {n : Nat} (h : u32OfDouble t = .ok n) : t = some (n : Int) ∧ n < 2 ^ 32 := by
  unfold u32OfDouble at h
  split at h
  · cases h
  · split at h
    · rename_i t ht
      injection h with h
      exact ⟨by congr 1; omega, by omega⟩
    · cases h

theorem loadGrid_doc {H : Host} {rows cols : Nat} {data : Option Json} {net : Network} (h : loadGrid H rows cols data = .ok (true, net)) :
    (∃ l, data = some (.arr l) ∧ l.length = rows ∧ ∀ x ∈ l, RowDoc H cols x) ∧
      GridFits net ∧ net.cells ≠ none ∧ net.rows = rows ∧ net.cols = cols ∧ net.enable = true := by
  unfold loadGrid at h
  split at h
  case h_2 => cases h
  rename_i l
  split at h
  case isFalse => cases h
  rename_i hr
  split at h
  · cases h
  · cases h
  rename_i g hg
  cases h
  obtain ⟨h1, h2, h3⟩ := loadAll_doc hg
  refine ⟨⟨l, rfl, hr.symm, ?_⟩, ⟨?_, ?_, ?_⟩, by simp, rfl, rfl, rfl⟩
  · intro x hx
    obtain ⟨y, hy⟩ := h2 x hx
    exact (loadRow_doc hy).1
  · intro k e; cases e; exact h1.trans hr.symm
  · intro k e; cases e
    intro row hrow
    obtain ⟨k, -, e⟩ := h3 row hrow
    exact (loadRow_doc e).2.1
  · intro k e; cases e
    intro row hrow x hx
    obtain ⟨k, -, e⟩ := h3 row hrow
    exact (loadRow_doc e).2.2 x hx

theorem loadShape_doc {H : Host} {ms : List (String × Json)} {net : Network} (h : loadShape H ms = .ok (true, net)) :
    ∃ (rows cols : Nat) (l : List Json), Number "rows" rows ms ∧ Number "cols" cols ms ∧ Member "networkData" (.arr l) ms ∧
      l.length = rows ∧ (∀ x ∈ l, RowDoc H cols x) ∧ GridFits net ∧ net.cells ≠ none ∧ net.rows = rows ∧ net.cols = cols ∧
      net.enable = true ∧ rows < 2 ^ 32 ∧ cols < 2 ^ 32 := by
  unfold loadShape at h
  split at h
  case h_2 => cases h
  rename_i r hr
  split at h
  · cases h
  rename_i rows hrows
  split at h
  case h_2 => cases h
  rename_i c hc
  split at h
  · cases h
  rename_i cols hcols
  obtain ⟨⟨l, e, h1, h2⟩, h3, h4, h5, h6, h7⟩ := loadGrid_doc h
  obtain ⟨e1, b1⟩ := u32_ok hrows
  obtain ⟨e2, b2⟩ := u32_ok hcols
  exact ⟨rows, cols, l, ⟨_, has_member.2 hr, e1⟩, ⟨_, has_member.2 hc, e2⟩, has_member.2 e, h1, h2, h3, h4, h5, h6, h7, b1, b2⟩

/-- What one network of the document does to the context. -/
theorem loadNet_cases {H : Host} {c c' : Ctx} {j : Json} {good : Bool} (h : loadNet H c j = .ok (good, c')) :
    (good = false ∧ c' = c) ∨ ∃ ms t n net, j = .obj ms ∧ member ms "id" = some (.num t) ∧ u32OfDouble t.trunc = .ok n ∧ n < c.qty.networks ∧
      loadShape H ms = .ok (good, net) ∧ c' = { c with network := c.network.map (·.set n net) } := by
  unfold loadNet at h
  split at h
  case h_2 => cases h; exact .inl ⟨rfl, rfl⟩
  rename_i ms
  split at h
  case h_2 => cases h; exact .inl ⟨rfl, rfl⟩
  rename_i t ht
  split at h
  · cases h
  rename_i n hn
  split at h
  · cases h; exact .inl ⟨rfl, rfl⟩
  rename_i hq
  split at h
  · cases h
  split at h
  · cases h
  split at h
  · cases h
  rename_i net hs
  cases h
  exact .inr ⟨ms, t, n, net, rfl, ht, hn, by omega, hs, rfl⟩

theorem loadNet_doc {H : Host} {c c' : Ctx} {j : Json} (h : loadNet H c j = .ok (true, c')) : NetDoc H c.qty.networks j := by
  rcases loadNet_cases h with ⟨h, -⟩ | ⟨ms, t, n, net, rfl, ht, hn, hq, hs, -⟩
  · cases h
  obtain ⟨rows, cols, l, h1, h2, h3, h4, h5, -⟩ := loadShape_doc hs
  obtain ⟨e, -⟩ := u32_ok hn
  exact ⟨ms, n, rows, cols, l, rfl, ⟨_, has_member.2 ht, e⟩, by omega, by omega, h1, h2, h3, by omega, by omega, h5⟩

theorem loadNet_keeps {H : Host} {c c' : Ctx} {j : Json} {good : Bool} (h : loadNet H c j = .ok (good, c')) :
    ∃ a, c' = { c with network := a } ∧ (a.map List.length = c.network.map List.length) := by
  rcases loadNet_cases h with ⟨-, rfl⟩ | ⟨ms, t, n, net, -, -, -, -, -, rfl⟩
  · exact ⟨_, rfl, rfl⟩
  · refine ⟨_, rfl, ?_⟩
    cases c.network <;> simp

theorem loadNets_doc {H : Host} : ∀ {l : List Json} {c c' : Ctx}, loadNets H c l = .ok (true, c') → ∀ x ∈ l, NetDoc H c.qty.networks x
  | [], _, _, _ => by simp
  | j :: js, c, c', h => by
    unfold loadNets at h
    split at h
    · cases h
    · cases h
    · rename_i c1 h1
      obtain ⟨a, rfl, -⟩ := loadNet_keeps h1
      intro x hx
      rcases List.mem_cons.1 hx with rfl | hx
      · exact loadNet_doc h1
      · exact loadNets_doc h x hx

theorem loadNets_keeps {H : Host} : ∀ {l : List Json} {c c' : Ctx} {good : Bool}, loadNets H c l = .ok (good, c') →
    ∃ a, c' = { c with network := a } ∧ (a.map List.length = c.network.map List.length)
  | [], _, _, _, h => by cases h; exact ⟨_, rfl, rfl⟩
  | j :: js, c, c', good, h => by
    unfold loadNets at h
    split at h
    · cases h
    · rename_i c1 h1
      cases h
      exact loadNet_keeps h1
    · rename_i c1 h1
      obtain ⟨a, rfl, ha⟩ := loadNet_keeps h1
      obtain ⟨b, rfl, hb⟩ := loadNets_keeps h
      exact ⟨b, rfl, hb.trans ha⟩

/-! ### Loading without a fault -/

theorem loadAll_total {α : Type} {f : Json → Except UB (Option α)} : ∀ {l : List Json}, (∀ j ∈ l, ∃ x, f j = .ok x) →
    ∃ xs, loadAll f l = .ok xs
  | [], _ => ⟨_, rfl⟩
  | j :: js, h => by
    obtain ⟨x, hx⟩ := h j (by simp)
    obtain ⟨xs, hxs⟩ := loadAll_total (l := js) fun k hk => h k (by simp [hk])
    unfold loadAll
    rw [hx, hxs]
    cases x with
    | none => exact ⟨_, rfl⟩
    | some x => cases xs <;> exact ⟨_, rfl⟩

theorem insOf_multi {s : String} (h : insOf s = .MULTI) : s = "occupied" := by
  rcases insOf_cases h with e | e
  · cases e
  · simp [symbols] at e
    exact e

theorem loadCell_total {H : Host} {j : Json} (h : ∀ ms, j = .obj ms → Member "symbol" (.str "occupied") ms → H.beyond ≠ none) :
    ∃ x, loadCell H j = .ok x := by
  unfold loadCell
  split
  case h_2 => exact ⟨_, rfl⟩
  rename_i ms
  split
  · exact ⟨_, rfl⟩
  rename_i s hs
  split
  · exact ⟨_, rfl⟩
  split
  case h_2 => exact ⟨_, rfl⟩
  split
  case h_2 => exact ⟨_, rfl⟩
  unfold loadData
  split
  · rename_i e he
    exfalso
    by_cases hm : insOf s = .MULTI
    · have := h ms rfl (by rw [← insOf_multi hm]; exact strMember_iff.1 hs)
      rw [hm] at he
      unfold tableQty iocd at he
      simp only at he
      split at he
      · rename_i e; exact this e
      · cases he
    · rw [tableQty_operands hm] at he
      cases he
  · split
    · split <;> exact ⟨_, rfl⟩
    · exact ⟨_, rfl⟩

theorem gridFits_empty {rows cols : Nat} : GridFits { emptyNet with rows := rows, cols := cols } :=
  ⟨(by intro l h; cases h), (by intro l h; cases h), (by intro l h; cases h)⟩

theorem loadShape_total {H : Host} {ms : List (String × Json)} (h : Sturdy H (.obj ms)) :
    ∃ good net, loadShape H ms = .ok (good, net) ∧ Clearable net ∧ (good = true → Tidy net) := by
  obtain ⟨-, hr, hc, hd, ho⟩ := h ms rfl
  unfold loadShape
  split
  case h_2 => exact ⟨_, _, rfl, ⟨gridFits_empty, fun _ => .inl rfl⟩, fun h => by cases h⟩
  rename_i r er
  have er' := has_member.2 er
  obtain ⟨rows, tr, r0, r1⟩ := hr r er'
  obtain ⟨rows, rfl⟩ := Int.eq_ofNat_of_zero_le r0
  rw [tr, u32_of_lt (by omega)]
  simp only
  split
  case h_2 => exact ⟨_, _, rfl, ⟨gridFits_empty, fun _ => .inr rfl⟩, fun h => by cases h⟩
  rename_i c ec
  have ec' := has_member.2 ec
  obtain ⟨cols, tc, c0, c1⟩ := hc c ec'
  obtain ⟨cols, rfl⟩ := Int.eq_ofNat_of_zero_le c0
  rw [tc, u32_of_lt (by omega)]
  simp only
  have hfail : (¬ ∃ l, member ms "networkData" = some (.arr l) ∧ rows = l.length) → rows = 0 ∨ cols = 0 := by
    intro hx
    by_cases h0 : rows = 0
    · exact .inl h0
    by_cases h1 : cols = 0
    · exact .inr h1
    obtain ⟨l, hl, e⟩ := hd rows ⟨_, er', tr⟩ (by omega) ⟨cols, by omega, _, ec', tc⟩
    exact absurd ⟨l, has_member.1 hl, by omega⟩ hx
  cases hg : loadGrid H rows cols (member ms "networkData") with
  | error e =>
    exfalso
    unfold loadGrid at hg
    split at hg
    case h_2 => cases hg
    rename_i l el
    split at hg
    case isFalse => cases hg
    obtain ⟨x, hx⟩ := loadAll_total (f := loadRow H cols) (l := l) (by
      intro j hj
      unfold loadRow
      split
      · rename_i cells
        split
        · exact loadAll_total fun x hx => loadCell_total fun xs e hs => ho l _ cells x (has_member.2 el) hj rfl hx xs e hs
        · exact ⟨_, rfl⟩
      · exact ⟨_, rfl⟩)
    rw [hx] at hg
    cases x <;> cases hg
  | ok p =>
    obtain ⟨good, net⟩ := p
    refine ⟨good, net, rfl, ?_⟩
    cases good with
    | true =>
      obtain ⟨-, h3, h4, -⟩ := loadGrid_doc hg
      exact ⟨⟨h3, fun e => absurd e h4⟩, fun _ => ⟨h3, fun e => absurd e h4⟩⟩
    | false =>
      refine ⟨?_, fun h => by cases h⟩
      unfold loadGrid at hg
      split at hg
      case h_2 =>
        rename_i hx
        cases hg
        exact ⟨gridFits_empty, fun _ => hfail (by rintro ⟨l, e, -⟩; exact hx l e)⟩
      rename_i l el
      split at hg
      · split at hg
        · cases hg
        · cases hg; exact ⟨gridFits_empty, fun _ => .inl rfl⟩
        · cases hg
      · rename_i hx
        cases hg
        refine ⟨gridFits_empty, fun _ => hfail ?_⟩
        rintro ⟨l', e, e'⟩
        rw [el] at e
        cases e
        exact hx e'

theorem loadNet_far {H : Host} {c : Ctx} {ms : List (String × Json)} {t : Num} {n : Nat}
    (e : member ms "id" = some (.num t)) (hu : u32OfDouble t.trunc = .ok n) (hq : c.qty.networks ≤ n) :
    loadNet H c (.obj ms) = .ok (false, c) := by
  unfold loadNet
  simp only
  rw [e]
  simp only
  rw [hu]
  simp only
  rw [if_pos hq]

theorem loadNets_total {H : Host} : ∀ {js : List Json} {c : Ctx} {l : List Network}, (∀ j ∈ js, Sturdy H j) → c.network = some l →
    l.length = c.qty.networks → (∀ net ∈ l, Tidy net) → ∃ good l', loadNets H c js = .ok (good, { c with network := some l' }) ∧
      l'.length = c.qty.networks ∧ (∀ net ∈ l', Clearable net) ∧ (good = true → ∀ net ∈ l', Tidy net)
  | [], c, l, _, e, hl, ht => ⟨true, l, by unfold loadNets; rw [← e], hl, fun n hn => (ht n hn).clearable, fun _ => ht⟩
  | j :: js, c, l, hj, e, hl, ht => by
    have hs := hj j (by simp)
    have stay : loadNet H c j = .ok (false, c) → ∃ good l', loadNets H c (j :: js) = .ok (good, { c with network := some l' }) ∧
        l'.length = c.qty.networks ∧ (∀ net ∈ l', Clearable net) ∧ (good = true → ∀ net ∈ l', Tidy net) := by
      intro h
      refine ⟨false, l, ?_, hl, fun n hn => (ht n hn).clearable, fun h => by cases h⟩
      unfold loadNets
      rw [h, ← e]
    have step : ∀ good l', loadNet H c j = .ok (good, { c with network := some l' }) → l'.length = c.qty.networks →
        (∀ net ∈ l', Clearable net) → (good = true → ∀ net ∈ l', Tidy net) →
        ∃ good l', loadNets H c (j :: js) = .ok (good, { c with network := some l' }) ∧
          l'.length = c.qty.networks ∧ (∀ net ∈ l', Clearable net) ∧ (good = true → ∀ net ∈ l', Tidy net) := by
      intro good l' h h1 h2 h3
      cases good with
      | false => exact ⟨false, l', by unfold loadNets; rw [h], h1, h2, h3⟩
      | true =>
        obtain ⟨g, l2, a, b⟩ := loadNets_total (js := js) (c := { c with network := some l' }) (fun k hk => hj k (by simp [hk])) rfl h1 (h3 rfl)
        exact ⟨g, l2, by unfold loadNets; rw [h]; exact a, b⟩
    cases j with
    | obj ms =>
      cases hid : member ms "id" with
      | none => exact stay (by unfold loadNet; simp only; rw [hid])
      | some v =>
        cases v with
        | num t =>
          obtain ⟨k, tk, k0, k1⟩ := (hs ms rfl).1 t (has_member.2 hid)
          obtain ⟨n, rfl⟩ := Int.eq_ofNat_of_zero_le k0
          have hu : u32OfDouble t.trunc = .ok n := by rw [tk]; exact u32_of_lt (by omega)
          by_cases hq : n < c.qty.networks
          · obtain ⟨good, net, h1, h2, h3⟩ := loadShape_total hs
            have hn : n < l.length := by omega
            refine step good (l.set n net) (loadNet_eq hid hu hq e (List.getElem?_eq_getElem hn) (ht _ (List.getElem_mem hn)) h1)
              (by simpa using hl) ?_ ?_
            · intro x hx
              rcases List.mem_or_eq_of_mem_set hx with hx | rfl
              · exact (ht x hx).clearable
              · exact h2
            · intro hg x hx
              rcases List.mem_or_eq_of_mem_set hx with hx | rfl
              · exact ht x hx
              · exact h3 hg
          · exact stay (loadNet_far hid hu (by omega))
        | _ => exact stay (by unfold loadNet; simp only; rw [hid])
    | _ => exact stay rfl

end Ladder
