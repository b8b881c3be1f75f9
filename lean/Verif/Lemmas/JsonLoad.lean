import Verif.Lemmas.Json

/-
Lemmas about loading a program: clearing and releasing the old cells, and the loop over the networks.
-/

set_option autoImplicit false

namespace Ladder

open Spec

/-- A network whose cells are where its dimensions say, without rows when it has no cells. -/
def Tidy (net : Network) : Prop := GridFits net ∧ (net.cells = none → net.rows = 0)

/-- A cell after clearing. -/
def Blank (x : Cell) : Prop := x.code = .NOP ∧ x.bar = false ∧ x.state = false ∧ x.data = none

theorem mapFirst_total {α : Type} {f : α → Except UB α} {P : α → Prop} : ∀ (l : List α), (∀ x ∈ l, ∃ y, f x = .ok y ∧ P y) →
    ∃ l', mapFirst f l.length l = .ok l' ∧ l'.length = l.length ∧ ∀ y ∈ l', P y
  | [], _ => ⟨[], rfl, rfl, by simp⟩
  | x :: l, h => by
    obtain ⟨y, h1, h2⟩ := h x (by simp)
    obtain ⟨l', h3, h4, h5⟩ := mapFirst_total l fun z hz => h z (by simp [hz])
    refine ⟨y :: l', ?_, by simp [h4], ?_⟩
    · simp only [List.length_cons, mapFirst, h1, h3]
    · intro z hz
      rcases List.mem_cons.1 hz with rfl | hz
      · exact h2
      · exact h5 z hz

theorem clearCell_total {x : Cell} (h : ∀ d, x.data = some d → d.length = x.dataQty) : ∃ y, clearCell x = .ok y ∧ Blank y := by
  unfold clearCell
  cases hd : x.data with
  | none => exact ⟨_, rfl, rfl, rfl, rfl, rfl⟩
  | some l =>
    simp only
    rw [if_pos (Nat.le_of_eq (h l hd).symm)]
    exact ⟨_, rfl, rfl, rfl, rfl, rfl⟩

theorem clearNetwork_total {net : Network} (h : GridFits net) (hn : net.cells = none → net.rows = 0 ∨ net.cols = 0) :
    ∃ net', clearNetwork net = .ok net' ∧ GridFits net' ∧ net'.rows = net.rows ∧ net'.cols = net.cols ∧
      (net'.cells = none ↔ net.cells = none) ∧ ∀ l, net'.cells = some l → ∀ row ∈ l, ∀ x ∈ row, Blank x := by
  unfold clearNetwork
  cases hc : net.cells with
  | none =>
    simp only
    rw [if_pos (hn hc)]
    exact ⟨net, rfl, h, rfl, rfl, by simp [hc], by simp [hc]⟩
  | some rows =>
    simp only
    by_cases h0 : net.cols = 0
    · rw [if_pos h0]
      refine ⟨net, rfl, h, rfl, rfl, by simp [hc], ?_⟩
      intro l hl row hrow x hx
      have := h.cols l hl row hrow
      rw [h0] at this
      rw [List.length_eq_zero_iff.1 this] at hx
      cases hx
    · rw [if_neg h0]
      obtain ⟨l', h1, h2, h3⟩ := mapFirst_total (f := mapFirst clearCell net.cols)
        (P := fun row => row.length = net.cols ∧ ∀ x ∈ row, Blank x) rows (by
        intro row hrow
        obtain ⟨row', h1, h2, h3⟩ := mapFirst_total (f := clearCell) (P := Blank) row
          (fun x hx => clearCell_total (h.data rows hc row hrow x hx))
        have hl := h.cols rows hc row hrow
        rw [hl] at h1 h2
        exact ⟨row', h1, h2, h3⟩)
      have hr := h.rows rows hc
      rw [hr] at h1 h2
      rw [h1]
      refine ⟨_, rfl, ⟨?_, ?_, ?_⟩, rfl, rfl, by simp, ?_⟩
      · intro l e; cases e; exact h2
      · intro l e; cases e; exact fun row hrow => (h3 row hrow).1
      · intro l e; cases e
        intro row hrow x hx d hd
        have := ((h3 row hrow).2 x hx).2.2.2
        rw [this] at hd; cases hd
      · intro l e; cases e; exact fun row hrow => (h3 row hrow).2

theorem clearProgram_total {c : Ctx} (h : Receptive c) : ∃ l, clearProgram c = .ok { c with network := some l } ∧
    l.length = c.qty.networks ∧ ∀ net ∈ l, Tidy net ∧ ∀ g, net.cells = some g → ∀ row ∈ g, ∀ x ∈ row, Blank x := by
  obtain ⟨l, e, hl, ht⟩ := h
  obtain ⟨l', h1, h2, h3⟩ := mapFirst_total (f := clearNetwork)
    (P := fun net => Tidy net ∧ ∀ g, net.cells = some g → ∀ row ∈ g, ∀ x ∈ row, Blank x) l (by
    intro net hnet
    obtain ⟨net', a, b, c, -, d, f⟩ := clearNetwork_total (ht net hnet).1 fun x => .inl ((ht net hnet).2 x)
    exact ⟨net', a, ⟨b, fun x => by rw [c]; exact (ht net hnet).2 (d.1 x)⟩, f⟩)
  refine ⟨l', ?_, h2.trans hl, h3⟩
  unfold clearProgram
  split
  · rename_i h0
    have e1 : l = [] := List.length_eq_zero_iff.1 (hl.trans h0)
    have e2 : l' = [] := List.length_eq_zero_iff.1 (h2.trans (hl.trans h0))
    rw [e2, ← e1, ← e]
  · rw [e]
    simp only
    rw [← hl, h1]

/-- A network that can be cleared. -/
def Clearable (net : Network) : Prop := GridFits net ∧ (net.cells = none → net.rows = 0 ∨ net.cols = 0)

theorem Tidy.clearable {net : Network} (h : Tidy net) : Clearable net := ⟨h.1, fun x => .inl (h.2 x)⟩

theorem clearProgram_clearable {c : Ctx} {l : List Network} (e : c.network = some l) (hl : l.length = c.qty.networks)
    (ht : ∀ net ∈ l, Clearable net) : ∃ l', clearProgram c = .ok { c with network := some l' } ∧
      l'.length = c.qty.networks ∧ ∀ net ∈ l', Clearable net ∧ ∀ g, net.cells = some g → ∀ row ∈ g, ∀ x ∈ row, Blank x := by
  obtain ⟨l', h1, h2, h3⟩ := mapFirst_total (f := clearNetwork)
    (P := fun net => Clearable net ∧ ∀ g, net.cells = some g → ∀ row ∈ g, ∀ x ∈ row, Blank x) l (by
    intro net hnet
    obtain ⟨net', a, b, c, c', d, f⟩ := clearNetwork_total (ht net hnet).1 (ht net hnet).2
    exact ⟨net', a, ⟨b, fun x => by rw [c, c']; exact (ht net hnet).2 (d.1 x)⟩, f⟩)
  refine ⟨l', ?_, h2.trans hl, h3⟩
  unfold clearProgram
  split
  · rename_i h0
    have e1 : l = [] := List.length_eq_zero_iff.1 (hl.trans h0)
    have e2 : l' = [] := List.length_eq_zero_iff.1 (h2.trans (hl.trans h0))
    rw [e2, ← e1, ← e]
  · rw [e]
    simp only
    rw [← hl, h1]

theorem releaseNet_total {net : Network} (h : Tidy net) : releaseNet net = .ok () := by
  unfold releaseNet
  cases hc : net.cells with
  | none => simp only; rw [if_pos (h.2 hc)]
  | some rows =>
    simp only
    obtain ⟨l', h1, -, -⟩ := mapFirst_total (f := fun row => mapFirst releaseCell net.cols row) (P := fun _ => True) rows (by
      intro row hrow
      obtain ⟨row', h1, -, -⟩ := mapFirst_total (f := releaseCell) (P := fun _ => True) row (by
        intro x hx
        unfold releaseCell
        cases hd : x.data with
        | none => exact ⟨_, rfl, trivial⟩
        | some d =>
          simp only
          rw [if_pos (Nat.le_of_eq (h.1.data rows hc row hrow x hx d hd).symm)]
          exact ⟨_, rfl, trivial⟩)
      rw [h.1.cols rows hc row hrow] at h1
      exact ⟨row', h1, trivial⟩)
    rw [h.1.rows rows hc] at h1
    rw [h1]

theorem loadNet_eq {H : Host} {c : Ctx} {ms : List (String × Json)} {t : Num} {n : Nat} {l : List Network} {net new : Network}
    {good : Bool} (e : member ms "id" = some (.num t)) (hn : u32OfDouble t.trunc = .ok n) (hq : n < c.qty.networks)
    (hl : c.network = some l) (hx : l[n]? = some net) (ht : Tidy net) (hs : loadShape H ms = .ok (good, new)) :
    loadNet H c (.obj ms) = .ok (good, { c with network := some (l.set n new) }) := by
  unfold loadNet
  simp only
  rw [e]
  simp only
  rw [hn]
  simp only
  rw [if_neg (by omega), hl]
  unfold aget
  simp only [hx]
  rw [releaseNet_total ht, hs]
  rfl

theorem nets_trip {H : Host} {src : Ctx} {l : List Network} (hs : src.network = some l) (hq : l.length < 2 ^ 32)
    (hx : ∀ net ∈ l, NetExpressible H net) :
    ∀ (k n : Nat) (c : Ctx) (cur : List Network), n + k = l.length → c.network = some cur → cur.length = l.length →
      c.qty.networks = l.length → (∀ net ∈ cur.drop n, Tidy net) →
      ∃ js, saveNets H src n k = .ok js ∧
        loadNets H c js = .ok (true, { c with network := some (cur.take n ++ (l.drop n).map netText) })
  | 0, n, c, cur, hk, hc, hl, _, _ => ⟨[], rfl, by
      unfold loadNets
      rw [List.drop_of_length_le (by omega), List.map_nil, List.append_nil, List.take_of_length_le (by omega), ← hc]⟩
  | k + 1, n, c, cur, hk, hc, hl, hqc, ht => by
    have hn : n < l.length := by omega
    have hn' : n < cur.length := by omega
    obtain ⟨ms, h1, h2, h3⟩ := net_trip (hx _ (List.getElem_mem hn)) n
    have hload := loadNet_eq (c := c) h2 (by rw [trunc_natCast]; exact u32_of_lt (by omega)) (by omega) hc (List.getElem?_eq_getElem hn')
      (ht _ (by rw [List.drop_eq_getElem_cons hn']; exact List.mem_cons_self)) h3
    obtain ⟨js, h4, h5⟩ := nets_trip hs hq hx k (n + 1) { c with network := some (cur.set n (netText l[n])) }
      (cur.set n (netText l[n])) (by omega) rfl (by simp [hl]) hqc (by
        intro net hnet
        rw [List.drop_set_of_lt (by omega)] at hnet
        exact ht net (by rw [List.drop_eq_getElem_cons hn']; exact List.mem_cons_of_mem _ hnet))
    refine ⟨.obj ms :: js, ?_, ?_⟩
    · unfold saveNets aget
      rw [hs]
      simp only [List.getElem?_eq_getElem hn, h1, h4]
    · unfold loadNets
      rw [hload]
      simp only
      rw [h5]
      have : (cur.set n (netText l[n])).take (n + 1) ++ (l.drop (n + 1)).map netText = cur.take n ++ (l.drop n).map netText := by
        rw [List.drop_eq_getElem_cons hn, List.map_cons, List.take_succ_eq_append_getElem (by simpa using hn'),
          List.getElem_set_self, List.take_set_of_le (Nat.le_refl n), List.append_assoc, List.singleton_append]
      rw [this]

end Ladder
