import Verif.Props.Setup
import Verif.Lemmas.Fits
import Verif.Lemmas.Prim
import Verif.Spec.Grid

/-
Placing instructions: C49.
-/

set_option autoImplicit false

namespace Ladder.Props

open Spec Op

theorem cell_of {c : Ctx} {n : Nat} {net : Network} (hn : at? c.network n = some net) {r k : Nat} {x : Cell}
    (h : cell? c n r k = some x) : net.cell r k = .ok x := by
  unfold cell? at h
  rw [hn] at h
  simp only [Option.bind_some, at?] at h
  unfold Network.cell
  cases hc : net.cells with
  | none => rw [hc] at h; cases h
  | some rows =>
    rw [hc] at h
    simp only [Option.bind_some] at h
    cases hr : rows[r]? with
    | none => rw [hr] at h; cases h
    | some row =>
      rw [hr] at h
      simp only [Option.bind_some] at h
      simp only [hr, h]

theorem spanFree_eq {c : Ctx} {n : Nat} {net : Network} (hn : at? c.network n = some net) (col : Nat) : ∀ (h row : Nat),
    (∀ k, k < h → (cell? c n (row + k) col).isSome) →
    (spanFree net col row h = .ok true ∧ ∀ k, k < h → ∃ x, cell? c n (row + k) col = some x ∧ x.code = .NOP) ∨
    (spanFree net col row h = .ok false ∧ ∃ k x, k < h ∧ cell? c n (row + k) col = some x ∧ x.code ≠ .NOP)
  | 0, row, _ => .inl ⟨rfl, fun k hk => by omega⟩
  | h + 1, row, hs => by
    obtain ⟨x, hx⟩ := Option.isSome_iff_exists.1 (hs 0 (by omega))
    rw [Nat.add_zero] at hx
    unfold spanFree
    rw [cell_of hn hx]
    dsimp only
    split
    · rename_i hc
      rcases spanFree_eq hn col h (row + 1) (fun k hk => by rw [Nat.add_right_comm]; exact hs (k + 1) (by omega)) with
        ⟨h1, h2⟩ | ⟨h1, k, y, h2, h3, h4⟩
      · refine .inl ⟨h1, fun k hk => ?_⟩
        cases k with
        | zero => exact ⟨x, hx, hc⟩
        | succ k =>
          have := h2 k (by omega)
          rwa [Nat.add_right_comm] at this
      · refine .inr ⟨h1, k + 1, y, by omega, ?_, h4⟩
        rwa [Nat.add_right_comm] at h3
    · rename_i hc
      exact .inr ⟨rfl, 0, x, by omega, hx, hc⟩

theorem cell?_modSpan (f : Nat → Cell → Cell) (n row col : Nat) : ∀ (h : Nat) (c : Ctx) (n' r' c' : Nat),
    cell? (modSpan f n row col h c) n' r' c' =
      if n' = n ∧ c' = col ∧ row ≤ r' ∧ r' < row + h then (cell? c n' r' c').map (f (r' - row)) else cell? c n' r' c'
  | 0, c, n', r', c' => by
    rw [if_neg (by omega)]
    rfl
  | h + 1, c, n', r', c' => by
    unfold modSpan
    rw [cell?_modSpan f n row col h, cell?_modCell]
    by_cases hr : n = n' ∧ row + h = r' ∧ col = c'
    · obtain ⟨rfl, rfl, rfl⟩ := hr
      rw [if_neg (by omega), if_pos ⟨rfl, rfl, rfl⟩, if_pos ⟨rfl, rfl, by omega, by omega⟩, Nat.add_sub_cancel_left]
    · rw [if_neg hr]
      by_cases hi : n' = n ∧ c' = col ∧ row ≤ r' ∧ r' < row + h
      · rw [if_pos hi, if_pos (by omega)]
      · rw [if_neg hi, if_neg (by omega)]

theorem sansCells_modCell (c : Ctx) (n r k : Nat) (f : Cell → Cell) : sansCells (c.modCell n r k f) = sansCells c := by
  simp only [sansCells, Ctx.modCell]
  congr 1
  cases c.network with
  | none => rfl
  | some nets =>
    simp only [Option.map_some]
    congr 1
    apply List.ext_getElem?
    intro i
    simp only [List.getElem?_map, List.getElem?_modify]
    cases nets[i]? with
    | none => rfl
    | some net => by_cases hi : n = i <;> simp [hi]

theorem sansCells_modSpan (f : Nat → Cell → Cell) (n row col : Nat) : ∀ (h : Nat) (c : Ctx),
    sansCells (modSpan f n row col h c) = sansCells c
  | 0, c => rfl
  | h + 1, c => by
    unfold modSpan
    rw [sansCells_modSpan f n row col h, sansCells_modCell]

theorem iocd_eq (c : Ctx) (f : Ins) (id : Nat) (h1 : f ≠ .MULTI) (h2 : f ≠ .FOREIGN) :
    ∃ d, iocd f = .ok d ∧ d.cells = span c f id ∧ d.dataQty = arity c f id ∧ 1 ≤ d.cells ∧ (d.cells = 1 ∨ 1 ≤ d.dataQty) := by
  cases f <;> first | exact absurd rfl h1 | exact absurd rfl h2 | exact ⟨_, rfl, rfl, rfl, by decide, by decide⟩

/-- C49, one placement.  On a complete grid and with memory available, placing an instruction either returns false and changes
nothing but the error report, namely when it would not lie inside the grid, is an unknown foreign function or would cover an
occupied cell; or it returns true and occupies exactly its span of cells, which were empty.  (Missing: failed allocations and
the instructions excluded by `Placeable`, see the refutations below.) -/
theorem C49_step_partial {c : Ctx} {fns : List Foreign} (hg : Grids c) (hf : Foreigners c fns) {f : Ins} {id : Nat}
    (hp : Placeable c f id) (n row col : Nat) :
    (∃ e, fnCell true c n row col f id = .ok (false, { c with last := { c.last with err := e } }) ∧
      ¬ (n < c.qty.networks ∧ (f = .FOREIGN → id < fns.length) ∧ Inside c n row (span c f id) col ∧
        ∀ k, k < span c f id → ∃ x, cell? c n (row + k) col = some x ∧ x.code = .NOP)) ∨
    ∃ c', fnCell true c n row col f id = .ok (true, c') ∧ n < c.qty.networks ∧ Inside c n row (span c f id) col ∧
      Placed c c' n row col f (span c f id) (arity c f id) := by
  unfold fnCell
  split
  · exact .inl ⟨_, rfl, fun h => by omega⟩
  rename_i hn
  obtain ⟨net, hnet, hin⟩ := hg n (by omega)
  rw [aget_eq_ok.2 hnet]
  dsimp only
  have inside : ∀ r h k, Inside c n r h k → r < net.rows ∧ r + h ≤ net.rows ∧ k < net.cols := by
    rintro r h k ⟨net', h1, h2, h3⟩
    rw [hnet] at h1
    cases h1
    exact ⟨h2, h3⟩
  split
  · rename_i hr
    refine .inl ⟨_, rfl, fun h => ?_⟩
    have := inside _ _ _ h.2.2.1
    omega
  rename_i hr
  split
  · rename_i hc
    refine .inl ⟨_, rfl, fun h => ?_⟩
    have := inside _ _ _ h.2.2.1
    omega
  rename_i hc
  split
  · rename_i hi
    refine .inl ⟨_, rfl, fun h => ?_⟩
    have := h.2.1 hi.1
    rw [hf.qty] at hi
    omega
  rename_i hi
  have hd : ∃ d, descriptor c f id = .ok d ∧
      d.cells = span c f id ∧ d.dataQty = arity c f id ∧ 1 ≤ d.cells ∧ (d.cells = 1 ∨ 1 ≤ d.dataQty) := by
    unfold descriptor
    by_cases hff : f = .FOREIGN
    · rw [if_pos hff]
      have hid : id < fns.length := by
        rw [← hf.qty]
        have : ¬ c.foreignQty ≤ id := fun h => hi ⟨hff, h⟩
        omega
      have hat : at? c.foreign id = some fns[id] := by
        rw [hf.table]
        rw [if_neg (by intro h; rw [h] at hid; simp at hid)]
        simp [at?, hid]
      have := hp.2 hff _ hat
      refine ⟨fns[id].desc, by rw [aget_eq_ok.2 hat]; rfl, ?_, ?_, this.1, this.2⟩
      · rw [hff]; simp only [span, hat]; rfl
      · rw [hff]; simp only [arity, hat]; rfl
    · rw [if_neg hff]
      exact iocd_eq c f id hp.1 hff
  obtain ⟨d, hd, e1, e2, e3, e4⟩ := hd
  rw [hd]
  dsimp only
  rw [← e1, ← e2]
  split
  · rename_i hs
    refine .inl ⟨_, rfl, fun h => ?_⟩
    have := inside _ _ _ h.2.2.1
    omega
  rename_i hs
  have hex : ∀ k, k < d.cells → (cell? c n (row + k) col).isSome := fun k hk => hin _ _ (by omega) (by omega)
  rcases spanFree_eq hnet col d.cells row hex with ⟨h1, h2⟩ | ⟨h1, k, x, h2, h3, h4⟩
  rotate_left
  · rw [h1]
    refine .inl ⟨_, rfl, fun h => ?_⟩
    obtain ⟨y, hy, hy'⟩ := h.2.2.2 k h2
    rw [h3] at hy
    cases hy
    exact h4 hy'
  rw [h1]
  dsimp only
  obtain ⟨x0, hx0, hc0⟩ := h2 0 (by omega)
  rw [Nat.add_zero] at hx0
  rw [cell_of hnet hx0]
  dsimp only
  right
  unfold occupy
  dsimp only
  have hins : Inside c n row d.cells col := ⟨net, hnet, by omega, by omega, by omega⟩
  split
  · rename_i hq
    have h1c : d.cells = 1 := by omega
    refine ⟨_, rfl, by omega, hins, e3, h2, ?_, fun k hk hk' => by omega, ?_, ?_⟩
    · rw [cell?_modCell, if_pos ⟨rfl, rfl, rfl⟩, cell?_modSpan, if_pos ⟨rfl, rfl, by omega, by omega⟩, hx0]
      exact ⟨_, rfl, rfl, hq.symm, fun i hi => by omega, by rw [h1c]; rfl⟩
    · intro n' r' c' hno
      rw [cell?_modCell, if_neg (by omega), cell?_modSpan, if_neg hno]
    · rw [sansCells_modCell, sansCells_modSpan]
  · rename_i hq
    rw [if_neg (by simp), if_neg (by omega)]
    refine ⟨_, rfl, by omega, hins, e3, h2, ?_, fun k hk hk' => ?_, ?_, ?_⟩
    · rw [cell?_modSpan, if_pos ⟨rfl, rfl, by omega, by omega⟩, cell?_modCell, if_pos ⟨rfl, rfl, rfl⟩, cell?_modSpan,
        if_pos ⟨rfl, rfl, by omega, by omega⟩, hx0]
      refine ⟨_, rfl, ?_, rfl, fun i hi => ?_, ?_⟩
      · simp
      · simp [at?, hi, Value.zero]
      · simp
    · obtain ⟨x, hx, -⟩ := h2 k hk'
      rw [cell?_modSpan, if_pos ⟨rfl, rfl, by omega, by omega⟩, cell?_modCell, if_neg (by omega), cell?_modSpan,
        if_pos ⟨rfl, rfl, by omega, by omega⟩, hx]
      refine ⟨_, rfl, ?_, ?_⟩
      · simp; omega
      · simp
    · intro n' r' c' hno
      rw [cell?_modSpan, if_neg hno, cell?_modCell, if_neg (by omega), cell?_modSpan, if_neg hno]
    · rw [sansCells_modSpan, sansCells_modCell, sansCells_modSpan]

/-! ### Sequences of placements -/

/-- A placement request. -/
structure PlaceReq where
  n : Nat
  row : Nat
  col : Nat
  f : Ins
  id : Nat

/-- Placements one after the other: the results and the final context. -/
def placeAll : Ctx → List PlaceReq → Except UB (List Bool × Ctx)
  | c, [] => .ok ([], c)
  | c, q :: qs =>
    match fnCell true c q.n q.row q.col q.f q.id with
    | .error e => .error e
    | .ok (ok, c) =>
      match placeAll c qs with
      | .error e => .error e
      | .ok (oks, c) => .ok (ok :: oks, c)

theorem sans_net {a b : Ctx} (h : sansCells b = sansCells a) (n : Nat) :
    (at? b.network n).map (fun net => (net.rows, net.cols)) = (at? a.network n).map fun net => (net.rows, net.cols) := by
  have e := congrArg Ctx.network h
  simp only [sansCells] at e
  have e' := congrArg (fun x => (at? x n).map fun net : Network => (net.rows, net.cols)) e
  simp only [at?_map, Option.map_map] at e'
  exact e'

theorem placed_grids {a b : Ctx} {n row col h ops : Nat} {f : Ins} (hp : Placed a b n row col f h ops) (hg : Grids a) : Grids b := by
  intro m hm
  have hq : b.qty = a.qty := (congrArg Ctx.qty hp.rest :)
  rw [hq] at hm
  obtain ⟨net, h1, h2⟩ := hg m hm
  have e := sans_net hp.rest m
  rw [h1] at e
  obtain ⟨net', h3, h4⟩ := Option.map_eq_some_iff.1 e
  simp only [Prod.mk.injEq] at h4
  refine ⟨net', h3, fun r k hr hk => ?_⟩
  rw [h4.1] at hr
  rw [h4.2] at hk
  by_cases hs : m = n ∧ k = col ∧ row ≤ r ∧ r < row + h
  · obtain ⟨rfl, rfl, hs1, hs2⟩ := hs
    by_cases h0 : r = row
    · subst h0
      obtain ⟨x, hx, -⟩ := hp.top
      rw [hx]; rfl
    · obtain ⟨x, hx, -⟩ := hp.below (r - row) (by omega) (by omega)
      rw [show row + (r - row) = r by omega] at hx
      rw [hx]; rfl
  · rw [hp.others _ _ _ hs]
    exact h2 r k hr hk

theorem err_cell (c : Ctx) (e : Err) (n r k : Nat) : cell? { c with last := { c.last with err := e } } n r k = cell? c n r k := rfl

/-- A placed instruction is a new block. -/
theorem placed_tiled {a b : Ctx} {n row col h ops : Nat} {f : Ins} {bs : List Block} (hp : Placed a b n row col f h ops)
    (ht : Tiled a bs) (h0 : 0 < h) (hn : f ≠ .NOP) (hm : f ≠ .MULTI) : Tiled b (⟨n, row, col, f, h⟩ :: bs) := by
  have disj : ∀ b' ∈ bs, ∀ m r k, (⟨n, row, col, f, h⟩ : Block).has m r k → ¬ b'.has m r k := by
    rintro b' hb' m r k ⟨h1, h2, h3, h4⟩ ⟨g1, g2, g3, g4⟩
    dsimp only at h1 h2 h3 h4
    obtain ⟨x, hx, hx'⟩ := hp.empty (r - row) (by omega)
    obtain ⟨t1, t2, t3, y, hy, hy'⟩ := ht.top b' hb'
    rw [show row + (r - row) = r by omega] at hx
    by_cases h0 : r = b'.row
    · rw [← h1, ← h2, g1, g2, h0, hy] at hx
      cases hx
      exact t2 (hy'.symm.trans hx')
    · obtain ⟨z, hz, hz'⟩ := ht.below b' hb' (r - b'.row) (by omega) (by omega)
      rw [show b'.row + (r - b'.row) = r by omega, ← g1, ← g2, h1, h2, hx] at hz
      cases hz
      rw [hx'] at hz'
      cases hz'
  have keep : ∀ b' ∈ bs, ∀ m r k, b'.has m r k → cell? b m r k = cell? a m r k := fun b' hb' m r k hh =>
    hp.others m r k fun ⟨e1, e2, e3, e4⟩ => disj b' hb' m r k ⟨e1, e2, e3, e4⟩ hh
  constructor
  · intro b' hb'
    rcases List.mem_cons.1 hb' with rfl | hb'
    · obtain ⟨x, hx, hx', -⟩ := hp.top
      exact ⟨h0, hn, hm, x, hx, hx'⟩
    · obtain ⟨t1, t2, t3, y, hy, hy'⟩ := ht.top b' hb'
      exact ⟨t1, t2, t3, y, (keep b' hb' _ _ _ ⟨rfl, rfl, by omega, by omega⟩).trans hy, hy'⟩
  · intro b' hb' k hk hk'
    rcases List.mem_cons.1 hb' with rfl | hb'
    · obtain ⟨x, hx, hx', -⟩ := hp.below k hk hk'
      exact ⟨x, hx, hx'⟩
    · obtain ⟨y, hy, hy'⟩ := ht.below b' hb' k hk hk'
      exact ⟨y, (keep b' hb' _ _ _ ⟨rfl, rfl, by omega, by omega⟩).trans hy, hy'⟩
  · exact List.pairwise_cons.2 ⟨disj, ht.apart⟩
  · intro m r k x hx hx'
    by_cases hs : m = n ∧ k = col ∧ row ≤ r ∧ r < row + h
    · exact ⟨_, List.mem_cons_self, hs⟩
    · rw [hp.others _ _ _ hs] at hx
      obtain ⟨b', hb', hh⟩ := ht.cover m r k x hx hx'
      exact ⟨b', List.mem_cons_of_mem _ hb', hh⟩

/-- Placing a NOP leaves the blocks as they are. -/
theorem placed_nop {a b : Ctx} {n row col h ops : Nat} {bs : List Block} (hp : Placed a b n row col .NOP h ops)
    (ht : Tiled a bs) (h1 : h = 1) : Tiled b bs := by
  subst h1
  have keep : ∀ m r k x, cell? a m r k = some x → x.code ≠ .NOP → cell? b m r k = some x := by
    intro m r k x hx hc
    rw [hp.others m r k ?_, hx]
    rintro ⟨rfl, rfl, h3, h4⟩
    obtain ⟨y, hy, hy'⟩ := hp.empty (r - row) (by omega)
    rw [show row + (r - row) = r by omega, hx] at hy
    cases hy
    exact hc hy'
  constructor
  · intro b' hb'
    obtain ⟨t1, t2, t3, y, hy, hy'⟩ := ht.top b' hb'
    exact ⟨t1, t2, t3, y, keep _ _ _ _ hy (by rw [hy']; exact t2), hy'⟩
  · intro b' hb' k hk hk'
    obtain ⟨y, hy, hy'⟩ := ht.below b' hb' k hk hk'
    exact ⟨y, keep _ _ _ _ hy (by rw [hy']; decide), hy'⟩
  · exact ht.apart
  · intro m r k x hx hx'
    by_cases hs : m = n ∧ k = col ∧ row ≤ r ∧ r < row + 1
    · obtain ⟨rfl, rfl, h3, h4⟩ := hs
      obtain ⟨y, hy, hy', -⟩ := hp.top
      rw [show r = row by omega, hy] at hx
      cases hx
      exact absurd hy' hx'
    · rw [hp.others _ _ _ hs] at hx
      exact ht.cover m r k x hx hx'

/-- C49, sequences.  Starting from a grid made of blocks (for example an empty one), any sequence of placements never has undefined
behaviour and leads to a grid made of the same blocks and further ones, each of which comes from a request. -/
theorem C49_sequence_partial : ∀ (qs : List PlaceReq) {c : Ctx} {fns : List Foreign} {bs : List Block}, Grids c → Foreigners c fns →
    (∀ q ∈ qs, Placeable c q.f q.id) → Tiled c bs → ∃ oks c' new, placeAll c qs = .ok (oks, c') ∧ Tiled c' (new ++ bs) ∧
      sansCells c' = sansCells c ∧ ∀ b ∈ new, ∃ q ∈ qs, b = ⟨q.n, q.row, q.col, q.f, span c q.f q.id⟩
  | [], c, fns, bs, _, _, _, ht => ⟨[], c, [], rfl, ht, rfl, fun b hb => by cases hb⟩
  | q :: qs, c, fns, bs, hg, hf, hp, ht => by
    have hpq := hp q (by simp)
    have trans : ∀ {c1 : Ctx}, sansCells c1 = sansCells c → c1.foreign = c.foreign ∧ c1.foreignQty = c.foreignQty := fun h =>
      ⟨(congrArg Ctx.foreign h :), (congrArg Ctx.foreignQty h :)⟩
    have fin : ∀ {c1 : Ctx} {ok : Bool} {b1 : List Block}, fnCell true c q.n q.row q.col q.f q.id = .ok (ok, c1) →
        sansCells c1 = sansCells c → Grids c1 → Tiled c1 (b1 ++ bs) →
        (∀ b ∈ b1, b = ⟨q.n, q.row, q.col, q.f, span c q.f q.id⟩) → ∃ oks c' new, placeAll c (q :: qs) = .ok (oks, c') ∧
          Tiled c' (new ++ bs) ∧ sansCells c' = sansCells c ∧
          ∀ b ∈ new, ∃ q' ∈ q :: qs, b = ⟨q'.n, q'.row, q'.col, q'.f, span c q'.f q'.id⟩ := by
      intro c1 ok b1 h1 h2 h3 h4 h5
      obtain ⟨t1, t2⟩ := trans h2
      have sp : ∀ f id, span c1 f id = span c f id := by intro f id; cases f <;> simp only [span, t1]
      obtain ⟨oks, c', new, g1, g2, g3, g4⟩ := C49_sequence_partial qs h3 (fns := fns) ⟨t2.trans hf.qty, by rw [t1]; exact hf.table⟩
        (fun q' hq' => by
          have := hp q' (List.mem_cons_of_mem _ hq')
          exact ⟨this.1, fun hh g hg' => this.2 hh g (by rw [← t1]; exact hg')⟩) h4
      refine ⟨ok :: oks, c', new ++ b1, ?_, by rw [List.append_assoc]; exact g2, g3.trans h2, fun b hb => ?_⟩
      · unfold placeAll
        rw [h1]
        dsimp only
        rw [g1]
      · rcases List.mem_append.1 hb with hb | hb
        · obtain ⟨q', hq', e⟩ := g4 b hb
          exact ⟨q', List.mem_cons_of_mem _ hq', by rw [e, sp]⟩
        · exact ⟨q, List.mem_cons_self, h5 b hb⟩
    rcases C49_step_partial hg hf hpq q.n q.row q.col with ⟨e, h1, -⟩ | ⟨c1, h1, hnn, hi, h2⟩
    · exact fin (b1 := []) h1 rfl hg ⟨ht.top, ht.below, ht.apart, ht.cover⟩ (fun b hb => by cases hb)
    · by_cases hn : q.f = .NOP
      · rw [hn] at h2
        exact fin (b1 := []) h1 h2.rest (placed_grids h2 hg) (placed_nop h2 ht rfl) (fun b hb => by cases hb)
      · exact fin (b1 := [⟨q.n, q.row, q.col, q.f, span c q.f q.id⟩]) h1 h2.rest (placed_grids h2 hg)
          (placed_tiled h2 ht h2.height hn hpq.1) (fun b hb => List.mem_singleton.1 hb)

theorem apart_unique : ∀ {bs : List Block}, (bs.Pairwise fun b b' => ∀ n r k, b.has n r k → ¬ b'.has n r k) → ∀ {b b' : Block},
    b ∈ bs → b' ∈ bs → ∀ {n r k : Nat}, b.has n r k → b'.has n r k → b = b'
  | [], _, b, _, hb, _, _, _, _, _, _ => by cases hb
  | a :: bs, hp, b, b', hb, hb', n, r, k, h, h' => by
    obtain ⟨h1, h2⟩ := List.pairwise_cons.1 hp
    rcases List.mem_cons.1 hb with rfl | hb1 <;> rcases List.mem_cons.1 hb' with rfl | hb2
    · rfl
    · exact absurd h' (h1 b' hb2 n r k h)
    · exact absurd h (h1 b hb1 n r k h')
    · exact apart_unique h2 hb1 hb2 h h'

/-- C49, continuation cells.  On a grid made of blocks, every continuation cell belongs to exactly one block: there is an
instruction above it in its column, with only continuation cells in between, high enough to reach it, and no other block has it. -/
theorem C49_owner {c : Ctx} {bs : List Block} (ht : Tiled c bs) {n r k : Nat} {x : Cell} (hx : cell? c n r k = some x)
    (hc : x.code = .MULTI) : ∃ b ∈ bs, b.has n r k ∧ b.row < r ∧
      (∃ y, cell? c n b.row k = some y ∧ y.code = b.code ∧ y.code ≠ .MULTI ∧ y.code ≠ .NOP) ∧
      (∀ r', b.row < r' → r' ≤ r → ∃ y, cell? c n r' k = some y ∧ y.code = .MULTI) ∧
      ∀ b' ∈ bs, b'.has n r k → b' = b := by
  obtain ⟨b, hb, h1, h2, h3, h4⟩ := ht.cover n r k x hx (by rw [hc]; decide)
  obtain ⟨t1, t2, t3, y, hy, hy'⟩ := ht.top b hb
  subst h1 h2
  have hlt : b.row < r := by
    rcases Nat.lt_or_ge b.row r with h | h
    · exact h
    · exfalso
      rw [show r = b.row by omega, hy] at hx
      cases hx
      exact t3 (hy'.symm.trans hc)
  refine ⟨b, hb, ⟨rfl, rfl, h3, h4⟩, hlt, ⟨y, hy, hy', by rw [hy']; exact t3, by rw [hy']; exact t2⟩, fun r' h5 h6 => ?_,
    fun b' hb' hh => apart_unique ht.apart hb' hb hh ⟨rfl, rfl, h3, h4⟩⟩
  obtain ⟨z, hz, hz'⟩ := ht.below b hb (r' - b.row) (by omega) (by omega)
  rw [show b.row + (r' - b.row) = r' by omega] at hz
  exact ⟨z, hz, hz'⟩

theorem init_cell {a : InitArgs} {n r k : Nat} {x : Cell} (h : cell? (initCtx a) n r k = some x) : x = {} := by
  simp only [cell?, Option.bind_eq_some_iff] at h
  obtain ⟨net, h1, row, h2, h3⟩ := h
  simp only [initCtx] at h1
  split at h1
  · simp only [at?, Option.bind_some, List.getElem?_replicate] at h1
    split at h1
    · cases h1
      simp only [at?, Option.bind_some, List.getElem?_replicate] at h2
      split at h2
      · cases h2
        rw [List.getElem?_replicate] at h3
        split at h3
        · cases h3; rfl
        · cases h3
      · cases h2
    · cases h1
  · cases h1

/-- C49, from initialisation.  An initialised context is a complete grid without blocks, so after any sequence of placements on it
every continuation cell has exactly one owner. -/
theorem C49_initialised_partial (a : InitArgs) (hn : a.initNetwork = true) (qs : List PlaceReq)
    (hq : ∀ q ∈ qs, q.f ≠ .MULTI ∧ q.f ≠ .FOREIGN) : ∃ oks c' bs, placeAll (initCtx a) qs = .ok (oks, c') ∧ Tiled c' bs ∧
      ∀ b ∈ bs, ∃ q ∈ qs, b = ⟨q.n, q.row, q.col, q.f, span (initCtx a) q.f q.id⟩ := by
  have hg : Grids (initCtx a) := by
    intro n hlt
    have hlt' : n < a.networks := hlt
    have e : at? (initCtx a).network n = some { enable := false, rows := a.rows, cols := a.cols
                                                cells := some (List.replicate a.rows (List.replicate a.cols {})) } := by
      simp only [initCtx, hn, if_true, at?, Option.bind_some, List.getElem?_replicate, if_pos hlt']
    refine ⟨_, e, fun r k hr hk => ?_⟩
    dsimp only at hr hk
    unfold cell?
    rw [e]
    simp [at?, hr, hk]
  obtain ⟨oks, c', new, h1, h2, -, h4⟩ := C49_sequence_partial qs hg (fns := []) (bs := []) ⟨rfl, rfl⟩
    (fun q hq' => ⟨(hq q hq').1, fun h => absurd h (hq q hq').2⟩)
    ⟨fun b hb => absurd hb (by simp), fun b hb => absurd hb (by simp), List.Pairwise.nil,
      fun n r k x hx hc => absurd (by rw [init_cell hx]) hc⟩
  exact ⟨oks, c', new, h1, by simpa using h2, h4⟩

/-! ### Refutations and demonstrations -/

/-- The code at a position. -/
def codeAt (c : Ctx) (n r k : Nat) : Option Ins := (cell? c n r k).map (·.code)

/-- C49, defect.  When memory runs out, the call fails but the cells of the span are left as invalid instructions. -/
theorem C49_refuted_memory : ∃ c', fnCell false (initCtx demoArgs) 0 1 1 .TON 0 = .ok (false, c') ∧
    codeAt (initCtx demoArgs) 0 1 1 = some .NOP ∧ codeAt c' 0 1 1 = some .INV ∧ codeAt c' 0 2 1 = some .INV :=
  ⟨_, rfl, by decide, by decide, by decide⟩

/-- A context with foreign functions of two cells without operands (0), no cell and no operand (1), no cell but an operand (2). -/
def oddCtx : Ctx :=
  { initCtx demoArgs with foreignQty := 3, foreign := some [⟨0, ⟨1, 1, 2, 0⟩, false⟩, ⟨1, ⟨1, 1, 0, 0⟩, false⟩, ⟨2, ⟨1, 1, 0, 1⟩, false⟩] }

/-- C49, defect.  A foreign function of two cells without operands only takes its first cell, and another instruction is then
placed on its second cell. -/
theorem C49_refuted_span : ∃ c1 c2, fnCell true oddCtx 0 0 0 .FOREIGN 0 = .ok (true, c1) ∧ codeAt c1 0 0 0 = some .FOREIGN ∧
    codeAt c1 0 1 0 = some .NOP ∧ fnCell true c1 0 1 0 .NO 0 = .ok (true, c2) ∧ codeAt c2 0 1 0 = some .NO :=
  ⟨_, _, rfl, by decide, by decide, rfl, by decide⟩

/-- C49, defect.  A foreign function that declares no cell is not checked against occupied cells and replaces the instruction
there. -/
theorem C49_refuted_overwrite : ∃ c1 c2, fnCell true oddCtx 0 0 0 .NO 0 = .ok (true, c1) ∧ codeAt c1 0 0 0 = some .NO ∧
    fnCell true c1 0 0 0 .FOREIGN 1 = .ok (true, c2) ∧ codeAt c2 0 0 0 = some .FOREIGN :=
  ⟨_, _, rfl, by decide, rfl, by decide⟩

/-- C49, defect.  A foreign function that declares no cell but has an operand makes the call write above the first row, and placing
the continuation marker reads past the descriptor table. -/
theorem C49_refuted_outside : fnCell true oddCtx 0 0 0 .FOREIGN 2 = .error .oob ∧ fnCell true oddCtx 0 0 0 .MULTI 0 = .error .oob :=
  ⟨rfl, rfl⟩

/-- C49: a timer, a contact below it and an addition that does not fit below that, on a fresh grid of four rows. -/
def placeDemo : List PlaceReq := [⟨0, 0, 1, .TON, 0⟩, ⟨0, 2, 1, .NO, 0⟩, ⟨0, 3, 1, .ADD, 0⟩, ⟨0, 1, 1, .COIL, 0⟩]

example : (∃ c', placeAll (initCtx demoArgs) placeDemo = .ok ([true, true, false, false], c') ∧
      codeAt c' 0 0 1 = some .TON ∧ codeAt c' 0 1 1 = some .MULTI ∧ codeAt c' 0 2 1 = some .NO ∧ codeAt c' 0 3 1 = some .NOP) ∧
    ∃ oks c' bs, placeAll (initCtx demoArgs) placeDemo = .ok (oks, c') ∧ Tiled c' bs := by
  refine ⟨⟨_, rfl, by decide, by decide, by decide, by decide⟩, ?_⟩
  obtain ⟨oks, c', bs, h1, h2, -⟩ := C49_initialised_partial demoArgs rfl placeDemo (by decide)
  exact ⟨oks, c', bs, h1, h2⟩

end Ladder.Props
