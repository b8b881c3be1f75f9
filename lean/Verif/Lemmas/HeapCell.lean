import Verif.Lemmas.HeapReg

/-
Ownership accounting for the placement of instructions.
-/

namespace Ladder.Heap

theorem sumBag_listSet {α : Type} {B : α → Bag} {x y : α} (a : Nat) : ∀ (xs : List α) (i : Nat), xs[i]? = some x →
    sumBag B (xs.set i y) a + B x a = sumBag B xs a + B y a
  | [], _, h => by simp at h
  | z :: zs, 0, h => by
    have : z = x := by simpa using h
    subst this
    simp only [List.set_cons_zero, sumBag]
    omega
  | z :: zs, i + 1, h => by
    have := sumBag_listSet (B := B) (y := y) a zs i (by simpa using h)
    simp only [List.set_cons_succ, sumBag]
    omega

theorem at_runs {α β : Type} {arr : Option (Nat × List α)} {b : Nat} {xs : List α} {i : Nat} {x : α}
    (ha : arr = some (b, xs)) (hx : xs[i]? = some x) {f : α → H (β × α)} {G : Bag} {Q : β → α → Prop} {B : α → Bag}
    (hf : ∀ (h : Store) (R : Bag), Fits h (fun a => B x a + (G a + R a)) →
      Runs (f x) h fun r h' => Q r.1 r.2 ∧ Fits h' fun a => B r.2 a + R a) {h : Store} {R : Bag}
    (f0 : Fits h fun a => arrBag B arr a + (G a + R a)) :
    Runs (at_ f i arr) h fun r h' => (∃ y, Q r.1 y ∧ r.2 = some (b, xs.set i y)) ∧
      Fits h' fun a => arrBag B r.2 a + R a := by
  subst ha
  have hsum := fun (y : α) (a : Nat) => sumBag_listSet (B := B) (y := y) a xs i hx
  unfold at_
  refine Runs.keep (touch_runs f0 (b := b) (by simp only [arrBag, one_self]; omega)) ?_
  simp only [hx]
  have hle : ∀ a, B x a ≤ sumBag B xs a := sumBag_mem (List.mem_of_getElem? hx)
  refine (hf h (fun a => (one b a + (sumBag B xs a - B x a)) + R a) (f0.congr fun a => ?_)).bind ?_
  · have := hle a
    simp only [arrBag]
    omega
  · rintro ⟨r, y⟩ h' ⟨hq, f'⟩
    refine .pure ⟨⟨y, hq, rfl⟩, f'.congr fun a => ?_⟩
    have := hle a
    have := hsum y a
    simp only [arrBag]
    omega

theorem at_peek {α β : Type} {arr : Option (Nat × List α)} {b : Nat} {xs : List α} {i : Nat} {x : α}
    (ha : arr = some (b, xs)) (hx : xs[i]? = some x) {f : α → H (β × α)} {Q : β → Prop} {h : Store} {B : Bag}
    (f0 : Fits h B) (hb : 1 ≤ B b) (hf : Runs (f x) h fun r h' => Q r.1 ∧ h' = h) :
    Runs (at_ f i arr) h fun r h' => Q r.1 ∧ h' = h := by
  subst ha
  unfold at_
  refine Runs.keep (touch_runs f0 hb) ?_
  simp only [hx]
  refine hf.bind ?_
  rintro ⟨r, y⟩ h' ⟨hq, rfl⟩
  exact .pure ⟨hq, rfl⟩

/-- The path to a cell. -/
theorem cell_path {x : Ctx} {n r c : Nat} {cell : Cell} (hc : x.cell n r c = some cell) :
    ∃ b ns net b1 rs b2 cs, x.nets = some (b, ns) ∧ ns[n]? = some net ∧ net.cells = some (b1, rs) ∧
      rs[r]? = some (some (b2, cs)) ∧ cs[c]? = some cell := by
  unfold Ctx.cell at hc
  obtain ⟨⟨b, ns⟩, h1, h2⟩ := Option.bind_eq_some_iff.1 hc
  obtain ⟨net, h3, h4⟩ := Option.bind_eq_some_iff.1 h2
  obtain ⟨⟨b1, rs⟩, h5, h6⟩ := Option.bind_eq_some_iff.1 h4
  obtain ⟨row, h7, h8⟩ := Option.bind_eq_some_iff.1 h6
  obtain ⟨⟨b2, cs⟩, h9, h10⟩ := Option.bind_eq_some_iff.1 h8
  subst h9
  exact ⟨b, ns, net, b1, rs, b2, cs, h1, h3, h5, h7, h10⟩

theorem CtxOk.cell {C : Prop} {x : Ctx} (ok : CtxOk x C) {n r c : Nat} {cell : Cell} (hc : x.cell n r c = some cell) :
    CellOk cell := by
  obtain ⟨b, ns, net, b1, rs, b2, cs, h1, h2, h3, h4, h5⟩ := cell_path hc
  have hn := ok.nets
  rw [h1] at hn
  have h6 : ArrOk net.rows (RowOk net.cols) net.cells := hn.2 net (List.mem_of_getElem? h2)
  rw [h3] at h6
  have h7 := h6.2 _ (List.mem_of_getElem? h4)
  exact h7.2 _ (List.mem_of_getElem? h5)

theorem onCell_runs {C : Prop} {β : Type} {x : Ctx} (ok : CtxOk x C) {n r c : Nat} {cell : Cell}
    (hc : x.cell n r c = some cell) {f : Cell → H (β × Cell)} {G : Bag} {Q : β → Cell → Prop}
    (hf : ∀ (h : Store) (R : Bag), Fits h (fun a => cellBag cell a + (G a + R a)) →
      Runs (f cell) h fun q h' => (CellOk q.2 ∧ Q q.1 q.2) ∧ Fits h' fun a => cellBag q.2 a + R a) {h : Store} {R : Bag}
    (f0 : Fits h fun a => ctxBag x a + (G a + R a)) :
    Runs (onCell n r c f x) h fun q h' => CtxOk q.2 C ∧
      (∃ y, Q q.1 y ∧ ∀ r', q.2.cell n r' c = if r' = r then some y else x.cell n r' c) ∧
      Fits h' fun a => ctxBag q.2 a + R a := by
  obtain ⟨b, ns, net, b1, rs, b2, cs, h1, h2, h3, h4, h5⟩ := cell_path hc
  unfold onCell onNet
  refine (at_runs (B := netBag) (G := G) (R := fun a => slotBag x.slot a + ptrBag x.jobs a + R a)
    (Q := fun q net' => ∃ y, Q q y ∧ CellOk y ∧ net' = { net with
      cells := some (b1, rs.set r (some (b2, cs.set c y))) }) h1 h2 ?_ (f0.congr fun a => ?_)).bind ?_
  · intro h R fh
    refine (at_runs (B := rowBag) (G := G) (R := R) (Q := fun q row => ∃ y, Q q y ∧ CellOk y ∧ row = some (b2, cs.set c y))
      h3 h4 ?_ fh).bind ?_
    · intro h R fh
      refine (at_runs (B := cellBag) (G := G) (Q := fun q y => CellOk y ∧ Q q y) rfl h5 hf fh).mono ?_
      rintro ⟨q, row⟩ h' ⟨⟨y, hy, e⟩, f'⟩
      exact ⟨⟨y, hy.2, hy.1, e⟩, f'⟩
    · rintro ⟨q, cells⟩ h' ⟨⟨row, ⟨y, hq, hk, e⟩, e'⟩, f'⟩
      refine .pure ⟨⟨y, hq, hk, ?_⟩, f'⟩
      simp only at e'
      simp only [e', e]
  · simp only [ctxBag]; omega
  · rintro ⟨q, nets⟩ h' ⟨⟨net', ⟨y, hq, hk, e⟩, e'⟩, f'⟩
    simp only at hq e'
    have hn := ok.nets
    rw [h1] at hn
    have h6 : ArrOk net.rows (RowOk net.cols) net.cells := hn.2 net (List.mem_of_getElem? h2)
    rw [h3] at h6
    have h7 : ArrOk net.cols CellOk (some (b2, cs)) := h6.2 _ (List.mem_of_getElem? h4)
    have hrow : RowOk net.cols (some (b2, cs.set c y)) := by
      refine ⟨by simpa using h7.1, fun z hz => ?_⟩
      rcases List.mem_or_eq_of_mem_set hz with hz | rfl
      · exact h7.2 z hz
      · exact hk
    have hnet : NetOk net' := by
      subst e
      refine ⟨by simpa using h6.1, fun z hz => ?_⟩
      rcases List.mem_or_eq_of_mem_set hz with hz | rfl
      · exact h6.2 z hz
      · exact hrow
    refine .pure ⟨⟨?_, ok.pos, ?_, ok.m, ok.c, ok.t, ok.foreign, ok.reads, ok.writes, ok.cron⟩, ⟨y, hq, fun r' => ?_⟩,
      f'.congr fun a => ?_⟩
    · simp only [e']; rfl
    · simp only [e']
      refine ⟨by simpa using hn.1, fun z hz => ?_⟩
      rcases List.mem_or_eq_of_mem_set hz with hz | rfl
      · exact hn.2 z hz
      · exact hnet
    · have ln : n < ns.length := (List.getElem?_eq_some_iff.1 h2).1
      have lr : r < rs.length := (List.getElem?_eq_some_iff.1 h4).1
      have lc : c < cs.length := (List.getElem?_eq_some_iff.1 h5).1
      have g1 : ({ x with nets := nets } : Ctx).cell n r' c = net'.cell r' c := by
        simp only [Ctx.cell, e', Option.bind_some, List.getElem?_set_self ln]
      have g2 : x.cell n r' c = net.cell r' c := by
        simp only [Ctx.cell, h1, h2, Option.bind_some]
      rw [g1, g2, e]
      by_cases hr : r' = r
      · subst hr
        simp only [if_true, Net.cell, Option.bind_some, List.getElem?_set_self lr, List.getElem?_set_self lc]
      · simp only [if_neg hr, Net.cell, Option.bind_some, h3, List.getElem?_set_ne (fun e => hr e.symm)]
    · simp only [ctxBag]; omega

theorem onCell_peek {β : Type} {x : Ctx} {n r c : Nat} {cell : Cell} (hc : x.cell n r c = some cell) (g : Cell → β)
    {h : Store} {R : Bag} (f0 : Fits h fun a => ctxBag x a + R a) :
    Runs (onCell n r c (fun y => pure (g y, y)) x) h fun q h' => q.1 = g cell ∧ h' = h := by
  obtain ⟨b, ns, net, b1, rs, b2, cs, h1, h2, h3, h4, h5⟩ := cell_path hc
  have n1 : ∀ a, netBag net a ≤ sumBag netBag ns a := sumBag_mem (List.mem_of_getElem? h2)
  have n2 : ∀ a, rowBag (some (b2, cs)) a ≤ sumBag rowBag rs a := sumBag_mem (List.mem_of_getElem? h4)
  have e0 : ∀ a, ctxBag x a = slotBag x.slot a + ptrBag x.jobs a + (one b a + sumBag netBag ns a) := by
    intro a; simp only [ctxBag, h1, arrBag]
  have e1 : ∀ a, netBag net a = one b1 a + sumBag rowBag rs a := by
    intro a; simp only [netBag, h3, arrBag]
  have e2 : ∀ a, rowBag (some (b2, cs)) a = one b2 a + sumBag cellBag cs a := by
    intro a; simp only [rowBag, arrBag]
  unfold onCell onNet
  refine (at_peek (Q := fun q => q = g cell) h1 h2 f0 ?_ ?_).bind ?_
  · have := e0 b; have := one_self b; omega
  · refine (at_peek (Q := fun q => q = g cell) h3 h4 f0 ?_ ?_).bind ?_
    · have := e0 b1; have := one_self b1; have := n1 b1; have := e1 b1; omega
    · refine at_peek (Q := fun q => q = g cell) rfl h5 f0 ?_ (.pure ⟨rfl, rfl⟩)
      have := e0 b2; have := one_self b2; have := n1 b2; have := e1 b2; have := n2 b2; have := e2 b2; omega
    · rintro ⟨q, cells⟩ h' ⟨hq, rfl⟩
      exact .pure ⟨hq, rfl⟩
  · rintro ⟨q, nets⟩ h' ⟨hq, rfl⟩
    exact .pure ⟨hq, rfl⟩

theorem onNet_peek {β : Type} {x : Ctx} {n b : Nat} {ns : List Net} {net : Net} (h1 : x.nets = some (b, ns))
    (h2 : ns[n]? = some net) (g : Net → β) {h : Store} {R : Bag} (f0 : Fits h fun a => ctxBag x a + R a) :
    Runs (onNet n (fun y => pure (g y, y)) x) h fun q h' => q.1 = g net ∧ h' = h := by
  unfold onNet
  refine (at_peek (Q := fun q => q = g net) h1 h2 f0 ?_ (.pure ⟨rfl, rfl⟩)).bind ?_
  · have e0 : ctxBag x b = slotBag x.slot b + ptrBag x.jobs b + (one b b + sumBag netBag ns b) := by
      simp only [ctxBag, h1, arrBag]
    have := one_self b
    omega
  · rintro ⟨q, nets⟩ h' ⟨hq, rfl⟩
    exact .pure ⟨hq, rfl⟩

theorem spanFree_runs {x : Ctx} {n c : Nat} {h : Store} {R : Bag} (f0 : Fits h fun a => ctxBag x a + R a) :
    ∀ (k r : Nat), (∀ i, i < k → (x.cell n (r + i) c).isSome) → Runs (spanFree n c k r x) h fun _ h' => h' = h
  | 0, r, _ => .pure rfl
  | k + 1, r, hk => by
    unfold spanFree
    obtain ⟨cell, hc⟩ := Option.isSome_iff_exists.1 (hk 0 (by omega))
    refine (onCell_peek hc (fun y => y.code) f0).bind ?_
    rintro ⟨code, y⟩ h' ⟨-, rfl⟩
    dsimp only
    split
    · exact .pure rfl
    · refine spanFree_runs f0 k (r + 1) fun i hi => ?_
      have := hk (i + 1) (by omega)
      rwa [show r + 1 + i = r + (i + 1) by omega]

/-- A change of the cells of a span that keeps ownership and gives every cell of it the property `Q`. -/
theorem spanDo_runs {C : Prop} {n c : Nat} {f : Cell → H Cell} {P Q : Cell → Prop}
    (hf : Does f (fun x => CellOk x ∧ P x) cellBag (fun _ y => CellOk y ∧ Q y) cellBag) :
    ∀ (k r : Nat) (x : Ctx) (h : Store) (R : Bag), CtxOk x C →
    (∀ i, i < k → ∃ cell, x.cell n (r + i) c = some cell ∧ P cell) → Fits h (fun a => ctxBag x a + R a) →
    Runs (spanDo n c f k r x) h fun y h' => CtxOk y C ∧
      (∀ i, i < k → ∃ cell, y.cell n (r + i) c = some cell ∧ Q cell) ∧
      (∀ r', r' < r ∨ r + k ≤ r' → y.cell n r' c = x.cell n r' c) ∧ Fits h' fun a => ctxBag y a + R a
  | 0, r, x, h, R, ok, _, f0 => .pure ⟨ok, fun i hi => absurd hi (by omega), fun _ _ => rfl, f0⟩
  | k + 1, r, x, h, R, ok, hk, f0 => by
    unfold spanDo
    obtain ⟨cell, hc, hp⟩ := hk 0 (by omega)
    refine (onCell_runs ok hc (G := fun _ => 0) (R := R) (Q := fun _ y => Q y) ?_
      (f0.congr fun a => by omega)).bind ?_
    · intro h R fh
      refine (hf cell ⟨ok.cell hc, hp⟩ h R (fh.congr fun a => by omega)).bind ?_
      rintro y h' ⟨hy, f'⟩
      exact .pure ⟨hy, f'⟩
    · rintro ⟨u, x1⟩ h1 ⟨ok1, ⟨y, hy, hcell⟩, f1⟩
      simp only at ok1 hcell f1
      refine (spanDo_runs hf k (r + 1) x1 h1 R ok1 ?_ f1).mono ?_
      · intro i hi
        have := hk (i + 1) (by omega)
        rw [hcell, if_neg (by omega)]
        rwa [show r + 1 + i = r + (i + 1) by omega]
      · rintro z h2 ⟨ok2, hq, ho, f2⟩
        refine ⟨ok2, fun i hi => ?_, fun r' hr' => ?_, f2⟩
        · cases i with
          | zero =>
            rw [ho _ (by omega), hcell, if_pos (by omega)]
            exact ⟨y, rfl, hy⟩
          | succ i =>
            have := hq i (by omega)
            rwa [show r + (i + 1) = r + 1 + i by omega]
        · rw [ho r' (by omega), hcell, if_neg (by omega)]

theorem place_runs {C : Prop} (p : Policy) {d : Ladder.Iocd} (hd : 1 ≤ d.cells) (code : Ladder.Ins) {x : Ctx} (ok : CtxOk x C)
    {n r c b : Nat} {ns : List Net} {net : Net} (h1 : x.nets = some (b, ns)) (h2 : ns[n]? = some net)
    (hr : r < net.rows) (hc : c < net.cols) {h : Store} {R : Bag} (f0 : Fits h fun a => ctxBag x a + R a) :
    Runs (place p d code n r c x) h fun q h' => CtxOk q.2 C ∧ Fits h' fun a => ctxBag q.2 a + R a := by
  unfold place
  refine (onNet_peek h1 h2 (fun net => net.rows) f0).bind ?_
  rintro ⟨rows, y⟩ h' ⟨e, rfl⟩
  simp only at e
  subst e
  dsimp only
  split
  · exact .pure ⟨ok, f0⟩
  rename_i hspan
  have hcells : ∀ r', r' < net.rows → (x.cell n r' c).isSome := by
    intro r' hr'
    have hn := ok.nets
    rw [h1] at hn
    have h6 : ArrOk net.rows (RowOk net.cols) net.cells := hn.2 net (List.mem_of_getElem? h2)
    cases h3 : net.cells with
    | none => rw [h3] at h6; simp only [ArrOk] at h6; omega
    | some bx =>
      obtain ⟨b1, rs⟩ := bx
      rw [h3] at h6
      have l1 : r' < rs.length := by have := h6.1; omega
      have h7 : RowOk net.cols rs[r'] := h6.2 _ (List.getElem_mem l1)
      cases h4 : rs[r'] with
      | none => rw [h4] at h7; simp only [RowOk, ArrOk] at h7; omega
      | some by_ =>
        obtain ⟨b2, cs⟩ := by_
        rw [h4] at h7
        have l2 : c < cs.length := by have := h7.1; omega
        have l3 : rs[r']? = some (some (b2, cs)) := by rw [List.getElem?_eq_getElem l1, h4]
        simp [Ctx.cell, Net.cell, h1, h2, h3, l3, List.getElem?_eq_getElem l2]
  refine (spanFree_runs f0 d.cells r fun i hi => hcells _ (by omega)).bind ?_
  rintro free h' rfl
  cases free with
  | false => exact .pure ⟨ok, f0⟩
  | true =>
    simp only [Bool.not_true, Bool.false_eq_true, if_false]
    have hdrop : Does dropData (fun x => CellOk x ∧ True) cellBag (fun _ y => CellOk y ∧ y.data = none) cellBag := by
      intro x hx h R hh
      refine (dropData_cell x hx.1 h R hh).mono ?_
      rintro y h' ⟨⟨a, b, -⟩, f'⟩
      exact ⟨⟨a, b⟩, f'⟩
    refine (spanDo_runs hdrop d.cells r x h' R ok (fun i hi => ?_) f0).bind ?_
    · obtain ⟨cell, hcell⟩ := Option.isSome_iff_exists.1 (hcells (r + i) (by omega))
      exact ⟨cell, hcell, trivial⟩
    rintro x1 h3 ⟨ok1, hq1, -, f1⟩
    obtain ⟨cell1, hc1, hn1⟩ := hq1 0 (by omega)
    rw [Nat.add_zero] at hc1
    refine (onCell_runs ok1 hc1 (G := fun _ => 0) (R := R) (Q := fun _ y => y.data = none ∧ y.qty = d.dataQty) ?_
      (f1.congr fun a => by omega)).bind ?_
    · intro h R fh
      refine .pure ⟨⟨?_, hn1, rfl⟩, fh.congr fun a => ?_⟩
      · simp [CellOk, hn1]
      · simp only [cellBag]; omega
    rintro ⟨u, x2⟩ h4 ⟨ok2, ⟨y2, ⟨hn2, hq2⟩, hcell2⟩, f2⟩
    simp only at ok2 hcell2 f2
    have hspan2 : ∀ i, i < d.cells → ∃ cell, x2.cell n (r + i) c = some cell ∧ cell.data = none := by
      intro i hi
      rw [hcell2]
      split
      · exact ⟨y2, rfl, hn2⟩
      · exact hq1 i hi
    have hc2 : x2.cell n r c = some y2 := by rw [hcell2, if_pos rfl]
    split
    · refine (onCell_runs ok2 hc2 (G := fun _ => 0) (R := R) (Q := fun _ y => True) ?_ (f2.congr fun a => by omega)).bind ?_
      · intro h R fh
        refine .pure ⟨⟨by simp [CellOk], trivial⟩, fh.congr fun a => ?_⟩
        simp only [cellBag, hn2]; omega
      · rintro ⟨u, x3⟩ h5 ⟨ok3, -, f3⟩
        exact .pure ⟨ok3, f3⟩
    · refine (alloc_runs p f2).bind ?_
      rintro q h5 ⟨f5, -, -⟩
      cases q with
      | none =>
        have hinv : Does (fun _ => pure { code := .INV, qty := 0, data := none }) (fun x => CellOk x ∧ x.data = none)
            cellBag (fun _ y => CellOk y ∧ True) cellBag := by
          intro x hx h R hh
          refine .pure ⟨⟨by simp [CellOk], trivial⟩, hh.congr fun a => ?_⟩
          simp only [cellBag, hx.2, arrBag]
        refine (spanDo_runs hinv d.cells r x2 h5 R ok2 hspan2 (f5.congr fun a => by rw [ptrBag_none]; omega)).bind ?_
        rintro x3 h6 ⟨ok3, -, -, f3⟩
        exact .pure ⟨ok3, f3⟩
      | some b =>
        refine (onCell_runs ok2 hc2 (G := one b) (R := R) (Q := fun _ y => True) ?_
          (f5.congr fun a => by simp only [ptrBag]; omega)).bind ?_
        · intro h R fh
          refine .pure ⟨⟨?_, trivial⟩, fh.congr fun a => ?_⟩
          · intro _
            exact ⟨by simp [hq2], fun _ _ => trivial⟩
          · have hz : sumBag ptrBag (List.replicate d.dataQty none) a = 0 := sumBag_replicate (fun a => rfl) _ _
            simp only [cellBag, hn2, arrBag, hz]
            omega
        rintro ⟨u, x3⟩ h6 ⟨ok3, ⟨y3, -, hcell3⟩, f3⟩
        simp only at ok3 hcell3 f3
        have hmul : Does (fun cell : Cell => pure { cell with code := .MULTI }) (fun x => CellOk x ∧ True)
            cellBag (fun _ y => CellOk y ∧ True) cellBag := by
          intro x hx h R hh
          exact .pure ⟨⟨hx.1, trivial⟩, hh⟩
        refine (spanDo_runs hmul (d.cells - 1) (r + 1) x3 h6 R ok3 (fun i hi => ?_) f3).bind ?_
        · obtain ⟨cell, hcell, -⟩ := hspan2 (i + 1) (by omega)
          refine ⟨cell, ?_, trivial⟩
          rw [hcell3, if_neg (by omega)]
          rwa [show r + 1 + i = r + (i + 1) by omega]
        · rintro x4 h7 ⟨ok4, -, -, f4⟩
          exact .pure ⟨ok4, f4⟩

theorem fnCell_runs {C : Prop} (p : Policy) {d : Ladder.Iocd} (hd : 1 ≤ d.cells) (code : Ladder.Ins) (fid n r c : Nat) {x : Ctx}
    (ok : CtxOk x C) {h : Store} {R : Bag} (f0 : Fits h fun a => ctxBag x a + R a) :
    Runs (fnCell p d code fid n r c x) h fun q h' => CtxOk q.2 C ∧ Fits h' fun a => ctxBag q.2 a + R a := by
  unfold fnCell
  split
  · exact .pure ⟨ok, f0⟩
  rename_i hn
  obtain ⟨⟨b, ns⟩, h1⟩ := Option.isSome_iff_exists.1 ok.present
  have hok := ok.nets
  rw [h1] at hok
  have ln : n < ns.length := by have := hok.1; omega
  have h2 : ns[n]? = some ns[n] := List.getElem?_eq_getElem ln
  refine (onNet_peek h1 h2 (fun net => (net.rows, net.cols)) f0).bind ?_
  rintro ⟨⟨rows, cols⟩, y⟩ h' ⟨e, rfl⟩
  simp only [Prod.mk.injEq] at e
  obtain ⟨rfl, rfl⟩ := e
  dsimp only
  split
  · exact .pure ⟨ok, f0⟩
  rename_i hr
  split
  · exact .pure ⟨ok, f0⟩
  rename_i hc
  have fin := place_runs p hd code ok h1 h2 (by omega : r < _) (by omega : c < _) f0
  split
  · split
    · exact .pure ⟨ok, f0⟩
    · rename_i hf
      exact Runs.keep (touch_ctx (ok.foreign.1 (by omega)) f0) fin
  · exact fin

theorem setText_runs (p : Policy) {x : Ctx} (ok : CtxOk x) {n r c i : Nat} {cell : Cell}
    (hc : x.cell n r c = some cell) {b : Nat} {ts : List Ptr} (hd : cell.data = some (b, ts)) (hi : i < ts.length)
    {h : Store} {R : Bag} (f0 : Fits h fun a => ctxBag x a + R a) :
    Runs (setText p n r c i x) h fun q h' => CtxOk q.2 ∧ Fits h' fun a => ctxBag q.2 a + R a := by
  unfold setText
  refine (onCell_runs ok hc (G := fun _ => 0) (R := R) (Q := fun _ _ => True) ?_ (f0.congr fun a => by omega)).mono ?_
  · intro h R fh
    refine (at_runs (B := ptrBag) (G := fun _ => 0) (Q := fun _ _ => True) hd (List.getElem?_eq_getElem hi) ?_ fh).bind ?_
    · intro h R fh
      cases hq : ts[i] with
      | some b => exact .pure ⟨trivial, fh.congr fun a => by simp only [hq]; omega⟩
      | none =>
        refine (alloc_runs p fh).bind ?_
        rintro q h' ⟨f', -, -⟩
        exact .pure ⟨trivial, f'.congr fun a => by simp only [hq, ptrBag_none]; omega⟩
    · rintro ⟨q, data⟩ h' ⟨⟨y, -, e⟩, f'⟩
      refine .pure ⟨⟨?_, trivial⟩, f'⟩
      intro _
      have hk := ok.cell hc (by simp [hd])
      rw [hd] at hk
      have e : data = some (b, ts.set i y) := e
      subst e
      exact ⟨by simpa using hk.1, fun _ _ => trivial⟩
  · rintro q h' ⟨a, -, b⟩
    exact ⟨a, b⟩

end Ladder.Heap
