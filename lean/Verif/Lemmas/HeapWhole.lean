import Verif.Lemmas.HeapSave

/-
In every context that the library leaves behind, a cell without an operand array announces no operands.
-/

set_option autoImplicit false

namespace Ladder.Heap

open Ladder (Ins Json Host member)

/-- A cell without an array has no operands. -/
def Whole (x : Cell) : Prop := x.data = none → x.qty = 0

/-- The elements of an array, if there is one. -/
def Holds {α : Type} (P : α → Prop) : Option (Nat × List α) → Prop
  | none => True
  | some (_, xs) => ∀ x ∈ xs, P x

def WholeNet (x : Net) : Prop := Holds (Holds Whole) x.cells

def WholeCtx (x : Ctx) : Prop := ∀ n r c cell, x.cell n r c = some cell → Whole cell

theorem wholeCtx_iff {x : Ctx} : WholeCtx x ↔ Holds WholeNet x.nets := by
  constructor
  · intro h
    cases e : x.nets with
    | none => trivial
    | some a =>
      obtain ⟨b, ns⟩ := a
      intro net hn
      unfold WholeNet
      cases e2 : net.cells with
      | none => trivial
      | some a2 =>
        obtain ⟨b2, rs⟩ := a2
        intro row hr
        cases row with
        | none => trivial
        | some a3 =>
          obtain ⟨b3, cs⟩ := a3
          intro cell hc
          obtain ⟨n, hn'⟩ := List.mem_iff_getElem?.1 hn
          obtain ⟨r, hr'⟩ := List.mem_iff_getElem?.1 hr
          obtain ⟨c, hc'⟩ := List.mem_iff_getElem?.1 hc
          exact h n r c cell (by simp [Ctx.cell, Net.cell, e, hn', e2, hr', hc'])
  · intro h n r c cell hc
    obtain ⟨⟨b, ns⟩, h1, h2⟩ := Option.bind_eq_some_iff.1 hc
    obtain ⟨net, h3, h4⟩ := Option.bind_eq_some_iff.1 h2
    obtain ⟨⟨b2, rows⟩, h5, h6⟩ := Option.bind_eq_some_iff.1 h4
    obtain ⟨row, h7, h8⟩ := Option.bind_eq_some_iff.1 h6
    obtain ⟨⟨b3, cells⟩, h9, h10⟩ := Option.bind_eq_some_iff.1 h8
    rw [h1] at h
    have hnet := h net (List.mem_of_getElem? h3)
    unfold WholeNet at hnet
    rw [h5] at hnet
    have hrow := hnet row (List.mem_of_getElem? h7)
    rw [h9] at hrow
    exact hrow cell (List.mem_of_getElem? h10)

theorem walk_holds {α : Type} {f : α → H α} {P : α → Prop} (hf : ∀ x, P x → Post (f x) P) :
    ∀ (n : Nat) (xs : List α), (∀ x ∈ xs, P x) → Post (walk f n xs) fun ys => ∀ y ∈ ys, P y
  | 0, xs, h => by unfold walk; exact .pure h
  | n + 1, [], _ => by unfold walk; exact .fault
  | n + 1, x :: xs, h => by
    unfold walk
    refine (hf x (h x (by simp))).bind fun y hy => ?_
    refine (walk_holds hf n xs fun z hz => h z (by simp [hz])).bind fun ys hys => .pure fun z hz => ?_
    rcases List.mem_cons.1 hz with rfl | hz
    · exact hy
    · exact hys z hz

theorem each_holds {α : Type} {f : α → H α} {P : α → Prop} (hf : ∀ x, P x → Post (f x) P) (n : Nat)
    {a : Option (Nat × List α)} (ha : Holds P a) : Post (each f n a) (Holds P) := by
  unfold each
  by_cases hn : n = 0
  · rw [if_pos hn]; exact .pure ha
  · rw [if_neg hn]
    cases a with
    | none => exact .fault
    | some a =>
      obtain ⟨b, xs⟩ := a
      refine (walk_holds (P := P) (fun x hx => .skip fun _ => hf x hx) n xs ha).bind fun ys hys => .pure hys

theorem walkWhile_holds {ι α : Type} {f : ι → α → H (Bool × α)} {P : α → Prop}
    (hf : ∀ j x, P x → Post (f j x) fun r => r.1 = true → P r.2) :
    ∀ (js : List ι) (xs : List α), (∀ x ∈ xs, P x) → Post (walkWhile f js xs) fun r => r.1 = true → ∀ y ∈ r.2, P y
  | [], xs, h => by unfold walkWhile; exact .pure fun _ => h
  | _ :: _, [], _ => by unfold walkWhile; exact .fault
  | j :: js, x :: xs, h => by
    unfold walkWhile
    refine (hf j x (h x (by simp))).bind fun r hr => ?_
    obtain ⟨ok, y⟩ := r
    cases ok with
    | false => exact .pure fun e => nomatch e
    | true =>
      refine (walkWhile_holds hf js xs fun z hz => h z (by simp [hz])).bind fun r' hr' => ?_
      obtain ⟨ok', ys⟩ := r'
      refine .pure fun e z hz => ?_
      rcases List.mem_cons.1 hz with rfl | hz
      · exact hr rfl
      · exact hr' e z hz

theorem eachWhile_holds {ι α : Type} {f : ι → α → H (Bool × α)} {P : α → Prop}
    (hf : ∀ j x, P x → Post (f j x) fun r => r.1 = true → P r.2) (js : List ι) {a : Option (Nat × List α)} (ha : Holds P a) :
    Post (eachWhile f js a) fun r => r.1 = true → Holds P r.2 := by
  unfold eachWhile
  by_cases hn : js = []
  · rw [if_pos hn]; exact .pure fun _ => ha
  · rw [if_neg hn]
    cases a with
    | none => exact .fault
    | some a =>
      obtain ⟨b, xs⟩ := a
      refine (walkWhile_holds (P := P) (fun j x hx => .skip fun _ => hf j x hx) js xs ha).bind fun r hr => ?_
      obtain ⟨ok, ys⟩ := r
      exact .pure hr

theorem at_holds {α β : Type} {f : α → H (β × α)} {P : α → Prop} (hf : ∀ x, P x → Post (f x) fun r => P r.2) (i : Nat)
    {a : Option (Nat × List α)} (ha : Holds P a) : Post (at_ f i a) fun r => Holds P r.2 := by
  unfold at_
  cases a with
  | none => exact .fault
  | some a =>
    obtain ⟨b, xs⟩ := a
    refine .skip fun _ => ?_
    cases hx : xs[i]? with
    | none => exact .fault
    | some x =>
      refine (hf x (ha x (List.mem_of_getElem? hx))).bind fun r hr => ?_
      obtain ⟨r, y⟩ := r
      refine .pure fun z hz => ?_
      rcases List.mem_or_eq_of_mem_set hz with hz | rfl
      · exact ha z hz
      · exact hr

theorem onNet_whole {β : Type} {f : Net → H (β × Net)} (hf : ∀ x, WholeNet x → Post (f x) fun r => WholeNet r.2) (n : Nat)
    {x : Ctx} (hx : WholeCtx x) : Post (onNet n f x) fun r => WholeCtx r.2 := by
  unfold onNet
  refine (at_holds hf n (wholeCtx_iff.1 hx)).bind fun r hr => ?_
  obtain ⟨r, nets⟩ := r
  exact .pure (wholeCtx_iff.2 hr)

theorem onCell_whole {β : Type} {f : Cell → H (β × Cell)} (hf : ∀ x, Whole x → Post (f x) fun r => Whole r.2) (n r c : Nat)
    {x : Ctx} (hx : WholeCtx x) : Post (onCell n r c f x) fun r => WholeCtx r.2 := by
  unfold onCell
  refine onNet_whole (fun net hnet => ?_) n hx
  refine (at_holds (P := Holds Whole) (fun row hrow => at_holds hf c hrow) r hnet).bind fun r hr => ?_
  obtain ⟨r, cells⟩ := r
  exact .pure hr

theorem dropData_whole (x : Cell) (hx : Whole x) : Post (dropData x) fun y => Whole y ∧ y.data = none := by
  unfold dropData
  cases e : x.data with
  | none => exact .pure ⟨hx, e⟩
  | some d => exact .skip fun _ => .skip fun _ => .pure ⟨fun _ => rfl, rfl⟩

theorem clearCell_whole (x : Cell) (hx : Whole x) : Post (clearCell x) Whole := by
  unfold clearCell
  exact (dropData_whole x hx).bind fun y hy => .pure hy.1

theorem clearProgram_whole {x : Ctx} (hx : WholeCtx x) : Post (clearProgram x) WholeCtx := by
  unfold clearProgram
  refine (each_holds (P := WholeNet) (fun net hnet => ?_) x.networks (wholeCtx_iff.1 hx)).bind fun nets hn =>
    .pure (wholeCtx_iff.2 hn)
  unfold clearNet
  by_cases hc : net.cols = 0
  · rw [if_pos hc]; exact .pure hnet
  · rw [if_neg hc]
    exact (each_holds (P := Holds Whole) (fun row hrow => each_holds clearCell_whole _ hrow) _ hnet).bind fun cells hcells =>
      .pure hcells

/-! ### Loading -/

theorem loadOperands_whole (p : Policy) (host : Host) (l : List Json) (x : Cell) :
    Post (loadOperands p host l x) fun r => r.1 = true → Whole r.2 := by
  unfold loadOperands
  refine .skip fun q => ?_
  by_cases h1 : l.length ≠ q
  · rw [if_pos h1]; exact .pure fun e => nomatch e
  · rw [if_neg h1]
    dsimp only
    by_cases h2 : l.length = 0
    · rw [if_pos h2]; exact .pure fun _ _ => h2
    · rw [if_neg h2]
      refine .skip fun q => ?_
      cases q with
      | none => exact .pure fun e => nomatch e
      | some b =>
        have : Post (eachWhile (loadOperand p host x.code) l.zipIdx (some (b, List.replicate l.length none)))
            fun r => r.2.isSome := by
          unfold eachWhile
          split
          · exact .pure rfl
          · exact .skip fun r => .pure rfl
        refine this.bind fun r hr => ?_
        obtain ⟨ok, data⟩ := r
        cases ok with
        | true =>
          refine .pure fun _ e => ?_
          dsimp only at e hr
          rw [e] at hr
          cases hr
        | false => exact .skip fun _ => .pure fun e => nomatch e

theorem loadCell_whole (p : Policy) (host : Host) (j : Json) (x : Cell) (_ : Whole x) :
    Post (loadCell p host j x) fun r => r.1 = true → Whole r.2 := by
  have no : ∀ y : Cell, Post (pure (false, y) : H (Bool × Cell)) fun r => r.1 = true → Whole r.2 :=
    fun y => .pure fun e => nomatch e
  unfold loadCell
  cases j with
  | obj ms =>
    dsimp only
    split
    · exact no _
    · split
      · exact no _
      · split
        · split
          · exact loadOperands_whole p host _ _
          · exact no _
        · exact no _
  | _ => exact no _

theorem loadRow_whole (p : Policy) (host : Host) (cols : Nat) (j : Json) (row : Row) (hr : Holds Whole row) :
    Post (loadRow p host cols j row) fun r => r.1 = true → Holds Whole r.2 := by
  unfold loadRow
  split
  · split
    · exact eachWhile_holds (loadCell_whole p host) _ hr
    · exact .pure fun e => nomatch e
  · exact .pure fun e => nomatch e

theorem whole_none {rows cols : Nat} : WholeNet { rows := rows, cols := cols } := trivial

theorem releaseNet_whole (x : Net) : Post (releaseNet x) WholeNet := by
  unfold releaseNet
  exact .skip fun _ => .skip fun _ => .pure trivial

theorem loadGrid_whole (p t : Policy) (host : Host) (rows cols : Nat) (data : Option Json) :
    Post (loadGrid p t host rows cols data) fun r => WholeNet r.2 := by
  unfold loadGrid
  split
  · split
    · exact .pure whole_none
    · refine .skip fun q => ?_
      cases q with
      | none => exact .pure whole_none
      | some b =>
        have h0 : Holds (Holds Whole) (some (b, List.replicate rows (none : Row))) := fun row hrow => by
          rw [(List.mem_replicate.1 hrow).2]
          trivial
        refine (eachWhile_holds (P := Holds Whole) (fun u row _ => ?_) _ h0).bind fun r hr => ?_
        · unfold newRow
          refine .skip fun q => .pure fun _ => ?_
          cases q with
          | none => trivial
          | some b =>
            intro x hx
            rw [(List.mem_replicate.1 hx).2]
            exact fun _ => rfl
        · obtain ⟨ok, cells⟩ := r
          cases ok with
          | false => exact .skip fun _ => .skip fun _ => .pure trivial
          | true =>
            unfold fillGrid
            refine (eachWhile_holds (loadRow_whole p host cols) _ (hr rfl)).bind fun r hr => ?_
            obtain ⟨ok, cells⟩ := r
            cases ok with
            | true => exact .pure (hr rfl)
            | false => exact (releaseNet_whole _).bind fun y hy => .pure hy
  · exact .pure whole_none

theorem loadShape_whole (p t : Policy) (host : Host) (ms : List (String × Json)) {x : Net} (hx : WholeNet x) :
    Post (loadShape p t host ms x) fun r => WholeNet r.2 := by
  unfold loadShape
  split
  · refine .skip fun rows => ?_
    split
    · exact .skip fun cols => loadGrid_whole p t host rows cols _
    · exact .pure hx
  · exact .pure hx

theorem loadNet_whole (p t : Policy) (host : Host) (j : Json) {x : Ctx} (hx : WholeCtx x) :
    Post (loadNet p t host j x) fun r => WholeCtx r.2 := by
  unfold loadNet
  split
  · split
    · refine .skip fun n => ?_
      split
      · exact .pure hx
      · exact onNet_whole (fun net _ => (releaseNet_whole net).bind fun y hy => loadShape_whole p t host _ hy) n hx
    · exact .pure hx
  · exact .pure hx

theorem loadNets_whole (p t : Policy) (host : Host) : ∀ (l : List Json) {x : Ctx}, WholeCtx x →
    Post (loadNets p t host l x) fun r => WholeCtx r.2
  | [], x, hx => by unfold loadNets; exact .pure hx
  | j :: js, x, hx => by
    unfold loadNets
    refine (loadNet_whole p t host j hx).bind fun r hr => ?_
    obtain ⟨ok, y⟩ := r
    cases ok with
    | true => exact loadNets_whole p t host js hr
    | false => exact .pure hr

theorem loadFile_whole (p t : Policy) (host : Host) (file : File) {x : Ctx} (hx : WholeCtx x) :
    Post (loadFile p t host file x) fun r => WholeCtx r.2 := by
  unfold loadFile
  refine .skip fun buf => ?_
  split
  · exact .pure hx
  · refine .skip fun root => .skip fun _ => ?_
    split
    · exact .pure hx
    · refine .skip fun _ => ?_
      refine Post.bind (Q := fun r => WholeCtx r.2) ?_ fun r hr => .skip fun _ => .pure hr
      unfold loadList
      refine (clearProgram_whole hx).bind fun y hy => ?_
      refine (loadNets_whole p t host _ hy).bind fun r hr => ?_
      obtain ⟨ok, z⟩ := r
      cases ok with
      | true => exact .pure hr
      | false => exact (clearProgram_whole hr).bind fun z hz => .pure hz
    · exact .skip fun _ => .skip fun _ => .pure hx

/-! ### Placing an instruction -/

def gridCell (a : Option (Nat × List Row)) (r c : Nat) : Option Cell :=
  a.bind fun a => a.2[r]?.bind fun row => row.bind fun b => b.2[c]?

def netsCell (a : Option (Nat × List Net)) (n r c : Nat) : Option Cell :=
  a.bind fun a => a.2[n]?.bind fun net => net.cell r c

/-- The effect of a change of one cell on the cells. -/
theorem onCell_cells {β : Type} {f : Cell → H (β × Cell)} {n r c : Nat} {x : Ctx} {Q : Cell → Prop}
    (hf : ∀ cell, x.cell n r c = some cell → Post (f cell) fun r => Q r.2) :
    Post (onCell n r c f x) fun res => ∀ n' r' c' cell, res.2.cell n' r' c' = some cell →
      ((n' = n ∧ r' = r ∧ c' = c) ∧ Q cell) ∨ (¬ (n' = n ∧ r' = r ∧ c' = c) ∧ x.cell n' r' c' = some cell) := by
  unfold onCell onNet at_
  cases e1 : x.nets with
  | none => exact .fault
  | some a1 =>
    obtain ⟨b1, ns⟩ := a1
    refine Post.bind (Q := fun res : β × Option (Nat × List Net) => ∀ n' r' c' cell,
      netsCell res.2 n' r' c' = some cell →
      ((n' = n ∧ r' = r ∧ c' = c) ∧ Q cell) ∨ (¬ (n' = n ∧ r' = r ∧ c' = c) ∧ x.cell n' r' c' = some cell)) ?_
      fun res hres => .pure hres
    refine .skip fun _ => ?_
    cases e2 : ns[n]? with
    | none => exact .fault
    | some net =>
      refine Post.bind (Q := fun res : β × Net => ∀ r' c' cell, res.2.cell r' c' = some cell →
        ((r' = r ∧ c' = c) ∧ Q cell) ∨ (¬ (r' = r ∧ c' = c) ∧ net.cell r' c' = some cell)) ?_ fun res hres => .pure ?_
      · refine Post.bind (Q := fun res : β × Option (Nat × List Row) => ∀ r' c' cell,
          gridCell res.2 r' c' = some cell →
          ((r' = r ∧ c' = c) ∧ Q cell) ∨ (¬ (r' = r ∧ c' = c) ∧ net.cell r' c' = some cell)) ?_ fun res hres => .pure hres
        cases e3 : net.cells with
        | none => exact .fault
        | some a3 =>
          obtain ⟨b3, rs⟩ := a3
          refine .skip fun _ => ?_
          cases e4 : rs[r]? with
          | none => exact .fault
          | some row =>
            refine Post.bind (Q := fun res : β × Row => ∀ c' cell, (res.2.bind fun b => b.2[c']?) = some cell →
              (c' = c ∧ Q cell) ∨ (c' ≠ c ∧ (row.bind fun b => b.2[c']?) = some cell)) ?_ fun res hres => .pure ?_
            · cases row with
              | none => exact .fault
              | some a5 =>
                obtain ⟨b5, cs⟩ := a5
                refine .skip fun _ => ?_
                cases e6 : cs[c]? with
                | none => exact .fault
                | some cell0 =>
                  refine (hf cell0 (by simp [Ctx.cell, Net.cell, e1, e2, e3, e4, e6])).bind fun res hres => .pure ?_
                  intro c' cell hc
                  by_cases hcc : c' = c
                  · subst hcc
                    have hlt := (List.getElem?_eq_some_iff.1 e6).1
                    simp [List.getElem?_set_self hlt] at hc
                    exact .inl ⟨rfl, hc ▸ hres⟩
                  · refine .inr ⟨hcc, ?_⟩
                    have : (cs.set c res.2)[c']? = cs[c']? := List.getElem?_set_ne (fun h => hcc h.symm)
                    simpa [this] using hc
            · intro r' c' cell hc
              by_cases hrr : r' = r
              · subst hrr
                have hlt := (List.getElem?_eq_some_iff.1 e4).1
                simp only [gridCell, Option.bind_some, List.getElem?_set_self hlt] at hc
                rcases hres c' cell hc with ⟨h1, h2⟩ | ⟨h1, h2⟩
                · exact .inl ⟨⟨rfl, h1⟩, h2⟩
                · refine .inr ⟨fun h => h1 h.2, ?_⟩
                  simp only [Net.cell, e3, Option.bind_some, e4]
                  exact h2
              · refine .inr ⟨fun h => hrr h.1, ?_⟩
                have : (rs.set r res.2)[r']? = rs[r']? := List.getElem?_set_ne (fun h => hrr h.symm)
                simp only [gridCell, Option.bind_some, this] at hc
                simp only [Net.cell, e3, Option.bind_some]
                exact hc
      · intro n' r' c' cell hc
        by_cases hnn : n' = n
        · subst hnn
          have hlt := (List.getElem?_eq_some_iff.1 e2).1
          simp only [netsCell, Option.bind_some, List.getElem?_set_self hlt] at hc
          rcases hres r' c' cell hc with ⟨h1, h2⟩ | ⟨h1, h2⟩
          · exact .inl ⟨⟨rfl, h1⟩, h2⟩
          · refine .inr ⟨fun h => h1 h.2, ?_⟩
            simp only [Ctx.cell, e1, Option.bind_some, e2]
            exact h2
        · refine .inr ⟨fun h => hnn h.1, ?_⟩
          have : (ns.set n res.2)[n']? = ns[n']? := List.getElem?_set_ne (fun h => hnn h.symm)
          simp only [netsCell, Option.bind_some, this] at hc
          simp only [Ctx.cell, e1, Option.bind_some]
          exact hc

theorem spanDo_whole {n c : Nat} {f : Cell → H Cell} (hf : ∀ x, Whole x → Post (f x) Whole) : ∀ (k r : Nat) {x : Ctx},
    WholeCtx x → Post (spanDo n c f k r x) WholeCtx
  | 0, _, _, hx => by unfold spanDo; exact .pure hx
  | k + 1, r, x, hx => by
    unfold spanDo
    refine (onCell_whole (fun cell hcell => ?_) n r c hx).bind fun res hres => ?_
    · exact (hf cell hcell).bind fun y hy => .pure hy
    · obtain ⟨u, y⟩ := res
      exact spanDo_whole hf k (r + 1) hres

theorem place_whole (p : Policy) {d : Ladder.Iocd} (hd : 1 ≤ d.cells) (code : Ins) (n r c : Nat) {x : Ctx} (hx : WholeCtx x) :
    Post (place p d code n r c x) fun res => WholeCtx res.2 := by
  unfold place
  refine .skip fun r0 => ?_
  obtain ⟨rows, _⟩ := r0
  dsimp only
  split
  · exact .pure hx
  · refine .skip fun free => ?_
    split
    · exact .pure hx
    · refine (spanDo_whole (fun y hy => (dropData_whole y hy).mono fun _ h => h.1) d.cells r hx).bind fun y hy => ?_
      refine (onCell_cells (Q := fun cell => cell.qty = d.dataQty) (fun cell _ => .pure rfl)).bind fun res hres => ?_
      obtain ⟨u, z⟩ := res
      dsimp only at hres ⊢
      have hz : ∀ {n' r' c' cell}, z.cell n' r' c' = some cell → ¬ (n' = n ∧ r' = r ∧ c' = c) → Whole cell := by
        intro n' r' c' cell hc hne
        rcases hres n' r' c' cell hc with ⟨h1, _⟩ | ⟨_, h2⟩
        · exact absurd h1 hne
        · exact hy _ _ _ _ h2
      split
      · rename_i hq
        refine (onCell_cells (Q := Whole) (fun cell hc => .pure fun _ => ?_)).bind fun res' hres' => ?_
        · rcases hres _ _ _ _ hc with ⟨_, h2⟩ | ⟨h1, _⟩
          · exact h2.trans hq
          · exact absurd ⟨rfl, rfl, rfl⟩ h1
        · obtain ⟨u', w⟩ := res'
          refine .pure fun n' r' c' cell hc => ?_
          rcases hres' n' r' c' cell hc with ⟨_, h2⟩ | ⟨h1, h2⟩
          · exact h2
          · exact hz h2 h1
      · refine .skip fun q => ?_
        cases q with
        | none =>
          obtain ⟨k, hk⟩ : ∃ k, d.cells = k + 1 := ⟨d.cells - 1, by omega⟩
          rw [hk]
          refine Post.bind (Q := WholeCtx) ?_ fun w hw => .pure hw
          unfold spanDo
          refine (onCell_cells (Q := Whole) (fun cell _ => Post.pure (a := ((), _)) fun _ => rfl)).bind fun res' hres' => ?_
          · obtain ⟨u', w⟩ := res'
            refine spanDo_whole (fun _ _ => .pure fun _ => rfl) k (r + 1) fun n' r' c' cell hc => ?_
            rcases hres' n' r' c' cell hc with ⟨_, h2⟩ | ⟨h1, h2⟩
            · exact h2
            · exact hz h2 h1
        | some b =>
          refine (onCell_cells (Q := Whole) (fun cell _ => .pure fun e => by cases e)).bind fun res' hres' => ?_
          obtain ⟨u', w⟩ := res'
          refine (spanDo_whole (f := fun cell => pure { cell with code := .MULTI }) (fun cell hcell => .pure hcell) _ _
            fun n' r' c' cell hc => ?_).bind fun v hv => .pure hv
          rcases hres' n' r' c' cell hc with ⟨_, h2⟩ | ⟨h1, h2⟩
          · exact h2
          · exact hz h2 h1

theorem fnCell_whole (p : Policy) {d : Ladder.Iocd} (hd : 1 ≤ d.cells) (code : Ins) (fid n r c : Nat) {x : Ctx}
    (hx : WholeCtx x) : Post (fnCell p d code fid n r c x) fun res => WholeCtx res.2 := by
  unfold fnCell
  split
  · exact .pure hx
  · refine .skip fun r0 => ?_
    obtain ⟨⟨rows, cols⟩, _⟩ := r0
    dsimp only
    split
    · exact .pure hx
    · split
      · exact .pure hx
      · split
        · split
          · exact .pure hx
          · exact .skip fun _ => place_whole p hd code n r c hx
        · exact place_whole p hd code n r c hx

theorem setText_whole (p : Policy) (n r c i : Nat) {x : Ctx} (hx : WholeCtx x) :
    Post (setText p n r c i x) fun res => WholeCtx res.2 := by
  unfold setText
  refine onCell_whole (fun cell hcell => ?_) n r c hx
  refine Post.bind (Q := fun res : Bool × Option (Nat × List Ptr) => res.2.isSome) ?_ fun res hres => ?_
  · unfold at_
    split
    · exact .fault
    · refine .skip fun _ => ?_
      split
      · exact .fault
      · exact .skip fun _ => .pure rfl
  · obtain ⟨ok, data⟩ := res
    refine .pure fun e => ?_
    dsimp only at e hres
    rw [e] at hres
    cases hres

/-! ### The other calls -/

theorem addModule_nets (p : Policy) (tb : Table) (n : Nat) (hook : Bool) (x : Ctx) :
    Post (addModule p tb n hook x) fun r => r.2.nets = x.nets := by
  unfold addModule
  refine .skip fun q => ?_
  cases q with
  | none => exact .pure rfl
  | some b =>
    refine .skip fun q => ?_
    cases q with
    | none => exact .skip fun _ => .pure rfl
    | some b =>
      refine .skip fun q => ?_
      cases q with
      | none => exact .skip fun _ => .skip fun _ => .pure rfl
      | some b =>
        refine .skip fun _ => .skip fun _ => .skip fun _ => ?_
        cases hook with
        | true => exact .pure rfl
        | false => exact .skip fun _ => .skip fun _ => .skip fun _ => .pure rfl

theorem WholeCtx.of_nets {x y : Ctx} (hx : WholeCtx x) (e : y.nets = x.nets) : WholeCtx y := by
  rw [wholeCtx_iff, e]
  exact wholeCtx_iff.1 hx

theorem addRead_whole (p : Policy) (hook : Bool) {x : Ctx} (hx : WholeCtx x) :
    Post (addRead p hook x) fun r => WholeCtx r.2 := by
  unfold addRead
  split
  · exact .pure hx
  · refine (addModule_nets p readTable x.reads hook x).bind fun r hr => ?_
    obtain ⟨ok, y⟩ := r
    refine .pure (hx.of_nets ?_)
    cases ok <;> exact hr

theorem addWrite_whole (p : Policy) (hook : Bool) {x : Ctx} (hx : WholeCtx x) :
    Post (addWrite p hook x) fun r => WholeCtx r.2 := by
  unfold addWrite
  split
  · exact .pure hx
  · refine (addModule_nets p writeTable x.writes hook x).bind fun r hr => ?_
    obtain ⟨ok, y⟩ := r
    refine .pure (hx.of_nets ?_)
    cases ok <;> exact hr

theorem addForeign_whole (p : Policy) (qty : Nat) (hook : Bool) {x : Ctx} (hx : WholeCtx x) :
    Post (addForeign p qty hook x) fun r => WholeCtx r.2 := by
  have fin : ∀ q : Ptr, Post (match q with
      | none => pure (false, x)
      | some b => do
        touch (some b)
        pure (true, { x.set .foreign (some b) with foreigns := x.foreigns + 1 }) : H (Bool × Ctx)) fun r => WholeCtx r.2 := by
    intro q
    cases q with
    | none => exact .pure hx
    | some b => exact .skip fun _ => .pure (hx.of_nets rfl)
  unfold addForeign
  split
  · exact .pure hx
  · split
    · exact .pure hx
    · split
      · exact .skip fun q => fin q
      · exact .skip fun q => fin q

theorem cronInit_whole (p : Policy) (qty : Nat) {x : Ctx} (hx : WholeCtx x) :
    Post (cronInit p qty x) fun r => WholeCtx r.2 := by
  unfold cronInit
  refine .skip fun _ => ?_
  split
  · exact .pure hx
  · refine .skip fun q => ?_
    split
    · exact .skip fun _ => .pure (hx.of_nets rfl)
    · exact .pure (hx.of_nets rfl)

theorem newRows_whole (p : Policy) (cols : Nat) : ∀ n, Post (newRows p cols n) fun r => ∀ row ∈ r.2, Holds Whole row
  | 0 => by unfold newRows; exact .pure (by simp)
  | n + 1 => by
    unfold newRows
    refine .skip fun q => ?_
    cases q with
    | none =>
      refine .pure fun row hrow => ?_
      rw [(List.mem_replicate.1 hrow).2]
      trivial
    | some b =>
      refine (newRows_whole p cols n).bind fun r hr => ?_
      obtain ⟨ok, rest⟩ := r
      refine .pure fun row hrow => ?_
      rcases List.mem_cons.1 hrow with rfl | hrow
      · intro x hx
        rw [(List.mem_replicate.1 hx).2]
        exact fun _ => rfl
      · exact hr row hrow

theorem newNets_whole (p : Policy) (rows cols : Nat) : ∀ n, Post (newNets p rows cols n) fun r => ∀ net ∈ r.2, WholeNet net
  | 0 => by unfold newNets; exact .pure (by simp)
  | n + 1 => by
    have rest : ∀ net ∈ List.replicate n ({} : Net), WholeNet net := fun net hnet => by
      rw [(List.mem_replicate.1 hnet).2]
      trivial
    have cons : ∀ {net0 : Net} {l : List Net}, WholeNet net0 → (∀ net ∈ l, WholeNet net) → ∀ net ∈ net0 :: l, WholeNet net := by
      intro net0 l h1 h2 net hnet
      rcases List.mem_cons.1 hnet with rfl | hnet
      · exact h1
      · exact h2 net hnet
    unfold newNets
    refine .skip fun q => ?_
    cases q with
    | none => exact .pure (cons whole_none rest)
    | some b =>
      refine (newRows_whole p cols rows).bind fun r hr => ?_
      obtain ⟨ok, rs⟩ := r
      cases ok with
      | true =>
        refine (newNets_whole p rows cols n).bind fun r' hr' => ?_
        obtain ⟨ok', l⟩ := r'
        exact .pure (cons hr hr')
      | false => exact .pure (cons hr rest)

theorem newSlots_nets (p : Policy) : ∀ (ss : List Slot) (x : Ctx), Post (newSlots p ss x) fun r => r.2.nets = x.nets
  | [], x => by unfold newSlots; exact .pure rfl
  | s :: ss, x => by
    unfold newSlots
    refine .skip fun q => ?_
    cases q with
    | none => exact .pure rfl
    | some b => exact newSlots_nets p ss _

theorem ctxInit_whole (p : Policy) (old : Ctx) (a : InitArgs) :
    Post (ctxInit p old a) fun r => r.1 = true → WholeCtx r.2 := by
  have clean : ∀ x, Post (cleanup x) fun r => r.1 = true → WholeCtx r.2 := fun x => by
    unfold cleanup
    exact .skip fun _ => .pure fun e => nomatch e
  unfold ctxInit
  split
  · exact .pure fun e => nomatch e
  · refine Post.bind (Q := fun r => Holds WholeNet r.2.nets) ?_ fun r hr => ?_
    · unfold initNets
      split
      · refine .skip fun q => ?_
        cases q with
        | none => exact .pure trivial
        | some b =>
          refine (newNets_whole p a.rows a.cols a.networks).bind fun r hr => ?_
          obtain ⟨ok, nets⟩ := r
          exact .pure hr
      · exact .pure trivial
    · obtain ⟨ok, x⟩ := r
      dsimp only
      split
      · exact clean x
      · refine (newSlots_nets p initSlots x).bind fun r' hr' => ?_
        obtain ⟨ok', y⟩ := r'
        dsimp only at hr' ⊢
        split
        · exact clean y
        · refine .pure fun _ => wholeCtx_iff.2 ?_
          show Holds WholeNet y.nets
          rw [hr']
          exact hr

/-- Every context of a history is whole. -/
theorem built_whole {p : Policy} {a : InitArgs} {h0 : Store} {x : Ctx} {h : Store} (b : Built p a h0 x h) : WholeCtx x := by
  induction b with
  | init e => exact ctxInit_whole p _ a _ _ _ e rfl
  | step act _ ha e ih =>
    cases act with
    | addRead hook => exact addRead_whole p hook ih _ _ _ e
    | addWrite hook => exact addWrite_whole p hook ih _ _ _ e
    | addForeign qty hook => exact addForeign_whole p qty hook ih _ _ _ e
    | fnCell d code fid n r c => exact fnCell_whole p ha code fid n r c ih _ _ _ e
    | setText n r c i => exact setText_whole p n r c i ih _ _ _ e
    | clear =>
      have := (clearProgram_whole ih).bind (f := fun y => pure (true, y)) (Q' := fun r => WholeCtx r.2) fun y hy => .pure hy
      exact this _ _ _ e
    | cronInit qty => exact cronInit_whole p qty ih _ _ _ e
    | load t host file => exact loadFile_whole p t host file ih _ _ _ e
    | save k w =>
      rename_i x0 _ _ _ _ _
      have : Post ((Act.save k w).run p x0) fun r => WholeCtx r.2 := .skip fun ok => .pure ih
      exact this _ _ _ e

/-- A context in order, whole and without texts can be saved. -/
theorem savable {x : Ctx} (ok : CtxOk x) (hw : WholeCtx x) (ht : Textless x) :
    0 < x.networks → ∃ b ns, x.nets = some (b, ns) ∧ x.networks ≤ ns.length ∧ ∀ n ∈ ns, SavableNet n := by
  intro _
  have h1 := ok.nets
  cases e1 : x.nets with
  | none => have := ok.present; rw [e1] at this; cases this
  | some a1 =>
    obtain ⟨b1, ns⟩ := a1
    rw [e1] at h1
    refine ⟨b1, ns, rfl, Nat.le_of_eq h1.1.symm, fun net hnet hc hr => ?_⟩
    have h2 : ArrOk net.rows (RowOk net.cols) net.cells := h1.2 net hnet
    cases e2 : net.cells with
    | none => rw [e2] at h2; have : net.rows = 0 := h2; omega
    | some a2 =>
      obtain ⟨b2, rs⟩ := a2
      rw [e2] at h2
      refine ⟨b2, rs, rfl, Nat.le_of_eq h2.1.symm, fun row hrow => ?_⟩
      have h3 : ArrOk net.cols CellOk row := h2.2 row hrow
      cases row with
      | none => have : net.cols = 0 := h3; omega
      | some a3 =>
        obtain ⟨b3, cs⟩ := a3
        refine ⟨b3, cs, rfl, Nat.le_of_eq h3.1.symm, fun cell hcell hq => ?_⟩
        obtain ⟨n, hn'⟩ := List.mem_iff_getElem?.1 hnet
        obtain ⟨r, hr'⟩ := List.mem_iff_getElem?.1 hrow
        obtain ⟨c, hc'⟩ := List.mem_iff_getElem?.1 hcell
        have at' : x.cell n r c = some cell := by simp [Ctx.cell, Net.cell, e1, hn', e2, hr', hc']
        have h4 := h3.2 cell hcell
        cases e3 : cell.data with
        | none => have := hw _ _ _ _ at' e3; omega
        | some a4 =>
          obtain ⟨b4, ts⟩ := a4
          unfold CellOk at h4
          rw [e3] at h4
          exact ⟨b4, ts, rfl, Nat.le_of_eq (h4 rfl).1.symm, ht _ _ _ _ _ _ at' e3⟩

end Ladder.Heap
