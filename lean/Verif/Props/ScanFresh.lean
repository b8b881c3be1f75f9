import Verif.Lemmas.Comm
import Verif.Props.ScanOrder

/-
C33: a scan does not depend on the power states left over from before.
-/

set_option autoImplicit false

namespace Ladder.Props

open Spec Op

/-! ### Specification -/

/-- There are as many networks as announced, and the cells of every network form a grid of the announced size. -/
def Grids (ctx : Ctx) : Prop :=
  ∀ n net, at? ctx.network n = some net → n < ctx.qty.networks ∧ ∀ l, net.cells = some l →
    l.length = net.rows ∧ ∀ row ∈ l, row.length = net.cols

/-- The networks entered so far are those below this index. -/
def reached (ctx : Ctx) : Nat := (ctx.exec.map (· + 1)).getD 0

/-- The scan was given up. -/
def GivenUp (ctx : Ctx) : Prop := ctx.state = .inv ∨ ctx.state = .error

/-- Two scans had the same outcome: the same undefined behaviour, or the same external calls and events and contexts
that agree in everything except, when the scan was given up, the power states of enabled networks after the last one
entered. -/
inductive SameOutcome : Except UB (Unit × World) → Except UB (Unit × World) → Prop
  | undefined (e : UB) : SameOutcome (.error e) (.error e)
  | done {u u' : Unit} {w v : World} (tick : w.tick = v.tick) (trace : w.trace = v.trace)
      (ctx : shade (reached w.ctx) w.ctx = shade (reached v.ctx) v.ctx) (all : ¬ GivenUp w.ctx → w = v) :
      SameOutcome (.ok (u, w)) (.ok (u', v))

/-! ### Clearing a network -/

/-- The network with the power states off where `P`. -/
def dark (P : Nat → Nat → Bool) (net : Network) : Network :=
  { net with cells := net.cells.map (·.mapIdx fun r row => row.mapIdx fun c cell =>
      if P r c then cellText cell else cell) }

/-- The world with the power states of network `n` off where `P`. -/
def World.dark (n : Nat) (P : Nat → Nat → Bool) (w : World) : World :=
  { w with ctx := { w.ctx with network := w.ctx.network.map (·.modify n (Props.dark P)) } }

theorem dark_cell (P : Nat → Nat → Bool) (net : Network) (r c : Nat) :
    (dark P net).cell r c = (net.cell r c).map fun x => if P r c then cellText x else x := by
  unfold Network.cell dark
  cases net.cells with
  | none => rfl
  | some rows =>
    simp only [Option.map_some, List.getElem?_mapIdx]
    cases rows[r]? with
    | none => rfl
    | some row =>
      simp only [Option.map_some, List.getElem?_mapIdx]
      cases row[c]? <;> rfl

theorem dark_modify (P : Nat → Nat → Bool) (net : Network) (r c : Nat) :
    { (dark P net) with
      cells := (dark P net).cells.map fun rows => rows.modify r fun row => row.modify c fun x => { x with state := false } } =
    dark (fun r' c' => P r' c' || (r' == r && c' == c)) net := by
  unfold dark
  cases net.cells with
  | none => rfl
  | some rows =>
    simp only [Option.map_some, Network.mk.injEq, true_and, Option.some.injEq]
    refine List.ext_getElem? fun j => ?_
    simp only [List.getElem?_modify, List.getElem?_mapIdx, Option.map_eq_map]
    cases rows[j]? with
    | none => rfl
    | some row =>
      simp only [Option.map_some, Option.some.injEq]
      by_cases hr : r = j
      · subst hr
        simp only [if_true, beq_self_eq_true, Bool.true_and]
        refine List.ext_getElem? fun k => ?_
        simp only [List.getElem?_modify, List.getElem?_mapIdx, Option.map_eq_map]
        cases row[k]? with
        | none => rfl
        | some x =>
          by_cases hc : c = k
          · subst hc
            simp only [Option.map_some, if_true, beq_self_eq_true, Bool.or_true, Option.some.injEq]
            split <;> rfl
          · simp only [Option.map_some, if_neg hc, show (k == c) = false from by simpa using Ne.symm hc, Bool.or_false]
      · simp only [if_neg hr, show (j == r) = false from by simpa using Ne.symm hr, Bool.false_and, Bool.or_false]

theorem dark_setState {w : World} {n r c : Nat} {net : Network} {cell : Cell} (P : Nat → Nat → Bool)
    (he : w.ctx.exec = some n) (hn : at? w.ctx.network n = some net) (hc : net.cell r c = .ok cell) :
    setState r c false (World.dark n P w) =
      .ok ((), World.dark n (fun r' c' => P r' c' || (r' == r && c' == c)) w) := by
  obtain ⟨l, hl, hnet⟩ : ∃ l, w.ctx.network = some l ∧ l[n]? = some net := by
    unfold at? at hn
    cases h : w.ctx.network with
    | none => rw [h] at hn; cases hn
    | some l => rw [h] at hn; exact ⟨l, rfl, hn⟩
  have hcell : (World.dark n P w).ctx.execCell r c = .ok (if P r c then cellText cell else cell) := by
    have h1 : (World.dark n P w).ctx.exnet = .ok (dark P net) := by
      unfold Ctx.exnet World.dark
      simp only [he, hl, Option.map_some, aget, List.getElem?_modify, hnet, Option.map_eq_map, if_true]
    unfold Ctx.execCell
    rw [h1]
    simp only
    rw [dark_cell, hc]
    rfl
  unfold setState
  rw [bind_getCtx, hcell, bind_lift_ok]
  rw [modCtx_apply]
  congr 2
  unfold World.dark
  simp only [he]
  unfold Ctx.modCell
  simp only [hl, Option.map_some]
  congr 3
  refine List.ext_getElem? fun j => ?_
  simp only [List.getElem?_modify, Option.map_eq_map, Option.map_map]
  by_cases hj : n = j
  · subst hj
    simp only [hnet, if_true, Option.map_some, Function.comp]
    exact congrArg some (dark_modify P net r c)
  · simp only [if_neg hj]
    cases l[j]? <;> rfl

theorem dark_clearColumn {w : World} {n : Nat} {net : Network} (he : w.ctx.exec = some n)
    (hn : at? w.ctx.network n = some net) (col : Nat) (hc : ∀ r, r < net.rows → ∃ cell, net.cell r col = .ok cell) :
    ∀ (k row : Nat) (P : Nat → Nat → Bool), row + k ≤ net.rows → clearColumn col row k (World.dark n P w) =
      .ok ((), World.dark n (fun r c => P r c || (c == col && (decide (row ≤ r) && decide (r < row + k)))) w)
  | 0, row, P, _ => by
    unfold clearColumn
    rw [pure_apply]
    congr 2
    congr 1
    funext r c
    have : (decide (row ≤ r) && decide (r < row + 0)) = false := by simp
    rw [this]
    simp
  | k + 1, row, P, hk => by
    unfold clearColumn
    obtain ⟨cell, hcell⟩ := hc row (by omega)
    rw [bind_ok (dark_setState P he hn hcell), dark_clearColumn he hn col hc k (row + 1) _ (by omega)]
    congr 2
    congr 1
    funext r c
    rw [Bool.eq_iff_iff]
    simp only [Bool.or_eq_true, Bool.and_eq_true, beq_iff_eq, decide_eq_true_eq]
    constructor
    · rintro ((h | ⟨h, h'⟩) | ⟨h, h'⟩)
      · exact .inl h
      · exact .inr ⟨h', by omega⟩
      · exact .inr ⟨h, by omega⟩
    · rintro (h | ⟨h, h'⟩)
      · exact .inl (.inl h)
      · by_cases hr : r = row
        · exact .inl (.inr ⟨hr, h⟩)
        · exact .inr ⟨h, by omega⟩

theorem dark_clearColumns {w : World} {n : Nat} {net : Network} (he : w.ctx.exec = some n)
    (hn : at? w.ctx.network n = some net)
    (hc : ∀ r c, r < net.rows → c < net.cols → ∃ cell, net.cell r c = .ok cell) :
    ∀ (k col : Nat) (P : Nat → Nat → Bool), col + k ≤ net.cols → clearColumns net.rows col k (World.dark n P w) =
      .ok ((), World.dark n (fun r c => P r c || (decide (r < net.rows) && (decide (col ≤ c) && decide (c < col + k)))) w)
  | 0, col, P, _ => by
    unfold clearColumns
    rw [pure_apply]
    congr 2
    congr 1
    funext r c
    have : (decide (col ≤ c) && decide (c < col + 0)) = false := by simp
    rw [this]
    simp
  | k + 1, col, P, hk => by
    unfold clearColumns
    rw [bind_ok (dark_clearColumn he hn col (fun r hr => hc r col hr (by omega)) net.rows 0 P (by omega)),
      dark_clearColumns he hn hc k (col + 1) _ (by omega)]
    congr 2
    congr 1
    funext r c
    rw [Bool.eq_iff_iff]
    simp only [Bool.or_eq_true, Bool.and_eq_true, beq_iff_eq, decide_eq_true_eq]
    constructor
    · rintro ((h | ⟨h, h'⟩) | ⟨h, h'⟩)
      · exact .inl h
      · exact .inr ⟨by omega, by omega⟩
      · exact .inr ⟨h, by omega⟩
    · rintro (h | ⟨h, h'⟩)
      · exact .inl (.inl h)
      · by_cases hr : c = col
        · exact .inl (.inr ⟨hr, by omega⟩)
        · exact .inr ⟨h, by omega⟩

theorem modify_congr {ctx : Ctx} {n : Nat} {net : Network} {f g : Network → Network} (hn : at? ctx.network n = some net)
    (h : f net = g net) : ctx.network.map (·.modify n f) = ctx.network.map (·.modify n g) := by
  unfold at? at hn
  cases hl : ctx.network with
  | none => rfl
  | some l =>
    rw [hl] at hn
    simp only [Option.map_some, Option.some.injEq]
    refine List.ext_getElem? fun j => ?_
    simp only [List.getElem?_modify, Option.map_eq_map]
    by_cases hj : n = j
    · subst hj
      have : l[n]? = some net := hn
      simp [this, h]
    · simp [hj]

theorem modify_same {ctx : Ctx} {n : Nat} {net : Network} {f : Network → Network} (hn : at? ctx.network n = some net)
    (h : f net = net) : ctx.network.map (·.modify n f) = ctx.network := by
  rw [modify_congr (g := id) hn h]
  cases ctx.network <;> simp

theorem dark_none (net : Network) : dark (fun _ _ => false) net = net := by
  unfold dark
  have h1 : ∀ row : List Cell, (row.mapIdx fun _ cell => cell) = row := fun row => by
    refine List.ext_getElem? fun j => ?_
    simp only [List.getElem?_mapIdx]
    cases row[j]? <;> rfl
  have h2 : ∀ l : List (List Cell), (l.mapIdx fun _ row => row) = l := fun row => by
    refine List.ext_getElem? fun j => ?_
    simp only [List.getElem?_mapIdx]
    cases row[j]? <;> rfl
  obtain ⟨e, r, c, cells⟩ := net
  simp only [Bool.false_eq_true, if_false, h1, h2]
  cases cells <;> rfl

theorem dark_all {net : Network} (hg : ∀ l, net.cells = some l → l.length = net.rows ∧ ∀ row ∈ l, row.length = net.cols) :
    dark (fun r c => false || (decide (r < net.rows) && (decide (0 ≤ c) && decide (c < 0 + net.cols)))) net = netText net := by
  unfold dark netText
  cases h : net.cells with
  | none => rfl
  | some l =>
    obtain ⟨h1, h2⟩ := hg l h
    simp only [Option.map_some, Network.mk.injEq, true_and, Option.some.injEq]
    refine List.ext_getElem? fun j => ?_
    simp only [List.getElem?_mapIdx, List.getElem?_map]
    cases hj : l[j]? with
    | none => rfl
    | some row =>
      have hlt : j < net.rows := by rw [← h1]; exact (List.getElem?_eq_some_iff.1 hj).1
      have hlen := h2 row (List.mem_of_getElem? hj)
      simp only [Option.map_some, Option.some.injEq]
      refine List.ext_getElem? fun k => ?_
      simp only [List.getElem?_mapIdx, List.getElem?_map]
      cases hk : row[k]? with
      | none => rfl
      | some x =>
        have hkt : k < net.cols := by rw [← hlen]; exact (List.getElem?_eq_some_iff.1 hk).1
        simp [hlt, hkt]

/-- The clearing loop turns off all power states of the network and does nothing else. -/
theorem clearColumns_eq {w : World} {n : Nat} {net : Network} (hg : Grids w.ctx) (he : w.ctx.exec = some n)
    (hn : at? w.ctx.network n = some net) (hs : net.cells.isNone = false) :
    clearColumns net.rows 0 net.cols w =
      .ok ((), { w with ctx := { w.ctx with network := w.ctx.network.map (·.modify n netText) } }) := by
  have h0 : World.dark n (fun _ _ => false) w = w := by
    unfold World.dark
    rw [modify_same hn (dark_none net)]
  have hc : ∀ r c, r < net.rows → c < net.cols → ∃ cell, net.cell r c = .ok cell := by
    intro r c hr hc
    cases h : net.cells with
    | none => rw [h] at hs; cases hs
    | some l =>
      obtain ⟨h1, h2⟩ := (hg n net hn).2 l h
      have hrl : r < l.length := by omega
      have hcl : c < l[r].length := by rw [h2 _ (List.getElem_mem hrl)]; exact hc
      refine ⟨l[r][c], ?_⟩
      unfold Network.cell
      simp [h, List.getElem?_eq_getElem hrl, List.getElem?_eq_getElem hcl]
  have h := dark_clearColumns he hn hc net.cols 0 (fun _ _ => false) (by omega)
  rw [h0] at h
  rw [h]
  unfold World.dark
  rw [modify_congr hn (dark_all (hg n net hn).2)]

/-! ### Two runs side by side -/

/-- Two runs had the same undefined behaviour, or the same value and worlds related by `Q`. -/
def Pair {α : Type} (Q : α → World → World → Prop) : Except UB (α × World) → Except UB (α × World) → Prop
  | .error e, .error e' => e = e'
  | .ok (a, w), .ok (b, v) => a = b ∧ Q a w v
  | _, _ => False

theorem Pair.bind {α β : Type} {Q : α → World → World → Prop} {R : β → World → World → Prop} {x : Op α} {f : α → Op β}
    {w v : World} (h : Pair Q (x w) (x v)) (hf : ∀ a w' v', Q a w' v' → Pair R (f a w') (f a v')) :
    Pair R ((x >>= f) w) ((x >>= f) v) := by
  rw [bind_apply, bind_apply]
  cases h1 : x w with
  | error e =>
    cases h2 : x v with
    | error e' => rw [h1, h2] at h; exact h
    | ok q => rw [h1, h2] at h; exact h.elim
  | ok p =>
    cases h2 : x v with
    | error e' => rw [h1, h2] at h; exact h.elim
    | ok q =>
      rw [h1, h2] at h
      obtain ⟨e, hq⟩ := h
      simp only
      rw [← e]
      exact hf _ _ _ hq

theorem Pair.mono {α : Type} {Q R : α → World → World → Prop} {x y : Except UB (α × World)} (h : Pair Q x y)
    (hm : ∀ a w v, x = .ok (a, w) → y = .ok (a, v) → Q a w v → R a w v) : Pair R x y := by
  cases x with
  | error e => cases y with
    | error e' => exact h
    | ok q => exact h.elim
  | ok p => cases y with
    | error e' => exact h.elim
    | ok q =>
      obtain ⟨a, w⟩ := p
      obtain ⟨b, v⟩ := q
      obtain ⟨e, hq⟩ := h
      subst e
      exact ⟨rfl, hm _ _ _ rfl rfl hq⟩

theorem pair_of_comm {α : Type} {k : Nat} {op : Op α} (h : Comm k op) {w v : World} (hs : w.shade k = v.shade k) :
    Pair (fun _ w' v' => w'.shade k = v'.shade k) (op w) (op v) := by
  have h1 := h w
  rw [hs, h v] at h1
  cases hw : op w with
  | error e =>
    cases hv : op v with
    | error e' => rw [hw, hv] at h1; simpa [shadeRes, Pair] using h1.symm
    | ok q => rw [hw, hv] at h1; cases h1
  | ok p =>
    cases hv : op v with
    | error e' => rw [hw, hv] at h1; cases h1
    | ok q =>
      rw [hw, hv] at h1
      simp only [shadeRes, Except.ok.injEq, Prod.mk.injEq] at h1
      exact ⟨h1.1.symm, h1.2.symm⟩

/-- The network being executed, if any, is below `k`. -/
def Before (k : Nat) (ctx : Ctx) : Prop := ∀ j, ctx.exec = some j → j < k

/-- The worlds agree except in the power states of enabled networks from `k` on. -/
structure Rel (k : Nat) (w v : World) : Prop where
  eq : w.shade k = v.shade k
  grids : Grids w.ctx
  grids' : Grids v.ctx
  before : Before k w.ctx

namespace Rel

variable {k : Nat} {w v : World}

theorem exec (h : Rel k w v) : w.ctx.exec = v.ctx.exec := congrArg (·.ctx.exec) h.eq
theorem qty (h : Rel k w v) : w.ctx.qty = v.ctx.qty := congrArg (·.ctx.qty) h.eq
theorem state (h : Rel k w v) : w.ctx.state = v.ctx.state := congrArg (·.ctx.state) h.eq
theorem tick (h : Rel k w v) : w.tick = v.tick := congrArg (·.tick) h.eq
theorem trace (h : Rel k w v) : w.trace = v.trace := congrArg (·.trace) h.eq
theorem before' (h : Rel k w v) : Before k v.ctx := fun j hj => h.before j (h.exec ▸ hj)

theorem netEq (h : Rel k w v) (n : Nat) : at? (shade k w.ctx).network n = at? (shade k v.ctx).network n :=
  congrArg (fun x => at? x.ctx.network n) h.eq

end Rel

/-- Being given the same networks outside and the same texts inside makes equal shadows. -/
theorem shade_ext {k : Nat} {a b : Ctx} (hr : { a with network := none } = { b with network := none })
    (hi : a.network.isSome = b.network.isSome)
    (hn : ∀ n, at? (shade k a).network n = at? (shade k b).network n) : shade k a = shade k b := by
  have h : (shade k a).network = (shade k b).network := by
    cases ha : a.network with
    | none => cases hb : b.network with
      | none => simp [shade, ha, hb]
      | some l => rw [ha, hb] at hi; cases hi
    | some l => cases hb : b.network with
      | none => rw [ha, hb] at hi; cases hi
      | some l' =>
        simp only [shade, ha, hb, Option.map_some, at?, Option.bind_some] at hn ⊢
        exact congrArg some (List.ext_getElem? hn)
  have e : ∀ c : Ctx, shade k c = { ({ c with network := none } : Ctx) with network := (shade k c).network } := fun _ => rfl
  rw [e a, e b, hr, h]

theorem grids_same {a b : Ctx} (h : SameProgram a b) (hq : b.qty.networks = a.qty.networks) (hg : Grids a) : Grids b := by
  intro n net hn
  have e : (at? b.network n).map netFrame = (at? a.network n).map netFrame := by rw [← at?_map, ← at?_map, h.frames]
  rw [hn] at e
  cases ha : at? a.network n with
  | none => rw [ha] at e; cases e
  | some net0 =>
    rw [ha] at e
    simp only [Option.map_some, Option.some.injEq] at e
    obtain ⟨h1, h2⟩ := hg n net0 ha
    refine ⟨by rw [hq]; exact h1, fun l hl => ?_⟩
    have hc : (netFrame net).cells = (netFrame net0).cells := by rw [e]
    have hrows : net.rows = net0.rows := by
      show (netFrame net).rows = (netFrame net0).rows; rw [e]
    have hcols : net.cols = net0.cols := by
      show (netFrame net).cols = (netFrame net0).cols; rw [e]
    simp only [netFrame, hl, Option.map_some] at hc
    cases hl0 : net0.cells with
    | none => rw [hl0] at hc; cases hc
    | some l0 =>
      rw [hl0] at hc
      simp only [Option.map_some, Option.some.injEq] at hc
      obtain ⟨h3, h4⟩ := h2 l0 hl0
      have hlen : l.length = l0.length := by simpa using congrArg List.length hc
      refine ⟨by rw [hlen, h3, hrows], fun row hrow => ?_⟩
      have : row.map cellFrame ∈ l0.map (·.map cellFrame) := by
        rw [← hc]; exact List.mem_map_of_mem hrow
      obtain ⟨row0, hm, he⟩ := List.mem_map.1 this
      have : row.length = row0.length := by simpa using (congrArg List.length he).symm
      rw [this, h4 row0 hm, hcols]

theorem rel_of_comm {env : Env} (hk : Hooks env Steady) {α : Type} {k : Nat} {op : Op α} {K : Nat → Prop}
    (h : Comm k op) (hc : SChg env K False op) {w v : World} (hr : Rel k w v) :
    Pair (fun _ => Rel k) (op w) (op v) := by
  refine (pair_of_comm h hr.eq).mono fun a w' v' hw hv hq => ?_
  have kw := Kept.of_steady hk (hc _ _ _ hw)
  have kv := Kept.of_steady hk (hc _ _ _ hv)
  exact ⟨hq, grids_same kw.program kw.networks hr.grids, grids_same kv.program kv.networks hr.grids',
    fun j hj => hr.before j (by rw [← exec_star hk (hc _ _ _ hw)]; exact hj)⟩

theorem netText_idem (net : Network) : netText (netText net) = netText net := by
  unfold netText
  cases net.cells <;> simp [Function.comp_def, cellText]

theorem rel_net {k n : Nat} {w v : World} (hr : Rel k w v) {net : Network} (hn : at? w.ctx.network n = some net) :
    ∃ net', at? v.ctx.network n = some net' ∧ netText net' = netText net ∧
      ((net.enable = false ∨ n < k) → net' = net) := by
  have h := hr.netEq n
  rw [at?_shade, at?_shade, hn] at h
  simp only [Option.map_some] at h
  cases hv : at? v.ctx.network n with
  | none => rw [hv] at h; cases h
  | some net' =>
    rw [hv] at h
    simp only [Option.map_some, Option.some.injEq] at h
    refine ⟨net', rfl, ?_, ?_⟩
    · have h' := congrArg netText h
      have e : ∀ (p : Prop) [Decidable p] (x : Network), netText (if p then netText x else x) = netText x := by
        intro p _ x; split
        · exact netText_idem x
        · rfl
      rw [e, e] at h'
      exact h'.symm
    · intro hc
      have hen : net'.enable = net.enable := by
        have := congrArg Network.enable h
        have e : ∀ (p : Prop) [Decidable p] (x : Network), (if p then netText x else x).enable = x.enable := by
          intro p _ x; split <;> rfl
        rw [e, e] at this
        exact this.symm
      rw [if_neg, if_neg] at h
      · exact h.symm
      · rintro ⟨h1, h2, -⟩
        rcases hc with hc | hc
        · rw [hen, hc] at h2; cases h2
        · omega
      · rintro ⟨h1, h2, -⟩
        rcases hc with hc | hc
        · rw [hc] at h2; cases h2
        · omega

theorem Rel.rest {k : Nat} {w v : World} (h : Rel k w v) :
    ({ w.ctx with network := none } : Ctx) = { v.ctx with network := none } := by
  have := congrArg (fun x : World => ({ x.ctx with network := none } : Ctx)) h.eq
  exact this

theorem Rel.some {k : Nat} {w v : World} (h : Rel k w v) : w.ctx.network.isSome = v.ctx.network.isSome := by
  have := congrArg (fun x : World => x.ctx.network.isSome) h.eq
  simpa [World.shade, shade] using this

theorem Rel.of {k : Nat} {w v : World} (ht : w.tick = v.tick) (hr : w.trace = v.trace)
    (hc : ({ w.ctx with network := none } : Ctx) = { v.ctx with network := none })
    (hi : w.ctx.network.isSome = v.ctx.network.isSome)
    (hn : ∀ n, at? (shade k w.ctx).network n = at? (shade k v.ctx).network n)
    (hg : Grids w.ctx) (hg' : Grids v.ctx) (hb : Before k w.ctx) : Rel k w v := by
  refine ⟨?_, hg, hg', hb⟩
  unfold World.shade
  rw [shade_ext hc hi hn, ht, hr]

/-- Networks from `n` to `m` being the same in both worlds. -/
theorem Rel.raise {n m : Nat} {w v : World} (h : Rel n w v) (hm : n ≤ m)
    (hs : ∀ j, j < m → at? w.ctx.network j = at? v.ctx.network j) : Rel m w v := by
  refine .of h.tick h.trace h.rest h.some (fun j => ?_) h.grids h.grids' (fun j hj => by have := h.before j hj; omega)
  by_cases hj : j < m
  · rw [at?_shade, at?_shade, hs j hj, h.exec]
  · have := h.netEq j
    rw [at?_shade, at?_shade] at this ⊢
    have e1 : (n ≤ j) = True := by simp; omega
    have e2 : (m ≤ j) = True := by simp; omega
    simp only [e1, e2] at this ⊢
    exact this

theorem Rel.below {n : Nat} {w v : World} (h : Rel n w v) {j : Nat} (hj : j < n) :
    at? w.ctx.network j = at? v.ctx.network j := by
  cases hw : at? w.ctx.network j with
  | some net =>
    obtain ⟨net', hv, -, e⟩ := rel_net h hw
    rw [hv, e (.inr hj)]
  | none =>
    have := h.netEq j
    rw [at?_shade, at?_shade, hw] at this
    symm
    simpa using this.symm

theorem at?_modify_ctx (ctx : Ctx) (n j : Nat) (f : Network → Network) :
    at? (ctx.network.map (·.modify n f)) j = (at? ctx.network j).map fun net => if n = j then f net else net := by
  unfold at?
  cases ctx.network with
  | none => rfl
  | some l =>
    simp only [Option.map_some, Option.bind_some, List.getElem?_modify, Option.map_eq_map]

theorem grids_enter {ctx : Ctx} (hg : Grids ctx) (n : Nat) (e : Option Nat) :
    Grids { ctx with exec := e, network := ctx.network.map (·.modify n netText) } := by
  intro j net hj
  rw [at?_modify_ctx] at hj
  cases h : at? ctx.network j with
  | none => rw [h] at hj; cases hj
  | some net0 =>
    rw [h] at hj
    simp only [Option.map_some, Option.some.injEq] at hj
    obtain ⟨h1, h2⟩ := hg j net0 h
    refine ⟨h1, ?_⟩
    rw [← hj]
    split
    · intro l hl
      unfold netText at hl
      simp only at hl
      cases hc : net0.cells with
      | none => rw [hc] at hl; cases hl
      | some l0 =>
        rw [hc] at hl
        simp only [Option.map_some, Option.some.injEq] at hl
        obtain ⟨h3, h4⟩ := h2 l0 hc
        rw [← hl]
        refine ⟨by simpa [netText] using h3, fun row hrow => ?_⟩
        obtain ⟨row0, hm, e⟩ := List.mem_map.1 hrow
        rw [← e]
        simpa [netText] using h4 row0 hm
    · exact h2

theorem rel_enter {n : Nat} {w v : World} (h : Rel n w v) :
    Rel (n + 1)
      { w with ctx := { w.ctx with exec := some n, network := w.ctx.network.map (·.modify n netText) } }
      { v with ctx := { v.ctx with exec := some n, network := v.ctx.network.map (·.modify n netText) } } := by
  refine .of h.tick h.trace ?_ ?_ (fun j => ?_) (grids_enter h.grids _ _) (grids_enter h.grids' _ _)
    (fun j hj => by simp only [Option.some.injEq] at hj; omega)
  · exact congrArg (fun c : Ctx => { c with exec := some n }) h.rest
  · have := h.some
    cases hw : w.ctx.network <;> cases hv : v.ctx.network <;> simp_all
  · rw [at?_shade, at?_shade]
    simp only
    rw [at?_modify_ctx, at?_modify_ctx]
    cases hw : at? w.ctx.network j with
    | none =>
      have := h.netEq j
      rw [at?_shade, at?_shade, hw] at this
      have : at? v.ctx.network j = none := by simpa using this.symm
      rw [this]
    | some net =>
      obtain ⟨net', hv, ht, he⟩ := rel_net h hw
      rw [hv]
      simp only [Option.map_some, Option.some.injEq]
      have hen : net'.enable = net.enable := by
        have := congrArg (fun x : Network => x.enable) ht; exact this
      by_cases hj : n = j
      · subst hj
        have : ¬ (n + 1 ≤ n) := by omega
        simp [this, ht]
      · simp only [if_neg hj, hen]
        have hne : (some n : Option Nat) ≠ some j := by simpa using hj
        by_cases hcond : n + 1 ≤ j ∧ net.enable = true ∧ (some n : Option Nat) ≠ some j
        · rw [if_pos hcond, if_pos hcond, ht]
        · rw [if_neg hcond, if_neg hcond]
          symm
          apply he
          by_cases hlt : j < n
          · exact .inr hlt
          · left
            cases hee : net.enable with
            | false => rfl
            | true => exact absurd ⟨by omega, hee, hne⟩ hcond

/-! ### Stopping -/

variable {env : Env}

theorem watch_stop (hk : Hooks env Steady) {cnt : Nat} {w w' : World} (h : watch env cnt w = .ok (true, w')) :
    GivenUp w'.ctx := by
  have key : ∀ w w', (do
      let ctx ← Op.getCtx
      if ctx.scan.maxScanCycles < cnt then do
        Op.modCtx fun ctx => { ctx with state := .error, last := { ctx.last with err := .overflow } }
        callPanic env
        Pure.pure true
      else Pure.pure false : Op Bool) w = .ok (true, w') → GivenUp w'.ctx := by
    intro w w' h
    rw [bind_getCtx] at h
    split at h
    · rw [bind_modCtx] at h
      obtain ⟨_, w1, h1, h2⟩ := bind_eq_ok.1 h
      simp only [pure_apply, Except.ok.injEq, Prod.mk.injEq, true_and] at h2
      rw [← h2]
      unfold callPanic at h1
      split at h1
      · simp only [external_apply, Except.ok.injEq, Prod.mk.injEq, true_and] at h1
        rw [← h1]
        exact .inr (hk.panic _ _).state
      · simp only [Except.ok.injEq, Prod.mk.injEq, true_and] at h1
        rw [← h1]
        exact .inr rfl
    · simp at h
  unfold watch at h
  rw [bind_getCtx] at h
  split at h
  · obtain ⟨_, w1, _, h2⟩ := bind_eq_ok.1 h
    exact key _ _ h2
  · exact key _ _ h

theorem skipLoop_stop (hk : Hooks env Steady) (col : Nat) : ∀ (n gr cnt : Nat) {w w' : World},
    skipLoop env col gr n cnt w = .ok (none, w') → GivenUp w'.ctx
  | 0, _, _, w, w', h => by simp [skipLoop] at h
  | n + 1, gr, cnt, w, w', h => by
    unfold skipLoop at h
    obtain ⟨b, w1, h1, h⟩ := bind_eq_ok.1 h
    split at h
    · rename_i hb
      rw [hb] at h1
      simp only [pure_apply, Except.ok.injEq, Prod.mk.injEq, true_and] at h
      rw [← h]
      exact watch_stop hk h1
    · obtain ⟨cell, w2, h2, h⟩ := bind_eq_ok.1 h
      split at h
      · simp at h
      · obtain ⟨s, w3, h3, h⟩ := bind_eq_ok.1 h
        split at h
        · simp at h
        · exact skipLoop_stop hk col n _ _ h

theorem scanColumn_stop (hk : Hooks env Steady) {network gs : Nat} {power : Bool} {col cnt : Nat} {w w' : World}
    (h : scanColumn env network gs power col cnt w = .ok (none, w')) : GivenUp w'.ctx := by
  unfold scanColumn at h
  obtain ⟨net, w1, h1, h⟩ := bind_eq_ok.1 h
  obtain ⟨ge, w2, h2, h⟩ := bind_eq_ok.1 h
  obtain ⟨s, w3, h3, h⟩ := bind_eq_ok.1 h
  cases s with
  | none =>
    simp only [pure_apply, Except.ok.injEq, Prod.mk.injEq, true_and] at h
    rw [← h]
    exact skipLoop_stop hk _ _ _ _ h3
  | some p =>
    simp only at h
    split at h
    · simp at h
    · obtain ⟨b, w4, h4, h⟩ := bind_eq_ok.1 h
      split at h
      · rw [bind_modCtx] at h
        simp only [pure_apply, Except.ok.injEq, Prod.mk.injEq, true_and] at h
        rw [← h]
        exact .inl rfl
      · obtain ⟨o, w5, h5, h⟩ := bind_eq_ok.1 h
        obtain ⟨_, w6, h6, h⟩ := bind_eq_ok.1 h
        simp at h

theorem columnLoop_stop (hk : Hooks env Steady) {network gs : Nat} {power : Bool} : ∀ (fuel col cnt : Nat) {w w' : World},
    columnLoop env network gs power fuel col cnt w = .ok (none, w') → GivenUp w'.ctx
  | 0, _, _, _, _, h => by simp [columnLoop] at h
  | fuel + 1, col, cnt, w, w', h => by
    unfold columnLoop at h
    obtain ⟨net, w1, h1, h⟩ := bind_eq_ok.1 h
    split at h
    · obtain ⟨s, w2, h2, h⟩ := bind_eq_ok.1 h
      cases s with
      | none =>
        simp only [pure_apply, Except.ok.injEq, Prod.mk.injEq, true_and] at h
        rw [← h]
        exact scanColumn_stop hk h2
      | some cnt => exact columnLoop_stop hk fuel _ _ h
    · simp at h

theorem scanRow_stop (hk : Hooks env Steady) {network row cnt : Nat} {w w' : World}
    (h : scanRow env network row cnt w = .ok (none, w')) : GivenUp w'.ctx := by
  unfold scanRow at h
  obtain ⟨b, w1, h1, h⟩ := bind_eq_ok.1 h
  split at h
  · rename_i hb
    rw [hb] at h1
    simp only [pure_apply, Except.ok.injEq, Prod.mk.injEq, true_and] at h
    rw [← h]
    exact watch_stop hk h1
  · obtain ⟨cell, w2, h2, h⟩ := bind_eq_ok.1 h
    split at h
    · simp at h
    · obtain ⟨net, w3, h3, h⟩ := bind_eq_ok.1 h
      obtain ⟨ge, w4, h4, h⟩ := bind_eq_ok.1 h
      obtain ⟨lo, w5, h5, h⟩ := bind_eq_ok.1 h
      obtain ⟨s, w6, h6, h⟩ := bind_eq_ok.1 h
      cases s with
      | none =>
        simp only [pure_apply, Except.ok.injEq, Prod.mk.injEq, true_and] at h
        rw [← h]
        exact columnLoop_stop hk _ _ _ h6
      | some cnt =>
        obtain ⟨_, w7, h7, h⟩ := bind_eq_ok.1 h
        simp at h

theorem rowLoop_stop (hk : Hooks env Steady) {network : Nat} : ∀ (fuel row cnt : Nat) {w w' : World},
    rowLoop env network fuel row cnt w = .ok (false, w') → GivenUp w'.ctx
  | 0, _, _, _, _, h => by simp [rowLoop] at h
  | fuel + 1, row, cnt, w, w', h => by
    unfold rowLoop at h
    obtain ⟨net, w1, h1, h⟩ := bind_eq_ok.1 h
    split at h
    · obtain ⟨s, w2, h2, h⟩ := bind_eq_ok.1 h
      cases s with
      | none =>
        simp only [pure_apply, Except.ok.injEq, Prod.mk.injEq, true_and] at h
        rw [← h]
        exact scanRow_stop hk h2
      | some p => exact rowLoop_stop hk fuel _ _ h
    · simp at h

theorem fault_stop (hk : Hooks env Steady) {α : Type} {a b : α} {w w' : World}
    (h : (do Op.modCtx fun ctx => { ctx with state := .error }
             callPanic env
             Pure.pure a : Op α) w = .ok (b, w')) : GivenUp w'.ctx := by
  rw [bind_modCtx] at h
  obtain ⟨_, w1, h1, h2⟩ := bind_eq_ok.1 h
  simp only [pure_apply, Except.ok.injEq, Prod.mk.injEq] at h2
  rw [← h2.2]
  unfold callPanic at h1
  split at h1
  · simp only [external_apply, Except.ok.injEq, Prod.mk.injEq, true_and] at h1
    rw [← h1]
    exact .inr (hk.panic _ _).state
  · simp only [Except.ok.injEq, Prod.mk.injEq, true_and] at h1
    rw [← h1]
    exact .inr rfl

/-! ### Networks -/

/-- Outcome of one network, and of the network loop, in two related worlds. -/
def After (done : Bool) (n : Nat) (w v : World) : Prop :=
  if done then Rel n w v else ∃ k, Rel k w v ∧ GivenUp w.ctx

theorem pair_network (hb : Blind env) (hk : Hooks env Steady) {n : Nat} {w v : World} (h : Rel n w v) :
    Pair (fun b => After b (n + 1)) (scanNetwork env n w) (scanNetwork env n v) := by
  unfold scanNetwork
  rw [bind_getCtx, bind_getCtx]
  have hnone : at? w.ctx.network n = none → aget w.ctx.network n = aget v.ctx.network n ∧
      ∃ e, aget w.ctx.network n = .error e := by
    intro hw
    have hv := h.netEq n
    rw [at?_shade, at?_shade, hw] at hv
    have hv : at? v.ctx.network n = none := by simpa using hv.symm
    have hi := h.some
    unfold at? at hw hv
    unfold aget
    cases h1 : w.ctx.network with
    | none =>
      cases h2 : v.ctx.network with
      | none => exact ⟨rfl, _, rfl⟩
      | some l => rw [h1, h2] at hi; cases hi
    | some l =>
      cases h2 : v.ctx.network with
      | none => rw [h1, h2] at hi; cases hi
      | some l' =>
        rw [h1] at hw; rw [h2] at hv
        simp only [Option.bind_some] at hw hv
        simp [hw, hv]
  cases hw : at? w.ctx.network n with
  | none =>
    obtain ⟨h1, e, h2⟩ := hnone hw
    rw [← h1, h2]
    exact rfl
  | some net =>
    obtain ⟨net', hv, ht, he⟩ := rel_net h hw
    rw [aget_eq_ok.2 hw, aget_eq_ok.2 hv, bind_lift_ok, bind_lift_ok]
    have hen : net'.enable = net.enable := by
      have := congrArg (fun x : Network => x.enable) ht; exact this
    have hrows : net'.rows = net.rows := by
      have := congrArg (fun x : Network => x.rows) ht; exact this
    have hcols : net'.cols = net.cols := by
      have := congrArg (fun x : Network => x.cols) ht; exact this
    have hcells : net'.cells.isNone = net.cells.isNone := by
      have := congrArg (fun x : Network => x.cells.isNone) ht
      simpa [netText] using this
    rw [hcells, hen, hrows, hcols]
    split
    · refine (rel_of_comm hk (K := fun _ => True) (k := n) ?_ ?_ h).mono fun a w' v' hw' hv' hq => ?_
      · exact .bind (.modCtx fun _ => rfl) fun _ => .bind (.callPanic hb) fun _ => .pure _
      · exact .bind .fault fun _ => .bind .callPanic fun _ => .pure _
      · have hg := fault_stop hk hw'
        rw [bind_modCtx] at hw'
        obtain ⟨_, w1, _, h2⟩ := bind_eq_ok.1 hw'
        simp only [pure_apply, Except.ok.injEq, Prod.mk.injEq] at h2
        rw [← h2.1]
        exact ⟨n, hq, hg⟩
    · rename_i hcell
      split
      · rename_i hdis
        simp only [Bool.not_eq_eq_eq_not, Bool.not_true] at hdis
        refine ⟨rfl, ?_⟩
        refine h.raise (by omega) fun j hj => ?_
        by_cases hjn : j < n
        · exact h.below hjn
        · have : j = n := by omega
          subst this
          rw [hw, hv, he (.inl hdis)]
      · rw [bind_modCtx, bind_modCtx]
        have hc1 := clearColumns_eq (w := { w with ctx := { w.ctx with exec := some n } }) (n := n) (net := net)
          h.grids rfl hw (by simpa [Option.isSome_iff_ne_none] using hcell)
        have hc2 := clearColumns_eq (w := { v with ctx := { v.ctx with exec := some n } }) (n := n) (net := net')
          h.grids' rfl hv (by rw [hcells]; simpa [Option.isSome_iff_ne_none] using hcell)
        rw [hrows, hcols] at hc2
        rw [bind_ok hc1, bind_ok hc2]
        refine (rel_of_comm hk (K := (· = n)) (Comm.rowLoop hb n _ _ _) (SChg.rowLoop (K := (· = n)) n rfl _ _ _) (rel_enter h)).mono
          fun b w' v' hw' hv' hq => ?_
        cases b with
        | true => exact hq
        | false => exact ⟨_, hq, rowLoop_stop hk _ _ _ hw'⟩

theorem pair_loop (hb : Blind env) (hk : Hooks env Steady) : ∀ (fuel n : Nat) {w v : World}, Rel n w v →
    Pair (fun _ w' v' => ∃ k, Rel k w' v' ∧ (w'.ctx.qty.networks ≤ k ∨ GivenUp w'.ctx))
      (networkLoop env fuel n w) (networkLoop env fuel n v)
  | 0, _, _, _, _ => by exact rfl
  | fuel + 1, n, w, v, h => by
    unfold networkLoop
    rw [bind_getCtx, bind_getCtx, ← h.qty]
    split
    · refine Pair.bind (pair_network hb hk h) fun b w' v' hq => ?_
      cases b with
      | true => exact pair_loop hb hk fuel (n + 1) hq
      | false =>
        obtain ⟨k, hr, hg⟩ := hq
        exact ⟨rfl, k, hr, .inr hg⟩
    · exact ⟨rfl, n, h, .inl (by omega)⟩

/-! ### C33 -/

theorem shade_shade {j k : Nat} (ctx : Ctx) (h : j ≤ k) : shade j (shade k ctx) = shade j ctx := by
  refine shade_ext rfl (by simp [shade]) fun n => ?_
  rw [at?_shade, at?_shade, at?_shade]
  cases at? ctx.network n with
  | none => rfl
  | some net =>
    simp only [Option.map_some, Option.some.injEq]
    simp only [show (shade k ctx).exec = ctx.exec from rfl]
    by_cases hc : k ≤ n ∧ net.enable = true ∧ ctx.exec ≠ some n
    · have h1 : j ≤ n ∧ net.enable = true ∧ ctx.exec ≠ some n := ⟨by omega, hc.2⟩
      simp only [if_pos hc, if_pos h1, show (netText net).enable = net.enable from rfl, netText_idem]
    · simp only [if_neg hc]

theorem shade_high {k : Nat} {ctx : Ctx} (h : ∀ n net, at? ctx.network n = some net → n < k) : shade k ctx = ctx := by
  unfold shade
  have : ctx.network.map (·.mapIdx fun n net =>
      if k ≤ n ∧ net.enable = true ∧ ctx.exec ≠ some n then netText net else net) = ctx.network := by
    unfold at? at h
    cases hl : ctx.network with
    | none => rfl
    | some l =>
      rw [hl] at h
      simp only [Option.map_some, Option.some.injEq]
      refine List.ext_getElem? fun n => ?_
      rw [List.getElem?_mapIdx]
      cases hn : l[n]? with
      | none => rfl
      | some net =>
        have := h n net hn
        simp only [Option.map_some, Option.some.injEq]
        rw [if_neg]
        omega
  rw [this]

theorem cronPhase_stop {w w' : World} (h : cronPhase env w = .ok (false, w')) : GivenUp w'.ctx := by
  unfold cronPhase at h
  rw [bind_getCtx] at h
  cases hc : w.ctx.cron with
  | none => simp [hc] at h
  | some cr =>
    simp only [hc] at h
    obtain ⟨m, hm, h⟩ := bind_lift_eq_ok.1 h
    rw [bind_modCtx] at h
    obtain ⟨e, w2, h3, h⟩ := bind_eq_ok.1 h
    split at h
    · simp only [bind_modCtx, pure_apply, Except.ok.injEq, Prod.mk.injEq, true_and] at h
      rw [← h]
      exact .inl rfl
    · simp at h

theorem sameOutcome_of {x y : Except UB (Unit × World)}
    (h : Pair (fun _ w' v' => ∃ k, Rel k w' v' ∧ (w'.ctx.qty.networks ≤ k ∨ GivenUp w'.ctx)) x y) : SameOutcome x y := by
  cases x with
  | error e => cases y with
    | error e' => have h : e = e' := h; subst h; exact .undefined e
    | ok q => exact h.elim
  | ok p => cases y with
    | error e' => exact h.elim
    | ok q =>
      obtain ⟨u, w⟩ := p
      obtain ⟨u', v⟩ := q
      obtain ⟨_, k, hr, hk⟩ := h
      refine .done hr.tick hr.trace ?_ fun hg => ?_
      · have hre : reached w.ctx ≤ k := by
          unfold reached
          cases he : w.ctx.exec with
          | none => exact Nat.zero_le _
          | some j => exact hr.before j he
        have e : reached v.ctx = reached w.ctx := by unfold reached; rw [hr.exec]
        rw [e, ← shade_shade w.ctx hre, ← shade_shade v.ctx hre]
        exact congrArg (fun x : World => shade (reached w.ctx) x.ctx) hr.eq
      · rcases hk with hk | hk
        · have h1 := shade_high (ctx := w.ctx) (k := k) fun n net hn => by have := (hr.grids n net hn).1; omega
          have h2 := shade_high (ctx := v.ctx) (k := k) fun n net hn => by
            have := (hr.grids' n net hn).1; rw [← hr.qty] at this; omega
          have := hr.eq
          unfold World.shade at this
          rw [h1, h2] at this
          exact this
        · exact absurd hk hg

/-- C33.  Scans started in contexts that differ only in the power states of enabled networks have the same outcome
(`SameOutcome`), for callbacks that keep the program and do not look at the power states of networks not being
executed. -/
theorem C33_scan_fresh (hb : Blind env) (hk : Hooks env Steady) {w v : World} (hg : Grids w.ctx) (hg' : Grids v.ctx)
    (hs : SameButStates w.ctx v.ctx) (ht : w.tick = v.tick) (hr : w.trace = v.trace) :
    SameOutcome (scan env w) (scan env v) := by
  apply sameOutcome_of
  have h0 : Rel 0 { w with ctx := { w.ctx with exec := none } } { v with ctx := { v.ctx with exec := none } } := by
    refine ⟨?_, hg, hg', fun j hj => by cases hj⟩
    unfold World.shade
    simp only
    unfold SameButStates at hs
    rw [hs, ht, hr]
  unfold scan
  rw [bind_modCtx, bind_modCtx]
  have hcron := (rel_of_comm hk (K := fun _ => True) Comm.cronPhase SChg.cronPhase h0).mono
    (R := fun b w' v' => Rel 0 w' v' ∧ (b = false → GivenUp w'.ctx))
    fun b w' v' hw' _ hq => ⟨hq, fun e => cronPhase_stop (e ▸ hw')⟩
  refine Pair.bind hcron fun b w' v' hq => ?_
  obtain ⟨hq, hstop⟩ := hq
  split
  · rw [bind_getCtx, bind_getCtx]
    have hi := hq.some
    have hi : v'.ctx.network.isNone = w'.ctx.network.isNone := by
      cases h1 : w'.ctx.network <;> cases h2 : v'.ctx.network <;> simp_all
    rw [hi]
    split
    · refine Pair.mono (rel_of_comm hk (K := fun _ => True) (k := 0)
        (op := (do Op.modCtx fun ctx => { ctx with state := .error }
                   callPanic env))
        (.bind (.modCtx fun _ => rfl) fun _ => .callPanic hb) (.bind .fault fun _ => .callPanic) hq)
        fun a w1 v1 hw1 hv1 hq1 => ⟨0, hq1, .inr ?_⟩
      refine fault_stop hk (a := a) (b := a) (w := w') ?_
      rw [bind_modCtx] at hw1 ⊢
      rw [bind_ok hw1]
      rfl
    · exact pair_loop hb hk _ _ hq
  · rename_i hb
    exact ⟨rfl, 0, hq, .inr (hstop (by simpa using hb))⟩

/-! ### Demo -/

/-- Two networks whose cells hold the given power state. -/
def freshDemo (b : Bool) : List Network :=
  [Demo.net [[Demo.ins .NO [Demo.op .M 0] b, Demo.ins .COIL [Demo.op .M 1] b],
             [Demo.ins .NC [Demo.op .M 0] b, Demo.ins .COIL [Demo.op .M 2] b]],
   Demo.net [[Demo.ins .CONN [] b, Demo.ins .COIL [Demo.op .Q 1] b]]]

theorem demoBlind : Blind Demo.env := ⟨fun _ _ _ => rfl, fun _ _ _ => rfl, fun _ _ _ => rfl, fun _ _ _ _ _ _ => rfl⟩

theorem demoGrids (b : Bool) : Grids (Demo.world (freshDemo b)).ctx := by
  intro n net hn
  match n, hn with
  | 0, hn => cases hn; exact ⟨by cases b <;> decide, fun l hl => by cases hl; simp [Demo.net]⟩
  | 1, hn => cases hn; exact ⟨by cases b <;> decide, fun l hl => by cases hl; simp [Demo.net]⟩

theorem demoSame : SameButStates (Demo.world (freshDemo true)).ctx (Demo.world (freshDemo false)).ctx := by
  simp [SameButStates, shade, Demo.world, Demo.ctx, freshDemo, Demo.net, Demo.ins, netText, cellText]

/-- C33, the hypotheses can be met: leftover power everywhere against none, -/
example : SameOutcome (scan Demo.env (Demo.world (freshDemo true))) (scan Demo.env (Demo.world (freshDemo false))) :=
  C33_scan_fresh (env := Demo.env) (w := Demo.world (freshDemo true)) (v := Demo.world (freshDemo false))
    demoBlind (demoHooks _ Steady.refl) (demoGrids _) (demoGrids _) demoSame rfl rfl

/-- in worlds that do differ, -/
example : Demo.world (freshDemo true) ≠ Demo.world (freshDemo false) := by
  intro h
  have := congrArg (fun w : World => (cell? w.ctx 0 0 0).map (·.state)) h
  revert this
  decide

/-- and the scan runs to its end. -/
example : ∃ w', scan Demo.env (Demo.world (freshDemo true)) = .ok ((), w') ∧ w'.ctx.state = .running ∧
    w'.ctx.M = some [1, 1, 0] := by
  obtain ⟨w', h, h'⟩ := of_ended (p := fun w' => decide (w'.ctx.state = .running ∧ w'.ctx.M = some [1, 1, 0]))
    (show ended (scan Demo.env (Demo.world (freshDemo true))) _ = true by decide +kernel)
  exact ⟨w', h, of_decide_eq_true h'⟩

end Ladder.Props
