import Verif.Lemmas.Logic
import Verif.Props.Checked

/-
C71: a scan computes the ladder diagram.
-/

set_option autoImplicit false

namespace Ladder

open Spec Op Logic

namespace Lit

variable {env : Env} {T : Nat} {us : List Reading} {B : Ctx} {n rows cols L : Nat} {z : Ctx} {m : Image} {f : Nat → Nat → Bool} {w : World}

/-! ### Callbacks -/

theorem quiet (h : Lit env T us B n rows cols L z m f w) {g : Nat → Ctx → Ctx} {e : Ctx → Event} (hg : ∀ t c, g t c = c)
    (he : ∀ x a b c r, e x = .ret a b c r → r = .ok) :
    ∃ w', external e g w = .ok ((), w') ∧ Lit env T us B n rows cols L z m f w' := by
  refine ⟨_, external_apply _ _ _, h.same ⟨?_, ?_, ?_, ?_, by simp, by simp⟩ ?_ (fun ℓ => ?_) (Nat.le_succ _)⟩
  · rw [hg]; exact h.sound.alike
  · rw [hg]; exact h.sound.flags
  · rw [hg]; exact h.sound.exec
  · exact (h.sound.append (he w.ctx) (by simp)).clean
  · simp only [hg, and_self]
  · simp only [hg]

theorem callPanic (hp : ∀ t c, env.panic t c = c) (h : Lit env T us B n rows cols L z m f w) :
    ∃ w', Ladder.callPanic env w = .ok ((), w') ∧ Lit env T us B n rows cols L z m f w' := by
  unfold Ladder.callPanic
  split
  · exact h.quiet hp (by simp)
  · exact ⟨w, rfl, h⟩

theorem callInstruction (hk : Still env) (h : Lit env T us B n rows cols L z m f w) :
    ∃ w', Ladder.callInstruction env w = .ok ((), w') ∧ Lit env T us B n rows cols L z m f w' := by
  unfold Ladder.callInstruction
  split
  · exact h.quiet hk.instruction (by simp)
  · exact ⟨w, rfl, h⟩

theorem callScanEnd (hk : Still env) (h : Lit env T us B n rows cols L z m f w) :
    ∃ w', Ladder.callScanEnd env w = .ok ((), w') ∧ Lit env T us B n rows cols L z m f w' := by
  unfold Ladder.callScanEnd
  split
  · exact h.quiet hk.scanEnd (by simp)
  · exact ⟨w, rfl, h⟩

theorem watch (h : Lit env T us B n rows cols L z m f w) {cnt : Nat} (hc : cnt ≤ L) :
    ∃ w', Ladder.watch env cnt w = .ok (false, w') ∧ Lit env T us B n rows cols L z m f w' := by
  have same : ∀ {w}, Lit env T us B n rows cols L z m f w → w.ctx.scan.maxScanCycles = z.scan.maxScanCycles := fun h =>
    (congrArg (·.scan.maxScanCycles) h.limit.2 :)
  have hroom := h.limit.1.1
  unfold Ladder.watch
  rw [bind_getCtx]
  split
  · rename_i hlt
    rw [same h] at hlt
    obtain ⟨w1, h1, h2⟩ := h.callPanic (h.limit.1.2.resolve_right (by omega))
    refine ⟨w1, ?_, h2⟩
    rw [bind_ok h1]
    simp only
    rw [bind_getCtx, if_neg (by rw [same h2]; omega)]
    rfl
  · refine ⟨w, ?_, h⟩
    simp only
    rw [bind_getCtx, if_neg (by rw [same h]; omega)]
    rfl

/-! ### The grid -/

theorem curCell (h : Lit env T us B n rows cols L z m f w) {r c : Nat} {x : Cell} (hr : r < rows) (hc : c < cols) (hx : cell? B n r c = some x) :
    ∃ x', Ladder.curCell r c w = .ok (x', w) ∧ x'.code = x.code ∧ x'.bar = x.bar ∧ x'.state = f r c := by
  have e := h.sound.alike.cell (n := n) (r := r) (k := c)
  rw [hx, Option.map_some, Option.map_eq_some_iff] at e
  obtain ⟨x', h3, e⟩ := e
  refine ⟨x', ?_, (congrArg Cell.code e :), (congrArg Cell.bar e :), ?_⟩
  · unfold Ladder.curCell
    rw [bind_ok (getCtx_apply w), execCell_ok h.sound.exec h3]
    rfl
  · have := h.grid r c hr hc
    simp only [load, h3, Option.map_some, Option.some.injEq] at this
    revert this
    cases x'.state <;> cases f r c <;> simp

/-- The executing network as it is found: the cells of the blueprint except for power states. -/
structure Form (B : Ctx) (n rows cols : Nat) (net' : Network) : Prop where
  rows : net'.rows = rows
  cols : net'.cols = cols
  cells : ∀ r c x, cell? B n r c = some x → ∃ x', net'.cell r c = .ok x' ∧ x'.code = x.code ∧ x'.bar = x.bar

theorem curNet (h : Lit env T us B n rows cols L z m f w) {net : Network} (hn : at? B.network n = some net) (hr : net.rows = rows)
    (hc : net.cols = cols) : ∃ net', Ladder.curNet w = .ok (net', w) ∧ Form B n rows cols net' := by
  obtain ⟨net', h1, e⟩ := h.sound.alike.net hn
  refine ⟨net', ?_, (congrArg Network.rows e :).trans hr, (congrArg Network.cols e :).trans hc, fun r c x hx => ?_⟩
  · unfold Ladder.curNet
    rw [bind_ok (getCtx_apply w)]
    simp [h.sound.exec, aget_eq_ok.2 h1]
  · have e := h.sound.alike.cell (n := n) (r := r) (k := c)
    rw [hx, Option.map_some, Option.map_eq_some_iff] at e
    obtain ⟨x', h3, e⟩ := e
    refine ⟨x', ?_, (congrArg Cell.code e :), (congrArg Cell.bar e :)⟩
    have := execCell_ok h.sound.exec h3
    simpa only [Ctx.execCell, Ctx.exnet, h.sound.exec, aget_eq_ok.2 h1] using this

theorem orStates (h : Lit env T us B n rows cols L z m f w) {col : Nat} (hc : col < cols)
    (hx : ∀ r, r < rows → ∃ x, cell? B n r col = some x) : ∀ (k gr : Nat) (acc : Bool), gr + k ≤ rows →
    Ladder.orStates col gr k acc w = .ok (acc || (List.range' gr k).any (f · col), w)
  | 0, _, _, _ => by simp [Ladder.orStates]
  | k + 1, gr, acc, hg => by
    obtain ⟨x, hx'⟩ := hx gr (by omega)
    obtain ⟨x', h1, -, -, h2⟩ := h.curCell (by omega) hc hx'
    unfold Ladder.orStates
    rw [bind_ok h1, orStates h hc hx k (gr + 1) _ (by omega), h2]
    simp [List.range'_succ, Bool.or_assoc]

/-- Power states with some rows of a column set. -/
def bank (f : Nat → Nat → Bool) (col gr k : Nat) (b : Bool) : Nat → Nat → Bool :=
  fun r c => if c = col ∧ gr ≤ r ∧ r < gr + k then b else f r c

theorem bank_light {f : Nat → Nat → Bool} {col gr k : Nat} {b : Bool} :
    bank (light f gr col b) col (gr + 1) k b = bank f col gr (k + 1) b := by
  funext r c
  unfold bank light
  by_cases h1 : c = col
  · by_cases h2 : r = gr
    · subst h1; subst h2; simp
    · simp only [h1, h2, true_and, false_and, if_false]
      congr 1
      apply propext
      omega
  · simp [h1]

theorem setStates {col : Nat} {b : Bool} (hc : col < cols) : ∀ (k gr : Nat) {f : Nat → Nat → Bool} {w : World},
    Lit env T us B n rows cols L z m f w → gr + k ≤ rows →
    ∃ w', Ladder.setStates col b gr k w = .ok ((), w') ∧ Lit env T us B n rows cols L z m (bank f col gr k b) w'
  | 0, gr, f, w, h, _ => ⟨w, rfl, by
      have : bank f col gr 0 b = f := by funext r c; unfold bank; rw [if_neg (by omega)]
      rw [this]; exact h⟩
  | k + 1, gr, f, w, h, hg => by
    obtain ⟨w1, h1, h2⟩ := h.setState (r := gr) (by omega) hc b
    obtain ⟨w2, h3, h4⟩ := setStates hc k (gr + 1) h2 (by omega)
    refine ⟨w2, ?_, by rw [bank_light] at h4; exact h4⟩
    unfold Ladder.setStates
    rw [bind_ok h1]
    exact h3

theorem clearColumn_eq (col : Nat) : ∀ (k gr : Nat), Ladder.clearColumn col gr k = Ladder.setStates col false gr k
  | 0, _ => rfl
  | k + 1, gr => by unfold Ladder.clearColumn Ladder.setStates; rw [clearColumn_eq col k (gr + 1)]

theorem clearColumns : ∀ (k c0 : Nat) {f : Nat → Nat → Bool} {w : World}, Lit env T us B n rows cols L z m f w → c0 + k ≤ cols →
    ∃ f' w', Ladder.clearColumns rows c0 k w = .ok ((), w') ∧ Lit env T us B n rows cols L z m f' w' ∧
      ∀ r c, r < rows → f r c = false ∨ c0 ≤ c ∧ c < c0 + k → f' r c = false
  | 0, c0, f, w, h, _ => ⟨f, w, rfl, h, fun r c _ hc => hc.resolve_right (by omega)⟩
  | k + 1, c0, f, w, h, hk => by
    obtain ⟨w1, h1, h2⟩ := setStates (b := false) (by omega : c0 < cols) rows 0 h (by omega)
    obtain ⟨f', w2, h3, h4, h5⟩ := clearColumns k (c0 + 1) h2 (by omega)
    refine ⟨f', w2, ?_, h4, fun r c hr hc => h5 r c hr ?_⟩
    · unfold Ladder.clearColumns
      rw [bind_ok (by rw [clearColumn_eq]; exact h1)]
      exact h3
    · unfold bank
      by_cases e : c = c0
      · left; rw [if_pos ⟨e, by omega, by omega⟩]
      · rw [if_neg (by omega)]
        rcases hc with hc | hc
        · exact .inl hc
        · right; omega

theorem skipLoop (hk : Still env) {col lo hi : Nat} (hc : col < cols) (hb : hi ≤ rows)
    (hx : ∀ r, lo ≤ r → r < hi → ∃ x, cell? B n r col = some x ∧ logical x.code = true) : ∀ (k gr cnt : Nat) {w : World},
    Lit env T us B n rows cols L z m f w → lo ≤ gr → gr + k ≤ hi → cnt + k ≤ L →
    ∃ s cnt' w', Ladder.skipLoop env col gr k cnt w = .ok (some (s, cnt'), w') ∧ cnt' ≤ cnt + k ∧ Lit env T us B n rows cols L z m f w'
  | 0, _, cnt, w, h, _, _, _ => ⟨true, cnt, w, rfl, by omega, h⟩
  | k + 1, gr, cnt, w, h, hlo, hg, hL => by
    obtain ⟨x, hx', hl⟩ := hx gr hlo (by omega)
    obtain ⟨w1, h1, h2⟩ := h.watch (cnt := cnt + 1) (by omega)
    obtain ⟨x', h3, e, -, -⟩ := h2.curCell (by omega) hc hx'
    unfold Ladder.skipLoop
    rw [bind_ok h1]
    simp only [Bool.false_eq_true, if_false]
    rw [bind_ok h3, e]
    by_cases hm : x.code = .MULTI
    · rw [if_pos hm]
      exact ⟨false, cnt + 1, w1, rfl, by omega, h2⟩
    · rw [if_neg hm]
      have : ∃ b, sideEffects x.code = .ok b := by
        revert hl hm
        cases x.code <;> intro hl hm <;> first | exact ⟨_, rfl⟩ | exact absurd rfl hm | exact absurd hl (by decide)
      obtain ⟨b, hs⟩ := this
      rw [bind_ok (lift_eq_ok.2 ⟨hs, rfl⟩)]
      cases b with
      | true => exact ⟨false, cnt + 1, w1, rfl, by omega, h2⟩
      | false =>
        obtain ⟨s, cnt', w2, h4, h5, h6⟩ := skipLoop hk hc hb hx k (gr + 1) (cnt + 1) h2 (by omega) (by omega) (by omega)
        exact ⟨s, cnt', w2, h4, by omega, h6⟩

/-- The cells of consecutive rows of one column of network `n`. -/
def Stack (B : Ctx) (n col gr : Nat) (xs : List Cell) : Prop :=
  ∀ i x, xs[i]? = some x → cell? B n (gr + i) col = some x ∧ FormedCell B n (gr + i) col x.code ∧ logical x.code = true

theorem Stack.tail {col gr : Nat} {x : Cell} {xs : List Cell} (h : Stack B n col gr (x :: xs)) : Stack B n col (gr + 1) xs := by
  intro i y hy
  have := h (i + 1) y (by simpa using hy)
  rw [show gr + 1 + i = gr + (i + 1) by omega]
  exact this

theorem sweep_dead (p : Nat → Bool) : ∀ (ys : List Cell) (i : Nat) (d : Bool) (s : State), (∀ x ∈ ys, x.code = .NOP ∨ x.code = .MULTI) →
    (d = true → ∀ x, ys[0]? = some x → x.code = .MULTI) → sweep p i ys d s = (s, d :: List.replicate ys.length false)
  | [], i, d, s, h, hd => rfl
  | x :: ys, i, d, s, h, hd => by
    have e : act s (p i) (p (i + 1)) d x = (s, d, false) := by
      rcases h x (by simp) with e | e
      · cases d with
        | false => simp [act, e, simple, defined]
        | true => rw [hd rfl x rfl] at e; cases e
      · simp [act, e]
    simp only [sweep, e, sweep_dead p ys (i + 1) false s (fun x hx => h x (by simp [hx])) (by simp), List.length_cons, List.replicate_succ]

theorem act_drop {s : State} {p q d : Bool} {x : Cell} (h : (act s p q d x).2.2 = true) : tall x.code = true := by
  cases hx : x.code <;> simp [act, hx] at h <;> rfl

theorem sweep_last (p : Nat → Bool) : ∀ (xs : List Cell) (i : Nat) (d : Bool) (s : State), (sweep p i xs d s).2[xs.length]? = some true →
    xs = [] ∧ d = true ∨ ∃ x, xs[xs.length - 1]? = some x ∧ tall x.code = true
  | [], i, d, s, h => .inl ⟨rfl, by simpa [sweep] using h⟩
  | x :: xs, i, d, s, h => by
    simp only [sweep, List.length_cons, List.getElem?_cons_succ] at h
    rcases sweep_last p xs (i + 1) _ _ h with ⟨rfl, h1⟩ | ⟨y, h1, h2⟩
    · exact .inr ⟨x, rfl, act_drop h1⟩
    · refine .inr ⟨y, ?_, h2⟩
      have := (List.getElem?_eq_some_iff.1 h1).1
      rw [List.length_cons, show xs.length + 1 - 1 = xs.length - 1 + 1 by omega, List.getElem?_cons_succ]
      exact h1

theorem act_sure {s : State} {p q d : Bool} {x : Cell} (h : s.sure = false) : (act s p q d x).1.sure = false := by
  cases hx : x.code <;> simp [act, hx, h]

theorem sweep_sure (p : Nat → Bool) : ∀ (xs : List Cell) (i : Nat) (d : Bool) (s : State), s.sure = false → (sweep p i xs d s).1.sure = false
  | [], _, _, _, h => h
  | x :: xs, i, d, s, h => by
    rw [sweep]
    exact sweep_sure p xs _ _ _ (act_sure h)

theorem columns_sure (rows : List (List Cell)) (above : Nat → Bool) : ∀ (k c : Nat) (s : State) (p : Nat → Bool), s.sure = false →
    (columns rows above c k s p).1.sure = false
  | 0, _, _, _, h => h
  | k + 1, c, s, p, h => by
    rw [columns]
    exact columns_sure rows above k _ _ _ (sweep_sure _ _ _ _ _ h)

theorem rungs_sure (cols : Nat) : ∀ (k : Nat) (rows : List (List Cell)) (above : Nat → Bool) (s : State), s.sure = false →
    (rungs cols k rows above s).sure = false
  | 0, _, _, _, h => h
  | k + 1, [], _, _, h => h
  | k + 1, row :: rest, above, s, h => by
    rw [rungs]
    split
    · exact rungs_sure cols k _ _ _ h
    · exact rungs_sure cols k _ _ _ (columns_sure _ _ _ _ _ _ h)

theorem program_sure : ∀ (nets : List Network) (s : State), s.sure = false → (Logic.program nets s).sure = false
  | [], _, h => h
  | net :: nets, s, h => by
    rw [Logic.program, List.foldl_cons]
    refine program_sure nets _ ?_
    split
    · exact rungs_sure _ _ _ _ _ h
    · exact h

/-- A failure after a part that runs well. -/
theorem _root_.Ladder.Bad.after {us vs : List Reading} {g' h : State → State} {m m' : Image}
    (hb : Bad env T (us ++ vs) g' m') (hh : ∀ rest, (g' ⟨m', rest, true⟩).sure = false → (h ⟨m, prior vs rest, true⟩).sure = false) :
    Bad env T us h m := by
  obtain ⟨vs', hi, ht, hs⟩ := hb
  refine ⟨vs ++ vs', hi, by rw [← List.append_assoc]; exact ht, fun rest => ?_⟩
  rw [prior_append]
  exact hh _ (hs rest)

theorem _root_.Ladder.Bad.imp {us : List Reading} {g h : State → State} {m : Image} (hb : Bad env T us g m) (hh : ∀ s, (g s).sure = false → (h s).sure = false) :
    Bad env T us h m := by
  obtain ⟨vs, hi, ht, hs⟩ := hb
  exact ⟨vs, hi, ht, fun rest => hh _ (hs rest)⟩

/-- Execution of the rows `xs` of a column, below which the rows `ys` have nothing to execute. -/
theorem execLoop (hk : Still env) {network col : Nat} {P : Nat → Bool} {ys : List Cell} (hc : col < cols) (hz : col = 0 → Railed B z)
    (hdead : ∀ y ∈ ys, y.code = .NOP ∨ y.code = .MULTI) : ∀ (xs : List Cell) (gr i : Nat) (d : Bool)
    {us : List Reading} {m : Image} {f : Nat → Nat → Bool} {w : World}, Lit env T us B n rows cols L z m f w → Stack B n col gr xs →
    gr + xs.length ≤ rows →
    (∀ j, j ≤ xs.length → left f (gr + j) col = P (i + j)) → f gr col = d → (∀ j, j < xs.length → f (gr + j + 1) col = false) →
    (d = true → ∀ x, (xs ++ ys)[0]? = some x → x.code = .MULTI) →
    (∀ j x, xs[j]? = some x → tall x.code = true → gr + j + 1 < rows ∧ ∀ y, (xs ++ ys)[j + 1]? = some y → y.code = .MULTI) →
    Yields (Ladder.execLoop env network col gr xs.length w) (Bad env T us (fun s => (sweep P i (xs ++ ys) d s).1) m) fun b w' => b = false ∧
      ∃ vs m' outs f', Runs (sweep P i (xs ++ ys) d) m vs m' outs ∧
      Lit env T (us ++ vs) B n rows cols L z m' f' w' ∧
      (∀ j, j ≤ xs.length → outs[j]? = some (f' (gr + j) col)) ∧
      (∀ j, xs.length < j → outs[j]?.getD false = false) ∧
      ∀ r c, ¬(c = col ∧ gr ≤ r ∧ r ≤ gr + xs.length) → f' r c = f r c
  | [], gr, i, d, us, m, f, w, h, _, _, _, hf, _, hd, _ => by
    refine .of_ok rfl ⟨rfl, [], m, d :: List.replicate ys.length false, f, fun rest => ?_, by rw [List.append_nil]; exact h, fun j hj => ?_, fun j hj => ?_,
      fun _ _ _ => rfl⟩
    · exact sweep_dead P ys i d _ hdead hd
    · simp only [List.length_nil, Nat.le_zero_eq] at hj
      subst hj
      simp [hf]
    · cases j with
      | zero => simp at hj
      | succ j => rw [List.getElem?_cons_succ, List.getElem?_replicate]; split <;> rfl
  | x :: xs, gr, i, d, us, m, f, w, h, hs, hg, hP, hf, hb, hd, hu => by
    simp only [List.length_cons] at hg hP hb ⊢
    obtain ⟨hx, hwell, hlog⟩ := hs 0 x rfl
    simp only [Nat.add_zero] at hx hwell
    have hr : gr < rows := by omega
    obtain ⟨x', e1, ecode, -, -⟩ := h.curCell hr hc hx
    have h1 := h.ctx { instr := x.code, network := network, col := col, row := gr, err := .ok }
    unfold Ladder.execLoop
    rw [bind_ok e1, ecode, bind_ok (modCtx_apply _ w)]
    have hinv : x.code ≠ .INV := by intro e; rw [e] at hlog; cases hlog
    rw [if_neg hinv]
    have hu' : ∀ j y, xs[j]? = some y → tall y.code = true → gr + 1 + j + 1 < rows ∧ ∀ y, (xs ++ ys)[j + 1]? = some y → y.code = .MULTI := by
      intro j y hy ht
      obtain ⟨h1, h2⟩ := hu (j + 1) y (by simpa using hy) ht
      exact ⟨by omega, fun y hy => h2 y (by simpa using hy)⟩
    by_cases hm : x.code = .MULTI
    · rw [if_pos hm]
      have ha : ∀ s, act s (P i) (P (i + 1)) d x = (s, d, false) := fun s => by simp [act, hm]
      refine (execLoop (P := P) hk hc hz hdead xs (gr + 1) (i + 1) false h1 hs.tail (by omega)
        (fun j hj => by rw [show gr + 1 + j = gr + (j + 1) by omega, show i + 1 + j = i + (j + 1) by omega]; exact hP _ (by omega))
        (hb 0 (by omega)) (fun j hj => by rw [show gr + 1 + j + 1 = gr + (j + 1) + 1 by omega]; exact hb _ (by omega)) (by simp) hu').mono (fun hbad => hbad.imp fun s hs => ?_) ?_
      · simp only [List.cons_append, sweep]
        simp only [ha]
        exact hs
      rintro _ w' ⟨rfl, vs, m', outs, f', h2, h3, h4, h5, h6⟩
      refine ⟨rfl, vs, m', d :: outs, f', fun rest => ?_, h3, fun j hj => ?_, fun j hj => ?_, fun r c hn => h6 r c (by omega)⟩
      · simp only [List.cons_append, sweep]
        simp only [ha]
        rw [h2 rest]
      · cases j with
        | zero => rw [Nat.add_zero, h6 gr col (by omega), hf]; rfl
        | succ j => rw [List.getElem?_cons_succ, h4 j (by omega)]; congr 2; omega
      · cases j with
        | zero => omega
        | succ j => rw [List.getElem?_cons_succ]; exact h5 j (by omega)
    · rw [if_neg hm]
      have hd0 : d = false := by
        cases hd' : d with
        | false => rfl
        | true => exact absurd (hd hd' x rfl) hm
      subst hd0
      have h2 := h1.emit (e := .exec network gr col x.code) (by simp)
      rw [bind_ok (emit_apply _ _)]
      have hp0 := hP 0 (by omega)
      simp only [Nat.add_zero] at hp0
      have hins := h2.execIns (q := P (i + 1)) hr hc hx hwell hlog hm hf (hb 0 (by omega))
        (fun ht => ⟨(hu 0 x rfl ht).1, (hP 1 (by omega)).symm⟩) fun h0 => (hz h0).imp id fun hn => hn n gr x (h0 ▸ hx)
      rw [hp0] at hins
      refine hins.bind (fun hbad => hbad.imp fun s hs => ?_) ?_
      · simp only [List.cons_append, sweep]
        exact sweep_sure _ _ _ _ _ hs
      rintro _ w2 ⟨rfl, vs, m1, out, drop, hrun, hdt, h3⟩
      rw [bind_ok (emit_apply _ _)]
      have h4 := h3.emit (e := .ret network gr col .ok) (by rintro a b c r h; cases h; rfl)
      rw [bind_ok (modCtx_apply _ _)]
      simp only [ne_eq, not_true_eq_false, if_false]
      have h5 := h4.ctx { w2.ctx.last with err := .ok }
      obtain ⟨w3, e6, h6⟩ := h5.callInstruction hk
      rw [bind_ok e6]
      have hle : ∀ r, left (lights f gr col out drop) r col = left f r col := by
        intro r
        unfold left lights light
        split
        · rfl
        · rw [if_neg (by omega), if_neg (by omega)]
      refine (execLoop (P := P) hk hc hz hdead xs (gr + 1) (i + 1) drop h6 hs.tail (by omega)
        (fun j hj => by
          rw [hle, show gr + 1 + j = gr + (j + 1) by omega, show i + 1 + j = i + (j + 1) by omega]; exact hP _ (by omega))
        (by simp [lights, light])
        (fun j hj => by
          unfold lights light
          rw [if_neg (by omega), if_neg (by omega), show gr + 1 + j + 1 = gr + (j + 1) + 1 by omega]
          exact hb _ (by omega))
        (fun hdr y hy => (hu 0 x rfl (hdt hdr)).2 y (by simpa using hy)) hu').mono (fun hbad => hbad.after fun rest hs => ?_) ?_
      · simp only [List.cons_append, sweep]
        simp only [hrun rest]
        exact hs
      rintro _ w' ⟨rfl, vs', m', outs, f', h7, h8, h9, h10, h11⟩
      refine ⟨rfl, vs ++ vs', m', out :: outs, f', fun rest => ?_, by rw [← List.append_assoc]; exact h8, fun j hj => ?_, fun j hj => ?_,
        fun r c hn => ?_⟩
      · rw [List.cons_append, sweep, prior_append]
        simp only [hrun (prior vs' rest), h7 rest]
      · cases j with
        | zero => rw [Nat.add_zero, h11 gr col (by omega)]; simp [lights, light]
        | succ j => rw [List.getElem?_cons_succ, h9 j (by omega)]; congr 2; omega
      · cases j with
        | zero => omega
        | succ j => rw [List.getElem?_cons_succ]; exact h10 j (by omega)
      · rw [h11 r c (by omega)]
        unfold lights light
        rw [if_neg (by omega), if_neg (by omega)]

/-! ### Rungs -/

/-- Started in `m` with the readings `vs` ahead, `g` consumes just them and ends in `m'`. -/
def Goes (g : State → State) (m : Image) (vs : List Reading) (m' : Image) : Prop := ∀ rest, g ⟨m, prior vs rest, true⟩ = ⟨m', rest, true⟩

/-- The uppermost group of connected cells of a column. -/
def group : List Cell → List Cell
  | [] => []
  | x :: xs => x :: xs.takeWhile (·.bar)

theorem dropWhile_drop {α : Type} (p : α → Bool) : ∀ l : List α, l.dropWhile p = l.drop (l.takeWhile p).length
  | [] => rfl
  | a :: l => by
    by_cases h : p a = true
    · simp [h, dropWhile_drop p l]
    · simp [h]

theorem takeWhile_get {α : Type} (p : α → Bool) : ∀ (l : List α) (i : Nat) (a : α), (l.takeWhile p)[i]? = some a → l[i]? = some a ∧ p a = true
  | [], i, a, h => by simp at h
  | b :: l, i, a, h => by
    by_cases hb : p b = true
    · rw [List.takeWhile_cons_of_pos hb] at h
      cases i with
      | zero => simp at h; subst h; exact ⟨rfl, hb⟩
      | succ i => simpa using takeWhile_get p l i a (by simpa using h)
    · rw [List.takeWhile_cons_of_neg hb] at h
      simp at h

theorem takeWhile_next {α : Type} (p : α → Bool) : ∀ (l : List α) (a : α), l[(l.takeWhile p).length]? = some a → p a = false
  | [], a, h => by simp at h
  | b :: l, a, h => by
    by_cases hb : p b = true
    · rw [List.takeWhile_cons_of_pos hb] at h
      exact takeWhile_next p l a (by simpa using h)
    · rw [List.takeWhile_cons_of_neg hb] at h
      simp at h; subst h
      simpa using hb

theorem group_get {xs : List Cell} {i : Nat} {x : Cell} (h : (group xs)[i]? = some x) : xs[i]? = some x ∧ (i ≠ 0 → x.bar = true) := by
  cases xs with
  | nil => simp [group] at h
  | cons y ys =>
    cases i with
    | zero => exact ⟨h, by simp⟩
    | succ i =>
      obtain ⟨h1, h2⟩ := takeWhile_get _ ys i x (by simpa [group] using h)
      exact ⟨by simpa using h1, fun _ => h2⟩

theorem group_next {xs : List Cell} {x : Cell} (h : xs[(group xs).length]? = some x) : x.bar = false := by
  cases xs with
  | nil => simp at h
  | cons y ys => exact takeWhile_next _ ys x (by simpa [group] using h)

theorem group_le (xs : List Cell) : (group xs).length ≤ xs.length := by
  cases xs with
  | nil => simp [group]
  | cons y ys =>
    have := (List.takeWhile_prefix (l := ys) (fun x : Cell => x.bar)).length_le
    simpa [group] using this

theorem group_pos {xs : List Cell} (h : 0 < xs.length) : 0 < (group xs).length := by
  cases xs with
  | nil => simp at h
  | cons y ys => simp [group]

theorem group_lt {xs : List Cell} {j : Nat} (hj : j < xs.length) (h : ∀ k x, 1 ≤ k → k ≤ j → xs[k]? = some x → x.bar = true) :
    j < (group xs).length := by
  refine Decidable.byContradiction fun hno => ?_
  have hpos := group_pos (xs := xs) (by omega)
  have hx : xs[(group xs).length]? = some (xs[(group xs).length]'(by omega)) := by simp
  have h1 := group_next hx
  rw [h _ _ (by omega) (by omega) hx] at h1
  cases h1

/-- Row `r` hangs from the one above: not joined at the left end, but elsewhere. -/
def Hang (B : Ctx) (n cols r : Nat) : Prop :=
  (∃ x, cell? B n r 0 = some x ∧ x.bar = false) ∧ ∃ c x, c < cols ∧ cell? B n r c = some x ∧ x.bar = true

/-- What rows that hang look like. -/
structure Hangs (B : Ctx) (n cols : Nat) : Prop where
  inner : ∀ r c x, Hang B n cols r → c + 1 < cols → cell? B n r c = some x → wiring x.code = true
  last : ∀ r x, Hang B n cols r → cell? B n r (cols - 1) = some x → x.bar = false ∧ (x.code = .COIL ∨ x.code = .NOP)
  next : ∀ r c x, Hang B n cols r → c < cols → cell? B n (r + 1) c = some x → x.bar = true → Hang B n cols (r + 1)
  lower : ∀ r c x y, Hang B n cols r → c < cols → cell? B n r c = some x → x.bar = true → cell? B n (r + 1) c = some y → y.code ≠ .MULTI

/-- The rows `R` of network `n`, from row `gs` on: one rung, with the row below it, if any, not joined to it; the first `q` rows start at
the left rail, the others hang. -/
structure Rung (B : Ctx) (n rows cols gs q : Nat) (R : List (List Cell)) : Prop where
  height : gs + R.length ≤ rows
  cells : ∀ i row c x, R[i]? = some row → row[c]? = some x →
    cell? B n (gs + i) c = some x ∧ FormedCell B n (gs + i) c x.code ∧ logical x.code = true
  width : ∀ row ∈ R, row.length = cols
  filled : R ≠ []
  below : gs + R.length < rows → ∀ c, c < cols → ∃ x, cell? B n (gs + R.length) c = some x ∧ x.bar = false
  first : ∀ row x, R[0]? = some row → x ∈ row → x.bar = false
  edge : (group (column R 0)).length = q
  clear : ∀ c i x, c < cols → (group (column R c)).length ≤ i → (column R c)[i]? = some x → x.bar = false
  final : (group (column R (cols - 1))).length ≤ q
  dead : ∀ c i x, c < cols → (group (column R c)).length ≤ i → (c + 1 = cols → i < q) → (column R c)[i]? = some x → x.code = .NOP ∨ x.code = .MULTI
  under : ∀ c i x, c < cols → (column R c)[i]? = some x → tall x.code = true →
    gs + i + 1 < rows ∧ ∃ y, cell? B n (gs + i + 1) c = some y ∧ y.code = .MULTI
  hang : ∀ i, q ≤ i → i < R.length → Hang B n cols (gs + i)

theorem column_get {R : List (List Cell)} {c : Nat} (hw : ∀ row ∈ R, c < row.length) (i : Nat) :
    (column R c)[i]? = (R[i]?).bind (·[c]?) := by
  induction R generalizing i with
  | nil => simp [column]
  | cons row R ih =>
    have h1 := hw row (.head _)
    have ih := ih fun r hr => hw r (.tail _ hr)
    have e : column (row :: R) c = row[c] :: column R c := by simp [column, h1]
    rw [e]
    cases i with
    | zero => simp [h1]
    | succ i => simpa using ih i

theorem column_length {R : List (List Cell)} {c : Nat} (hw : ∀ row ∈ R, c < row.length) : (column R c).length = R.length := by
  induction R with
  | nil => rfl
  | cons row R ih =>
    have h1 := hw row (.head _)
    have e : column (row :: R) c = row[c] :: column R c := by simp [column, h1]
    rw [e, List.length_cons, List.length_cons, ih fun r hr => hw r (.tail _ hr)]

theorem Rung.long {gs q col : Nat} {R : List (List Cell)} (h : Rung B n rows cols gs q R) (hc : col < cols) :
    (column R col).length = R.length := column_length fun row hr => by rw [h.width row hr]; exact hc

theorem Rung.get {gs q col i : Nat} {R : List (List Cell)} {x : Cell} (h : Rung B n rows cols gs q R) (hc : col < cols)
    (hx : (column R col)[i]? = some x) :
    cell? B n (gs + i) col = some x ∧ FormedCell B n (gs + i) col x.code ∧ logical x.code = true := by
  rw [column_get fun row hr => by rw [h.width row hr]; exact hc] at hx
  obtain ⟨row, h1, h2⟩ := Option.bind_eq_some_iff.1 hx
  exact h.cells i row col x h1 h2

theorem group_split (xs : List Cell) : group xs ++ xs.drop (group xs).length = xs := by
  cases xs with
  | nil => rfl
  | cons y ys =>
    simp only [group, List.length_cons, List.drop_succ_cons, List.cons_append]
    rw [← dropWhile_drop, List.takeWhile_append_dropWhile]

theorem linked_group {xs : List Cell} {i j : Nat} (hi : i < (group xs).length) (hj : j < (group xs).length) : linked xs i j = true := by
  unfold linked
  rw [List.all_eq_true]
  intro k hk
  obtain ⟨h1, h2⟩ := List.mem_range'_1.1 hk
  have hlt : k < (group xs).length := by omega
  obtain ⟨h3, h4⟩ := group_get (xs := xs) (i := k) (x := (group xs)[k]) (by simp [hlt])
  simp [h3, h4 (by omega)]

/-- The wire right of a column of which only the uppermost group is in use. -/
theorem wire_group {xs : List Cell} {outs : List Bool} (hlen : ∀ j, (group xs).length < j → outs[j]?.getD false = false)
    (hclear : ∀ i x, (group xs).length ≤ i → xs[i]? = some x → x.bar = false) (i : Nat) :
    wire xs outs i = if i < (group xs).length then (outs.take (group xs).length).any id else outs[i]?.getD false := by
  have hle := group_le xs
  have key : ∀ lo hi : Nat, lo < hi → (group xs).length ≤ hi →
      ((List.range' (lo + 1) (hi - lo)).all fun k => (xs[k]?.map (·.bar)).getD false) = false := by
    intro lo hi h1 h2
    rw [List.all_eq_false]
    refine ⟨hi, List.mem_range'_1.2 ⟨by omega, by omega⟩, ?_⟩
    cases hx : xs[hi]? with
    | none => simp
    | some x => simp [hclear hi x h2 hx]
  have hnext : ∀ j k, j < k → (group xs).length ≤ k → linked xs j k = false ∧ linked xs k j = false := by
    intro j k h1 h2
    unfold linked
    rw [Nat.min_eq_left (by omega), Nat.max_eq_right (by omega), Nat.min_eq_right (by omega), Nat.max_eq_left (by omega)]
    exact ⟨key j k h1 h2, key j k h1 h2⟩
  rw [Bool.eq_iff_iff]
  unfold wire
  rw [List.any_eq_true]
  split
  · rename_i hlt
    rw [List.any_eq_true]
    constructor
    · rintro ⟨j, -, ho⟩
      simp only [Bool.and_eq_true] at ho
      by_cases hj : j < (group xs).length
      · cases hoj : outs[j]? with
        | none => simp [hoj] at ho
        | some b => exact ⟨b, List.mem_of_getElem? (i := j) (by rw [List.getElem?_take, if_pos hj]; exact hoj), by simpa [hoj] using ho.1⟩
      · rw [(hnext i j (by omega) (by omega)).1] at ho
        simp at ho
    · rintro ⟨b, hb, rfl : b = true⟩
      obtain ⟨j, hj⟩ := List.getElem?_of_mem hb
      rw [List.getElem?_take] at hj
      split at hj
      · rename_i h1
        refine ⟨j, by simp; omega, ?_⟩
        rw [hj, linked_group hlt h1]
        rfl
      · cases hj
  · rename_i hge
    constructor
    · rintro ⟨j, -, ho⟩
      simp only [Bool.and_eq_true] at ho
      by_cases he : j = i
      · rw [← he]; exact ho.1
      · by_cases hj : (group xs).length < j
        · rw [hlen j hj] at ho
          simp at ho
        · rw [(hnext j i (by omega) (by omega)).2] at ho
          simp at ho
    · intro h
      have hi : i ≤ (group xs).length := Decidable.byContradiction fun hno => by
        rw [hlen i (by omega)] at h
        cases h
      refine ⟨i, by simp; omega, ?_⟩
      rw [h]
      simp [linked]

theorem Rung.stack {gs q col : Nat} {R : List (List Cell)} (h : Rung B n rows cols gs q R) (hc : col < cols) :
    Stack B n col gs (group (column R col)) := fun _ _ hx => h.get hc (group_get hx).1

theorem Rung.groupEnd {gs q col : Nat} {R : List (List Cell)} (h : Rung B n rows cols gs q R) {net' : Network}
    (hF : Form B n rows cols net') (hc : col < cols) : ∀ (k i : Nat), i < (group (column R col)).length → R.length ≤ i + 1 + k →
    Ladder.groupEnd net' col k (gs + i) = .ok (gs + (group (column R col)).length - 1)
  | 0, i, hi, hk => by
    have := group_le (column R col)
    rw [h.long hc] at this
    simp only [Ladder.groupEnd]; congr 1; omega
  | k + 1, i, hi, hk => by
    have hle := group_le (column R col)
    have hlong := h.long hc
    unfold Ladder.groupEnd
    have hh := h.height
    rw [hF.rows]
    by_cases hlast : i + 1 < (group (column R col)).length
    · rw [if_pos (by omega)]
      have hx : (group (column R col))[i + 1]? = some (group (column R col))[i + 1] := by simp [hlast]
      obtain ⟨h0, h2⟩ := group_get hx
      obtain ⟨h1, -, -⟩ := h.get hc h0
      obtain ⟨x', h3, -, h4⟩ := hF.cells _ _ _ h1
      rw [show gs + i + 1 = gs + (i + 1) by omega, h3]
      simp only [h4, h2 (by omega), if_true]
      exact Rung.groupEnd h hF hc k (i + 1) hlast (by omega)
    · split
      · rename_i hlt
        have hbar : ∃ x, cell? B n (gs + i + 1) col = some x ∧ x.bar = false := by
          by_cases hR : (group (column R col)).length < R.length
          · have hx : (column R col)[(group (column R col)).length]? = some (column R col)[(group (column R col)).length] := by
              simp [hlong, hR]
            refine ⟨_, ?_, group_next hx⟩
            rw [show gs + i + 1 = gs + (group (column R col)).length by omega]
            exact (h.get hc hx).1
          · rw [show gs + i + 1 = gs + R.length by omega]
            exact h.below (by omega) col hc
        obtain ⟨x, h1, h2⟩ := hbar
        obtain ⟨x', h3, -, h4⟩ := hF.cells _ _ _ h1
        rw [h3]
        simp only [h4, h2, Bool.false_eq_true, if_false]
        congr 1; omega
      · congr 1; omega

theorem Rung.isLower {gs q : Nat} {R : List (List Cell)} (h : Rung B n rows cols gs q R) {net' : Network}
    (hF : Form B n rows cols net') : ∀ (k c : Nat), c + k ≤ cols → Ladder.isLower net' gs c k = .ok false
  | 0, _, _ => rfl
  | k + 1, c, hk => by
    unfold Ladder.isLower
    have hpos : 0 < R.length := List.length_pos_iff.2 h.filled
    have hr : R[0]? = some R[0] := by simp [hpos]
    have hw := h.width R[0] (List.getElem_mem hpos)
    have hx : R[0][c]? = some R[0][c] := by simp
    obtain ⟨h1, -, -⟩ := h.cells 0 _ c _ hr hx
    have h2 := h.first _ _ hr (List.mem_of_getElem? hx)
    obtain ⟨x', h3, -, h4⟩ := hF.cells _ _ _ h1
    simp only [Nat.add_zero] at h3
    rw [h3]
    simp only [h4, h2]
    rw [if_neg (by simp)]
    exact Rung.isLower h hF k (c + 1) (by omega)

theorem bank_any {f : Nat → Nat → Bool} {gr k col : Nat} {b : Bool} {r c : Nat} (h : ¬(c = col ∧ gr ≤ r ∧ r < gr + k)) :
    bank f col gr k b r c = f r c := by unfold bank; rw [if_neg h]

/-! ### Columns of a rung -/

/-- As `columns`, with the wires right of the last of them. -/
def walk (rows : List (List Cell)) (above : Nat → Bool) : Nat → Nat → State → (Nat → Bool) → State × (Nat → Bool) × List Bool
  | _, 0, s, p => (s, p, [])
  | c, k + 1, s, p =>
    let a := sweep p 0 (column rows c) (above c) s
    let t := walk rows above (c + 1) k a.1 (wire (column rows c) a.2)
    (t.1, t.2.1, a.2[(column rows c).length]?.getD false :: t.2.2)

theorem columns_walk (rows : List (List Cell)) (above : Nat → Bool) : ∀ (k c : Nat) (s : State) (p : Nat → Bool),
    columns rows above c (k + 1) s p =
      let t := walk rows above c k s p
      let a := sweep t.2.1 0 (column rows (c + k)) (above (c + k)) t.1
      (a.1, t.2.2 ++ [a.2[(column rows (c + k)).length]?.getD false])
  | 0, c, s, p => rfl
  | k + 1, c, s, p => by
    rw [columns]
    simp only [columns_walk rows above k (c + 1), walk, show c + 1 + k = c + (k + 1) by omega, List.cons_append]

theorem sweep_append (p : Nat → Bool) : ∀ (xs ys : List Cell) (i : Nat) (d : Bool) (s : State),
    sweep p i (xs ++ ys) d s =
      let a := sweep p i xs d s
      let b := sweep p (i + xs.length) ys (a.2[xs.length]?.getD false) a.1
      (b.1, a.2.take xs.length ++ b.2)
  | [], ys, i, d, s => by simp [sweep]
  | x :: xs, ys, i, d, s => by
    simp only [List.cons_append, sweep, sweep_append p xs ys (i + 1), List.length_cons, List.getElem?_cons_succ, List.take_succ_cons,
      show i + 1 + xs.length = i + (xs.length + 1) by omega]

theorem sweep_length (p : Nat → Bool) : ∀ (xs : List Cell) (i : Nat) (d : Bool) (s : State), (sweep p i xs d s).2.length = xs.length + 1
  | [], _, _, _ => rfl
  | x :: xs, i, d, s => by simp only [sweep, List.length_cons, sweep_length p xs]

theorem columns_length (rows : List (List Cell)) (above : Nat → Bool) : ∀ (k c : Nat) (s : State) (p : Nat → Bool),
    (columns rows above c k s p).2.length = k
  | 0, _, _, _ => rfl
  | k + 1, c, s, p => by simp only [columns, List.length_cons, columns_length rows above k]

/-- Only timers and counters in the lowest row let power down. -/
theorem columns_drop {rows : List (List Cell)} (above : Nat → Bool) : ∀ (k c : Nat) (s : State) (p : Nat → Bool) (i : Nat),
    (∀ j, j < k → column rows (c + j) ≠ []) → (columns rows above c k s p).2[i]?.getD false = true →
    ∃ x, (column rows (c + i))[(column rows (c + i)).length - 1]? = some x ∧ tall x.code = true
  | 0, c, s, p, i, hne, h => by simp [columns] at h
  | k + 1, c, s, p, i, hne, h => by
    simp only [columns] at h
    cases i with
    | zero =>
      simp only [List.getElem?_cons_zero, Option.getD_some] at h
      have hlast : (sweep p 0 (column rows c) (above c) s).2[(column rows c).length]? = some true := by
        cases ho : (sweep p 0 (column rows c) (above c) s).2[(column rows c).length]? with
        | none => rw [ho] at h; cases h
        | some b => rw [ho] at h; simpa using h
      rcases sweep_last _ _ _ _ _ hlast with ⟨he, -⟩ | hx
      · exact absurd he (hne 0 (by omega))
      · exact hx
    | succ i =>
      rw [show c + (i + 1) = c + 1 + i by omega]
      exact columns_drop above k (c + 1) _ _ i (fun j hj => by rw [show c + 1 + j = c + (j + 1) by omega]; exact hne _ (by omega))
        (by simpa using h)

section

variable {net : Network} (hn : at? B.network n = some net) (hr : net.rows = rows) (hcols : net.cols = cols)
  (hall : ∀ r c, r < rows → c < cols → ∃ x, cell? B n r c = some x)

theorem skipLoop' (hk : Still env) {gs q col cnt : Nat} {R : List (List Cell)} (hR : Rung B n rows cols gs q R) (hc : col < cols)
    (h : Lit env T us B n rows cols L z m f w) (hL : cnt + (group (column R col)).length ≤ L) :
    ∃ s cnt' w', Ladder.skipLoop env col gs (group (column R col)).length cnt w = .ok (some (s, cnt'), w') ∧
      cnt' ≤ cnt + (group (column R col)).length ∧
      Lit env T us B n rows cols L z m f w' := by
  have hlong := hR.long hc
  have hle := group_le (column R col)
  have hh := hR.height
  refine skipLoop hk hc (hi := gs + R.length) (lo := gs) hR.height (fun r h1 h2 => ?_) _ gs cnt h (Nat.le_refl _) (by omega) hL
  have hx : (column R col)[r - gs]? = some (column R col)[r - gs] := by simp
  obtain ⟨h3, -, h4⟩ := hR.get hc hx
  rw [show gs + (r - gs) = r by omega] at h3
  exact ⟨_, h3, h4⟩

include hn hr hcols hall

/-- A column of a rung, of which the first `p` rows include the uppermost group. -/
theorem scanColumn (hk : Still env) (h : Lit env T us B n rows cols L z m f w) {network gs q p col cnt : Nat} {R : List (List Cell)} {P : Nat → Bool} {d : Bool}
    (hR : Rung B n rows cols gs q R) (hc : col < cols) (hz : col = 0 → Railed B z) (hL : cnt + R.length ≤ L)
    (hp : (group (column R col)).length ≤ p)
    (hdead : ∀ i x, (group (column R col)).length ≤ i → i < p → (column R col)[i]? = some x → x.code = .NOP ∨ x.code = .MULTI)
    (hP : ∀ j, j ≤ (group (column R col)).length → left f (gs + j) col = P j) (hf : f gs col = d)
    (hb : ∀ r, gs < r → r ≤ gs + R.length → f r col = false) (hd : d = true → ∀ x, (column R col)[0]? = some x → x.code = .MULTI) :
    Yields (Ladder.scanColumn env network gs true col cnt w) (Bad env T us (fun s => (sweep P 0 ((column R col).take p) d s).1) m) fun a w' =>
      ∃ vs m' outs cnt' f', a = some cnt' ∧ cnt' ≤ cnt + R.length ∧
      Runs (sweep P 0 ((column R col).take p) d) m vs m' outs ∧
      Lit env T (us ++ vs) B n rows cols L z m' f' w' ∧
      (∀ j, (group (column R col)).length < j → outs[j]?.getD false = false) ∧
      (∀ j, j ≤ R.length → f' (gs + j) col =
        if j < (group (column R col)).length then (outs.take (group (column R col)).length).any id else outs[j]?.getD false) ∧
      ∀ r c, ¬(c = col ∧ gs ≤ r ∧ r ≤ gs + R.length) → f' r c = f r c := by
  have hlong := hR.long hc
  have hle := group_le (column R col)
  have hpos : 0 < R.length := List.length_pos_iff.2 hR.filled
  have hgp := group_pos (xs := column R col) (by omega)
  have hh := hR.height
  obtain ⟨net', e1, hF⟩ := h.curNet hn hr hcols
  have hge := hR.groupEnd hF hc (net'.rows - gs) 0 hgp (by rw [hF.rows]; omega)
  have hst := hR.stack hc
  obtain ⟨s, cnt', w1, e2, hcnt, h1⟩ := skipLoop' (env := env) hk hR hc h (cnt := cnt) (by omega)
  have hsplit : group (column R col) ++ ((column R col).drop (group (column R col)).length).take (p - (group (column R col)).length) =
      (column R col).take p := by
    have e : (group (column R col) ++ (column R col).drop (group (column R col)).length).take p = (column R col).take p := by rw [group_split]
    rw [← e, List.take_append, List.take_of_length_le hp]
  have hk1 : gs + (group (column R col)).length - 1 + 1 - gs = (group (column R col)).length := by omega
  have hdead' : ∀ y ∈ ((column R col).drop (group (column R col)).length).take (p - (group (column R col)).length), y.code = .NOP ∨ y.code = .MULTI := fun x hx => by
    obtain ⟨i, hi⟩ := List.getElem?_of_mem hx
    rw [List.getElem?_take] at hi
    split at hi
    · rw [List.getElem?_drop] at hi
      exact hdead _ x (by omega) (by omega) hi
    · cases hi
  have hin : ∀ j x, ((column R col).take p)[j]? = some x → (column R col)[j]? = some x := fun j x hx => by
    rw [List.getElem?_take] at hx
    split at hx
    · exact hx
    · cases hx
  simp only [Nat.add_zero] at hge
  unfold Ladder.scanColumn
  rw [bind_ok e1, bind_ok (lift_eq_ok.2 ⟨hge, rfl⟩)]
  simp only [hk1]
  rw [bind_ok e2]
  simp only [Bool.not_true, Bool.false_and, Bool.false_eq_true, if_false]
  have hloop := execLoop (network := network) (P := P) hk hc hz hdead' (group (column R col)) gs 0 d h1 hst (by omega)
    (fun j hj => by rw [Nat.zero_add]; exact hP j hj) hf (fun j hj => hb _ (by omega) (by omega))
    (by rw [hsplit]; exact fun hd' x hx => hd hd' x (hin 0 x hx))
    (fun j x hx ht => by
      rw [hsplit]
      obtain ⟨h1, y, h2, h3⟩ := hR.under col j x hc (group_get hx).1 ht
      refine ⟨h1, fun y' hy' => ?_⟩
      have := (hR.get hc (hin _ _ hy')).1
      rw [show gs + (j + 1) = gs + j + 1 by omega, h2] at this
      cases this
      exact h3)
  rw [hsplit] at hloop
  refine hloop.bind id ?_
  rintro _ w2 ⟨rfl, vs, m', outs, f1, h2, h3, h4, h5, h6⟩
  simp only [Bool.false_eq_true, if_false]
  have e4 := h3.orStates hc (fun r hr' => ?_) (group (column R col)).length gs false (by omega)
  · have hout : (List.range' gs (group (column R col)).length).any (f1 · col) = (outs.take (group (column R col)).length).any id := by
      rw [Bool.eq_iff_iff, List.any_eq_true, List.any_eq_true]
      constructor
      · rintro ⟨r, h7, h8⟩
        obtain ⟨h9, h10⟩ := List.mem_range'_1.1 h7
        refine ⟨true, List.mem_of_getElem? (i := r - gs) ?_, rfl⟩
        rw [List.getElem?_take, if_pos (by omega), h4 _ (by omega), show gs + (r - gs) = r by omega, h8]
      · rintro ⟨b, h7, rfl : b = true⟩
        obtain ⟨j, hj⟩ := List.getElem?_of_mem h7
        rw [List.getElem?_take] at hj
        split at hj
        · rename_i h8
          rw [h4 j (by omega), Option.some.injEq] at hj
          exact ⟨gs + j, List.mem_range'_1.2 ⟨by omega, by omega⟩, hj⟩
        · cases hj
    rw [bind_ok e4, Bool.false_or, hout]
    obtain ⟨w3, e5, h7⟩ := setStates (b := (outs.take (group (column R col)).length).any id) hc (group (column R col)).length gs h3 (by omega)
    rw [bind_ok e5]
    refine .of_ok rfl ⟨vs, m', outs, cnt', _, rfl, by omega, h2, h7, h5, fun j hj => ?_, fun r c hno => ?_⟩
    · split
      · unfold bank; rw [if_pos (by omega)]
      · rw [bank_any (by omega)]
        by_cases hj' : j = (group (column R col)).length
        · rw [h4 j (by omega), Option.getD_some]
        · rw [h5 j (by omega), h6 _ _ (by omega)]
          exact hb _ (by omega) (by omega)
    · rw [bank_any (by omega), h6 r c (by omega)]
  · obtain ⟨x, hx⟩ := hall r col hr' hc
    exact ⟨x, hx⟩

theorem columnLoop (hk : Still env) {network gs q : Nat} {R : List (List Cell)} {above : Nat → Bool} (hR : Rung B n rows cols gs q R)
    (hz : Railed B z) (hab : ∀ c, above c = true → ∀ x, (column R c)[0]? = some x → x.code = .MULTI) :
    ∀ (k col fuel cnt : Nat) {us : List Reading} {m : Image} {f : Nat → Nat → Bool} {w : World} {P : Nat → Bool}, Lit env T us B n rows cols L z m f w →
    col + k + 1 = cols → k + 1 < fuel → cnt + (k + 1) * R.length ≤ L →
    (∀ c, col ≤ c → c < cols → f gs c = above c) → (∀ r c, gs < r → r ≤ gs + R.length → col ≤ c → c < cols → f r c = false) →
    (∀ j, j ≤ R.length → left f (gs + j) col = P j) →
    Yields (Ladder.columnLoop env network gs true fuel col cnt w) (Bad env T us (fun s => (columns R above col (k + 1) s P).1) m) fun a w' =>
      ∃ vs₁ m₁ Q drops vs₂ m' outs cnt' f', a = some cnt' ∧ cnt' ≤ cnt + (k + 1) * R.length ∧
      Runs (fun s => walk R above col k s P) m vs₁ m₁ (Q, drops) ∧
      Runs (sweep Q 0 ((column R (cols - 1)).take q) (above (cols - 1))) m₁ vs₂ m' outs ∧
      Lit env T (us ++ (vs₁ ++ vs₂)) B n rows cols L z m' f' w' ∧
      (∀ j, j ≤ R.length → left f' (gs + j) (cols - 1) = Q j) ∧
      (∀ i, i < k → f' (gs + R.length) (col + i) = drops[i]?.getD false) ∧ drops.length = k ∧
      (∀ j, q ≤ j → j ≤ R.length → f' (gs + j) (cols - 1) = outs[j]?.getD false) ∧
      ∀ r c, ¬(col ≤ c ∧ gs ≤ r ∧ r ≤ gs + R.length) → f' r c = f r c
  | k, col, 0, cnt, us, m, f, w, P, h, hk1, hk2, hL, hf, hb, hp => by omega
  | 0, col, fuel + 1, cnt, us, m, f, w, P, h, hk1, hk2, hL, hf, hb, hp => by
    obtain ⟨net', e1, hF⟩ := h.curNet hn hr hcols
    unfold Ladder.columnLoop
    rw [bind_ok e1, if_pos (by rw [hF.cols]; omega)]
    have hcol : cols - 1 = col := by omega
    have hfin := hR.final
    rw [hcol] at hfin
    have hle := group_le (column R col)
    rw [hR.long (by omega : col < cols)] at hle
    refine (scanColumn (network := network) (cnt := cnt) (P := P) (d := above col) (p := q) hn hr hcols hall hk h hR
      (by omega : col < cols) (fun _ => hz) (by omega) hfin (fun i x h1 h2 => hR.dead col i x (by omega) h1 fun _ => h2)
      (fun j hj => hp j (by omega)) (hf col (by omega) (by omega))
      (fun r ha hb' => hb r col ha hb' (by omega) (by omega)) (hab col)).bind (fun hbad => hbad.imp fun s hs => ?_) ?_
    · simp only [columns]
      rw [← List.take_append_drop q (column R col), sweep_append]
      exact sweep_sure _ _ _ _ _ hs
    rintro _ w1 ⟨vs, m1, outs, c1, f1, rfl, h1, h2, h3, h4, h5, h6⟩
    obtain ⟨net2, e2, hF2⟩ := h3.curNet hn hr hcols
    simp only
    obtain ⟨fuel, rfl⟩ : ∃ k, fuel = k + 1 := ⟨fuel - 1, by omega⟩
    unfold Ladder.columnLoop
    rw [bind_ok e2, if_neg (by rw [hF2.cols]; omega)]
    refine .of_ok rfl ⟨[], m, P, [], vs, m1, outs, c1, f1, rfl, by omega, fun _ => rfl, by rw [hcol]; exact h2, h3, fun j hj => ?_,
      fun i hi => absurd hi (by omega), rfl, fun j hj hj' => ?_, fun r c hno => h6 r c (by omega)⟩
    · rw [← hp j hj, hcol]
      unfold left
      split
      · rfl
      · exact h6 _ _ (by omega)
    · rw [hcol, h5 j hj', if_neg (by omega)]
  | k + 1, col, fuel + 1, cnt, us, m, f, w, P, h, hk1, hk2, hL, hf, hb, hp => by
    obtain ⟨net', e1, hF⟩ := h.curNet hn hr hcols
    unfold Ladder.columnLoop
    rw [bind_ok e1, if_pos (by rw [hF.cols]; omega)]
    rw [Nat.succ_mul] at hL
    have hlong := hR.long (by omega : col < cols)
    have hpos : 0 < R.length := List.length_pos_iff.2 hR.filled
    have hle := group_le (column R col)
    rw [hlong] at hle
    have htake : (column R col).take R.length = column R col := List.take_of_length_le (by omega)
    have hcolumn := scanColumn (network := network) (cnt := cnt) (P := P) (d := above col) (p := R.length) hn hr hcols hall hk h hR
      (by omega : col < cols) (fun _ => hz) (by omega) hle (fun i x h1 h2 => hR.dead col i x (by omega) h1 (by omega))
      (fun j hj => hp j (by omega)) (hf col (by omega) (by omega))
      (fun r ha hb' => hb r col ha hb' (by omega) (by omega)) (hab col)
    rw [htake] at hcolumn
    refine hcolumn.bind (fun hbad => hbad.imp fun s hs => ?_) ?_
    · simp only [columns]
      exact columns_sure R above (k + 1) _ _ _ hs
    rintro _ w1 ⟨vs, m1, outs, c1, f1, rfl, h1, h2, h3, h4, h5, h6⟩
    simp only
    refine (columnLoop (P := wire (column R col) outs) hk hR hz hab k (col + 1) fuel c1 h3 (by omega) (by omega)
      (by omega) (fun c hc hc' => by rw [h6 gs c (by omega)]; exact hf c (by omega) hc')
      (fun r c ha hb' hc hc' => by rw [h6 r c (by omega)]; exact hb r c ha hb' (by omega) hc') (fun j hj => by
        unfold left
        rw [if_neg (by omega), Nat.add_sub_cancel, h5 j hj, wire_group h4 (fun i x => hR.clear col i x (by omega))])).mono
      (fun hbad => hbad.after fun rest hs => ?_) ?_
    · rw [columns]
      simp only [h2 rest]
      exact hs
    rintro _ w2 ⟨vs₁, m2, Q, drops, vs₂, m', outs', c2, f2, rfl, h7, h8, h9, h10, h11, h12, h13, h14, h15⟩
    refine ⟨vs ++ vs₁, m2, Q, outs[R.length]?.getD false :: drops, vs₂, m', outs', c2, f2, rfl, by rw [Nat.succ_mul]; omega, fun rest => ?_, h9,
      by rw [show us ++ (vs ++ vs₁ ++ vs₂) = us ++ vs ++ (vs₁ ++ vs₂) by simp]; exact h10, h11, fun i hi => ?_, by simp [h13], h14, fun r c hno => ?_⟩
    · simp only [walk, hlong]
      rw [prior_append, h2 (prior vs₁ rest)]
      simp only
      have := h8 rest
      simp only at this
      rw [this]
    · cases i with
      | zero =>
        rw [Nat.add_zero, h15 _ _ (by omega), h5 _ (Nat.le_refl _), if_neg (by omega)]
        rfl
      | succ i => rw [show col + (i + 1) = col + 1 + i by omega, h12 i (by omega)]; rfl
    · rw [h15 r c (by omega), h6 r c (by omega)]

/-- The first pass over a rung whose left end is not covered. -/
theorem scanRow (hk : Still env) (h : Lit env T us B n rows cols L z m f w) {network gs q cnt : Nat} {row : List Cell} {R : List (List Cell)}
    {above : Nat → Bool} (hR : Rung B n rows cols gs q (row :: R)) (hz : Railed B z) (h32 : cols < 2^32) (hw : 0 < cols) (hcov : covered row = false)
    (hL : cnt + 1 + cols * (row :: R).length ≤ L) (hab : ∀ c, above c = true → ∀ x, row[c]? = some x → x.code = .MULTI)
    (hf : ∀ c, c < cols → f gs c = above c) (hb : ∀ r c, gs < r → c < cols → f r c = false) :
    Yields (Ladder.scanRow env network gs cnt w) (Bad env T us (fun s => (columns (row :: R) above 0 cols s fun _ => true).1) m) fun a w' =>
      ∃ vs₁ m₁ Q drops vs₂ m' outs cnt' f', a = some (gs + q, cnt') ∧ cnt' ≤ cnt + 1 + cols * (row :: R).length ∧
      Runs (fun s => walk (row :: R) above 0 (cols - 1) s fun _ => true) m vs₁ m₁ (Q, drops) ∧
      Runs (sweep Q 0 ((column (row :: R) (cols - 1)).take q) (above (cols - 1))) m₁ vs₂ m' outs ∧
      Lit env T (us ++ (vs₁ ++ vs₂)) B n rows cols L z m' f' w' ∧
      (∀ j, j ≤ (row :: R).length → left f' (gs + j) (cols - 1) = Q j) ∧
      (∀ i, i + 1 < cols → f' (gs + (row :: R).length) i = drops[i]?.getD false) ∧ drops.length = cols - 1 ∧
      (∀ j, q ≤ j → j ≤ (row :: R).length → f' (gs + j) (cols - 1) = outs[j]?.getD false) ∧
      ∀ r c, gs + (row :: R).length < r → f' r c = f r c := by
  have hh := hR.height
  have hpos : 0 < (row :: R).length := by simp
  obtain ⟨w1, e1, h1⟩ := h.watch (cnt := cnt + 1) (by omega)
  unfold Ladder.scanRow
  rw [bind_ok e1]
  simp only [Bool.false_eq_true, if_false]
  have hwid := hR.width row (.head _)
  obtain ⟨x, hx⟩ : ∃ x, row[0]? = some x := ⟨row[0], by simp [hwid, hw]⟩
  obtain ⟨hx1, -, -⟩ := hR.cells 0 row 0 x rfl hx
  obtain ⟨x', e2, ecode, -, -⟩ := h1.curCell (r := gs) (by omega) hw hx1
  have hne : x.code ≠ .MULTI := by
    intro e
    have : row.head? = some x := by rw [List.head?_eq_getElem?]; exact hx
    simp [covered, this, e] at hcov
  rw [bind_ok e2, ecode, if_neg hne]
  obtain ⟨net', e3, hF⟩ := h1.curNet hn hr hcols
  rw [bind_ok e3]
  have hgp := group_pos (xs := column (row :: R) 0) (by rw [hR.long hw]; exact hpos)
  have hge := hR.groupEnd hF hw (net'.rows - gs) 0 hgp (by rw [hF.rows]; omega)
  rw [hR.edge] at hge hgp
  rw [Nat.add_zero] at hge
  rw [bind_ok (lift_eq_ok.2 ⟨hge, rfl⟩), bind_ok (lift_eq_ok.2 ⟨hR.isLower hF net'.cols 0 (by rw [hF.cols]; omega), rfl⟩)]
  simp only [Bool.not_false]
  have hab' : ∀ c, above c = true → ∀ x, (column (row :: R) c)[0]? = some x → x.code = .MULTI := by
    intro c ha x hx
    by_cases hc : c < cols
    · rw [column_get fun r hr' => by rw [hR.width r hr']; exact hc] at hx
      exact hab c ha x (by simpa using hx)
    · have : column (row :: R) c = [] := by
        unfold column
        rw [List.filterMap_eq_nil_iff]
        intro r hr'
        rw [List.getElem?_eq_none_iff, hR.width r hr']
        omega
      rw [this] at hx
      cases hx
  have hcs : cols - 1 + 1 = cols := by omega
  have hloop := columnLoop (network := network) (P := fun _ => true) (above := above) hn hr hcols hall hk hR hz hab' (cols - 1) 0 u32Fuel (cnt + 1) h1 (by omega)
    (by unfold u32Fuel; omega) (by rw [hcs]; exact hL) (fun c _ hc => hf c hc) (fun r c ha _ _ hc => hb r c ha hc) (fun _ r => by simp [left])
  rw [hcs] at hloop
  refine hloop.bind id ?_
  rintro _ w2 ⟨vs₁, m₁, Q, drops, vs₂, m', outs, c1, f1, rfl, h2, h3, h4, h5, h6, h7, h8, h9, h10⟩
  simp only
  obtain ⟨w3, e5, h11⟩ := h5.callScanEnd hk
  rw [bind_ok e5]
  refine .of_ok rfl ⟨vs₁, m₁, Q, drops, vs₂, m', outs, c1, f1, ?_, h2, h3, h4, h11, h6, fun i hi => ?_, h8, h9, fun r c hrc => h10 r c (by omega)⟩
  · rw [show gs + q - 1 + 1 = gs + q by omega]
  · have := h7 i (by omega)
    rwa [Nat.zero_add] at this

/-! ### Rows that hang -/

omit hn hr hcols in
theorem groupEnd_any {net' : Network} (hF : Form B n rows cols net') {col : Nat} (hc : col < cols) : ∀ (k g : Nat), g < rows →
    ∃ ge, Ladder.groupEnd net' col k g = .ok ge ∧ g ≤ ge ∧ ge < rows ∧ ∀ r, g < r → r ≤ ge → ∃ x, cell? B n r col = some x ∧ x.bar = true
  | 0, g, hg => ⟨g, rfl, Nat.le_refl _, hg, fun r h1 h2 => by omega⟩
  | k + 1, g, hg => by
    unfold Ladder.groupEnd
    rw [hF.rows]
    by_cases h : g + 1 < rows
    · rw [if_pos h]
      obtain ⟨x, hx⟩ := hall (g + 1) col h hc
      obtain ⟨x', h3, -, h4⟩ := hF.cells _ _ _ hx
      rw [h3]
      simp only [h4]
      cases hbar : x.bar with
      | false => exact ⟨g, by simp, Nat.le_refl _, hg, fun r h1 h2 => by omega⟩
      | true =>
        obtain ⟨ge, h5, h6, h7, h8⟩ := groupEnd_any hF hc k (g + 1) h
        refine ⟨ge, by simpa using h5, by omega, h7, fun r h1 h2 => ?_⟩
        by_cases e : r = g + 1
        · exact ⟨x, by rw [e]; exact hx, hbar⟩
        · exact h8 r (by omega) h2
    · rw [if_neg h]
      exact ⟨g, rfl, Nat.le_refl _, hg, fun r h1 h2 => by omega⟩

omit hn hr hcols hall in
theorem Hangs.chain (hH : Hangs B n cols) {col r : Nat} (hc : col < cols) (h : Hang B n cols r) : ∀ k : Nat,
    (∀ r', r < r' → r' ≤ r + k → ∃ x, cell? B n r' col = some x ∧ x.bar = true) → Hang B n cols (r + k)
  | 0, _ => h
  | k + 1, hb => by
    obtain ⟨x, h1, h2⟩ := hb (r + (k + 1)) (by omega) (Nat.le_refl _)
    exact hH.next (r + k) col x (Hangs.chain hH hc h k fun r' ha hb' => hb r' ha (by omega)) hc h1 h2

omit hn hr hcols in
theorem isLower_hang {net' : Network} (hF : Form B n rows cols net') (hH : Hangs B n cols) {r : Nat} (hr' : r < rows) (h : Hang B n cols r) :
    ∀ k c : Nat, c + k ≤ cols → (∃ c' x, c ≤ c' ∧ c' < c + k ∧ cell? B n r c' = some x ∧ x.bar = true) → Ladder.isLower net' r c k = .ok true
  | 0, c, _, ⟨c', _, h1, h2, _⟩ => by omega
  | k + 1, c, hk, ⟨c', x, h1, h2, h3, h4⟩ => by
    unfold Ladder.isLower
    obtain ⟨y, hy⟩ := hall r c hr' (by omega)
    obtain ⟨y', h5, -, h6⟩ := hF.cells _ _ _ hy
    rw [h5]
    simp only [h6]
    cases hbar : y.bar with
    | true =>
      simp only [if_true]
      rw [hF.rows]
      by_cases hlt : r + 1 < rows
      · rw [if_pos hlt]
        obtain ⟨v, hv⟩ := hall (r + 1) c hlt (by omega)
        obtain ⟨v', h7, h8, -⟩ := hF.cells _ _ _ hv
        rw [h7]
        simp only [h8, if_neg (hH.lower r c y v h (by omega) hy hbar hv)]
      · rw [if_neg hlt]
    | false =>
      simp only [Bool.false_eq_true, if_false]
      refine isLower_hang hF hH hr' h k (c + 1) (by omega) ⟨c', x, ?_, by omega, h3, h4⟩
      by_cases e : c' = c
      · rw [e, hy] at h3
        cases h3
        rw [hbar] at h4
        cases h4
      · omega

omit hn hr hcols hall in
theorem skipSafe (hk : Still env) {col : Nat} (hc : col < cols) : ∀ (k gr cnt : Nat) {w : World}, Lit env T us B n rows cols L z m f w →
    gr + k ≤ rows → cnt + k ≤ L → (∀ r, gr ≤ r → r < gr + k → ∃ x, cell? B n r col = some x ∧ wiring x.code = true) →
    ∃ w', Ladder.skipLoop env col gr k cnt w = .ok (some (true, cnt + k), w') ∧ Lit env T us B n rows cols L z m f w'
  | 0, gr, cnt, w, h, _, _, _ => ⟨w, rfl, h⟩
  | k + 1, gr, cnt, w, h, hg, hL, hx => by
    obtain ⟨x, hx', hw⟩ := hx gr (by omega) (by omega)
    obtain ⟨w1, h1, h2⟩ := h.watch (cnt := cnt + 1) (by omega)
    obtain ⟨x', h3, e, -, -⟩ := h2.curCell (by omega) hc hx'
    unfold Ladder.skipLoop
    rw [bind_ok h1]
    simp only [Bool.false_eq_true, if_false]
    rw [bind_ok h3, e, if_neg (by intro e'; rw [e'] at hw; cases hw)]
    have hs : sideEffects x.code = .ok false := by
      revert hw
      cases x.code <;> intro hw <;> first | rfl | exact absurd hw (by decide)
    rw [bind_ok (lift_eq_ok.2 ⟨hs, rfl⟩)]
    simp only [Bool.false_eq_true, if_false]
    obtain ⟨w2, h4, h5⟩ := skipSafe hk hc k (gr + 1) (cnt + 1) h2 (by omega) (by omega) fun r ha hb => hx r (by omega) (by omega)
    exact ⟨w2, by rw [h4, show cnt + 1 + k = cnt + (k + 1) by omega], h5⟩

/-- The right end of a row that hangs. -/
theorem scanCoil (hk : Still env) (hH : Hangs B n cols) (h : Lit env T us B n rows cols L z m f w) {network r i cnt : Nat} {x : Cell} {Q : Nat → Bool}
    (hr' : r < rows) (hw : 0 < cols) (hz : Railed B z) (hh : Hang B n cols r) (hx : cell? B n r (cols - 1) = some x)
    (hform : FormedCell B n r (cols - 1) x.code) (hL : cnt + 1 ≤ L) (hQ : left f r (cols - 1) = Q i) (hQ' : left f (r + 1) (cols - 1) = Q (i + 1))
    (h0 : f r (cols - 1) = false) (h1 : f (r + 1) (cols - 1) = false) :
    ∃ vs m' o w' f', Ladder.scanColumn env network r false (cols - 1) cnt w = .ok (some (cnt + 1), w') ∧
      Runs (sweep Q i [x] false) m vs m' [o, false] ∧ Lit env T (us ++ vs) B n rows cols L z m' f' w' ∧ f' (r + 1) (cols - 1) = false ∧
      ∀ r' c, ¬(c = cols - 1 ∧ r ≤ r' ∧ r' ≤ r + 1) → f' r' c = f r' c := by
  obtain ⟨net', e1, hF⟩ := h.curNet hn hr hcols
  have hc : cols - 1 < cols := by omega
  obtain ⟨hbar, hcode⟩ := hH.last r x hh hx
  obtain ⟨ge, e2, h2, h3, h4⟩ := groupEnd_any hall hF hc (net'.rows - r) r hr'
  have hge : ge = r := Decidable.byContradiction fun hne => by
    obtain ⟨y, h5, h6⟩ := h4 (r + 1) (by omega) (by omega)
    have := hH.last (r + 1) y (hH.next r (cols - 1) y hh hc h5 h6) h5
    rw [h6] at this
    cases this.1
  subst hge
  unfold Ladder.scanColumn
  rw [bind_ok e1, bind_ok (lift_eq_ok.2 ⟨e2, rfl⟩)]
  simp only [Nat.add_sub_cancel_left]
  rcases hcode with hcode | hcode
  · obtain ⟨w1, e3, h5⟩ := h.watch (cnt := cnt + 1) hL
    obtain ⟨x', e4, ecode, -, -⟩ := h5.curCell hr' hc hx
    have hskip : Ladder.skipLoop env (cols - 1) ge 1 cnt w = .ok (some (false, cnt + 1), w1) := by
      unfold Ladder.skipLoop
      rw [bind_ok e3]
      simp only [Bool.false_eq_true, if_false]
      rw [bind_ok e4, ecode, hcode, if_neg (by decide), bind_ok (lift_eq_ok.2 ⟨(rfl : sideEffects .COIL = .ok true), rfl⟩)]
      rfl
    rw [bind_ok hskip]
    simp only [Bool.not_false, Bool.and_false, Bool.false_eq_true, if_false]
    have hsweep : ∀ s, sweep Q i [x] false s = (⟨(simple s.reg (Q i) x).1, s.time, s.sure⟩, [(simple s.reg (Q i) x).2, false]) := fun s => by
      simp [sweep, act, hcode, defined]
    have hloop := execLoop (network := network) (P := Q) (ys := []) hk hc (fun _ => hz) (by simp) [x] ge i false h5
      (fun j y hy => by
        cases j with
        | zero => simp at hy; subst hy; exact ⟨hx, hform, by rw [hcode]; rfl⟩
        | succ j => simp at hy)
      (by simp; omega) (fun j hj => by
        simp only [List.length_cons, List.length_nil] at hj
        match j, hj with
        | 0, _ => exact hQ
        | 1, _ => exact hQ')
      h0 (fun j hj => by
        simp only [List.length_cons, List.length_nil] at hj
        match j, hj with
        | 0, _ => exact h1)
      (by simp) (fun j y hy ht => by
        cases j with
        | zero => simp at hy; subst hy; rw [hcode] at ht; cases ht
        | succ j => simp at hy)
    simp only [List.append_nil, List.length_cons, List.length_nil] at hloop
    cases hex : Ladder.execLoop env network (cols - 1) ge 1 w1 with
    | error u =>
      rw [hex] at hloop
      obtain ⟨-, vs, hi, -, hbad⟩ := hloop
      have := hbad fun _ => ⟨0, 0, 0⟩
      simp only [hsweep] at this
      cases this
    | ok r =>
      obtain ⟨b, w2⟩ := r
      rw [hex] at hloop
      obtain ⟨rfl, vs, m', outs, f1, h6, h7, h8, h9, h10⟩ := hloop
      have ho : outs = [(simple m (Q i) x).2, false] := by
        have := h6 fun _ => ⟨0, 0, 0⟩
        rw [hsweep] at this
        exact (congrArg Prod.snd this).symm
      subst ho
      rw [bind_ok hex]
      simp only [Bool.false_eq_true, if_false]
      have e5 := h7.orStates hc (fun r hr' => hall r _ hr' hc) 1 ge false (by omega)
      rw [bind_ok e5]
      obtain ⟨w3, e6, h11⟩ := setStates (b := false || (List.range' ge 1).any (f1 · (cols - 1))) hc 1 ge h7 (by omega)
      rw [bind_ok e6]
      refine ⟨vs, m', _, w3, _, rfl, h6, h11, ?_, fun r' c hno => ?_⟩
      · rw [bank_any (by omega)]
        have := h8 1 (by omega)
        simpa using this.symm
      · rw [bank_any (by omega), h10 r' c (by omega)]
  · obtain ⟨w1, e3, h5⟩ := skipSafe hk hc 1 ge cnt h (by omega) hL fun r ha hb => ⟨x, by rw [show r = ge by omega]; exact hx, by rw [hcode]; rfl⟩
    rw [bind_ok e3]
    refine ⟨[], m, false, w1, f, rfl, fun rest => ?_, by rw [List.append_nil]; exact h5, h1, fun _ _ _ => rfl⟩
    simp [sweep, act, hcode, simple, defined, Logic.prior]

/-- The second pass over a row that hangs. -/
theorem hangLoop (hk : Still env) (hH : Hangs B n cols) {network r i : Nat} {x : Cell} {Q : Nat → Bool}
    (hr' : r < rows) (hz : Railed B z) (hh : Hang B n cols r) (hx : cell? B n r (cols - 1) = some x)
    (hform : FormedCell B n r (cols - 1) x.code) (hQ : left f r (cols - 1) = Q i) (hQ' : left f (r + 1) (cols - 1) = Q (i + 1))
    (h0 : f r (cols - 1) = false) (h1 : f (r + 1) (cols - 1) = false) :
    ∀ (k col fuel cnt : Nat) {w : World}, Lit env T us B n rows cols L z m f w → col + k + 1 = cols → k + 1 < fuel → cnt + (k + 1) * rows ≤ L →
    ∃ vs m' o cnt' w' f', Ladder.columnLoop env network r false fuel col cnt w = .ok (some cnt', w') ∧ cnt' ≤ cnt + (k + 1) * rows ∧
      Runs (sweep Q i [x] false) m vs m' [o, false] ∧ Lit env T (us ++ vs) B n rows cols L z m' f' w' ∧ f' (r + 1) (cols - 1) = false ∧
      ∀ r' c, ¬(c = cols - 1 ∧ r ≤ r' ∧ r' ≤ r + 1) → f' r' c = f r' c
  | k, col, 0, cnt, w, h, hk1, hk2, hL => by omega
  | 0, col, fuel + 1, cnt, w, h, hk1, hk2, hL => by
    obtain ⟨net', e1, hF⟩ := h.curNet hn hr hcols
    obtain rfl : col = cols - 1 := by omega
    obtain ⟨vs, m', o, w', f', e2, h2, h3, h4, h5⟩ := scanCoil (network := network) (cnt := cnt) hn hr hcols hall hk hH h hr' (by omega) hz hh hx hform
      (by omega) hQ hQ' h0 h1
    obtain ⟨net2, e3, hF2⟩ := h3.curNet hn hr hcols
    refine ⟨vs, m', o, cnt + 1, w', f', ?_, by omega, h2, h3, h4, h5⟩
    obtain ⟨fuel, rfl⟩ : ∃ k, fuel = k + 1 := ⟨fuel - 1, by omega⟩
    unfold Ladder.columnLoop
    rw [bind_ok e1, if_pos (by rw [hF.cols]; omega), bind_ok e2]
    simp only
    unfold Ladder.columnLoop
    rw [bind_ok e3, if_neg (by rw [hF2.cols]; omega)]
    rfl
  | k + 1, col, fuel + 1, cnt, w, h, hk1, hk2, hL => by
    obtain ⟨net', e1, hF⟩ := h.curNet hn hr hcols
    have hc : col < cols := by omega
    rw [Nat.succ_mul] at hL
    obtain ⟨ge, e2, h2, h3, h4⟩ := groupEnd_any hall hF hc (net'.rows - r) r hr'
    obtain ⟨w1, e3, h5⟩ := skipSafe hk hc (ge + 1 - r) r cnt h (by omega) (by omega) fun r' ha hb => by
      obtain ⟨y, hy⟩ := hall r' col (by omega) hc
      have := hH.chain hc hh (r' - r) fun r2 h5 h6 => h4 r2 h5 (by omega)
      rw [show r + (r' - r) = r' by omega] at this
      exact ⟨y, hy, hH.inner r' col y this (by omega) hy⟩
    obtain ⟨vs, m', o, cnt', w', f', e4, h6, h7, h8, h9, h10⟩ := hangLoop hk hH hr' hz hh hx hform hQ hQ' h0 h1 k (col + 1) fuel (cnt + (ge + 1 - r)) h5 (by omega)
      (by omega) (by omega)
    refine ⟨vs, m', o, cnt', w', f', ?_, by rw [Nat.succ_mul]; omega, h7, h8, h9, h10⟩
    unfold Ladder.columnLoop
    have hcolumn : Ladder.scanColumn env network r false col cnt w = .ok (some (cnt + (ge + 1 - r)), w1) := by
      unfold Ladder.scanColumn
      rw [bind_ok e1, bind_ok (lift_eq_ok.2 ⟨e2, rfl⟩)]
      rw [bind_ok e3]
      rfl
    rw [bind_ok e1, if_pos (by rw [hF.cols]; omega), bind_ok hcolumn]
    exact e4

theorem scanHung (hk : Still env) (hH : Hangs B n cols) (h : Lit env T us B n rows cols L z m f w) {network r i cnt : Nat} {x : Cell} {Q : Nat → Bool}
    (hr' : r < rows) (h32 : cols < 2^32) (hz : Railed B z) (hh : Hang B n cols r) (hx : cell? B n r (cols - 1) = some x)
    (hform : FormedCell B n r (cols - 1) x.code) (hQ : left f r (cols - 1) = Q i) (hQ' : left f (r + 1) (cols - 1) = Q (i + 1))
    (h0 : f r (cols - 1) = false) (h1 : f (r + 1) (cols - 1) = false) (hL : cnt + (rows * cols + 1) ≤ L) :
    ∃ vs m' o cnt' w' f', Ladder.scanRow env network r cnt w = .ok (some (r + 1, cnt'), w') ∧ cnt' ≤ cnt + (rows * cols + 1) ∧
      Runs (sweep Q i [x] false) m vs m' [o, false] ∧ Lit env T (us ++ vs) B n rows cols L z m' f' w' ∧ f' (r + 1) (cols - 1) = false ∧
      ∀ r' c, ¬(c = cols - 1 ∧ r ≤ r' ∧ r' ≤ r + 1) → f' r' c = f r' c := by
  obtain ⟨⟨y, hy, hyb⟩, c, v, hc, hv, hvb⟩ := hh
  have hh : Hang B n cols r := ⟨⟨y, hy, hyb⟩, c, v, hc, hv, hvb⟩
  have hcs : cols - 1 + 1 = cols := by omega
  obtain ⟨w1, e1, h2⟩ := h.watch (cnt := cnt + 1) (by omega)
  obtain ⟨y', e2, ecode, -, -⟩ := h2.curCell hr' (by omega : 0 < cols) hy
  have hne : y.code ≠ .MULTI := fun e => by
    by_cases hlast : cols = 1
    · have := (hH.last r y hh (by rw [hlast]; exact hy)).2
      rw [e] at this
      simp at this
    · have := hH.inner r 0 y hh (by omega) hy
      rw [e] at this
      cases this
  obtain ⟨net', e3, hF⟩ := h2.curNet hn hr hcols
  obtain ⟨ge, e4, h3, h4, h5⟩ := groupEnd_any hall hF (by omega : 0 < cols) (net'.rows - r) r hr'
  have hge : ge = r := Decidable.byContradiction fun hno => by
    obtain ⟨u, h6, h7⟩ := h5 (r + 1) (by omega) (by omega)
    obtain ⟨⟨u', h8, h9⟩, -⟩ := hH.next r 0 u hh (by omega) h6 h7
    rw [h6] at h8
    cases h8
    rw [h7] at h9
    cases h9
  subst hge
  have hlow := isLower_hang hall hF hH hr' hh cols 0 (by omega) ⟨c, v, by omega, by omega, hv, hvb⟩
  obtain ⟨vs, m', o, cnt', w', f', e5, h6, h7, h8, h9, h10⟩ := hangLoop (network := network) hn hr hcols hall hk hH hr' hz hh hx hform hQ hQ' h0 h1 (cols - 1) 0 u32Fuel
    (cnt + 1) h2 (by omega) (by unfold u32Fuel; omega) (by rw [hcs, Nat.mul_comm]; omega)
  obtain ⟨w2, e6, h11⟩ := h8.callScanEnd hk
  refine ⟨vs, m', o, cnt', w2, f', ?_, by rw [hcs, Nat.mul_comm] at h6; omega, h7, h11, h9, h10⟩
  unfold Ladder.scanRow
  rw [bind_ok e1]
  simp only [Bool.false_eq_true, if_false]
  rw [bind_ok e2, ecode, if_neg hne, bind_ok e3, bind_ok (lift_eq_ok.2 ⟨e4, rfl⟩), hF.cols, bind_ok (lift_eq_ok.2 ⟨hlow, rfl⟩)]
  simp only [Bool.not_true]
  rw [bind_ok e5]
  simp only
  rw [bind_ok e6]
  rfl

/-- The rows of a rung that hang, one after the other. -/
theorem hungRows (hk : Still env) (hH : Hangs B n cols) {network gs q : Nat} {R : List (List Cell)} {Q : Nat → Bool} (hR : Rung B n rows cols gs q R)
    (h32 : cols < 2^32) (hw : 0 < cols) (hz : Railed B z) : ∀ (t i fuel cnt : Nat) {us : List Reading} {m : Image} {f : Nat → Nat → Bool} {w : World},
    Lit env T us B n rows cols L z m f w → i + t = R.length → q ≤ i → cnt + t * (rows * cols + 1) ≤ L →
    (∀ j, j ≤ R.length → left f (gs + j) (cols - 1) = Q j) → (∀ j, i ≤ j → j ≤ R.length → f (gs + j) (cols - 1) = false) →
    ∃ vs m' outs cnt' f' w', Ladder.rowLoop env network (fuel + t) (gs + i) cnt w = Ladder.rowLoop env network fuel (gs + R.length) cnt' w' ∧
      cnt' ≤ cnt + t * (rows * cols + 1) ∧ Runs (sweep Q i ((column R (cols - 1)).drop i) false) m vs m' outs ∧ outs[t]?.getD false = false ∧
      Lit env T (us ++ vs) B n rows cols L z m' f' w' ∧ f' (gs + R.length) (cols - 1) = false ∧
      ∀ r c, ¬(c = cols - 1 ∧ gs + i ≤ r ∧ r ≤ gs + R.length) → f' r c = f r c
  | 0, i, fuel, cnt, us, m, f, w, h, hi, hq, hL, hQ, h0 => by
    obtain rfl : i = R.length := by omega
    refine ⟨[], m, [false], cnt, f, w, rfl, by omega, fun rest => ?_, rfl, by rw [List.append_nil]; exact h, h0 _ (Nat.le_refl _) (Nat.le_refl _), fun _ _ _ => rfl⟩
    rw [List.drop_of_length_le (by rw [hR.long (by omega)]; exact Nat.le_refl _)]
    rfl
  | t + 1, i, fuel, cnt, us, m, f, w, h, hi, hq, hL, hQ, h0 => by
    have hc : cols - 1 < cols := by omega
    have hlong := hR.long hc
    have hh := hR.height
    have hx : (column R (cols - 1))[i]? = some (column R (cols - 1))[i] := by simp
    generalize (column R (cols - 1))[i] = x at hx
    obtain ⟨h1, h2, -⟩ := hR.get hc hx
    have hang := hR.hang i hq (by omega)
    rw [Nat.succ_mul] at hL
    obtain ⟨vs, m1, o, c1, w1, f1, e1, h3, h4, h5, h6, h7⟩ := scanHung (network := network) (cnt := cnt) (i := i) (Q := Q) hn hr hcols hall hk hH h (by omega) h32 hz hang h1 h2
      (hQ i (by omega)) (by rw [Nat.add_assoc]; exact hQ (i + 1) (by omega)) (h0 i (Nat.le_refl _) (by omega))
      (by rw [Nat.add_assoc]; exact h0 (i + 1) (by omega) (by omega)) (by omega)
    obtain ⟨net', e2, hF⟩ := h.curNet hn hr hcols
    obtain ⟨vs', m', outs, c2, f2, w2, e3, h8, h9, h10, h11, h12, h13⟩ := hungRows (network := network) (Q := Q) hk hH hR h32 hw hz t (i + 1) fuel c1 h5 (by omega) (by omega) (by omega)
      (fun j hj => by
        rw [← hQ j hj]
        unfold left
        split
        · rfl
        · exact h7 _ _ (by omega))
      (fun j hj hj' => by
        by_cases e : j = i + 1
        · rw [e, ← Nat.add_assoc]; exact h6
        · rw [h7 _ _ (by omega)]; exact h0 j (by omega) hj')
    refine ⟨vs ++ vs', m', o :: outs, c2, f2, w2, ?_, by rw [Nat.succ_mul]; omega, fun rest => ?_, by simpa using h10,
      by rw [← List.append_assoc]; exact h11, h12, fun r c hno => ?_⟩
    · rw [← e3, ← Nat.add_assoc fuel t 1, Ladder.rowLoop]
      rw [bind_ok e2, if_pos (by rw [hF.rows]; omega), bind_ok e1]
      rfl
    · have hd : (column R (cols - 1)).drop i = x :: (column R (cols - 1)).drop (i + 1) := by
        obtain ⟨h14, h15⟩ := List.getElem?_eq_some_iff.1 hx
        rw [List.drop_eq_getElem_cons h14, h15]
      have hone := h4 (prior vs' rest)
      simp only [sweep, Prod.mk.injEq, List.cons.injEq, and_true] at hone
      rw [hd, prior_append, sweep]
      simp only [hone.1, hone.2.1, hone.2.2]
      rw [h9 rest]
    · rw [h13 r c (by omega), h7 r c (by omega)]

/-- A rung whose left end is not covered: the first pass and the rows that hang. -/
theorem rungStep (hk : Still env) (hH : Hangs B n cols) (h : Lit env T us B n rows cols L z m f w) {network gs q cnt fuel : Nat} {row : List Cell} {R : List (List Cell)}
    {above : Nat → Bool} {bad : Prop} {good : Bool → World → Prop} (hR : Rung B n rows cols gs q (row :: R)) (hz : Railed B z) (h32 : cols < 2^32)
    (hw : 0 < cols) (hcov : covered row = false)
    (hL : cnt + 1 + cols * (row :: R).length + ((row :: R).length - q) * (rows * cols + 1) ≤ L)
    (hab : ∀ c, above c = true → ∀ x, row[c]? = some x → x.code = .MULTI)
    (hf : ∀ c, c < cols → f gs c = above c) (hb : ∀ r c, gs < r → c < cols → f r c = false)
    (hbad : Bad env T us (fun s => (columns (row :: R) above 0 cols s fun _ => true).1) m → bad)
    (hgo : ∀ vs m' drops cnt' f' w', cnt' ≤ cnt + 1 + cols * (row :: R).length + ((row :: R).length - q) * (rows * cols + 1) →
      Runs (fun s => columns (row :: R) above 0 cols s fun _ => true) m vs m' drops → Lit env T (us ++ vs) B n rows cols L z m' f' w' →
      (∀ c, c < cols → f' (gs + (row :: R).length) c = drops[c]?.getD false) →
      (∀ c, drops[c]?.getD false = true → ∃ x, cell? B n (gs + (row :: R).length) c = some x ∧ x.code = .MULTI) →
      (∀ r c, gs + (row :: R).length < r → f' r c = f r c) →
      Yields (Ladder.rowLoop env network fuel (gs + (row :: R).length) cnt' w') bad good) :
    Yields (Ladder.rowLoop env network (fuel + ((row :: R).length - q) + 1) gs cnt w) bad good := by
  have hh := hR.height
  have hpos : 0 < (row :: R).length := by simp
  have hc : cols - 1 < cols := by omega
  have hcs : cols - 1 + 1 = cols := by omega
  have hlong := hR.long hc
  have hq : 0 < q ∧ q ≤ (row :: R).length := by
    have h1 := group_pos (xs := column (row :: R) 0) (by rw [hR.long hw]; exact hpos)
    have h2 := group_le (column (row :: R) 0)
    rw [hR.edge] at h1 h2
    rw [hR.long hw] at h2
    exact ⟨h1, h2⟩
  have hwalk : ∀ s, columns (row :: R) above 0 cols s (fun _ => true) =
      let t := walk (row :: R) above 0 (cols - 1) s fun _ => true
      let a := sweep t.2.1 0 (column (row :: R) (cols - 1)) (above (cols - 1)) t.1
      (a.1, t.2.2 ++ [a.2[(row :: R).length]?.getD false]) := fun s => by
    have := columns_walk (row :: R) above (cols - 1) 0 s fun _ => true
    rw [hcs, Nat.zero_add, hlong] at this
    exact this
  have hdrop : ∀ {vs m' drops}, Runs (fun s => columns (row :: R) above 0 cols s fun _ => true) m vs m' drops →
      ∀ c, drops[c]?.getD false = true → ∃ x, cell? B n (gs + (row :: R).length) c = some x ∧ x.code = .MULTI := by
    intro vs m' drops hruns c hd
    have h1 := hruns fun _ => ⟨0, 0, 0⟩
    simp only at h1
    have h2 := (congrArg Prod.snd h1).symm
    simp only at h2
    have hlt : c < cols := by
      have := columns_length (row :: R) above cols 0 ⟨m, Logic.prior vs fun _ => ⟨0, 0, 0⟩, true⟩ fun _ => true
      rw [← h2] at this
      refine Decidable.byContradiction fun hno => ?_
      rw [List.getElem?_eq_none (by omega)] at hd
      cases hd
    rw [h2] at hd
    obtain ⟨x, h3, h4⟩ := columns_drop above cols 0 _ _ c (fun j hj he => by
      have := hR.long (by omega : 0 + j < cols)
      rw [he] at this
      simp at this) hd
    rw [Nat.zero_add, hR.long hlt] at h3
    obtain ⟨-, y, h5, h6⟩ := hR.under c _ x hlt h3 h4
    rw [show gs + ((row :: R).length - 1) + 1 = gs + (row :: R).length by omega] at h5
    exact ⟨y, h5, h6⟩
  obtain ⟨net', e1, hF⟩ := h.curNet hn hr hcols
  rw [Ladder.rowLoop, bind_ok e1, if_pos (by rw [hF.rows]; omega)]
  refine (scanRow (network := network) (cnt := cnt) (above := above) hn hr hcols hall hk h hR hz h32 hw hcov (by omega) hab hf hb).bind hbad ?_
  rintro _ w1 ⟨vs₁, m₁, Q, drops, vs₂, m', outs, c1, f1, rfl, h1, h2, h3, h4, h5, h6, h7, h8, h9⟩
  simp only
  by_cases ht : q = (row :: R).length
  · have htake : (column (row :: R) (cols - 1)).take q = column (row :: R) (cols - 1) := List.take_of_length_le (by omega)
    rw [htake] at h3
    have hruns : Runs (fun s => columns (row :: R) above 0 cols s fun _ => true) m (vs₁ ++ vs₂) m' (drops ++ [outs[(row :: R).length]?.getD false]) :=
      fun rest => by
        have := h2 (Logic.prior vs₂ rest)
        simp only at this
        simp only [hwalk]
        rw [prior_append, this]
        simp only [h3 rest]
    have := hgo (vs₁ ++ vs₂) m' _ c1 f1 w1 (by omega) hruns h4 (fun c hc' => ?_) (hdrop hruns) h9
    · rw [show (row :: R).length - q = 0 by omega, Nat.add_zero, ht]
      exact this
    · by_cases hlast : c + 1 = cols
      · obtain rfl : c = cols - 1 := by omega
        rw [h8 _ (by omega) (Nat.le_refl _), List.getElem?_append_right (by omega), h7]
        simp
      · rw [h6 c (by omega), List.getElem?_append_left (by omega)]
  · have htake : ((column (row :: R) (cols - 1)).take q).length = q := by rw [List.length_take]; omega
    have hlen : outs.length = q + 1 := by
      have := h3 fun _ => ⟨0, 0, 0⟩
      have h18 : (sweep Q 0 ((column (row :: R) (cols - 1)).take q) (above (cols - 1)) ⟨m₁, Logic.prior vs₂ fun _ => ⟨0, 0, 0⟩, true⟩).2 = outs := by rw [this]
      rw [← h18, sweep_length, htake]
    have hq0 : outs[q]?.getD false = false := by
      cases ho : outs[q]? with
      | none => rfl
      | some b =>
        cases b with
        | false => rfl
        | true =>
          have h10 := h3 fun _ => ⟨0, 0, 0⟩
          have h11 : (sweep Q 0 ((column (row :: R) (cols - 1)).take q) (above (cols - 1)) ⟨m₁, Logic.prior vs₂ fun _ => ⟨0, 0, 0⟩, true⟩).2[((column (row :: R) (cols - 1)).take q).length]? = some true := by
            rw [h10, htake]; exact ho
          rcases sweep_last _ _ _ _ _ h11 with ⟨he, -⟩ | ⟨x, hx, htall⟩
          · rw [he] at htake; simp at htake; omega
          · rw [htake, List.getElem?_take, if_pos (by omega)] at hx
            obtain ⟨-, y, h12, h13⟩ := hR.under _ _ x hc hx htall
            rw [show gs + (q - 1) + 1 = gs + q by omega] at h12
            have := (hH.last _ y (hR.hang q (Nat.le_refl _) (by omega)) h12).2
            rw [h13] at this
            simp at this
    obtain ⟨vs₃, m'', outs', c2, f2, w2, e2, h10, h11, h12, h13, h14, h15⟩ := hungRows (network := network) (Q := Q) hn hr hcols hall hk hH hR h32 hw hz ((row :: R).length - q) q fuel c1
      h4 (by omega) (Nat.le_refl _) (by omega) h5 (fun j hj hj' => by
        rw [h8 j hj hj']
        by_cases e : j = q
        · rw [e]; exact hq0
        · rw [List.getElem?_eq_none (by omega)]; rfl)
    rw [e2]
    have hruns : Runs (fun s => columns (row :: R) above 0 cols s fun _ => true) m (vs₁ ++ vs₂ ++ vs₃) m'' (drops ++ [false]) :=
      fun rest => by
        have h16 := h2 (Logic.prior vs₂ (Logic.prior vs₃ rest))
        simp only at h16
        have h17 : sweep Q 0 (column (row :: R) (cols - 1)) (above (cols - 1)) ⟨m₁, Logic.prior vs₂ (Logic.prior vs₃ rest), true⟩ =
            (⟨m'', rest, true⟩, outs.take q ++ outs') := by
          rw [← List.take_append_drop q (column (row :: R) (cols - 1)), sweep_append]
          simp only [h3 (Logic.prior vs₃ rest), htake, hq0, Nat.zero_add]
          rw [h11 rest]
        simp only [hwalk]
        rw [prior_append, prior_append, h16]
        simp only [h17]
        rw [List.getElem?_append_right (by rw [List.length_take]; omega), List.length_take, Nat.min_eq_left (by omega), h12]
    refine hgo _ m'' _ c2 f2 w2 (by omega) hruns (by simpa only [List.append_assoc] using h13) (fun c hc' => ?_) (hdrop hruns) fun r c hrc => ?_
    · by_cases hlast : c + 1 = cols
      · obtain rfl : c = cols - 1 := by omega
        rw [h14, List.getElem?_append_right (by omega), h7]
        simp
      · rw [h15 _ _ (by omega), h6 c (by omega), List.getElem?_append_left (by omega)]
    · rw [h15 r c (by omega), h9 r c hrc]

omit hn hr hcols hall in
/-- A row whose left end is covered is passed over. -/
theorem scanRow_covered (hk : Still env) (h : Lit env T us B n rows cols L z m f w) {network gs cnt : Nat} {x : Cell} (hw : 0 < cols) (hg : gs < rows)
    (hx : cell? B n gs 0 = some x) (hm : x.code = .MULTI) (hL : cnt + 1 ≤ L) :
    ∃ w', Ladder.scanRow env network gs cnt w = .ok (some (gs + 1, cnt + 1), w') ∧ Lit env T us B n rows cols L z m f w' := by
  obtain ⟨w1, e1, h1⟩ := h.watch hL
  obtain ⟨x', e2, ecode, -, -⟩ := h1.curCell hg hw hx
  refine ⟨w1, ?_, h1⟩
  unfold Ladder.scanRow
  rw [bind_ok e1]
  simp only [Bool.false_eq_true, if_false]
  rw [bind_ok e2, ecode, if_pos hm]
  rfl

variable {cells : List (List Cell)} (hcells : net.cells = some cells) (hd : Diagram net) (hlen : cells.length = rows)
  (hwid : ∀ row ∈ cells, row.length = cols) (hwn : FormedNet B n net)

omit hr hcols hall in
include hcells in
theorem cell_eq (r c : Nat) : cell? B n r c = (cells[r]?).bind (·[c]?) := by
  rw [cell?, hn, Option.bind_some, at?, hcells, Option.bind_some]

include hcells hd hlen hwid hwn

omit hr hcols hall hd hlen hwid hwn in
theorem hung_of {r : Nat} (h : Hang B n cols r) : ∃ row x, cells[r]? = some row ∧ hung row = true ∧ row[0]? = some x ∧ x.bar = false := by
  obtain ⟨⟨x, hx, hxb⟩, c, y, -, hy, hyb⟩ := h
  rw [cell_eq hn hcells] at hx hy
  obtain ⟨row, h1, h2⟩ := Option.bind_eq_some_iff.1 hx
  obtain ⟨row', h3, h4⟩ := Option.bind_eq_some_iff.1 hy
  rw [h1] at h3
  cases h3
  refine ⟨row, x, h1, ?_, h2, hxb⟩
  have : joined row = true := List.any_eq_true.2 ⟨y, List.mem_of_getElem? h4, hyb⟩
  simp [hung, this, List.head?_eq_getElem?, h2, hxb]

omit hr hall hlen in
theorem hangs : Hangs B n cols := by
  have hpos : 0 < cols := by rw [← hcols]; exact hwn.width
  have hat : ∀ {r row}, cells[r]? = some row → at? net.cells r = some row := fun h => by simp [at?, hcells, h]
  have get : ∀ {r c row x}, cells[r]? = some row → cell? B n r c = some x → row[c]? = some x := fun h1 h2 => by
    rw [cell_eq hn hcells, h1] at h2
    exact h2
  refine ⟨fun r c x h hc hx => ?_, fun r x h hx => ?_, fun r c x h hc hx hb => ?_, fun r c x y h hc hx hb hy => ?_⟩
  · obtain ⟨row, -, h1, h2, -, -⟩ := hung_of hn hcells h
    have := hd.inner r row c x (hat h1) h2 (by rw [hwid row (List.mem_of_getElem? h1)]; exact hc) (get h1 hx)
    split at this
    · exact this
    · rw [this]; rfl
  · obtain ⟨row, -, h1, h2, -, -⟩ := hung_of hn hcells h
    exact hd.coil r row x (hat h1) h2 (by rw [hwid row (List.mem_of_getElem? h1)]; exact get h1 hx)
  · obtain ⟨row, u, h1, h2, h3, h4⟩ := hung_of hn hcells h
    have hx' := hx
    rw [cell_eq hn hcells] at hx'
    obtain ⟨row', h5, h6⟩ := Option.bind_eq_some_iff.1 hx'
    have hw' := hwid row' (List.mem_of_getElem? h5)
    have hv : row'[0]? = some (row'[0]'(by omega)) := by simp
    refine ⟨⟨row'[0]'(by omega), by rw [cell_eq hn hcells, h5]; exact hv, ?_⟩, c, x, hc, hx, hb⟩
    cases hvb : (row'[0]'(by omega)).bar with
    | false => rfl
    | true =>
      have hj : joined row = true := by
        simp only [hung, Bool.and_eq_true] at h2
        exact h2.1
      have := hd.stairs r row row' 0 u _ (hat h1) (hat h5) hj h3 hv hvb
      rw [h4] at this
      cases this
  · obtain ⟨row, -, h1, h2, -, -⟩ := hung_of hn hcells h
    rw [cell_eq hn hcells] at hy
    obtain ⟨row', h5, h6⟩ := Option.bind_eq_some_iff.1 hy
    exact hd.bare r row row' c x y (hat h1) (hat h5) h2 (get h1 hx) hb h6

theorem rung {gs : Nat} {row : List Cell} (hrow : cells[gs]? = some row) (hj : joined row = false) :
    Rung B n rows cols gs (group (column (row :: (cells.drop (gs + 1)).takeWhile joined) 0)).length (row :: (cells.drop (gs + 1)).takeWhile joined) := by
  have hgs : gs < cells.length := (List.getElem?_eq_some_iff.1 hrow).1
  have hcol0 : 0 < cols := by rw [← hcols]; exact hwn.width
  have key : ∀ i rw', (row :: (cells.drop (gs + 1)).takeWhile joined)[i]? = some rw' → cells[gs + i]? = some rw' ∧ joined rw' = decide (i ≠ 0) := by
    intro i rw' h
    cases i with
    | zero => simp at h; subst h; exact ⟨hrow, by simpa using hj⟩
    | succ i =>
      obtain ⟨h1, h2⟩ := takeWhile_get joined _ i rw' (by simpa using h)
      rw [List.getElem?_drop] at h1
      exact ⟨by rw [show gs + (i + 1) = gs + 1 + i by omega]; exact h1, by simpa using h2⟩
  have hheight : gs + (row :: (cells.drop (gs + 1)).takeWhile joined).length ≤ rows := by
    have := (List.takeWhile_prefix (l := cells.drop (gs + 1)) joined).length_le
    simp only [List.length_drop, List.length_cons] at this ⊢
    omega
  have hafter : ∀ rw', cells[gs + (row :: (cells.drop (gs + 1)).takeWhile joined).length]? = some rw' → joined rw' = false := fun rw' h =>
    takeWhile_next joined (cells.drop (gs + 1)) rw' (by rw [List.getElem?_drop, ← h, List.length_cons]; congr 1; omega)
  have hfirst : (row :: (cells.drop (gs + 1)).takeWhile joined)[0]? = some row := rfl
  have hne : row :: (cells.drop (gs + 1)).takeWhile joined ≠ [] := by simp
  generalize row :: (cells.drop (gs + 1)).takeWhile joined = R at *
  have hpos : 0 < R.length := List.length_pos_iff.2 hne
  have wide : ∀ rw' ∈ R, rw'.length = cols := fun rw' h => by
    obtain ⟨i, hi⟩ := List.getElem?_of_mem h
    exact hwid rw' (List.mem_of_getElem? (key i rw' hi).1)
  have col : ∀ {c i x}, c < cols → (column R c)[i]? = some x → ∃ rw', R[i]? = some rw' ∧ rw'[c]? = some x := fun {c i x} hc hx => by
    rw [column_get fun r hr => by rw [wide r hr]; exact hc] at hx
    exact Option.bind_eq_some_iff.1 hx
  have uncol : ∀ {c i rw' x}, c < cols → R[i]? = some rw' → rw'[c]? = some x → (column R c)[i]? = some x := fun {c i rw' x} hc h1 h2 => by
    rw [column_get fun r hr => by rw [wide r hr]; exact hc, h1]
    exact h2
  have hat : ∀ {r row}, cells[r]? = some row → at? net.cells r = some row := fun h => by simp [at?, hcells, h]
  have nobar : ∀ {rw' : List Cell} {c : Nat} {x : Cell}, joined rw' = false → rw'[c]? = some x → x.bar = false := fun {rw' c x} h1 h2 => by
    have := List.any_eq_false.1 h1 x (List.mem_of_getElem? h2)
    simpa using this
  have hgp : ∀ c, c < cols → 0 < (group (column R c)).length := fun c hc =>
    group_pos (by rw [column_length fun r hr => by rw [wide r hr]; exact hc]; exact hpos)
  have clear : ∀ c i x, c < cols → (group (column R c)).length ≤ i → (column R c)[i]? = some x → x.bar = false := by
    intro c i x hc hi hx
    have hp := hgp c hc
    have low : ∀ d y, (column R c)[(group (column R c)).length + d]? = some y → y.bar = false := by
      intro d
      induction d with
      | zero => intro y hy; exact group_next hy
      | succ d ih =>
        intro y hy
        have hlt := (List.getElem?_eq_some_iff.1 hy).1
        have hz := List.getElem?_eq_getElem (l := column R c) (i := (group (column R c)).length + d) (by omega)
        have hzb := ih _ hz
        obtain ⟨r1, k1, k2⟩ := col hc hy
        obtain ⟨r2, k3, k4⟩ := col hc hz
        obtain ⟨k5, -⟩ := key _ _ k1
        obtain ⟨k6, k7⟩ := key _ _ k3
        have := hd.stairs (gs + ((group (column R c)).length + d)) r2 r1 c _ y (hat k6) (hat k5) (by rw [k7]; exact decide_eq_true (by omega)) k4 k2
        cases hb : y.bar with
        | false => rfl
        | true => rw [this hb] at hzb; cases hzb
    refine low (i - (group (column R c)).length) x ?_
    rw [Nat.add_sub_cancel' hi]
    exact hx
  have edge : ∀ (i : Nat) (rw' : List Cell), R[i]? = some rw' → ∃ y, rw'[0]? = some y := fun i rw' h => by
    have h0 : 0 < rw'.length := by rw [wide rw' (List.mem_of_getElem? h)]; exact hcol0
    exact ⟨rw'[0], by simp⟩
  have loose : ∀ (i : Nat) (rw' : List Cell), R[i]? = some rw' → (group (column R 0)).length ≤ i → hung rw' = true ∧ ∃ y, rw'[0]? = some y ∧ y.bar = false := by
    intro i rw' h hi
    obtain ⟨y, hy⟩ := edge i rw' h
    have hb := clear 0 i y hcol0 hi (uncol hcol0 h hy)
    have hp := hgp 0 hcol0
    have hjo : joined rw' = true := by rw [(key i rw' h).2]; exact decide_eq_true (by omega)
    exact ⟨by simp [hung, hjo, List.head?_eq_getElem?, hy, hb], y, hy, hb⟩
  have fixed : ∀ (i : Nat) (rw' : List Cell), R[i]? = some rw' → 0 < i → i < (group (column R 0)).length → hung rw' = false := by
    intro i rw' h h0 hi
    obtain ⟨h1, h2⟩ := group_get (xs := column R 0) (i := i) (List.getElem?_eq_getElem hi)
    obtain ⟨rw2, h3, h4⟩ := col hcol0 h1
    rw [h] at h3
    cases h3
    simp [hung, List.head?_eq_getElem?, h4, h2 (by omega)]
  refine ⟨hheight, fun i rw' c x h1 h2 => ?_, wide, hne, fun hlt c hc => ?_, fun rw' x h1 h2 => ?_, rfl, clear, ?_, fun c i x hc hi hq hx => ?_,
    fun c i x hc hx ht => ?_, fun i hq hi => ?_⟩
  · obtain ⟨h3, h4⟩ := key i rw' h1
    have h5 : cell? B n (gs + i) c = some x := by rw [cell_eq hn hcells, h3]; exact h2
    have h6 := (List.getElem?_eq_some_iff.1 h3).1
    have h7 := (List.getElem?_eq_some_iff.1 h2).1
    rw [hwid rw' (List.mem_of_getElem? h3)] at h7
    obtain ⟨y, h8, h9⟩ := hwn.cells (gs + i) c (by omega) (by omega)
    rw [h5] at h8
    cases h8
    exact ⟨h5, h9, hd.codes _ _ (hat h3) x (List.mem_of_getElem? h2)⟩
  · obtain ⟨x, hx⟩ := hall _ c hlt hc
    refine ⟨x, hx, ?_⟩
    rw [cell_eq hn hcells] at hx
    obtain ⟨rw', h1, h2⟩ := Option.bind_eq_some_iff.1 hx
    exact nobar (hafter rw' h1) h2
  · rw [hfirst] at h1
    cases h1
    obtain ⟨c, hc⟩ := List.getElem?_of_mem h2
    exact nobar hj hc
  · have hc : cols - 1 < cols := by omega
    refine Decidable.byContradiction fun hno => ?_
    have hlt : (group (column R 0)).length < (group (column R (cols - 1))).length := by omega
    obtain ⟨h1, h2⟩ := group_get (xs := column R (cols - 1)) (i := (group (column R 0)).length) (List.getElem?_eq_getElem hlt)
    obtain ⟨rw', h3, h4⟩ := col hc h1
    have := hd.coil _ rw' _ (hat (key _ _ h3).1) (loose _ rw' h3 (Nat.le_refl _)).1 (by rw [wide rw' (List.mem_of_getElem? h3)]; exact h4)
    rw [h2 (by have := hgp 0 hcol0; omega)] at this
    cases this.1
  · obtain ⟨rw', h3, h4⟩ := col hc hx
    obtain ⟨h5, h6⟩ := key _ _ h3
    have hb := clear c i x hc hi hx
    have hp := hgp c hc
    by_cases hlt : i < (group (column R 0)).length
    · exact hd.empty (gs + i) _ (hat h5) (by rw [h6]; simp; omega) (fixed i rw' h3 (by omega) hlt) x (List.mem_of_getElem? h4) hb
    · have := hd.inner (gs + i) rw' c x (hat h5) (loose i rw' h3 (by omega)).1 (by rw [wide rw' (List.mem_of_getElem? h3)]; omega) h4
      rw [hb] at this
      exact .inl (by simpa using this)
  · obtain ⟨rw', h3, h4⟩ := col hc hx
    obtain ⟨h5, -⟩ := key _ _ h3
    obtain ⟨row', x', h6, h7, h8⟩ := hd.under (gs + i) rw' c x (hat h5) h4 ht
    have h6' : cells[gs + i + 1]? = some row' := by simpa [at?, hcells] using h6
    have := (List.getElem?_eq_some_iff.1 h6').1
    refine ⟨by omega, x', ?_, h8⟩
    rw [cell_eq hn hcells, h6', Option.bind_some, h7]
  · have h1 : R[i]? = some R[i] := by simp
    generalize R[i] = rw' at h1
    obtain ⟨h2, y, h3, h4⟩ := loose i rw' h1 hq
    obtain ⟨h5, -⟩ := key i rw' h1
    simp only [hung, Bool.and_eq_true] at h2
    obtain ⟨x, h6, h7⟩ := List.any_eq_true.1 h2.1
    obtain ⟨c, hc⟩ := List.getElem?_of_mem h6
    have hlt := (List.getElem?_eq_some_iff.1 hc).1
    rw [wide rw' (List.mem_of_getElem? h1)] at hlt
    exact ⟨⟨y, by rw [cell_eq hn hcells, h5]; exact h3, h4⟩, c, x, hlt, by rw [cell_eq hn hcells, h5]; exact hc, h7⟩

theorem rowLoop (hk : Still env) (hz : Railed B z) {network K : Nat}
    (hK : K = rows * cols + 1 ∨ (∀ r, ¬Hang B n cols r) ∧ K = cols + 1) : ∀ (k fuel row cnt : Nat) (above : Nat → Bool) {us : List Reading} {m : Image}
    {f : Nat → Nat → Bool} {w : World},
    Lit env T us B n rows cols L z m f w → rows ≤ row + k → row ≤ rows → rows - row < fuel → cnt + (rows - row) * K ≤ L →
    (∀ c, c < cols → f row c = above c) → (∀ r c, row < r → c < cols → f r c = false) →
    (∀ c, above c = true → ∃ x, cell? B n row c = some x ∧ x.code = .MULTI) → (∀ R, cells[row]? = some R → joined R = false) →
    Yields (Ladder.rowLoop env network fuel row cnt w) (Bad env T us (rungs cols k (cells.drop row) above) m) fun a w' => a = true ∧
      ∃ vs m' f', Goes (rungs cols k (cells.drop row) above) m vs m' ∧
      Lit env T (us ++ vs) B n rows cols L z m' f' w'
  | k, 0, row, cnt, above, us, m, f, w, h, h1, h2, h3, hL, hf, hb, hab, hj => by omega
  | 0, fuel + 1, row, cnt, above, us, m, f, w, h, h1, h2, h3, hL, hf, hb, hab, hj => by
    obtain ⟨net', e1, hF⟩ := h.curNet hn hr hcols
    unfold Ladder.rowLoop
    rw [bind_ok e1, if_neg (by rw [hF.rows]; omega)]
    exact .of_ok rfl ⟨rfl, [], m, f, fun _ => rfl, by rw [List.append_nil]; exact h⟩
  | k + 1, fuel + 1, row, cnt, above, us, m, f, w, h, h1, h2, h3, hL, hf, hb, hab, hj => by
    obtain ⟨net', e1, hF⟩ := h.curNet hn hr hcols
    by_cases hlt : row < rows
    · have hrow : cells[row]? = some cells[row] := by simp [hlen, hlt]
      generalize cells[row] = R0 at hrow
      have hdrop : cells.drop row = R0 :: cells.drop (row + 1) := by
        obtain ⟨h5, h6⟩ := List.getElem?_eq_some_iff.1 hrow
        rw [List.drop_eq_getElem_cons h5, h6]
      have hj0 := hj R0 hrow
      have hat : at? net.cells row = some R0 := by simp [at?, hcells, hrow]
      have hpos : 0 < cols := by rw [← hcols]; exact hwn.width
      have hK1 : cols + 1 ≤ K := by
        rcases hK with e | ⟨-, e⟩
        · have := Nat.mul_le_mul_right cols (by omega : 1 ≤ rows)
          omega
        · omega
      cases hcov : covered R0 with
      | true =>
        obtain ⟨x, hx⟩ := hall row 0 hlt hpos
        have hm : x.code = .MULTI := by
          rw [cell_eq hn hcells, hrow, Option.bind_some, ← List.head?_eq_getElem?] at hx
          simpa [covered, hx] using hcov
        have hL' : (rows - row) * K = (rows - (row + 1)) * K + K := by
          rw [← Nat.succ_mul]; congr 1; omega
        obtain ⟨w1, e2, h4⟩ := h.scanRow_covered (network := network) (cnt := cnt) hk hpos hlt hx hm (by omega)
        unfold Ladder.rowLoop
        rw [bind_ok e1, if_pos (by rw [hF.rows]; exact hlt), bind_ok e2]
        simp only
        refine (rowLoop (network := network) hk hz hK k fuel (row + 1) (cnt + 1) (fun _ => false) h4 (by omega) (by omega)
          (by omega) (by omega) (fun c hc => hb _ c (by omega) hc) (fun r c ha hc => hb r c (by omega) hc) (by simp)
          (fun R hR => hd.below row R0 R hat (by simp [at?, hcells, hR]) hj0 hcov)).mono (fun hbad => hbad.imp fun s hs => ?_) ?_
        · rw [hdrop]
          simp only [rungs, hcov, if_true]
          exact hs
        rintro _ w' ⟨rfl, vs, m', f', h5, h6⟩
        refine ⟨rfl, vs, m', f', fun rest => ?_, h6⟩
        rw [hdrop]
        simp only [rungs, hcov, if_true]
        exact h5 rest
      | false =>
        have hR := rung hn hr hcols hall hcells hd hlen hwid hwn hrow hj0
        have hH := hangs hn hcols hcells hd hwid hwn
        have hh := hR.height
        have hq1 := group_pos (xs := column (R0 :: (cells.drop (row + 1)).takeWhile joined) 0) (by rw [hR.long hpos]; simp)
        have hq2 := group_le (column (R0 :: (cells.drop (row + 1)).takeWhile joined) 0)
        rw [hR.long hpos] at hq2
        generalize (group (column (R0 :: (cells.drop (row + 1)).takeWhile joined) 0)).length = q at hR hq1 hq2
        generalize hRl : (cells.drop (row + 1)).takeWhile joined = Rs at hR hh hq2
        have hpos' : 0 < (R0 :: Rs).length := by simp
        have hL' : (rows - row) * K = (rows - (row + (R0 :: Rs).length)) * K + (R0 :: Rs).length * K := by
          rw [← Nat.add_mul]; congr 1; omega
        have hcost : 1 + cols * (R0 :: Rs).length + ((R0 :: Rs).length - q) * (rows * cols + 1) ≤ (R0 :: Rs).length * K := by
          rcases hK with e | ⟨hno, e⟩
          · have e1 : (R0 :: Rs).length * K = ((R0 :: Rs).length - q) * K + q * K := by rw [← Nat.add_mul]; congr 1; omega
            have e2 := Nat.mul_le_mul_right K (by omega : 1 ≤ q)
            have e3 := Nat.mul_le_mul_left cols (by omega : (R0 :: Rs).length ≤ rows)
            rw [Nat.mul_comm cols rows] at e3
            rw [e1, e]
            rw [e] at e2
            omega
          · have hq : (R0 :: Rs).length - q = 0 := Decidable.byContradiction fun hne => hno _ (hR.hang q (Nat.le_refl _) (by omega))
            rw [hq, e, Nat.zero_mul, Nat.mul_add, Nat.mul_comm cols]
            omega
        have hfuel : fuel - ((R0 :: Rs).length - q) + ((R0 :: Rs).length - q) + 1 = fuel + 1 := by omega
        have step := rungStep (network := network) (cnt := cnt) (fuel := fuel - ((R0 :: Rs).length - q)) (above := above)
          (bad := Bad env T us (rungs cols (k + 1) (cells.drop row) above) m)
          (good := fun a w' => a = true ∧ ∃ vs m' f', Goes (rungs cols (k + 1) (cells.drop row) above) m vs m' ∧
            Lit env T (us ++ vs) B n rows cols L z m' f' w') hn hr hcols hall hk hH h hR hz
          (by rw [← hcols]; exact hwn.cols) hpos hcov (by omega) (fun c ha x hx => by
            obtain ⟨y, hy, hm⟩ := hab c ha
            rw [cell_eq hn hcells, hrow, Option.bind_some, hx] at hy
            cases hy
            exact hm) hf hb (fun hbad => hbad.imp fun s hs => ?_) ?_
        · rw [hfuel] at step
          exact step
        · rw [hdrop]
          simp only [rungs, hcov, Bool.false_eq_true, if_false, hRl]
          exact rungs_sure _ _ _ _ _ hs
        intro vs m1 drops c1 f1 w1 h4 h5 h6 h7 h8 h9
        refine (rowLoop (network := network) hk hz hK k (fuel - ((R0 :: Rs).length - q)) (row + (R0 :: Rs).length) c1 (fun c => drops[c]?.getD false) h6
          (by omega) hh (by omega) (by omega) h7 (fun r c ha hc => by rw [h9 r c ha]; exact hb r c (by omega) hc) h8
          (fun R hR' => takeWhile_next joined (cells.drop (row + 1)) R (by
            rw [List.getElem?_drop, hRl, ← hR', List.length_cons]; congr 1; omega))).mono (fun hbad => hbad.after fun rest hs => ?_) ?_
        · rw [hdrop]
          simp only [rungs, hcov, Bool.false_eq_true, if_false]
          rw [dropWhile_drop, hRl, List.drop_drop]
          rw [show row + 1 + Rs.length = row + (R0 :: Rs).length by rw [List.length_cons]; omega]
          have := h5 rest
          simp only at this
          rw [this]
          exact hs
        rintro _ w' ⟨rfl, vs', m', f', h10, h11⟩
        refine ⟨rfl, vs ++ vs', m', f', fun rest => ?_, by rw [← List.append_assoc]; exact h11⟩
        rw [hdrop]
        simp only [rungs, hcov, Bool.false_eq_true, if_false]
        rw [dropWhile_drop, hRl, List.drop_drop]
        rw [show row + 1 + Rs.length = row + (R0 :: Rs).length by rw [List.length_cons]; omega, prior_append]
        have := h5 (Logic.prior vs' rest)
        simp only at this
        rw [this]
        exact h10 rest
    · unfold Ladder.rowLoop
      rw [bind_ok e1, if_neg (by rw [hF.rows]; exact hlt)]
      refine .of_ok rfl ⟨rfl, [], m, f, fun _ => ?_, by rw [List.append_nil]; exact h⟩
      rw [List.drop_of_length_le (by omega)]
      rfl

end

end Lit

/-! ### Networks -/

/-- Between networks: the readings of the clock since call number `T`, register contents and the work limit. -/
structure Shown (env : Env) (T : Nat) (us : List Reading) (B : Ctx) (L : Nat) (z : Ctx) (m : Image) (w : World) : Prop where
  resting : Resting false B w
  limit : w.ctx.scan.maxScanCycles = L ∧ core w.ctx = z
  told : Told env T w.tick us
  image : ∀ ℓ, register ℓ = true → load w.ctx ℓ = m ℓ

namespace Shown

variable {env : Env} {T : Nat} {us : List Reading} {B : Ctx} {L : Nat} {z : Ctx} {m : Image} {w : World}

theorem scanNetwork (hB : Formed B) (hF : Fits B) (hk : Still env) (hz : Railed B z) (h : Shown env T us B L z m w) {n : Nat} {net : Network} (hn : n < B.qty.networks)
    (hnet : at? B.network n = some net) (hd : net.enable = true → Diagram net) (hL : net.enable = true → Room env L (effort net)) :
    Yields (Ladder.scanNetwork env n w) (Bad env T us (fun s => if net.enable then Logic.network net s else s) m) fun a w' => a = true ∧
      ∃ vs m', Lit.Goes (fun s => if net.enable then Logic.network net s else s) m vs m' ∧
      Shown env T (us ++ vs) B L z m' w' := by
  obtain ⟨net0, h1, h2, h3⟩ := hB.nets n hn
  rw [hnet] at h1
  cases h1
  unfold Ladder.scanNetwork
  obtain ⟨net', h4, e⟩ := h.resting.alike.net hnet
  have ee : net'.enable = net.enable := (congrArg Network.enable e :)
  have er : net'.rows = net.rows := (congrArg Network.rows e :)
  have ec : net'.cols = net.cols := (congrArg Network.cols e :)
  have es : net'.cells.isSome = net.cells.isSome := by
    have := (congrArg Network.cells e :)
    simp only [netText] at this
    have := congrArg Option.isSome this
    simpa using this
  rw [bind_getCtx, bind_ok (lift_eq_ok.2 ⟨aget_eq_ok.2 h4, rfl⟩)]
  rw [if_neg (by rw [h2] at es; cases hh : net'.cells <;> simp_all)]
  cases hen : net.enable with
  | false =>
    rw [if_pos (by rw [ee, hen]; rfl)]
    exact .of_ok rfl ⟨rfl, [], m, fun _ => by simp [Logic.prior], by rw [List.append_nil]; exact h⟩
  | true =>
    rw [if_neg (by rw [ee, hen]; simp), er, ec]
    have hwn := h3 hen
    have hd := hd hen
    have hL := hL hen
    have hM : w.ctx.scan.maxScanCycles = z.scan.maxScanCycles := (congrArg (·.scan.maxScanCycles) h.limit.2 :)
    rw [← h.limit.1, hM] at hL
    obtain ⟨cells, hcells⟩ := Option.isSome_iff_exists.1 h2
    have hgrid : GridFits net := by
      cases hnets : B.network with
      | none => simp [at?, hnets] at hnet
      | some l =>
        rw [hnets] at hnet
        exact hF.network l hnets net (List.mem_of_getElem? hnet)
    have hlen := hgrid.rows _ hcells
    have hwid := hgrid.cols _ hcells
    rw [bind_ok (modCtx_apply _ w)]
    have hall : ∀ r c, r < net.rows → c < net.cols → ∃ x, cell? B n r c = some x := fun r c hr hc => by
      obtain ⟨x, hx, -⟩ := hwn.cells r c hr hc
      exact ⟨x, hx⟩
    have hr0 := h.resting.ctx w.ctx.state w.ctx.last (some n) (by simp)
    have hlit : Lit env T us B n net.rows net.cols (effort net) z m (fun r c => decide (load w.ctx (.cell n r c) = some 1))
        { w with ctx := { w.ctx with exec := some n } } := by
      refine ⟨⟨hr0.alike, hr0.flags, rfl, hr0.clean, by simp, by simp⟩, ⟨hL, h.limit.2⟩, h.told, fun ℓ hl => by rw [← h.image ℓ hl]; cases ℓ <;> rfl, fun r c hr hc => ?_⟩
      obtain ⟨x, hx⟩ := hall r c hr hc
      have hs : (load w.ctx (.cell n r c)).isSome := h.resting.alike.has (by simp [Owns, load, hx])
      obtain ⟨y, hy⟩ := Option.isSome_iff_exists.1 hs
      obtain ⟨cell, hcell, rfl⟩ := load_cell hy
      have : load { w.ctx with exec := some n } (.cell n r c) = load w.ctx (.cell n r c) := rfl
      simp only [this, hy]
      cases cell.state <;> simp
    obtain ⟨f1, w1, e1, h5, h6⟩ := Lit.clearColumns net.cols 0 hlit (by omega)
    rw [bind_ok e1]
    have h5' : Lit env T us B n net.rows net.cols (effort net) z m (fun _ _ => false) w1 :=
      ⟨h5.sound, h5.limit, h5.told, h5.image, fun r c hr hc => by rw [h5.grid r c hr hc, h6 r c hr (.inr (by omega))]⟩
    obtain ⟨K, hK, hKL⟩ : ∃ K, (K = net.rows * net.cols + 1 ∨ (∀ r, ¬Lit.Hang B n net.cols r) ∧ K = net.cols + 1) ∧ net.rows * K ≤ effort net := by
      unfold effort
      split
      · exact ⟨_, .inl rfl, Nat.le_refl _⟩
      · rename_i hno
        refine ⟨_, .inr ⟨fun r hr => hno ?_, rfl⟩, Nat.le_refl _⟩
        obtain ⟨row, -, h1, h2, -, -⟩ := Lit.hung_of hnet hcells hr
        rw [hcells]
        exact List.any_eq_true.2 ⟨row, List.mem_of_getElem? h1, h2⟩
    refine (Lit.rowLoop (network := n) hnet rfl rfl hall hcells hd hlen hwid hwn hk hz hK net.rows u32Fuel 0 0 (fun _ => false) h5'
      (by omega) (by omega) (by have := hwn.rows; unfold u32Fuel; omega) (by simpa using hKL) (fun _ _ => rfl) (fun _ _ _ _ => rfl) (by simp)
      (fun R hR => hd.top R (by simp [at?, hcells, hR]))).mono (fun hbad => hbad.imp fun s hs => ?_) ?_
    · simpa [Logic.network, hcells] using hs
    rintro _ w2 ⟨rfl, vs, m', f2, h7, h8⟩
    refine ⟨rfl, vs, m', fun rest => ?_, ⟨h8.sound.alike, h8.sound.flags, h8.sound.clean, by simp, by simp⟩,
      ⟨(congrArg (·.scan.maxScanCycles) h8.limit.2 : _).trans (hM.symm.trans h.limit.1), h8.limit.2⟩, h8.told, h8.image⟩
    simpa [Logic.network, hcells] using h7 rest

theorem networkLoop (hB : Formed B) (hF : Fits B) (hk : Still env) (hz : Railed B z) {nets : List Network} (hnets : B.network = some nets)
    (hd : ∀ net ∈ nets, net.enable = true → Diagram net ∧ Room env L (effort net)) : ∀ (k fuel n : Nat) {us : List Reading} {m : Image} {w : World},
    Shown env T us B L z m w → n + k = B.qty.networks → k < fuel →
    Yields (Ladder.networkLoop env fuel n w) (Bad env T us (Logic.program ((nets.drop n).take k)) m) fun _ w' => ∃ vs m', Lit.Goes (Logic.program ((nets.drop n).take k)) m vs m' ∧
      Shown env T (us ++ vs) B L z m' w'
  | k, 0, n, us, m, w, h, h1, h2 => by omega
  | 0, fuel + 1, n, us, m, w, h, h1, h2 => by
    unfold Ladder.networkLoop
    rw [bind_getCtx, h.resting.alike.networks, if_neg (by omega)]
    exact .of_ok rfl ⟨[], m, fun _ => rfl, by rw [List.append_nil]; exact h⟩
  | k + 1, fuel + 1, n, us, m, w, h, h1, h2 => by
    unfold Ladder.networkLoop
    rw [bind_getCtx, h.resting.alike.networks, if_pos (by omega)]
    obtain ⟨net, h3, -⟩ := hB.nets n (by omega)
    have h4 : nets[n]? = some net := by rw [hnets] at h3; exact h3
    obtain ⟨h5, h6⟩ := List.getElem?_eq_some_iff.1 h4
    have hm : net ∈ nets := List.mem_of_getElem? h4
    have hprog : ∀ s, Logic.program ((nets.drop n).take (k + 1)) s =
        Logic.program ((nets.drop (n + 1)).take k) (if net.enable then Logic.network net s else s) := fun s => by
      rw [List.drop_eq_getElem_cons h5, h6, List.take_succ_cons]
      simp only [Logic.program, List.foldl_cons]
    refine (h.scanNetwork hB hF hk hz (by omega) h3 (fun he => (hd net hm he).1) (fun he => (hd net hm he).2)).bind
      (fun hbad => hbad.imp fun s hs => ?_) ?_
    · rw [hprog]
      exact Lit.program_sure _ _ hs
    rintro _ w1 ⟨rfl, vs, m1, h7, h8⟩
    refine (networkLoop hB hF hk hz hnets hd k fuel (n + 1) h8 (by omega) (by omega)).mono
      (fun hbad => hbad.after fun rest hs => ?_) ?_
    · have e := h7 rest
      simp only at e
      rw [hprog, e]
      exact hs
    rintro _ w2 ⟨vs', m2, h9, h10⟩
    refine ⟨vs ++ vs', m2, fun rest => ?_, by rw [← List.append_assoc]; exact h10⟩
    have e := h7 (Logic.prior vs' rest)
    simp only at e
    rw [hprog, prior_append, e]
    exact h9 rest

theorem cronPhase (hk : Still env) {jobs : List CronJob} (hj : Planned B jobs) (h : Shown env T us B L z m w) :
    ∃ w', Ladder.cronPhase env w = .ok (true, w') ∧ Shown env T us B L z (calendar (env.localtime w.tick) jobs m) w' := by
  have hm : (fun i => (m (.M i)).map (BitVec.ofNat 8)) = at? w.ctx.M := funext fun i => by
    rw [← h.image (.M i) rfl]
    simp [load, Function.comp_def]
  rcases hj with ⟨h0, rfl⟩ | ⟨hj, hn⟩
  · refine ⟨w, ?_, h.resting, h.limit, h.told, fun ℓ hl => ?_⟩
    · have : w.ctx.cron = none := by rw [h.resting.alike.cron, h0]
      unfold Ladder.cronPhase
      rw [bind_getCtx]
      simp only [this, pure_apply]
    · cases ℓ <;> simp only [calendar] <;> try exact h.image _ hl
      rw [hm]
      simp [fired, cleared, load]
  · have hM : ∀ i, (at? w.ctx.M i).isSome = (at? B.M i).isSome := fun i => by
      have := h.resting.alike.places (.M i)
      simpa only [load, Option.isSome_map] using this
    have hj' : Jobs w.ctx jobs := ⟨by rw [h.resting.alike.cron]; exact hj.table, hj.sized, fun j h => by
      rw [hM, hM]; exact hj.flags j h⟩
    obtain ⟨m', h1, h2⟩ := Props.C56_phase_partial hj' hn (hk.localtime w.tick)
    refine ⟨_, h1, ?_, h.limit, h.told.mono (Nat.le_succ _), fun ℓ hl => ?_⟩
    · have hcl : ∀ i, (cleared jobs (at? w.ctx.M) i).isSome = (at? w.ctx.M i).isSome := by
        intro i
        unfold cleared
        split
        · rename_i h
          obtain ⟨j, hjm, -, -, rfl⟩ := h
          rw [(hj'.flags j hjm).2]; rfl
        · rfl
      have hsome : ∀ i, (at? m' i).isSome = (at? w.ctx.M i).isSome := by
        intro i
        rw [h2, Resting.fired_isSome (fun j hjm => by rw [hcl, hcl]; exact hj'.flags j hjm), hcl]
      refine h.resting.setM hsome ?_ _
      obtain ⟨j, hjm⟩ := List.exists_mem_of_ne_nil _ hn
      have h3 := (hj'.flags j hjm).1
      have h4 := h3
      rw [← hsome] at h4
      cases h5 : w.ctx.M with
      | none => rw [h5] at h3; cases h3
      | some l =>
        cases h6 : m' with
        | none => rw [h6] at h4; cases h4
        | some l' => rfl
    · cases ℓ <;> simp only [calendar] <;> try exact h.image _ hl
      rw [hm, ← h2]
      rfl

theorem scan (hB : Formed B) (hF : Fits B) (hk : Still env) {jobs : List CronJob} (hj : Planned B jobs) {nets : List Network}
    (hnets : B.network = some nets) (hd : ∀ net ∈ nets, net.enable = true → Diagram net ∧ Room env L (effort net))
    (hz : Railed B z) (h : Shown env T us B L z m w) :
    Yields (Ladder.scan env w) (Bad env T us (Logic.program (nets.take B.qty.networks)) (calendar (env.localtime w.tick) jobs m)) fun _ w' =>
      ∃ vs m', Lit.Goes (Logic.program (nets.take B.qty.networks)) (calendar (env.localtime w.tick) jobs m) vs m' ∧ Shown env T (us ++ vs) B L z m' w' := by
  have h0 : Shown env T us B L z m { w with ctx := { w.ctx with exec := none } } :=
    ⟨h.resting.ctx w.ctx.state w.ctx.last none (by simp), h.limit, h.told, fun ℓ hl => by rw [← h.image ℓ hl]; cases ℓ <;> rfl⟩
  obtain ⟨w1, e1, h1⟩ := h0.cronPhase hk hj
  have hloop := h1.networkLoop hB hF hk hz hnets hd B.qty.networks u32Fuel 0 (by omega) (by have := hB.count; unfold u32Fuel; omega)
  have hn : w1.ctx.network.isNone = false := by
    have := h1.resting.alike.text
    unfold Spec.program at this
    rw [hnets] at this
    cases hh : w1.ctx.network with
    | none => simp [hh] at this
    | some _ => rfl
  unfold Ladder.scan
  rw [bind_ok (modCtx_apply _ w), bind_ok e1]
  simp only [if_true]
  rw [bind_getCtx]
  simp only [hn, Bool.false_eq_true, if_false]
  exact hloop

end Shown

/-! ### Arithmetic that always has a result -/

/-- A cell whose arithmetic has a result in all states. -/
def Total (x : Cell) : Prop := ∀ m p, defined m p x = true

theorem total_of_well {B : Ctx} {n r c : Nat} {x : Cell} (hx : cell? B n r c = some x) (h : WellCell B n r c x.code) : Total x := by
  intro m p
  have hv : ∀ {P : W32 → Prop}, Constant B n r c 1 P → P (now m (arg x 1)) := by
    rintro P ⟨v, ho, hk, hP⟩
    rw [arg_of hx ho]
    simpa [now, hk] using hP
  have hq : ∀ {a b : W32}, b ≠ -1 → narrow (a.toInt.tdiv b.toInt) = true := by
    intro a b hb
    rw [← Lit.fits_narrow]
    exact tdiv_fits a hb
  cases hcode : x.code <;> simp only [defined, hcode] <;> rw [hcode] at h <;> simp only [WellCell] at h
  case DIV => rw [hq (hv h.2.1)]; simp
  case MOD =>
    have := hv h.2.1
    have h0 : (now m (arg x 1)).toInt ≠ 0 := fun e => this.1 (BitVec.eq_of_toInt_eq (by simpa using e))
    rw [hq this.2, decide_eq_true h0]; simp
  all_goals
    have := Sound.shiftAmount_pos (hv h.2.1)
    rw [Lit.shiftAmount_eq] at this
    exact decide_eq_true (by omega)

theorem act_total {s : State} {p q d : Bool} {x : Cell} (hx : Total x) : (act s p q d x).1.sure = s.sure := by
  have := hx s.reg p
  cases hc : x.code <;> simp [act, hc, this]

theorem sweep_total (p : Nat → Bool) : ∀ (xs : List Cell) (i : Nat) (d : Bool) (s : State), (∀ x ∈ xs, Total x) →
    (sweep p i xs d s).1.sure = s.sure
  | [], _, _, _, _ => rfl
  | x :: xs, i, d, s, h => by
    rw [sweep]
    exact (sweep_total p xs _ _ _ fun y hy => h y (List.mem_cons_of_mem _ hy)).trans (act_total (h x List.mem_cons_self))

theorem columns_total {rows : List (List Cell)} (above : Nat → Bool) (h : ∀ row ∈ rows, ∀ x ∈ row, Total x) : ∀ (k c : Nat) (s : State)
    (p : Nat → Bool), (columns rows above c k s p).1.sure = s.sure
  | 0, _, _, _ => rfl
  | k + 1, c, s, p => by
    rw [columns]
    refine (columns_total above h k _ _ _).trans (sweep_total _ _ _ _ _ fun x hx => ?_)
    obtain ⟨row, hr, hx⟩ := List.mem_filterMap.1 hx
    exact h row hr x (List.mem_of_getElem? hx)

theorem rungs_total (cols : Nat) : ∀ (k : Nat) (rows : List (List Cell)) (above : Nat → Bool) (s : State),
    (∀ row ∈ rows, ∀ x ∈ row, Total x) → (rungs cols k rows above s).sure = s.sure
  | 0, _, _, _, _ => rfl
  | k + 1, [], _, _, _ => rfl
  | k + 1, row :: rest, above, s, h => by
    rw [rungs]
    split
    · exact rungs_total cols k _ _ _ fun row hr => h row (List.mem_cons_of_mem _ hr)
    · refine (rungs_total cols k _ _ _ fun row hr => h row (List.mem_cons_of_mem _ ((List.dropWhile_sublist _).subset hr))).trans ?_
      refine columns_total _ (fun row' hr => h row' ?_) _ _ _ _
      rcases List.mem_cons.1 hr with rfl | hr
      · exact List.mem_cons_self
      · exact List.mem_cons_of_mem _ ((List.takeWhile_sublist _).subset hr)

theorem program_total : ∀ (nets : List Network) (s : State),
    (∀ net ∈ nets, net.enable = true → ∀ row ∈ net.cells.getD [], ∀ x ∈ row, Total x) → (Logic.program nets s).sure = s.sure
  | [], _, _ => rfl
  | net :: nets, s, h => by
    rw [Logic.program, List.foldl_cons]
    refine (program_total nets _ fun net hn => h net (List.mem_cons_of_mem _ hn)).trans ?_
    split
    · rename_i he
      exact rungs_total _ _ _ _ _ (h net List.mem_cons_self he)
    · rfl

/-- Well-formed cells have the operands they need. -/
theorem formed_of_well {B : Ctx} {n r c : Nat} {code : Ins} (h : WellCell B n r c code) : FormedCell B n r c code := by
  have hr : ∀ {P : W32 → Prop}, Constant B n r c 1 P → Readable B n r c 1 := by
    rintro P ⟨v, ho, hk, -⟩
    exact ⟨v, ho, by rw [hk]; decide, .inl hk⟩
  cases code <;> simp only [WellCell, FormedCell] at h ⊢ <;> first | exact h | exact ⟨h.1, hr h.2.1, h.2.2⟩

theorem Formed.of_well {B : Ctx} (h : Well B) : Formed B := ⟨h.count, fun n hn => by
  obtain ⟨net, h1, h2, h3⟩ := h.nets n hn
  refine ⟨net, h1, h2, fun he => ?_⟩
  obtain ⟨h4, h5, h6, h7, h8⟩ := h3 he
  exact ⟨h4, h5, h6, h7, fun r c hr hc => by
    obtain ⟨x, h9, h10⟩ := h8 r c hr hc
    exact ⟨x, h9, formed_of_well h10⟩⟩⟩

/-- The arithmetic of a well-formed program always has a result. -/
theorem total_program {B : Ctx} {nets : List Network} (hB : Well B) (hF : Fits B) (hnets : B.network = some nets) (s : State) :
    (Logic.program (nets.take B.qty.networks) s).sure = s.sure := by
  refine program_total _ _ fun net hn he row hrow x hx => ?_
  obtain ⟨n, hn⟩ := List.getElem?_of_mem hn
  rw [List.getElem?_take] at hn
  split at hn
  · rename_i hlt
    obtain ⟨net', h1, h2, h3⟩ := hB.nets n hlt
    have h1' := h1
    rw [hnets] at h1
    simp only [at?, Option.bind_some] at h1
    rw [hn] at h1
    cases h1
    have hgrid := hF.network nets hnets net (List.mem_of_getElem? hn)
    obtain ⟨r, hr⟩ := List.getElem?_of_mem hrow
    obtain ⟨c, hc⟩ := List.getElem?_of_mem hx
    cases hcells : net.cells with
    | none => rw [hcells] at h2; cases h2
    | some cells =>
      rw [hcells, Option.getD_some] at hrow hr
      have hrl := (List.getElem?_eq_some_iff.1 hr).1
      have hcl := (List.getElem?_eq_some_iff.1 hc).1
      obtain ⟨x', h4, h5⟩ := (h3 he).cells r c (by rw [← hgrid.rows _ hcells]; exact hrl) (by rw [← hgrid.cols _ hcells _ hrow]; exact hcl)
      have h6 : cell? B n r c = some x := by simp [cell?, at?, hnets, hn, hcells, hr, hc]
      rw [h6] at h4
      cases h4
      exact total_of_well h6 h5
  · cases hn

theorem Yields.sure {α : Type} {r : Except UB (α × World)} {bad : Prop} {good : α → World → Prop} (h : Yields r bad good) (hb : ¬bad) :
    ∃ a w, r = .ok (a, w) ∧ good a w := by
  cases r with
  | error e => exact absurd h.2 hb
  | ok r => exact ⟨r.1, r.2, rfl, h⟩

theorem Shown.scan_well {env : Env} {T : Nat} {us : List Reading} {B : Ctx} {L : Nat} {z : Ctx} {m : Image} {w : World} (hB : Well B) (hF : Fits B)
    (hk : Still env) {jobs : List CronJob} (hj : Planned B jobs) {nets : List Network}
    (hnets : B.network = some nets) (hd : ∀ net ∈ nets, net.enable = true → Diagram net ∧ Room env L (effort net))
    (hz : Railed B z) (h : Shown env T us B L z m w) :
    ∃ vs m' w', Ladder.scan env w = .ok ((), w') ∧
      Lit.Goes (Logic.program (nets.take B.qty.networks)) (calendar (env.localtime w.tick) jobs m) vs m' ∧ Shown env T (us ++ vs) B L z m' w' := by
  obtain ⟨_, w', e, vs, m', h1, h2⟩ := (Shown.scan (Formed.of_well hB) hF hk hj hnets hd hz h).sure fun ⟨vs, hi, _, h⟩ => by
    have := h fun _ => ⟨0, 0, 0⟩
    rw [total_program hB hF hnets] at this
    cases this
  exact ⟨vs, m', w', e, h1, h2⟩

namespace Props

/-- C71 (partial).  A scan of a well-formed program of contacts, edges, comparisons, coils, latches, bit logic, divisions by constants,
shifts, rotations, moves, timers and counters computes its ladder diagram: afterwards every register holds what the cron jobs and then the
enabled networks, taken in order, make of the register contents at the start, rung by rung from top to bottom, where a rung is a row with
the rows joined to it, power flows from the left rail through the columns, a cell acts on the power left of its own row (a counter also on
that of the row below), the wires right of the rows of a column are connected where vertical bars connect them, and the lower output of a
counter is the right end of the row below it.  The timers take the time from the readings `us` of the clock, one after the other; these
are readings of the clock during the scan, in order, and the diagram uses no more than these.  The work limit must allow for one step
per cell and row, and for more if rows hang from rungs; panic, called beyond four fifths of the
limit, must leave the context alone if it can be reached.
Rows may hang from a rung, to drive a further coil.
Missing: branches with contacts of their own that do not start at the left rail, see `C71_refuted_branch`, latches on rows that hang, see
`C71_refuted_hung`, and the other instructions. -/
theorem C71_diagram_partial {B : Ctx} {env : Env} {jobs : List CronJob} {nets : List Network} {w : World} (hB : Well B) (hF : Fits B)
    (hk : Still env) (hj : Planned B jobs) (hnets : B.network = some nets)
    (hd : ∀ net ∈ nets, net.enable = true → Diagram net ∧ Room env w.ctx.scan.maxScanCycles (effort net))
    (hz : w.ctx.state = .running) (ha : Alike B w.ctx) (hf : Flags w.ctx) (hc : Clean w.trace) :
    ∃ (w' : World) (us : List Reading), scan env w = .ok ((), w') ∧ w'.ctx.scan.maxScanCycles = w.ctx.scan.maxScanCycles ∧ w'.ctx.state = w.ctx.state ∧
      Alike B w'.ctx ∧ Flags w'.ctx ∧ Clean w'.trace ∧ Told env w.tick w'.tick us ∧
      ∀ rest, (Logic.program (nets.take B.qty.networks) ⟨calendar (env.localtime w.tick) jobs (load w.ctx), prior us rest, true⟩).time = rest ∧
        ∀ ℓ, register ℓ = true → load w'.ctx ℓ =
          (Logic.program (nets.take B.qty.networks) ⟨calendar (env.localtime w.tick) jobs (load w.ctx), prior us rest, true⟩).reg ℓ := by
  obtain ⟨vs, m', w', e, hgo, h⟩ := Shown.scan_well hB hF hk hj hnets hd (z := core w.ctx) (m := load w.ctx) (w := w) (T := w.tick) (us := []) (.inl hz)
    ⟨⟨ha, hf, hc, by simp, by simp⟩, ⟨rfl, rfl⟩, .done (Nat.le_refl _), fun _ _ => rfl⟩
  exact ⟨w', vs, e, h.limit.1, (congrArg Ctx.state h.limit.2 :), h.resting.alike, h.resting.flags, h.resting.clean, h.told, fun rest => by
    rw [hgo rest]
    exact ⟨rfl, h.image⟩⟩

theorem prior_const {env : Env} {t : BitVec 64} {lo hi : Nat} {us : List Reading} (h : Told env lo hi us)
    (hc : ∀ k, lo ≤ k → k ≤ hi → env.clock k = t) : prior us (fun _ => ⟨t, t, t⟩) = fun _ => ⟨t, t, t⟩ := by
  induction h with
  | done => rfl
  | more h1 h2 h3 h4 ih =>
    have h5 := h4.le
    funext k
    cases k with
    | zero => simp only [Logic.prior]; rw [hc _ h1 (by omega), hc _ (by omega) (by omega), hc _ (by omega) h5]
    | succ k => simp only [Logic.prior]; rw [ih fun k ha hb => hc k (by omega) hb]

/-- C71 (partial), with a clock that stands still during the scan: all timers see the same time. -/
theorem C71_instant_partial {B : Ctx} {env : Env} {jobs : List CronJob} {nets : List Network} {w : World} {t : BitVec 64} (hB : Well B) (hF : Fits B)
    (hk : Still env) (hj : Planned B jobs) (hnets : B.network = some nets)
    (hd : ∀ net ∈ nets, net.enable = true → Diagram net ∧ Room env w.ctx.scan.maxScanCycles (effort net))
    (hz : w.ctx.state = .running) (ha : Alike B w.ctx) (hf : Flags w.ctx) (hc : Clean w.trace)
    (ht : ∀ w', scan env w = .ok ((), w') → ∀ k, w.tick ≤ k → k ≤ w'.tick → env.clock k = t) :
    ∃ w', scan env w = .ok ((), w') ∧ ∀ ℓ, register ℓ = true → load w'.ctx ℓ =
      (Logic.program (nets.take B.qty.networks) ⟨calendar (env.localtime w.tick) jobs (load w.ctx), fun _ => ⟨t, t, t⟩, true⟩).reg ℓ := by
  obtain ⟨w', us, e, -, -, -, -, -, h1, h2⟩ := C71_diagram_partial hB hF hk hj hnets hd hz ha hf hc
  refine ⟨w', e, fun ℓ hl => ?_⟩
  rw [(h2 fun _ => ⟨t, t, t⟩).2 ℓ hl, prior_const h1 (ht w' e)]

/-- The image after scans (the last one first) at the given local times and with the given readings of the clock, when `turn i` is
what happens to the registers before scan number `i`. -/
def images (nets : List Network) (jobs : List CronJob) (turn : Nat → Image → Image) (rest : Nat → Reading) (m : Image) :
    List (Tm × List Reading) → Image
  | [] => m
  | (tm, us) :: ts => (Logic.program nets ⟨calendar tm jobs (turn ts.length (images nets jobs turn rest m ts)), prior us rest, true⟩).reg

/-- C71 (partial), many scans: the registers run through the images the diagram prescribes, whatever changes them between scans. -/
theorem C71_scans_partial {B : Ctx} {env : Env} {jobs : List CronJob} {nets : List Network} {w : World} {between : Nat → Ctx → Ctx}
    {turn : Nat → Image → Image} (hB : Well B) (hF : Fits B) (hk : Still env) (hj : Planned B jobs) (hnets : B.network = some nets)
    (hd : ∀ net ∈ nets, net.enable = true → Diagram net ∧ Room env w.ctx.scan.maxScanCycles (effort net))
    (hb : ∀ i c, Alike B c → Flags c → Alike B (between i c) ∧ Flags (between i c) ∧
      (between i c).scan.maxScanCycles = c.scan.maxScanCycles ∧ (between i c).state = c.state)
    (ht : ∀ i c m, (∀ ℓ, register ℓ = true → load c ℓ = m ℓ) → ∀ ℓ, register ℓ = true → load (between i c) ℓ = turn i m ℓ)
    (hz : w.ctx.state = .running) (ha : Alike B w.ctx) (hf : Flags w.ctx) (hc : Clean w.trace) (rest : Nat → Reading) (k : Nat) :
    ∃ (w' : World) (log : List (Nat × List Reading)), scans env between k w = .ok ((), w') ∧ log.length = k ∧ Kept env w.tick w'.tick log ∧
      Alike B w'.ctx ∧ Flags w'.ctx ∧ Clean w'.trace ∧ w'.ctx.state = .running ∧
      ∀ ℓ, register ℓ = true → load w'.ctx ℓ =
        images (nets.take B.qty.networks) jobs turn rest (load w.ctx) (log.map fun e => (env.localtime e.1, e.2)) ℓ := by
  suffices ∃ (w' : World) (log : List (Nat × List Reading)), scans env between k w = .ok ((), w') ∧ log.length = k ∧ Kept env w.tick w'.tick log ∧
      (core w'.ctx).state = .running ∧
      Shown env w'.tick [] B w.ctx.scan.maxScanCycles (core w'.ctx)
        (images (nets.take B.qty.networks) jobs turn rest (load w.ctx) (log.map fun e => (env.localtime e.1, e.2))) w' by
    obtain ⟨w', log, e, hl, hkept, hst, h⟩ := this
    exact ⟨w', log, e, hl, hkept, h.resting.alike, h.resting.flags, h.resting.clean, hst, h.image⟩
  induction k with
  | zero => exact ⟨w, [], rfl, rfl, .none (Nat.le_refl _), hz, ⟨⟨ha, hf, hc, by simp, by simp⟩, ⟨rfl, rfl⟩, .done (Nat.le_refl _), fun _ _ => rfl⟩⟩
  | succ k ih =>
    obtain ⟨w1, log, e1, hl, hkept, hst, h1⟩ := ih
    obtain ⟨h2, h3, h4, h4'⟩ := hb k w1.ctx h1.resting.alike h1.resting.flags
    obtain ⟨vs, m', w2, e2, hgo, h5⟩ := Shown.scan_well hB hF hk hj hnets hd (w := { w1 with ctx := between k w1.ctx }) (z := core (between k w1.ctx))
      (T := w1.tick) (us := []) (.inl (h4'.trans hst)) ⟨⟨h2, h3, h1.resting.clean, by simp, by simp⟩, ⟨h4.trans h1.limit.1, rfl⟩, .done (Nat.le_refl _), ht k w1.ctx _ h1.image⟩
    refine ⟨w2, (w1.tick, vs) :: log, ?_, by simp [hl], .scan hkept h5.told, ?_, h5.resting, ⟨h5.limit.1, rfl⟩, .done (Nat.le_refl _), ?_⟩
    · unfold scans
      rw [bind_ok e1, bind_ok (modCtx_apply _ w1)]
      exact e2
    · rw [h5.limit.2]
      exact h4'.trans hst
    · rw [List.map_cons, images, List.length_map, hl, hgo rest]
      exact h5.image

end Props

namespace Demo

/-- `(I0.0 or M1) and not I0.1 to M1` with a seal-in branch, and below it `D0 > 5 to Q0.1` with `M0 rising` in parallel. -/
def sealed : Network := net [
  [ins .NO [op .I 0], ins .NC [op .I 256], ins .COIL [op .M 1]],
  [ins .NO [op .M 1] false true, ins .NOP [], ins .NOP []],
  [ins .GT [op .D 0, op .NONE 5], ins .CONN [], ins .COIL [op .Q 256]],
  [ins .RE [op .M 0] false true, ins .CONN [] false true, ins .NOP []]]

/-- A cron job that is always due: `M0 to M2`. -/
def always : CronJob := { enabled := true, autoReset := true, enableReg := 0, flagReg := 2, cron := {
  sec := List.replicate 8 255, min := List.replicate 8 255, hour := List.replicate 3 255, mday := List.replicate 4 255,
  mon := List.replicate 2 255, wday := List.replicate 1 255, year := List.replicate 13 255 } }

/-- The rungs with the job. -/
def hourly : Ctx := { ctx [sealed] with cron := some { ctx := some [always], qty := 1, used := 1 } }

theorem planned : Planned hourly [always] :=
  .inr ⟨⟨⟨_, _, rfl, rfl, rfl, rfl⟩, fun j hj => by rw [List.mem_singleton.1 hj]; constructor <;> rfl,
    fun j hj => by rw [List.mem_singleton.1 hj]; exact ⟨rfl, rfl⟩⟩, by simp⟩

theorem sealed_net : WellNet hourly 0 sealed where
  stored := rfl
  rows := by decide
  cols := by decide
  width := by decide
  cells := by
    intro r c hr hc
    have hr : r < 4 := hr
    have hc : c < 3 := hc
    match r, c, hr, hc with
    | 0, 0, _, _ => exact ⟨_, rfl, _, rfl, by decide, .inr (.inr (.inr ⟨_, rfl, rfl⟩))⟩
    | 0, 1, _, _ => exact ⟨_, rfl, _, rfl, by decide, .inr (.inr (.inr ⟨_, rfl, rfl⟩))⟩
    | 0, 2, _, _ => exact ⟨_, rfl, _, _, rfl, rfl, by simp, rfl, rfl⟩
    | 1, 0, _, _ => exact ⟨_, rfl, _, rfl, by decide, .inr (.inr (.inr ⟨_, rfl, rfl⟩))⟩
    | 1, 1, _, _ | 1, 2, _, _ => exact ⟨_, rfl, trivial⟩
    | 2, 0, _, _ => exact ⟨_, rfl, ⟨_, rfl, by decide, .inr (.inr (.inr ⟨_, rfl, rfl⟩))⟩, _, rfl, by decide, .inl rfl⟩
    | 2, 1, _, _ => exact ⟨_, rfl, trivial⟩
    | 2, 2, _, _ => exact ⟨_, rfl, _, _, rfl, rfl, by simp, rfl, rfl⟩
    | 3, 0, _, _ => exact ⟨_, rfl, ⟨_, rfl, by decide, .inr (.inr (.inr ⟨_, rfl, rfl⟩))⟩, _, rfl, .inr ⟨_, rfl, rfl⟩⟩
    | 3, 1, _, _ | 3, 2, _, _ => exact ⟨_, rfl, trivial⟩

theorem sealed_well : Well hourly where
  count := by decide
  nets := by
    intro n hn
    have hn : n < 1 := hn
    match n, hn with
    | 0, _ => exact ⟨_, rfl, rfl, fun _ => sealed_net⟩
  some := rfl
  cron := .inr ⟨_, (planned.resolve_left (by simp [hourly])).1⟩

/-- Checks `Diagram`. -/
def diagramOk (cells : List (List Cell)) : Bool :=
  cells.all (fun row => row.all fun x => logical x.code) && cells.head?.all (fun row => !joined row) &&
  (cells.zip cells.tail).all (fun p => (joined p.1 || !covered p.1 || !joined p.2) &&
    (!joined p.1 || (p.1.zip p.2).all fun q => !q.2.bar || q.1.bar) &&
    (!hung p.1 || (p.1.zip p.2).all fun q => !q.1.bar || decide (q.2.code ≠ .MULTI))) &&
  cells.all (fun row => !joined row || hung row || row.all fun x => x.bar || decide (x.code = .NOP) || decide (x.code = .MULTI)) &&
  cells.all (fun row => !hung row || row.getLast?.all (fun x => !x.bar && (decide (x.code = .COIL) || decide (x.code = .NOP))) &&
    row.dropLast.all fun x => if x.bar then wiring x.code else decide (x.code = .NOP)) &&
  (List.range cells.length).all fun r => (List.range ((cells[r]?.getD []).length)).all fun c =>
    !((cells[r]?.getD [])[c]?.any fun x => tall x.code) || decide (((cells[r + 1]?.getD [])[c]?).map (·.code) = some .MULTI)

theorem diagram_in {n : Network} {cells : List (List Cell)} (hn : n.cells = some cells) (h : diagramOk cells = true) : Diagram n := by
  simp only [diagramOk, Bool.and_eq_true] at h
  obtain ⟨⟨⟨⟨⟨h1, h2⟩, h3⟩, h4⟩, h5⟩, h6⟩ := h
  rw [List.all_eq_true] at h1 h3 h4 h5
  have get : ∀ {r row}, at? n.cells r = some row → cells[r]? = some row := fun h => by rw [hn] at h; exact h
  have put : ∀ {r row}, cells[r]? = some row → at? n.cells r = some row := fun h => by rw [hn]; exact h
  have pair : ∀ {α : Type} {l l' : List α} {i : Nat} {x y : α}, l[i]? = some x → l'[i]? = some y → (x, y) ∈ l.zip l' := fun h h' =>
    List.mem_of_getElem? (List.getElem?_zip_eq_some.2 ⟨h, h'⟩)
  have next : ∀ {α : Type} {l : List α} {i : Nat} {y : α}, l[i + 1]? = some y → l.tail[i]? = some y := fun h => by
    rw [List.getElem?_tail]; exact h
  constructor
  · intro r row hr x hx
    exact List.all_eq_true.1 (h1 row (List.mem_of_getElem? (get hr))) x hx
  · intro row hr
    rw [List.head?_eq_getElem?, get hr] at h2
    simpa using h2
  · intro r row row' hr hr' hj hc
    have := h3 _ (pair (get hr) (next (get hr')))
    simp only [hj, hc, Bool.and_eq_true] at this
    simpa using this.1.1
  · intro r row row' c x x' hr hr' hj hx hx' hb
    have := h3 _ (pair (get hr) (next (get hr')))
    simp only [hj, Bool.and_eq_true, Bool.not_true, Bool.false_or] at this
    have := List.all_eq_true.1 this.1.2 _ (pair hx hx')
    simpa [hb] using this
  · intro r row hr hj hh x hx hb
    have := h4 row (List.mem_of_getElem? (get hr))
    simp only [hj, hh, Bool.not_true, Bool.false_or] at this
    have := List.all_eq_true.1 this x hx
    simpa [hb] using this
  · intro r row x hr hh hx
    have := h5 row (List.mem_of_getElem? (get hr))
    rw [← List.getLast?_eq_getElem?] at hx
    simp only [hh, Bool.not_true, Bool.false_or, Bool.and_eq_true, hx, Option.all_some] at this
    simpa using this.1
  · intro r row c x hr hh hc hx
    have := h5 row (List.mem_of_getElem? (get hr))
    simp only [hh, Bool.not_true, Bool.false_or, Bool.and_eq_true] at this
    have := List.all_eq_true.1 this.2 x (List.mem_of_getElem? (i := c) (by rw [List.getElem?_dropLast, if_pos (by omega)]; exact hx))
    cases hb : x.bar <;> simpa [hb] using this
  · intro r row c x hr hx ht
    have hr := get hr
    have h7 := List.all_eq_true.1 h6 r (List.mem_range.2 (List.getElem?_eq_some_iff.1 hr).1)
    rw [hr] at h7
    have h8 := List.all_eq_true.1 h7 c (List.mem_range.2 (List.getElem?_eq_some_iff.1 hx).1)
    simp only [Option.getD_some, hx, Option.any_some, ht, Bool.not_true, Bool.false_or, decide_eq_true_eq] at h8
    obtain ⟨y, h9, h10⟩ := Option.map_eq_some_iff.1 h8
    cases h11 : cells[r + 1]? with
    | none => rw [h11] at h9; simp at h9
    | some row' => exact ⟨row', y, put h11, by rw [h11] at h9; exact h9, h10⟩
  · intro r row row' c x x' hr hr' hh hx hb hx'
    have := h3 _ (pair (get hr) (next (get hr')))
    simp only [hh, Bool.and_eq_true, Bool.not_true, Bool.false_or] at this
    have := List.all_eq_true.1 this.2 _ (pair hx hx')
    simpa [hb] using this

theorem diagram_of {cells : List (List Cell)} (h : diagramOk cells = true) : Diagram (net cells) := diagram_in rfl h

/-- `I0.0 rising, D0 > 5, counter 0 (up to 10), M1`; `M1, timer 1 (3 s), D1 or QW0.0 to D2, latch Q0.1`; `D0 / 3 to D1, rotate D1 by 5,
move D1 to QW0.0`, with the rows the counter, the timer and the arithmetic need below them. -/
def stages : Network := net [
  [ins .RE [op .I 0], ins .GT [op .D 0, op .NONE 5], ins .CTU [op .C 0, op .NONE 10], ins .COIL [op .M 1]],
  [ins .NOP [], ins .NOP [], ins .MULTI [], ins .NOP []],
  [ins .NO [op .M 1], ins .TON [op .T 1, op .I 3], ins .OR [op .D 1, op .QW 0, op .D 2], ins .COILL [op .Q 256]],
  [ins .NOP [], ins .MULTI [], ins .MULTI [], ins .NOP []],
  [ins .DIV [op .D 0, op .NONE 3, op .D 1], ins .ROL [op .D 1, op .NONE 5], ins .MOVE [op .D 1, op .QW 0], ins .CONN []],
  [ins .MULTI [], ins .MULTI [], ins .MULTI [], ins .NOP []],
  [ins .MULTI [], ins .NOP [], ins .NOP [], ins .NOP []]]

theorem stages_net : WellNet (ctx [stages]) 0 stages where
  stored := rfl
  rows := by decide
  cols := by decide
  width := by decide
  cells := by
    intro r c hr hc
    have hr : r < 7 := hr
    have hc : c < 4 := hc
    match r, c, hr, hc with
    | 0, 0, _, _ => exact ⟨_, rfl, ⟨_, rfl, by decide, .inr (.inr (.inr ⟨_, rfl, rfl⟩))⟩, _, rfl, .inr ⟨_, rfl, rfl⟩⟩
    | 0, 1, _, _ => exact ⟨_, rfl, ⟨_, rfl, by decide, .inr (.inr (.inr ⟨_, rfl, rfl⟩))⟩, _, rfl, by decide, .inl rfl⟩
    | 0, 2, _, _ => exact ⟨_, rfl, ⟨_, rfl, by decide, rfl, rfl, rfl⟩, ⟨_, rfl⟩, rfl, .inr rfl⟩
    | 0, 3, _, _ => exact ⟨_, rfl, _, _, rfl, rfl, by simp, rfl, rfl⟩
    | 1, 0, _, _ | 1, 1, _, _ | 1, 2, _, _ | 1, 3, _, _ => exact ⟨_, rfl, trivial⟩
    | 2, 0, _, _ => exact ⟨_, rfl, _, rfl, by decide, .inr (.inr (.inr ⟨_, rfl, rfl⟩))⟩
    | 2, 1, _, _ => exact ⟨_, rfl, ⟨_, rfl, rfl, by decide, rfl, rfl, rfl⟩, ⟨_, rfl, by decide⟩, rfl, rfl⟩
    | 2, 2, _, _ => exact ⟨_, rfl, ⟨_, rfl, by decide, .inr (.inr (.inr ⟨_, rfl, rfl⟩))⟩,
        ⟨_, rfl, by decide, .inr (.inr (.inr ⟨_, rfl, rfl⟩))⟩, _, rfl, rfl⟩
    | 2, 3, _, _ => exact ⟨_, rfl, ⟨_, _, rfl, rfl, by simp, rfl, rfl⟩, _, rfl, .inr ⟨_, rfl, rfl⟩⟩
    | 3, 0, _, _ | 3, 1, _, _ | 3, 2, _, _ | 3, 3, _, _ => exact ⟨_, rfl, trivial⟩
    | 4, 0, _, _ => exact ⟨_, rfl, ⟨_, rfl, by decide, .inr (.inr (.inr ⟨_, rfl, rfl⟩))⟩, ⟨_, rfl, rfl, by decide⟩, _, rfl, rfl⟩
    | 4, 1, _, _ => exact ⟨_, rfl, ⟨_, rfl, by decide, .inr (.inr (.inr ⟨_, rfl, rfl⟩))⟩, ⟨_, rfl, rfl, by decide⟩, _, _, rfl, rfl,
        by intro _; rfl, rfl, rfl⟩
    | 4, 2, _, _ => exact ⟨_, rfl, _, _, _, _, rfl, rfl, rfl, rfl, rfl, rfl, .inl ⟨.inl rfl, rfl⟩⟩
    | 4, 3, _, _ => exact ⟨_, rfl, trivial⟩
    | 5, 0, _, _ | 5, 1, _, _ | 5, 2, _, _ | 5, 3, _, _ => exact ⟨_, rfl, trivial⟩
    | 6, 0, _, _ | 6, 1, _, _ | 6, 2, _, _ | 6, 3, _, _ => exact ⟨_, rfl, trivial⟩

theorem stages_well : Well (ctx [stages]) where
  count := by decide
  nets := by
    intro n hn
    have hn : n < 1 := hn
    match n, hn with
    | 0, _ => exact ⟨_, rfl, rfl, fun _ => stages_net⟩
  some := rfl
  cron := .inl rfl

/-- `(I0.0 or M1) and not I0.1 to M1` with a seal-in branch and a row that hangs from the rung: `to Q0.1`. -/
def tapped : Network := net [
  [ins .NO [op .I 0], ins .NC [op .I 256], ins .COIL [op .M 1]],
  [ins .NO [op .M 1] false true, ins .NOP [] false true, ins .NOP []],
  [ins .NOP [], ins .CONN [] false true, ins .COIL [op .Q 256]]]

theorem tapped_net : WellNet (ctx [tapped]) 0 tapped where
  stored := rfl
  rows := by decide
  cols := by decide
  width := by decide
  cells := by
    intro r c hr hc
    have hr : r < 3 := hr
    have hc : c < 3 := hc
    match r, c, hr, hc with
    | 0, 0, _, _ => exact ⟨_, rfl, _, rfl, by decide, .inr (.inr (.inr ⟨_, rfl, rfl⟩))⟩
    | 0, 1, _, _ => exact ⟨_, rfl, _, rfl, by decide, .inr (.inr (.inr ⟨_, rfl, rfl⟩))⟩
    | 0, 2, _, _ => exact ⟨_, rfl, _, _, rfl, rfl, by simp, rfl, rfl⟩
    | 1, 0, _, _ => exact ⟨_, rfl, _, rfl, by decide, .inr (.inr (.inr ⟨_, rfl, rfl⟩))⟩
    | 1, 1, _, _ | 1, 2, _, _ | 2, 0, _, _ | 2, 1, _, _ => exact ⟨_, rfl, trivial⟩
    | 2, 2, _, _ => exact ⟨_, rfl, _, _, rfl, rfl, by simp, rfl, rfl⟩

theorem tapped_well : Well (ctx [tapped]) where
  count := by decide
  nets := by
    intro n hn
    have hn : n < 1 := hn
    match n, hn with
    | 0, _ => exact ⟨_, rfl, rfl, fun _ => tapped_net⟩
  some := rfl
  cron := .inl rfl

theorem still : Still env := ⟨fun _ _ => rfl, fun _ _ => rfl, fun _ => by constructor <;> simp [env]⟩

end Demo

namespace Props

open _root_.Ladder.Demo in
/-- The hypotheses of `C71_diagram_partial` can be met, with branches of different widths. -/
example : ∃ w', scan env ⟨hourly, 0, []⟩ = .ok ((), w') ∧ Clean w'.trace ∧
    ∃ us, ∀ ℓ, register ℓ = true → load w'.ctx ℓ =
      (Logic.program [sealed] ⟨calendar ⟨0, 0, 0, 1, 0, 125, 3⟩ [always] (load hourly), prior us fun _ => ⟨0, 0, 0⟩, true⟩).reg ℓ := by
  have ha : Alike hourly hourly := ⟨fits_of rfl, rfl, fun _ => rfl, rfl, rfl, rfl, rfl, rfl⟩
  obtain ⟨w', us, e, -, -, -, -, h, -, h'⟩ := C71_diagram_partial (env := env) (w := ⟨hourly, 0, []⟩) sealed_well ha.fits still planned rfl
    (fun net hn _ => by
      rw [List.mem_singleton.1 hn]
      exact ⟨diagram_of (by decide), by decide, .inl fun _ _ => rfl⟩) rfl ha (flags_demo [sealed]) (fun _ _ _ _ h => by cases h)
  exact ⟨w', e, h, us, (h' _).2⟩

open _root_.Ladder.Demo in
/-- The hypotheses of `C71_diagram_partial` can be met, with a timer, arithmetic and a counter one step before its
preset. -/
example : ∃ w' us, scan env ⟨{ ctx [stages] with C := some [9, 0] }, 0, []⟩ = .ok ((), w') ∧ Told env 0 w'.tick us ∧
    ∀ rest, ∀ ℓ, register ℓ = true → load w'.ctx ℓ =
      (Logic.program [stages] ⟨calendar ⟨0, 0, 0, 1, 0, 125, 3⟩ [] (load { ctx [stages] with C := some [9, 0] }), prior us rest, true⟩).reg ℓ := by
  have ha : Alike (ctx [stages]) { ctx [stages] with C := some [9, 0] } :=
    ⟨fits_of rfl, rfl, fun ℓ => by cases ℓ <;> try rfl
                                   rename_i i; cases i with | zero => rfl | succ i => cases i <;> rfl, rfl, rfl, rfl, rfl, rfl⟩
  have hf : Flags { ctx [stages] with C := some [9, 0] } := fun ℓ x h hl => flags_demo [stages] ℓ x h (by cases ℓ <;> first | exact hl | cases h)
  obtain ⟨w', us, e, -, -, -, -, -, h, h'⟩ := C71_diagram_partial (env := env) (w := ⟨{ ctx [stages] with C := some [9, 0] }, 0, []⟩) stages_well (fits_of rfl) still
    (.inl ⟨rfl, rfl⟩) rfl
    (fun net hn _ => by
      rw [List.mem_singleton.1 hn]
      exact ⟨diagram_of (by decide), by decide, .inl fun _ _ => rfl⟩) rfl ha hf (fun _ _ _ _ h => by cases h)
  exact ⟨w', us, e, h, fun rest => (h' rest).2⟩

open _root_.Ladder.Demo in
/-- The hypotheses of `C71_diagram_partial` can be met, with a row that hangs from a rung; on the diagram its coil follows the other one. -/
example : (∃ w' us, scan env (world [tapped]) = .ok ((), w') ∧ ∀ rest, ∀ ℓ, register ℓ = true → load w'.ctx ℓ =
      (Logic.program [tapped] ⟨calendar ⟨0, 0, 0, 1, 0, 125, 3⟩ [] (load (ctx [tapped])), prior us rest, true⟩).reg ℓ) ∧
    (Logic.program [tapped] ⟨fun ℓ => if ℓ = .I 0 0 then some 1 else load (ctx [tapped]) ℓ, fun _ => ⟨0, 0, 0⟩, true⟩).reg (.Q 0 1) = some 1 ∧
    (Logic.program [tapped] ⟨fun ℓ => if ℓ = .I 0 0 then some 0 else load (ctx [tapped]) ℓ, fun _ => ⟨0, 0, 0⟩, true⟩).reg (.Q 0 1) = some 0 := by
  refine ⟨?_, by decide +kernel, by decide +kernel⟩
  have ha : Alike (ctx [tapped]) (ctx [tapped]) := ⟨fits_of rfl, rfl, fun _ => rfl, rfl, rfl, rfl, rfl, rfl⟩
  obtain ⟨w', us, e, -, -, -, -, -, h, h'⟩ := C71_diagram_partial (env := env) (w := world [tapped]) tapped_well ha.fits still
    (.inl ⟨rfl, rfl⟩) rfl
    (fun net hn _ => by
      rw [List.mem_singleton.1 hn]
      exact ⟨diagram_of (by decide), by decide, .inl fun _ _ => rfl⟩) rfl ha (flags_demo [tapped]) (fun _ _ _ _ h => by cases h)
  exact ⟨w', us, e, fun rest => (h' rest).2⟩

open _root_.Ladder.Demo in
/-- On the diagram the counter reaches its preset, passes power to `M1`, the timer of the next rung starts, and the arithmetic is performed. -/
example : (Logic.program [stages] ⟨load { ctx [stages] with C := some [9, 0] }, fun _ => ⟨100, 105, 107⟩, true⟩).reg (.M 1) = some 1 ∧
    (Logic.program [stages] ⟨load { ctx [stages] with C := some [9, 0] }, fun _ => ⟨100, 105, 107⟩, true⟩).reg (.C 0) = some 10 ∧
    (Logic.program [stages] ⟨load { ctx [stages] with C := some [9, 0] }, fun _ => ⟨100, 105, 107⟩, true⟩).reg (.Tr 1) = some 1 ∧
    (Logic.program [stages] ⟨load { ctx [stages] with C := some [9, 0] }, fun _ => ⟨100, 105, 107⟩, true⟩).reg (.D 1) = some 64 := by decide +kernel

open _root_.Ladder.Demo in
/-- The hypotheses of `C71_scans_partial` can be met, with an input toggling between scans. -/
example (k : Nat) : ∃ w', scans env (fun i c => upd c (.I 0 0) (i % 2)) k ⟨hourly, 0, []⟩ = .ok ((), w') ∧ Clean w'.trace := by
  have ha : Alike hourly hourly := ⟨fits_of rfl, rfl, fun _ => rfl, rfl, rfl, rfl, rfl, rfl⟩
  obtain ⟨w', -, e, -, -, -, -, h, -, -⟩ := C71_scans_partial (env := env) (w := ⟨hourly, 0, []⟩) sealed_well ha.fits still planned rfl
    (between := fun i c => upd c (.I 0 0) (i % 2))
    (turn := fun i m ℓ => if ℓ = .I 0 0 then (m ℓ).map (fun _ => i % 2) else m ℓ)
    (fun net hn _ => by
      rw [List.mem_singleton.1 hn]
      exact ⟨diagram_of (by decide), by decide, .inl fun _ _ => rfl⟩)
    (fun i c h h' => ⟨h.upd _ _, h'.upd (by simp [isFlag]), by rw [upd_scan], by rw [upd_state]⟩)
    (fun i c m h ℓ hl => by
      by_cases e : ℓ = .I 0 0
      · subst e
        rw [if_pos rfl, ← h _ hl]
        cases hs : load c (.I 0 0) with
        | none =>
          have := isSome_load_upd (ctx := c) (ℓ := .I 0 0) (ℓ' := .I 0 0) (x := i % 2)
          rw [hs] at this
          exact Option.isNone_iff_eq_none.1 (by simpa using this)
        | some x => exact load_upd_self c _ _ (by rw [hs]; rfl) (by simp only [Loc.size]; omega)
      · rw [load_upd_ne _ _ _ _ (Ne.symm e), h ℓ hl, if_neg e]) rfl ha (flags_demo [sealed]) (fun _ _ _ _ h => by cases h) (fun _ => ⟨0, 0, 0⟩) k
  exact ⟨w', e, h⟩

/-- What a network of two rows makes of the flags of the demonstration context, according to the diagram and by the code. -/
def branched : Network := Demo.net [
  [Demo.ins .NO [Demo.op .M 1], Demo.ins .CONN [], Demo.ins .COIL [Demo.op .Q 0]],
  [Demo.ins .NO [Demo.op .M 0], Demo.ins .CONN [] false true, Demo.ins .NOP []]]

/-- The outcome is normal and leaves the given content. -/
def leaves (x : Except UB (Unit × World)) (ℓ : Loc) (v : Nat) : Bool :=
  match x with | .ok (_, w) => decide (load w.ctx ℓ = some v) | .error _ => false

theorem of_leaves {x : Except UB (Unit × World)} {ℓ : Loc} {v : Nat} (h : leaves x ℓ v = true) : ∃ w, x = .ok ((), w) ∧ load w.ctx ℓ = some v := by
  match x, h with
  | .ok ((), w), h => exact ⟨w, rfl, by simpa [leaves] using h⟩

/-- **C71 is violated** by branches that do not start at the left rail: `M1, connection, coil Q0.0` with the branch `M0, connection`
joined behind the second column.  Flag 0 is set, so the diagram switches the output on; the code does not supply the lower
row with power and leaves it off.  The checker accepts the program. -/
theorem C71_refuted_branch : Accepts (Demo.ctx [branched]) ∧
    (Logic.program [branched] ⟨calendar ⟨0, 0, 0, 1, 0, 125, 3⟩ [] (load (Demo.ctx [branched])), fun _ => ⟨0, 0, 0⟩, true⟩).reg (.Q 0 0) = some 1 ∧
    ∃ w, scan Demo.env (Demo.world [branched]) = .ok ((), w) ∧ load w.ctx (.Q 0 0) = some 0 :=
  ⟨accepts_of (by decide +kernel), by decide +kernel, of_leaves (by decide +kernel)⟩

/-- A network whose second row hangs from the rung and ends with a latch. -/
def latched : Network := Demo.net [
  [Demo.ins .NO [Demo.op .M 0], Demo.ins .CONN [], Demo.ins .COIL [Demo.op .M 1]],
  [Demo.ins .NOP [], Demo.ins .CONN [] false true, Demo.ins .COILL [Demo.op .Q 0]]]

/-- **C71 is violated** by latches on rows that hang from a rung: `M0, connection, coil M1` and below the coil, behind the same connection,
the latch Q0.0.  Flag 0 is set, so the diagram sets flag 1 and switches the output on; the code sets the flag and never executes
the latch.  The checker accepts the program. -/
theorem C71_refuted_hung : Accepts (Demo.ctx [latched]) ∧
    (∀ ℓ ∈ [Loc.M 1, .Q 0 0], (Logic.program [latched]
      ⟨calendar ⟨0, 0, 0, 1, 0, 125, 3⟩ [] (load (Demo.ctx [latched])), fun _ => ⟨0, 0, 0⟩, true⟩).reg ℓ = some 1) ∧
    (∃ w, scan Demo.env (Demo.world [latched]) = .ok ((), w) ∧ load w.ctx (.M 1) = some 1) ∧
    ∃ w, scan Demo.env (Demo.world [latched]) = .ok ((), w) ∧ load w.ctx (.Q 0 0) = some 0 :=
  ⟨accepts_of (by decide +kernel), by decide +kernel, of_leaves (by decide +kernel), of_leaves (by decide +kernel)⟩

end Props

end Ladder
