import Verif.Spec.Spent
import Verif.Props.Logic

/-
C75: a counter that is done cannot be used again.
-/

set_option autoImplicit false

namespace Ladder

open Spec Op Logic

namespace Spent

variable {i n : Nat}

theorem put_keep {m : Image} {v : Value} {x : W32} {ℓ : Loc} (h : place v ≠ some ℓ) : put m v x ℓ = m ℓ := by
  unfold put
  rw [if_neg fun h' => h h'.2.1]

theorem simple_keep {m : Image} {p : Bool} {x : Cell} {ℓ : Loc} (h : ∀ v, sink x = some v → place v ≠ some ℓ) : (simple m p x).1 ℓ = m ℓ := by
  cases hc : x.code <;> simp only [simple, hc] <;> simp only [sink, hc] at h <;> first
    | rfl
    | exact put_keep (h _ rfl)
    | (split
       · exact put_keep (h _ rfl)
       · rfl)

theorem act_keep {s : State} {p q d : Bool} {x : Cell} (h : Aside i x) (hq : tallies i x = true → q = false) (hf : Finished i n s.reg) :
    Finished i n (act s p q d x).1.reg := by
  obtain ⟨h1, h2⟩ := hf
  by_cases hs : x.code = .CTU ∨ x.code = .CTD
  · have hx : (act s p q d x).1.reg = noted s.reg (arg x 0).raw.toNat (advanced x.code p (arg x 1).raw.toNat
        (fresh x.code q (arg x 1).raw.toNat (tally s.reg (arg x 0).raw.toNat))) := by rcases hs with e | e <;> simp [act, e]
    rw [hx]
    by_cases hi : (arg x 0).raw.toNat = i
    · have ht : tallies i x = true := by rcases hs with e | e <;> simp [tallies, e, hi]
      rw [hq ht, hi]
      constructor
      · simp [noted, advanced, Logic.fresh, counted, counts, tally, h1, h2]
      · simp [noted, advanced, Logic.fresh, tally, h2]
    · constructor
      · simp only [noted]; rw [if_neg (Ne.symm hi)]; exact h1
      · simp only [noted]; rw [if_neg (Ne.symm hi)]; exact h2
  · by_cases ht : x.code = .TON ∨ x.code = .TOF ∨ x.code = .TP
    · rcases ht with e | e | e <;> simp only [act, e] <;> exact ⟨h1, h2⟩
    · have hx : (act s p q d x).1.reg = s.reg ∨ (act s p q d x).1.reg = (simple s.reg p x).1 := by
        cases hc : x.code <;> simp_all [act]
      rcases hx with hx | hx <;> rw [hx]
      · exact ⟨h1, h2⟩
      · exact ⟨(simple_keep fun v hv => (h v hv).1).trans h1, (simple_keep fun v hv => (h v hv).2).trans h2⟩

theorem sweep_keep (p : Nat → Bool) : ∀ (xs : List Cell) (k : Nat) (d : Bool) (s : State),
    (∀ (j : Nat) x, xs[j]? = some x → Aside i x ∧ (tallies i x = true → p (k + j + 1) = false)) → Finished i n s.reg →
    Finished i n (sweep p k xs d s).1.reg
  | [], _, _, _, _, hf => hf
  | x :: xs, k, d, s, h, hf => by
    rw [sweep]
    refine sweep_keep p xs (k + 1) _ _ (fun j y hy => ?_) (act_keep (h 0 x rfl).1 (h 0 x rfl).2 hf)
    have := h (j + 1) y (by simpa using hy)
    rwa [show k + (j + 1) + 1 = k + 1 + j + 1 by omega] at this

/-- The wire right of the row below some cells is connected to none of them. -/
theorem wire_last (xs : List Cell) (outs : List Bool) : wire xs outs xs.length = outs[xs.length]?.getD false := by
  rw [Bool.eq_iff_iff]
  unfold wire
  rw [List.any_eq_true]
  constructor
  · rintro ⟨j, hj, ho⟩
    simp only [Bool.and_eq_true] at ho
    have hj : j < xs.length + 1 := by simpa using hj
    by_cases e : j = xs.length
    · rw [← e]; exact ho.1
    · have := ho.2
      unfold linked at this
      rw [Nat.min_eq_right (by omega), Nat.max_eq_left (by omega), List.all_eq_true] at this
      have := this xs.length (List.mem_range'_1.2 ⟨by omega, by omega⟩)
      simp at this
  · intro h
    exact ⟨xs.length, by simp, by rw [h]; simp [linked]⟩

theorem columns_keep {R : List (List Cell)} {cols : Nat} {above : Nat → Bool} (hR : R ≠ []) (hw : ∀ row ∈ R, row.length = cols)
    (h : ∀ (r : Nat) (row : List Cell) (c : Nat) (x : Cell), R[r]? = some row → row[c]? = some x →
      Aside i x ∧ (tallies i x = true → 0 < c ∧ r + 1 = R.length ∧ ∀ y, row[c - 1]? = some y → tall y.code = false)) :
    ∀ (k c : Nat) (s : State) (p : Nat → Bool), c + k ≤ cols →
      (∀ row x, R[R.length - 1]? = some row → row[c]? = some x → tallies i x = true → p R.length = false) → Finished i n s.reg →
      Finished i n (columns R above c k s p).1.reg
  | 0, _, _, _, _, _, hf => hf
  | k + 1, c, s, p, hk, hp, hf => by
    have hlen : (column R c).length = R.length := Lit.column_length fun r hr => by rw [hw r hr]; omega
    have hget : ∀ {j : Nat} {x : Cell}, (column R c)[j]? = some x → ∃ row, R[j]? = some row ∧ row[c]? = some x := by
      intro j x hx
      rw [Lit.column_get fun r hr => by rw [hw r hr]; omega] at hx
      exact Option.bind_eq_some_iff.1 hx
    have hpos : 0 < R.length := List.length_pos_iff.2 hR
    rw [columns]
    refine columns_keep hR hw h k (c + 1) _ _ (by omega) (fun row x hrow hx ht => ?_) (sweep_keep p _ 0 _ s (fun j x hx => ?_) hf)
    · rw [← hlen, wire_last]
      cases ho : (sweep p 0 (column R c) (above c) s).2[(column R c).length]?.getD false with
      | false => rfl
      | true =>
        have ho' : (sweep p 0 (column R c) (above c) s).2[(column R c).length]? = some true := by
          cases hh : (sweep p 0 (column R c) (above c) s).2[(column R c).length]? with
          | none => rw [hh] at ho; cases ho
          | some b => rw [hh] at ho; simpa using ho
        rcases Lit.sweep_last _ _ _ _ _ ho' with ⟨e, -⟩ | ⟨y, hy, hyt⟩
        · rw [e] at hlen; simp at hlen; omega
        · obtain ⟨row', h1, h2⟩ := hget hy
          rw [hlen, hrow] at h1
          cases h1
          have := ((h _ _ _ _ hrow hx).2 ht).2.2 y (by simpa using h2)
          rw [this] at hyt
          cases hyt
    · obtain ⟨row, h1, h2⟩ := hget hx
      obtain ⟨h3, h4⟩ := h j row c x h1 h2
      refine ⟨h3, fun ht => ?_⟩
      have h5 := (h4 ht).2.1
      rw [show 0 + j + 1 = R.length by omega]
      exact hp row x (by rw [show R.length - 1 = j by omega]; exact h1) h2 ht

theorem apart_drop {rows : List (List Cell)} (h : Apart i rows) (k : Nat) : Apart i (rows.drop k) := by
  intro r row c x h1 h2
  rw [List.getElem?_drop] at h1
  obtain ⟨h3, h4⟩ := h _ row c x h1 h2
  refine ⟨h3, fun ht => ⟨(h4 ht).1, fun row' hr => (h4 ht).2.1 row' ?_, (h4 ht).2.2⟩⟩
  rw [List.getElem?_drop] at hr
  exact hr

theorem rungs_keep {cols : Nat} : ∀ (k : Nat) (rows : List (List Cell)) (above : Nat → Bool) (s : State), (∀ row ∈ rows, row.length = cols) →
    Apart i rows → Finished i n s.reg → Finished i n (rungs cols k rows above s).reg
  | 0, _, _, _, _, _, hf => hf
  | k + 1, [], _, _, _, _, hf => hf
  | k + 1, row :: rest, above, s, hw, ha, hf => by
    rw [rungs]
    split
    · exact rungs_keep k rest _ s (fun r hr => hw r (by simp [hr])) (apart_drop ha 1) hf
    · refine rungs_keep k _ _ _ (fun r hr => hw r (by simp [(List.dropWhile_sublist _).subset hr])) ?_ ?_
      · rw [Lit.dropWhile_drop]
        exact apart_drop (apart_drop ha 1) _
      · have key : ∀ (r : Nat) (row' : List Cell), (row :: rest.takeWhile joined)[r]? = some row' →
            (row :: rest)[r]? = some row' ∧ (0 < r → joined row' = true) := by
          intro r row' h
          cases r with
          | zero => exact ⟨h, by simp⟩
          | succ r =>
            obtain ⟨h1, h2⟩ := Lit.takeWhile_get joined rest r row' (by simpa using h)
            exact ⟨by simpa using h1, fun _ => h2⟩
        refine columns_keep (by simp) (cols := cols) (fun r hr => ?_) (fun r row' c x h1 h2 => ?_) cols 0 s _ (by omega) (fun row' x h1 h2 ht => ?_) hf
        · obtain ⟨j, hj⟩ := List.getElem?_of_mem hr
          exact hw r (List.mem_of_getElem? (key j r hj).1)
        · obtain ⟨h3, h4⟩ := ha r row' c x (key r row' h1).1 h2
          refine ⟨h3, fun ht => ⟨(h4 ht).1, ?_, (h4 ht).2.2⟩⟩
          have hlt := (List.getElem?_eq_some_iff.1 h1).1
          by_cases e : r + 1 = (row :: rest.takeWhile joined).length
          · exact e
          · have hlt' : r + 1 < (row :: rest.takeWhile joined).length := by omega
            obtain ⟨h5, h6⟩ := key (r + 1) _ (List.getElem?_eq_getElem hlt')
            rw [(h4 ht).2.1 _ h5] at h6
            exact absurd (h6 (by omega)) (by simp)
        · exact absurd ((ha _ row' 0 x (key _ row' h1).1 h2).2 ht).1 (by simp)

theorem program_keep : ∀ (nets : List Network) (s : State), (∀ net ∈ nets, net.enable = true →
      (∀ row ∈ net.cells.getD [], row.length = net.cols) ∧ Apart i (net.cells.getD [])) →
    Finished i n s.reg → Finished i n (Logic.program nets s).reg
  | [], _, _, hf => hf
  | net :: nets, s, h, hf => by
    rw [Logic.program, List.foldl_cons]
    refine program_keep nets _ (fun net' hn => h net' (by simp [hn])) ?_
    split
    · rename_i he
      obtain ⟨h1, h2⟩ := h net (by simp) he
      exact rungs_keep _ _ _ _ h1 h2 hf
    · exact hf

end Spent

namespace Props

/-- **C75 is violated** by every program in which the reset input of a counter is a row of its own: whatever happens to the other registers and
to the inputs between the scans, once the counter is done it stays done, at the same count, for any number of scans. -/
theorem C75_refuted_for_ever {B : Ctx} {env : Env} {jobs : List CronJob} {nets : List Network} {w : World} {between : Nat → Ctx → Ctx}
    {turn : Nat → Image → Image} {i n : Nat} (hB : Well B) (hF : Fits B) (hk : Still env) (hj : Planned B jobs) (hnets : B.network = some nets)
    (hd : ∀ net ∈ nets, net.enable = true → Diagram net ∧ Room env w.ctx.scan.maxScanCycles (effort net))
    (hi : ∀ net ∈ nets, net.enable = true → Apart i (net.cells.getD []))
    (hb : ∀ i c, Alike B c → Flags c → Alike B (between i c) ∧ Flags (between i c) ∧
      (between i c).scan.maxScanCycles = c.scan.maxScanCycles ∧ (between i c).state = c.state)
    (ht : ∀ i c m, (∀ ℓ, register ℓ = true → load c ℓ = m ℓ) → ∀ ℓ, register ℓ = true → load (between i c) ℓ = turn i m ℓ)
    (hkeep : ∀ k m, turn k m (.C i) = m (.C i) ∧ turn k m (.Cd i) = m (.Cd i))
    (hz : w.ctx.state = .running) (ha : Alike B w.ctx) (hf : Flags w.ctx) (hc : Clean w.trace)
    (hdone : load w.ctx (.C i) = some n ∧ load w.ctx (.Cd i) = some 1) (k : Nat) :
    ∃ w', scans env between k w = .ok ((), w') ∧ load w'.ctx (.C i) = some n ∧ load w'.ctx (.Cd i) = some 1 := by
  obtain ⟨w', log, e, -, -, -, -, -, -, h⟩ := C71_scans_partial hB hF hk hj hnets hd hb ht hz ha hf hc (fun _ => ⟨0, 0, 0⟩) k
  refine ⟨w', e, ?_⟩
  rw [h (.C i) rfl, h (.Cd i) rfl]
  generalize log.map (fun e => (env.localtime e.1, e.2)) = ts
  suffices Finished i n (images (nets.take B.qty.networks) jobs turn (fun _ => ⟨0, 0, 0⟩) (load w.ctx) ts) from this
  induction ts with
  | nil => exact hdone
  | cons t ts ih =>
    obtain ⟨tm, us⟩ := t
    rw [images]
    refine Spent.program_keep _ _ (fun net hn he => ?_) ?_
    · have hm := List.mem_of_mem_take hn
      refine ⟨fun row hrow => ?_, hi net hm he⟩
      have hg := hF.network nets hnets net hm
      cases hcs : net.cells with
      | none => rw [hcs] at hrow; cases hrow
      | some cells => rw [hcs] at hrow; exact hg.cols _ hcs row hrow
    · constructor
      · show turn ts.length _ (.C i) = some n
        rw [(hkeep _ _).1]
        exact ih.1
      · show turn ts.length _ (.Cd i) = some 1
        rw [(hkeep _ _).2]
        exact ih.2

/-- `I0.0, counter 0 (up to 5)` with the reset input `I0.1`. -/
def resettable : Network := Demo.net [
  [Demo.ins .NO [Demo.op .I 0], Demo.ins .CTU [Demo.op .C 0, Demo.op .NONE 5]],
  [Demo.ins .NO [Demo.op .I 256], { Demo.ins .MULTI [] with data := none }]]

theorem resettable_well : Well (Demo.ctx [resettable]) where
  count := by decide
  nets := by
    intro n hn
    have hn : n < 1 := hn
    match n, hn with
    | 0, _ =>
      refine ⟨_, rfl, rfl, fun _ => ⟨rfl, by decide, by decide, by decide, fun r c hr hc => ?_⟩⟩
      have hr : r < 2 := hr
      have hc : c < 2 := hc
      match r, c, hr, hc with
      | 0, 0, _, _ | 1, 0, _, _ => exact ⟨_, rfl, _, rfl, by decide, .inr (.inr (.inr ⟨_, rfl, rfl⟩))⟩
      | 0, 1, _, _ => exact ⟨_, rfl, ⟨_, rfl, by decide, rfl, rfl, rfl⟩, ⟨_, rfl⟩, rfl, .inr rfl⟩
      | 1, 1, _, _ => exact ⟨_, rfl, trivial⟩
  some := rfl
  cron := .inl rfl

theorem resettable_apart : Apart 0 (resettable.cells.getD []) := by
  intro r row c x h1 h2
  match r with
  | 0 =>
    cases h1
    match c with
    | 0 => cases h2; exact ⟨fun v h => by (cases h), fun h => (by cases h)⟩
    | 1 => cases h2; exact ⟨fun v h => by (cases h), fun _ => ⟨by decide, fun row' h => (by cases h; rfl), fun y h => by cases h; rfl⟩⟩
    | c + 2 => cases h2
  | 1 =>
    cases h1
    match c with
    | 0 => cases h2; exact ⟨fun v h => by (cases h), fun h => (by cases h)⟩
    | 1 => cases h2; exact ⟨fun v h => by (cases h), fun h => (by cases h)⟩
    | c + 2 => cases h2
  | r + 2 => cases h1

/-- The context of the demonstration with the counter done at 5, and both inputs on. -/
def counted5 : Ctx := { Demo.ctx [resettable] with
  C := some [5, 0], Cd := some [1, 1]
  input := some [{ iQty := 2, iwQty := 1, I := some [1, 1], IW := some [300], Ih := some [0, 0], IWh := some [300] }] }

/-- The hypotheses of `C75_refuted_for_ever` can be met, with a toggling reset input. -/
example (k : Nat) : ∃ w', scans Demo.env (fun i c => upd c (.I 0 1) (i % 2)) k ⟨counted5, 0, []⟩ = .ok ((), w') ∧
    load w'.ctx (.C 0) = some 5 ∧ load w'.ctx (.Cd 0) = some 1 := by
  have ha : Alike (Demo.ctx [resettable]) counted5 := by
    refine ⟨Demo.fits_of rfl, rfl, fun ℓ => ?_, rfl, rfl, rfl, rfl, rfl⟩
    cases ℓ with
    | C j => match j with | 0 | 1 => rfl | j + 2 => rfl
    | Cd j => match j with | 0 | 1 => rfl | j + 2 => rfl
    | I a b => match a with | 0 => (match b with | 0 | 1 => rfl | b + 2 => rfl) | a + 1 => rfl
    | IW a b => match a with | 0 => rfl | a + 1 => rfl
    | Ih a b => match a with | 0 => rfl | a + 1 => rfl
    | IWh a b => match a with | 0 => rfl | a + 1 => rfl
    | _ => rfl
  have hf : Flags counted5 := by
    refine Demo.flags_of fun a ha i b hb => ?_
    have : ∀ a : Arr Byte, a ∈ [counted5.Cd, counted5.Cr, counted5.Td, counted5.Tr, counted5.Cdh, counted5.Crh, counted5.Tdh, counted5.Trh] →
        ∀ l, a = some l → ∀ b ∈ l, b.toNat ≤ 1 := by decide
    obtain ⟨l, hl, hm⟩ := mem_of_at? hb
    exact this a ha l hl b hm
  exact C75_refuted_for_ever (B := Demo.ctx [resettable]) (env := Demo.env) (jobs := []) (w := ⟨counted5, 0, []⟩) resettable_well (Demo.fits_of rfl)
    Demo.still (.inl ⟨rfl, rfl⟩) rfl (fun net hn _ => by
      rw [List.mem_singleton.1 hn]
      exact ⟨Demo.diagram_of (by decide), by decide, .inl fun _ _ => rfl⟩) (fun net hn _ => by
      rw [List.mem_singleton.1 hn]
      exact resettable_apart) (between := fun i c => upd c (.I 0 1) (i % 2))
    (turn := fun i m ℓ => if ℓ = .I 0 1 then (m ℓ).map (fun _ => i % 2) else m ℓ)
    (fun i c h h' => ⟨h.upd _ _, h'.upd (by simp [isFlag]), by rw [upd_scan], by rw [upd_state]⟩)
    (fun i c m h ℓ hl => by
      by_cases e : ℓ = .I 0 1
      · subst e
        rw [if_pos rfl, ← h _ hl]
        cases hs : load c (.I 0 1) with
        | none =>
          have := isSome_load_upd (ctx := c) (ℓ := .I 0 1) (ℓ' := .I 0 1) (x := i % 2)
          rw [hs] at this
          exact Option.isNone_iff_eq_none.1 (by simpa using this)
        | some x => exact load_upd_self c _ _ (by rw [hs]; rfl) (by simp only [Loc.size]; omega)
      · rw [load_upd_ne _ _ _ _ (Ne.symm e), h ℓ hl, if_neg e]) (fun k m => ⟨rfl, rfl⟩) rfl ha hf (fun _ _ _ _ h => by cases h) ⟨rfl, rfl⟩ k

/-- **C75 is violated**, concretely: the row of the reset input passes power up to the cell left of the counter, and the counter, which the
checker accepts, keeps count and done flag. -/
theorem C75_refuted : Accepts counted5 ∧ (∃ w, scan Demo.env ⟨counted5, 0, []⟩ = .ok ((), w) ∧ load w.ctx (.cell 0 1 0) = some 1) ∧
    (∃ w, scan Demo.env ⟨counted5, 0, []⟩ = .ok ((), w) ∧ load w.ctx (.C 0) = some 5) ∧
    ∃ w, scan Demo.env ⟨counted5, 0, []⟩ = .ok ((), w) ∧ load w.ctx (.Cd 0) = some 1 :=
  ⟨accepts_of (by decide +kernel), of_leaves (by decide +kernel), of_leaves (by decide +kernel), of_leaves (by decide +kernel)⟩

end Props

end Ladder
