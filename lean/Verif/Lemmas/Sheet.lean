import Verif.Lemmas.Print
import Verif.Lemmas.Json

/-
The buffer of `ladder_print`: what is drawn into it and what is shown of it.
-/

set_option autoImplicit false

namespace Ladder.Print
open Spec

theorem slot_lt {rows cols r k l : Nat} (hr : r < rows + 3) (hk : k < cols + 3) (hl : l < 2) : slot cols r k l < (rows + 3) * (cols + 3) * 2 := by
  unfold slot
  have h : (r + 1) * (cols + 3) ≤ (rows + 3) * (cols + 3) := Nat.mul_le_mul_right _ (by omega)
  rw [Nat.add_mul, Nat.one_mul] at h
  omega

theorem slot_inj {cols r k l r' k' l' : Nat} (hk : k < cols + 3) (hk' : k' < cols + 3) (hl : l < 2) (hl' : l' < 2)
    (h : slot cols r k l = slot cols r' k' l') : r = r' ∧ k = k' ∧ l = l' := by
  unfold slot at h
  have h1 : l = l' := by omega
  have h2 : r * (cols + 3) + k = r' * (cols + 3) + k' := by omega
  have h3 : r = r' := by
    have := congrArg (· / (cols + 3)) h2
    simpa [Nat.mul_comm r, Nat.mul_comm r', Nat.mul_add_div, Nat.div_eq_of_lt hk, Nat.div_eq_of_lt hk'] using this
  subst h3
  exact ⟨rfl, by omega, h1⟩

/-- What the buffer holds. -/
def held (buf : List (List Char)) (i : Nat) : List Char := buf.getD i []

theorem put_ok {buf : List (List Char)} {i : Nat} (h : i < buf.length) (t : List Char) : put buf i t = .ok (buf.set i t) := by
  rw [put, if_pos h]

theorem look_ok {buf : List (List Char)} {i : Nat} (h : i < buf.length) : look buf i = .ok (held buf i) := by
  refine aget_eq_ok.2 ?_
  show buf[i]? = _
  rw [held, List.getD_eq_getElem?_getD, List.getElem?_eq_getElem h]
  rfl

theorem held_set {buf : List (List Char)} {i : Nat} (h : i < buf.length) (t : List Char) (j : Nat) :
    held (buf.set i t) j = if i = j then t else held buf j := by
  simp only [held, List.getD_eq_getElem?_getD, List.getElem?_set]
  split
  · rename_i e
    subst e
    simp
  · rfl

/-- A cell is drawn: nothing happens if something is there already, and otherwise its picture goes to three rows. -/
theorem drawCell_ok {H : Host} {c : Ctx} {n rows cols r k : Nat} (hr : r < rows) (hk : k < cols) {s : List Char × List (List Char)}
    (hs : s.2.length = (rows + 3) * (cols + 3) * 2) {p : List Char × List (List Char)} (hp : picture H c n r k = .ok p) :
    ∃ b, drawCell H c n cols r k s = .ok b ∧ b.2.length = (rows + 3) * (cols + 3) * 2 ∧
      (held s.2 (slot cols r k 0) ≠ [] → b = s) ∧
      (held s.2 (slot cols r k 0) = [] → b.1 = s.1 ++ p.1 ∧ ∀ i j l, j < cols → l < 2 → held b.2 (slot cols i j l) =
        if j = k ∧ r ≤ i ∧ i < r + 3 then line p.2 (2 * (i - r) + l) else held s.2 (slot cols i j l)) := by
  have S : ∀ d l, d < 3 → l < 2 → slot cols (r + d) k l < (rows + 3) * (cols + 3) * 2 := fun d l hd hl =>
    slot_lt (by omega) (by omega) hl
  have S0 := fun l => S 0 l (by omega)
  have S1 := fun l => S 1 l (by omega)
  have S2 := fun l => S 2 l (by omega)
  rw [Nat.add_zero] at S0
  unfold drawCell
  rw [okb (look_ok (by rw [hs]; exact S0 0 (by omega)))]
  by_cases h0 : held s.2 (slot cols r k 0) = []
  · rw [if_neg (by simpa using h0), okb hp]
    simp only
    rw [okb (put_ok (by rw [hs]; exact S0 0 (by omega)) _), okb (put_ok (by simp only [List.length_set]; rw [hs]; exact S0 1 (by omega)) _),
      okb (put_ok (by simp only [List.length_set]; rw [hs]; exact S1 0 (by omega)) _),
      okb (put_ok (by simp only [List.length_set]; rw [hs]; exact S1 1 (by omega)) _),
      okb (put_ok (by simp only [List.length_set]; rw [hs]; exact S2 0 (by omega)) _),
      okb (put_ok (by simp only [List.length_set]; rw [hs]; exact S2 1 (by omega)) _)]
    refine ⟨_, rfl, by simp only [List.length_set]; exact hs, fun h => absurd h0 h, fun _ => ⟨rfl, ?_⟩⟩
    intro i j l hj hl
    rw [held_set (by simp only [List.length_set]; rw [hs]; exact S2 1 (by omega)),
      held_set (by simp only [List.length_set]; rw [hs]; exact S2 0 (by omega)),
      held_set (by simp only [List.length_set]; rw [hs]; exact S1 1 (by omega)),
      held_set (by simp only [List.length_set]; rw [hs]; exact S1 0 (by omega)),
      held_set (by simp only [List.length_set]; rw [hs]; exact S0 1 (by omega)),
      held_set (by rw [hs]; exact S0 0 (by omega))]
    have I : ∀ d l', d < 3 → l' < 2 → (slot cols (r + d) k l' = slot cols i j l ↔ i = r + d ∧ j = k ∧ l = l') := by
      intro d l' hd hl'
      constructor
      · intro h
        obtain ⟨h1, h2, h3⟩ := slot_inj (by omega) (by omega) hl' hl h
        exact ⟨h1.symm, h2.symm, h3.symm⟩
      · rintro ⟨rfl, rfl, rfl⟩; rfl
    have I0 := fun l => I 0 l (by omega)
    rw [Nat.add_zero] at I0
    simp only [I0 0 (by omega), I0 1 (by omega), I 1 0 (by omega) (by omega), I 1 1 (by omega) (by omega), I 2 0 (by omega) (by omega),
      I 2 1 (by omega) (by omega)]
    by_cases hc : j = k ∧ r ≤ i ∧ i < r + 3
    · rw [if_pos hc]
      obtain ⟨rfl, h1, h2⟩ := hc
      rcases (by omega : (i = r ∨ i = r + 1 ∨ i = r + 2) ∧ (l = 0 ∨ l = 1)) with ⟨rfl | rfl | rfl, rfl | rfl⟩ <;>
        simp [line, Nat.add_sub_cancel_left]
    · rw [if_neg hc]
      repeat rw [if_neg (by omega)]
  · rw [if_pos h0]
    exact ⟨_, rfl, hs, fun _ => rfl, fun h => absurd h h0⟩

theorem drawAll_append (H : Host) (c : Ctx) (n cols : Nat) (a b : List (Nat × Nat)) (s : List Char × List (List Char)) :
    drawAll H c n cols (a ++ b) s = drawAll H c n cols a s >>= drawAll H c n cols b := by
  induction a generalizing s with
  | nil => rfl
  | cons p a ih =>
    obtain ⟨r, k⟩ := p
    simp only [List.cons_append, drawAll]
    cases drawCell H c n cols r k s with
    | error e => rfl
    | ok s' => exact ih s'

/-- Drawing all cells keeps what drawing one cell keeps. -/
theorem drawAll_ok {H : Host} {c : Ctx} {n rows cols : Nat} (I : Nat → Nat → List Char × List (List Char) → Prop)
    (step : ∀ r k s, r < rows → k < cols → I r k s → ∃ s', drawCell H c n cols r k s = .ok s' ∧ I r (k + 1) s')
    (wrap : ∀ r s, r < rows → I r cols s → I (r + 1) 0 s) {s : List Char × List (List Char)} (h : I 0 0 s) :
    ∃ s', drawAll H c n cols (cells rows cols) s = .ok s' ∧ I rows 0 s' := by
  have row : ∀ r, r < rows → ∀ q, q ≤ cols → ∀ s, I r 0 s →
      ∃ s', drawAll H c n cols ((List.range q).map fun k => (r, k)) s = .ok s' ∧ I r q s' := by
    intro r hr q
    induction q with
    | zero => exact fun _ s hs => ⟨s, rfl, hs⟩
    | succ q ih =>
      intro hq s hs
      obtain ⟨s1, h1, h2⟩ := ih (by omega) s hs
      obtain ⟨s2, h3, h4⟩ := step r q s1 hr hq h2
      refine ⟨s2, ?_, h4⟩
      rw [List.range_succ, List.map_append, drawAll_append, okb h1]
      show (drawCell H c n cols r q s1 >>= fun s => .ok s) = _
      rw [okb h3]
  have all : ∀ m, m ≤ rows → ∃ s', drawAll H c n cols (cells m cols) s = .ok s' ∧ I m 0 s' := by
    intro m
    induction m with
    | zero => exact fun _ => ⟨s, rfl, h⟩
    | succ m ih =>
      intro hm
      obtain ⟨s1, h1, h2⟩ := ih (by omega)
      obtain ⟨s2, h3, h4⟩ := row m hm cols (Nat.le_refl _) s1 h2
      refine ⟨s2, ?_, wrap m s2 hm h4⟩
      rw [cells, List.range_succ, List.flatMap_append, drawAll_append]
      rw [cells] at h1
      rw [okb h1]
      simpa using h3
  exact all rows (Nat.le_refl _)

theorem blank_eq : blank = List.replicate 19 ' ' := by decide

theorem showCells_ok {buf : List (List Char)} {rows cols r l : Nat} (hb : buf.length = (rows + 3) * (cols + 3) * 2) (hr : r < rows)
    (hl : l < 2) (m k : Nat) (h : k + m ≤ cols) :
    showCells buf cols r l k m = .ok ((List.range' k m).flatMap fun k => solid (held buf (slot cols r k l))) := by
  induction m generalizing k with
  | zero => rfl
  | succ m ih =>
    rw [showCells, okb (look_ok (by rw [hb]; exact slot_lt (by omega) (by omega) hl)), okb (ih (k + 1) (by omega)), List.range'_succ,
      List.flatMap_cons, blank_eq]
    rfl

theorem showRows_ok {buf : List (List Char)} {rows cols : Nat} (hb : buf.length = (rows + 3) * (cols + 3) * 2) (m r : Nat) (h : r + m ≤ rows) :
    showRows buf cols r m = .ok ((List.range' r m).flatMap fun r => [0, 1].flatMap fun l =>
      "    |".toList ++ ((List.range cols).flatMap fun k => solid (held buf (slot cols r k l))) ++ "|\n".toList) := by
  induction m generalizing r with
  | zero => rfl
  | succ m ih =>
    rw [showRows, okb (showCells_ok hb (by omega) (by omega) cols 0 (by omega)), okb (showCells_ok hb (by omega) (by omega) cols 0 (by omega)),
      okb (ih (r + 1) (by omega)), List.range'_succ, List.flatMap_cons, List.range_eq_range']
    simp only [List.flatMap_cons, List.flatMap_nil, List.append_nil, List.append_assoc]
    rfl

theorem header (a b : List Char) (e : Bool) : a ++ b ++ " (".toList ++ (if e then "enabled" else "disabled").toList ++ ")]\n\n".toList
    = a ++ b ++ (if e then " (enabled)]\n\n" else " (disabled)]\n\n").toList := by
  have : " (".toList ++ ((if e then "enabled" else "disabled").toList ++ ")]\n\n".toList)
      = (if e then " (enabled)]\n\n" else " (disabled)]\n\n").toList := by cases e <;> decide
  rw [← this]
  simp only [List.append_assoc]

theorem sheet_eq (n : Nat) (e : Bool) (rows cols : Nat) (sh : Nat → Nat → Nat → List Char) : sheet n e rows cols sh =
    "[Network ".toList ++ decimal n ++ (if e then " (enabled)]\n\n" else " (disabled)]\n\n").toList ++
    ((List.range' 0 rows).flatMap fun r => [0, 1].flatMap fun l =>
      "    |".toList ++ ((List.range cols).flatMap fun k => sh r k l) ++ "|\n".toList) ++ "\n\n".toList := by
  rw [← List.range_eq_range']
  exact congrArg (fun t => "[Network ".toList ++ t ++ (if e then " (enabled)]\n\n" else " (disabled)]\n\n").toList ++
    ((List.range rows).flatMap fun r => [0, 1].flatMap fun l =>
      "    |".toList ++ ((List.range cols).flatMap fun k => sh r k l) ++ "|\n".toList) ++ "\n\n".toList) (toList_toString n)

/-- The drawing of a network whose pictures can be made. -/
theorem network_ok {H : Host} {c : Ctx} {n : Nat} {net : Network} (h : at? c.network n = some net) (h32 : net.rows ≤ 32) (h255 : net.cols ≤ 255)
    {s : List Char × List (List Char)} (hd : drawAll H c n net.cols (cells net.rows net.cols)
      ([], List.replicate ((net.rows + 3) * (net.cols + 3) * 2) []) = .ok s) (hb : s.2.length = (net.rows + 3) * (net.cols + 3) * 2) :
    ∃ t, network H true c n = .ok t ∧ (s.1 = [] → t = sheet n net.enable net.rows net.cols fun r k l => solid (held s.2 (slot net.cols r k l))) := by
  unfold network
  rw [okb (aget_eq_ok.2 h), if_neg (by omega)]
  rw [if_neg (by simp), okb hd, okb (showRows_ok hb net.rows 0 (by omega))]
  refine ⟨_, rfl, fun h0 => ?_⟩
  rw [h0, sheet_eq, List.append_nil, header]

/-- Every picture can be made. -/
theorem picture_total {H : Host} {c : Ctx} (P : Printable c) {n r k : Nat} (hn : n < c.qty.networks) {net : Network}
    (h : at? c.network n = some net) (h32 : net.rows ≤ 32) (hr : r < net.rows) (hk : k < net.cols) : ∃ p, picture H c n r k = .ok p := by
  obtain ⟨net', h', hc⟩ := P.grids n hn
  cases h.symm.trans h'
  obtain ⟨x, hx⟩ := Option.isSome_iff_exists.1 (hc r k hr hk)
  by_cases hm : x.code = .MULTI
  · obtain ⟨row, hrow, hx'⟩ := cell_parts h hx
    unfold picture
    rw [okb (aget_eq_ok.2 h), okb (aget_eq_ok.2 hrow), okb (aget_eq_ok.2 (show at? (some row) k = some x from hx')), hm]
    exact ⟨_, rfl⟩
  · obtain ⟨ls, h1, -⟩ := picture_ok (H := H) P hn h h32 hr hk hx hm
    exact ⟨_, h1⟩

theorem network_total {H : Host} {c : Ctx} (P : Printable c) (alloc : Bool) {n : Nat} (hn : n < c.qty.networks) :
    ∃ t, network H alloc c n = .ok t := by
  obtain ⟨net, h, -⟩ := P.grids n hn
  by_cases hb : net.rows > 32 ∨ net.cols > 255
  · unfold network
    rw [okb (aget_eq_ok.2 h), if_pos hb]
    exact ⟨_, rfl⟩
  cases alloc with
  | false =>
    unfold network
    rw [okb (aget_eq_ok.2 h), if_neg hb]
    exact ⟨_, rfl⟩
  | true =>
    obtain ⟨s, h1, h2⟩ := drawAll_ok (H := H) (c := c) (n := n) (rows := net.rows) (cols := net.cols)
      (fun _ _ s => s.2.length = (net.rows + 3) * (net.cols + 3) * 2) (fun r k s hr hk hs => by
        obtain ⟨p, hp⟩ := picture_total (H := H) P hn h (by omega) hr hk
        obtain ⟨b, h3, h4, -⟩ := drawCell_ok hr hk hs hp
        exact ⟨b, h3, h4⟩) (fun _ _ _ hs => hs) (s := ([], List.replicate ((net.rows + 3) * (net.cols + 3) * 2) [])) (by simp)
    obtain ⟨t, ht, -⟩ := network_ok h (by omega) (by omega) h1 h2
    exact ⟨t, ht⟩

theorem networks_ok {H : Host} {c : Ctx} {alloc : Nat → Bool} (f : Nat → List Char) (k n : Nat)
    (h : ∀ i, n ≤ i → i < n + k → network H (alloc i) c i = .ok (f i)) :
    networks H alloc c n k = .ok ((List.range' n k).flatMap f) := by
  induction k generalizing n with
  | zero => rfl
  | succ k ih =>
    rw [networks, okb (h n (by omega) (by omega)), okb (ih (n + 1) fun i h1 h2 => h i (by omega) (by omega)), List.range'_succ,
      List.flatMap_cons]

/-- An instruction that covers a row of its column is the only one that does. -/
theorem covers_unique {c : Ctx} (hl : LaidOut c) {n i i' j k : Nat} {net : Network} (hn : n < c.qty.networks) (h : at? c.network n = some net)
    (hj : j < net.rows) (hk : k < net.cols) (h1 : Covers c n i j k) (h2 : Covers c n i' j k) : i = i' := by
  have key : ∀ a b, Covers c n a j k → Covers c n b j k → ¬ a < b := by
    rintro a b ⟨x, hx, hm, h3, h4⟩ ⟨y, hy, hm', h5, h6⟩ hlt
    obtain ⟨-, hall⟩ := hl.whole n a k x ⟨hn, net, h, by omega, hk⟩ hx hm
    obtain ⟨z, hz, hM⟩ := hall b hlt (by omega)
    cases hy.symm.trans hz
    exact hm' hM.1
  have := key i i' h1 h2
  have := key i' i h2 h1
  omega

theorem span_pos {c : Ctx} (P : Printable c) (hlow : Low c) {n r k : Nat} {x : Cell} (hw : Within c n r k) (hx : cell? c n r k = some x)
    (hm : x.code ≠ .MULTI) : 1 ≤ span c x.code (callee x) := by
  by_cases hf : x.code = .FOREIGN
  · obtain ⟨f, hf'⟩ := Option.isSome_iff_exists.1 ((P.cells n r k x hw hx (by rw [hf]; decide) hm).foreign hf).2
    have := (hlow _ _ hf').2.1
    rw [hf, span, hf']
    exact this
  · exact (span_range c hf _).1

/-- Every cell is covered. -/
theorem covers_exists {c : Ctx} (P : Printable c) (hl : LaidOut c) (hlow : Low c) {n j k : Nat} (hw : Within c n j k) :
    ∃ i, i ≤ j ∧ Covers c n i j k := by
  obtain ⟨net, h, hc⟩ := P.grids n hw.1
  obtain ⟨net', h', hj, hk⟩ := hw.2
  cases h.symm.trans h'
  obtain ⟨x, hx⟩ := Option.isSome_iff_exists.1 (hc j k hj hk)
  by_cases hm : x.code = .MULTI
  · obtain ⟨-, r0, y, h1, h2, h3, h4⟩ := hl.owned n j k x hw hx hm
    exact ⟨r0, by omega, y, h2, h3, by omega, h4⟩
  · have := span_pos P hlow hw hx hm
    exact ⟨j, by omega, x, hx, hm, by omega, by omega⟩

/-- The buffer after the cells in front of `(m, q)` have been drawn: it holds the pictures of these, each over all its rows. -/
structure Half (c : Ctx) (n rows cols : Nat) (pics : Nat → Nat → List (List Char)) (m q : Nat) (s : List Char × List (List Char)) : Prop where
  said : s.1 = []
  size : s.2.length = (rows + 3) * (cols + 3) * 2
  done : ∀ i j k l, j < rows → k < cols → l < 2 → Covers c n i j k → i < m ∨ i = m ∧ k < q →
    held s.2 (slot cols j k l) = line (pics i k) (2 * (j - i) + l)
  todo : ∀ i j k l, j < rows → k < cols → l < 2 → Covers c n i j k → ¬ (i < m ∨ i = m ∧ k < q) → held s.2 (slot cols j k l) = []

theorem draw {H : Host} {c : Ctx} (P : Printable c) (hl : LaidOut c) (hlow : Low c) {n : Nat} {net : Network} (hn : n < c.qty.networks)
    (h : at? c.network n = some net) (h32 : net.rows ≤ 32) (h255 : net.cols ≤ 255) (pics : Nat → Nat → List (List Char))
    (hp : ∀ r k x, r < net.rows → k < net.cols → cell? c n r k = some x → x.code ≠ .MULTI →
      picture H c n r k = .ok ([], pics r k) ∧ Drawn c n r k x (pics r k)) :
    ∃ shown, network H true c n = .ok (sheet n net.enable net.rows net.cols shown) ∧ ∀ i j k l, j < net.rows → k < net.cols → l < 2 →
      Covers c n i j k → shown j k l = solid (line (pics i k) (2 * (j - i) + l)) := by
  have step : ∀ m q s, m < net.rows → q < net.cols → Half c n net.rows net.cols pics m q s →
      ∃ s', drawCell H c n net.cols m q s = .ok s' ∧ Half c n net.rows net.cols pics m (q + 1) s' := by
    intro m q s hm hq I
    obtain ⟨t, ht, hcov⟩ := covers_exists P hl hlow ⟨hn, net, h, hm, hq⟩
    obtain ⟨p, hpic⟩ := picture_total (H := H) P hn h h32 hm hq
    obtain ⟨s', h1, h2, h3, h4⟩ := drawCell_ok hm hq I.size hpic
    refine ⟨s', h1, ?_⟩
    rcases Nat.lt_or_eq_of_le ht with hlt | rfl
    · -- covered from above: the cell is skipped
      have hne : held s.2 (slot net.cols m q 0) ≠ [] := by
        rw [I.done t m q 0 hm hq (by omega) hcov (.inl hlt)]
        obtain ⟨x, hx, hx', h5, h6⟩ := hcov
        exact (hp t q x (by omega) hq hx hx').2.rows (m - t) (by omega)
      rw [h3 hne]
      have hno : ∀ i j, j < net.rows → Covers c n i j q → i ≠ m := by
        rintro i j hj ⟨x, hx, hx', h5, h6⟩ rfl
        have := span_pos P hlow ⟨hn, net, h, hm, hq⟩ hx hx'
        have := covers_unique hl hn h hm hq hcov ⟨x, hx, hx', Nat.le_refl _, by omega⟩
        omega
      refine ⟨I.said, I.size, ?_, ?_⟩
      · intro i j k l hj hk hl' hc hd
        refine I.done i j k l hj hk hl' hc ?_
        rcases hd with hd | ⟨rfl, hd⟩
        · exact .inl hd
        · rcases Nat.lt_or_eq_of_le (Nat.le_of_lt_succ hd) with hd | rfl
          · exact .inr ⟨rfl, hd⟩
          · exact absurd rfl (hno _ _ hj hc)
      · intro i j k l hj hk hl' hc hd
        exact I.todo i j k l hj hk hl' hc (by omega)
    · -- an instruction begins here
      obtain ⟨x, hx, hx', h5, h6⟩ := id hcov
      obtain ⟨h7, hD⟩ := hp t q x hm hq hx hx'
      cases hpic.symm.trans h7
      obtain ⟨h8, h9⟩ := h4 (I.todo t t q 0 hm hq (by omega) hcov (by omega))
      refine ⟨by rw [h8, I.said]; rfl, h2, ?_, ?_⟩
      · intro i j k l hj hk hl' hc hd
        rw [h9 j k l hk hl']
        by_cases hkq : k = q
        · subst hkq
          by_cases hi : i = t
          · subst hi
            obtain ⟨y, hy, -, h10, h11⟩ := hc
            cases hx.symm.trans hy
            have := hD.low
            rw [if_pos ⟨rfl, h10, by omega⟩]
          · have hit : i < t := by omega
            have : j < t := by
              obtain ⟨y, hy, hy', h10, h11⟩ := id hc
              apply Nat.lt_of_not_le
              intro hge
              have := covers_unique hl hn h hm hq hcov ⟨y, hy, hy', by omega, by omega⟩
              omega
            rw [if_neg (by omega)]
            exact I.done i j k l hj hk hl' hc (.inl hit)
        · rw [if_neg (fun h => hkq h.1)]
          exact I.done i j k l hj hk hl' hc (by omega)
      · intro i j k l hj hk hl' hc hd
        rw [h9 j k l hk hl']
        split
        · rename_i hh
          obtain ⟨rfl, h10, h11⟩ := hh
          apply hD.end'
          apply Nat.le_of_not_lt
          intro hlt
          have := covers_unique hl hn h hj hk hc ⟨x, hx, hx', h10, by omega⟩
          omega
        · exact I.todo i j k l hj hk hl' hc (by omega)
  have start : Half c n net.rows net.cols pics 0 0 ([], List.replicate ((net.rows + 3) * (net.cols + 3) * 2) []) := by
    refine ⟨rfl, by simp, fun i j k l _ _ _ _ h => by omega, fun i j k l _ _ _ _ _ => ?_⟩
    simp only [held, List.getD_eq_getElem?_getD, List.getElem?_replicate]
    split <;> rfl
  obtain ⟨s, h1, I⟩ := drawAll_ok (Half c n net.rows net.cols pics) step (fun r s hr I => ⟨I.said, I.size,
    fun i j k l hj hk hl' hc hd => I.done i j k l hj hk hl' hc (by omega),
    fun i j k l hj hk hl' hc hd => I.todo i j k l hj hk hl' hc (by omega)⟩) start
  obtain ⟨t, ht, he⟩ := network_ok h h32 h255 h1 I.size
  refine ⟨_, ht.trans (congrArg _ (he I.said)), ?_⟩
  intro i j k l hj hk hl' hc
  have : i < net.rows := by
    obtain ⟨-, -, -, h5, -⟩ := hc
    omega
  exact congrArg solid (I.done i j k l hj hk hl' hc (.inl this))

end Ladder.Print
