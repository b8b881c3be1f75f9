import Verif.Model.Print
import Verif.Spec.Print
import Verif.Lemmas.Float
import Verif.Lemmas.Json
import Verif.Props.Port

/-
Lemmas about the drawing of a program: numbers, bars and single lines.
-/

set_option autoImplicit false

namespace Ladder.Print

open Spec Ladder.Props

/-! ### Numbers -/

theorem digitChar_digit {d : Nat} (h : d < 10) : Digit (digitChar d) ∧ (digitChar d).toNat - 48 = d := by
  match d, h with
  | 0, _ | 1, _ | 2, _ | 3, _ | 4, _ | 5, _ | 6, _ | 7, _ | 8, _ | 9, _ => decide

theorem foldl_zeros (k : Nat) : (List.replicate k '0').foldl (fun a c => a * 10 + (c.toNat - 48)) 0 = 0 := by
  induction k with
  | zero => rfl
  | succ k ih => rw [List.replicate_succ, List.foldl_cons]; exact ih

theorem decimal_numeral (n : Nat) : Numeral (decimal n) n := by
  induction n using Nat.strongRecOn with
  | ind n ih =>
    rw [decimal]
    split
    · rename_i h
      obtain ⟨h1, h2⟩ := digitChar_digit h
      exact ⟨by simp, by simpa using h1, by simp [Spec.decimal, h2]⟩
    · rename_i h
      obtain ⟨-, i2, i3⟩ := ih (n / 10) (by omega)
      obtain ⟨h1, h2⟩ := digitChar_digit (d := n % 10) (by omega)
      refine ⟨by simp, ?_, ?_⟩
      · intro c hc
        rw [List.mem_append, List.mem_singleton] at hc
        rcases hc with hc | rfl
        · exact i2 c hc
        · exact h1
      · unfold Spec.decimal at i3 ⊢
        rw [List.foldl_append, i3, List.foldl_cons, List.foldl_nil, h2]
        omega

theorem zeros_numeral (w n : Nat) : Numeral (zeros w (decimal n)) n := by
  obtain ⟨h1, h2, h3⟩ := decimal_numeral n
  refine ⟨by simp [zeros, h1], ?_, ?_⟩
  · intro c hc
    rw [zeros, List.mem_append, List.mem_replicate] at hc
    rcases hc with ⟨-, rfl⟩ | hc
    · decide
    · exact h2 c hc
  · unfold Spec.decimal at h3 ⊢
    rw [zeros, List.foldl_append, foldl_zeros, h3]

theorem decimal_length {n k : Nat} (h : n < 10 ^ (k + 1)) : 1 ≤ (decimal n).length ∧ (decimal n).length ≤ k + 1 := by
  induction k generalizing n with
  | zero =>
    rw [decimal, if_pos (by omega)]
    simp
  | succ k ih =>
    rw [decimal]
    split
    · simp
    · have := ih (n := n / 10) (by rw [Nat.pow_succ] at h; omega)
      rw [List.length_append]
      simp only [List.length_singleton]
      omega

theorem zeros_length {w n k : Nat} (h : n < 10 ^ (k + 1)) (hk : k + 1 ≤ w) : (zeros w (decimal n)).length = w := by
  have := decimal_length h
  rw [zeros, List.length_append, List.length_replicate]
  omega

theorem four_numeral {x : W32} (h : x.toNat < 10000) : (four x).length = 4 ∧ Numeral (four x) x.toNat := by
  have e : x.toInt = x.toNat := by rw [BitVec.toInt_eq_toNat_cond]; split <;> omega
  have : four x = zeros 4 (decimal x.toNat) := by
    unfold four
    rw [if_neg (by omega), e, Int.toNat_natCast]
  rw [this]
  exact ⟨zeros_length (k := 3) (by omega) (by omega), zeros_numeral _ _⟩

theorem four_length {x : W32} (h1 : -1000 < x.toInt) (h2 : x.toInt < 10000) : (four x).length = 4 := by
  unfold four
  split
  · rw [List.length_cons, zeros_length (k := 2) (by omega) (by omega)]
  · rw [zeros_length (k := 3) (by omega) (by omega)]

/-! ### Lines -/

theorem fit_id {t : List Char} (h : t.length ≤ 31) : fit t = t := List.take_of_length_le h

theorem fit_ne {t : List Char} (h : t ≠ []) : fit t ≠ [] := by
  cases t with
  | nil => exact absurd rfl h
  | cons a t => simp [fit]

theorem okb {α β : Type} {x : Except UB α} {a : α} {f : α → Except UB β} (h : x = .ok a) : (x >>= f) = f a := by rw [h]; rfl

/-! ### Bars -/

theorem cell_parts {c : Ctx} {n r k : Nat} {net : Network} {x : Cell} (hn : at? c.network n = some net) (hx : cell? c n r k = some x) :
    ∃ row, at? net.cells r = some row ∧ row[k]? = some x := by
  unfold cell? at hx
  rw [hn, Option.bind_some, Option.bind_eq_some_iff] at hx
  exact hx

theorem verticalBar_eq {c : Ctx} (hg : Grids c) {n : Nat} (hn : n < c.qty.networks) (r k : Nat) :
    verticalBar c n r k = .ok (barAt c n r k) := by
  obtain ⟨net, h1, h2⟩ := hg n hn
  unfold verticalBar barAt
  rw [if_pos hn, okb (aget_eq_ok.2 h1), h1]
  split
  · rename_i h
    obtain ⟨x, hx⟩ := Option.isSome_iff_exists.1 (h2 r k h.1 h.2)
    obtain ⟨row, hr, hk⟩ := cell_parts h1 hx
    rw [okb (aget_eq_ok.2 hr), okb (aget_eq_ok (a := some row).2 hk), hx]
    simp [h.1, h.2]
  · rename_i h
    cases hx : cell? c n r k with
    | none => rfl
    | some x =>
      by_cases h3 : r < net.rows
      · have : ¬ k < net.cols := fun h4 => h ⟨h3, h4⟩
        simp [this]
      · simp [h3]

theorem barAt_beyond {c : Ctx} {n r k : Nat} {net : Network} (h : at? c.network n = some net) (hr : net.rows ≤ r) : barAt c n r k = false := by
  unfold barAt
  rw [h]
  split
  · rename_i net' x h1 h2
    cases h1
    have : ¬ r < net.rows := by omega
    simp [this]
  · rfl

theorem barBelow_eq {c : Ctx} (hg : Grids c) {n : Nat} (hn : n < c.qty.networks) {net : Network} (h : at? c.network n = some net)
    (h32 : net.rows ≤ 32) (r k : Nat) : barBelow c n r k = .ok (barAt c n (r + 1) k) := by
  unfold barBelow
  rw [okb (aget_eq_ok.2 h)]
  split
  · rw [barAt_beyond h (by omega)]
  · exact verticalBar_eq hg hn _ _

theorem pinOut_eq {c : Ctx} (hg : Grids c) {n : Nat} (hn : n < c.qty.networks) {net : Network} (h : at? c.network n = some net)
    (h32 : net.rows ≤ 32) (r k : Nat) :
    pinOut c n r k = .ok (String.ofList (wire (barAt c n r k || barAt c n (r + 1) k))) := by
  unfold pinOut
  rw [okb (verticalBar_eq hg hn r k), okb (barBelow_eq hg hn h h32 r k)]
  cases barAt c n r k <;> cases barAt c n (r + 1) k <;> rfl

theorem spaceBar_eq {c : Ctx} (hg : Grids c) {n : Nat} (hn : n < c.qty.networks) {net : Network} (h : at? c.network n = some net)
    (h32 : net.rows ≤ 32) (r k : Nat) :
    spaceBar c n r k = .ok (String.ofList [if barAt c n (r + 1) k then '|' else ' ']) := by
  unfold spaceBar
  rw [okb (barBelow_eq hg hn h h32 r k)]
  cases barAt c n (r + 1) k <;> rfl

theorem rightPin_ok {c : Ctx} (hg : Grids c) {n : Nat} (hn : n < c.qty.networks) {net : Network} (h : at? c.network n = some net)
    (h32 : net.rows ≤ 32) (r k : Nat) (b : Bool) : ∃ p, rightPin c n r k b = .ok p ∧ p.toList.length = 2 := by
  unfold rightPin
  cases b
  · refine ⟨_, pinOut_eq hg hn h h32 r k, ?_⟩
    rw [String.toList_ofList]
    cases barAt c n r k <;> cases barAt c n (r + 1) k <;> rfl
  · exact ⟨_, rfl, rfl⟩

/-! ### Operands -/

theorem isNaN_iff {x : W32} : isNaN x = false ↔ Numeric x := by
  simp only [isNaN, Numeric, Bool.and_eq_false_iff, decide_eq_false_iff_not, Classical.not_and_iff_not_or_not]

theorem ftos_ok {x : W32} (h : Numeric x) : ∃ t, ftos x = .ok t := by
  unfold ftos
  rw [isNaN_iff.2 h, if_neg Bool.false_ne_true]
  split
  · exact ⟨_, rfl⟩
  · dsimp only
    split <;> exact ⟨_, rfl⟩

/-- The text of a float of magnitude up to one million. -/
theorem ftos_amount {x : W32} (h : Numeric x) (hb : (units x).natAbs ≤ 1000000 * 2^149) : ∃ t, ftos x = .ok t ∧ t.length ≤ 11 ∧ t.length ≠ 3 ∧
    Amount t x := by
  rw [← magnitude_eq] at hb
  obtain ⟨a, b, e, h1, h2, h3, h4⟩ := ftos_parts (isNaN_iff.2 h) hb
  refine ⟨_, e, ?_⟩
  have la : 1 ≤ (decimal a).length ∧ (decimal a).length ≤ 7 := decimal_length (k := 6) (by omega)
  have lb : (zeros 2 (decimal b)).length = 2 := zeros_length (k := 1) (by omega) (by omega)
  have hd : (100 * a + b) / 100 = a ∧ (100 * a + b) % 100 = b := by omega
  have hneg : (negative x && decide (a ≠ 0)) = true ↔ units x < 0 ∧ 100 ≤ 100 * a + b := by
    rw [Bool.and_eq_true, negative_eq, decide_eq_true_eq]
    refine and_congr_right fun _ => ?_
    omega
  have key : ∃ k, fixed (negative x) a b = (if negative x && decide (a ≠ 0) then ['-'] else []) ++ decimal a ++ '.' :: zeros 2 (decimal b) ++
      List.replicate k ' ' := by
    unfold fixed
    generalize (negative x && decide (a ≠ 0)) = s
    have ls : (if s = true then ['-'] else []).length ≤ 1 := by cases s <;> decide
    have l0 : ((if s = true then ['-'] else []) ++ decimal a ++ '.' :: zeros 2 (decimal b)).length ≤ 11 := by
      simp only [List.length_append, List.length_cons, lb]
      omega
    refine ⟨min 2 (11 - ((if s = true then ['-'] else []) ++ decimal a ++ '.' :: zeros 2 (decimal b)).length), ?_⟩
    rw [List.take_append, List.take_of_length_le l0, show [' ', ' '] = List.replicate 2 ' ' from rfl, List.take_replicate, Nat.min_comm]
  obtain ⟨k, hk⟩ := key
  refine ⟨by unfold fixed; rw [List.length_take]; omega, ?_, negative x && decide (a ≠ 0), 100 * a + b, ⟨_, _, k, hk, lb, ?_, ?_⟩, ?_, hneg⟩
  · rw [hk]; simp [lb]; omega
  · rw [hd.1]; exact decimal_numeral a
  · rw [hd.2]; exact zeros_numeral 2 b
  · unfold Nearly
    rw [← magnitude_eq]
    unfold oneF at h3 h4
    omega

theorem flatLine_ok {code : Ins} {v : Value} (h : Sayable v) (b : String) : ∃ t, flatLine code v b = .ok t ∧ t ≠ [] := by
  unfold flatLine
  split
  · rename_i e
    obtain ⟨s, hs⟩ := Option.isSome_iff_exists.1 (h.1 e)
    exact ⟨_, by rw [textOf, hs]; rfl, fit_ne (by simp)⟩
  · exact ⟨_, rfl, fit_ne (by simp)⟩
  · exact ⟨_, rfl, fit_ne (by simp)⟩
  · rename_i e
    obtain ⟨t, ht⟩ := ftos_ok (h.2 e)
    exact ⟨_, by rw [ht]; rfl, fit_ne (by simp)⟩
  · split
    · exact ⟨_, rfl, fit_ne (by simp)⟩
    · exact ⟨_, rfl, fit_ne (by simp)⟩

theorem boxed_ok {v : Value} (h : Sayable v) (g : String) : ∃ t, boxed g v = .ok t := by
  unfold boxed
  split
  · rename_i e
    obtain ⟨s, hs⟩ := Option.isSome_iff_exists.1 (h.1 e)
    exact ⟨_, by rw [textOf, hs]; rfl⟩
  · exact ⟨_, rfl⟩
  · exact ⟨_, rfl⟩
  · rename_i e
    obtain ⟨t, ht⟩ := ftos_ok (h.2 e)
    exact ⟨_, by rw [ht]; rfl⟩
  · exact ⟨_, rfl⟩

theorem kind_eq (k : Reg) : kind k = label k := by cases k <;> rfl

theorem flatLine_number {code : Ins} {v : Value} (h : v.type ∉ [.S, .I, .Q, .R]) (hc : code ≠ .CONN) (b : String) :
    flatLine code v b = .ok (fit ("     ".toList ++ (label v.type).toList ++ " ".toList ++ four v.raw ++ "      ".toList ++ b.toList)) := by
  rw [← kind_eq]
  unfold flatLine
  split
  · rename_i e; simp [e] at h
  · rename_i e; simp [e] at h
  · rename_i e; simp [e] at h
  · rename_i e; simp [e] at h
  · rw [if_neg hc]

theorem flatLine_port {code : Ins} {v : Value} (h : v.type = .I ∨ v.type = .Q) (b : String) :
    flatLine code v b = .ok (fit ("     ".toList ++ (label v.type).toList ++ " ".toList ++
      (if (ports v).length = 3 then ports v ++ [' '] else ports v) ++ "      ".toList ++ b.toList)) := by
  rw [← kind_eq]
  unfold flatLine
  rcases h with h | h <;> rw [h]

theorem flatLine_conn {v : Value} (h : v.type ∉ [.S, .I, .Q, .R]) (b : String) :
    flatLine .CONN v b = .ok (fit ("                  ".toList ++ b.toList)) := by
  unfold flatLine
  split
  · rename_i e; simp [e] at h
  · rename_i e; simp [e] at h
  · rename_i e; simp [e] at h
  · rename_i e; simp [e] at h
  · rw [if_pos rfl]

theorem boxed_number {v : Value} (h : v.type ∉ [.S, .I, .Q, .R]) (g : String) :
    boxed g v = .ok ("| ".toList ++ (label v.type).toList ++ " ".toList ++ four v.raw ++ "    |".toList) := by
  rw [← kind_eq]
  unfold boxed
  split
  · rename_i e; simp [e] at h
  · rename_i e; simp [e] at h
  · rename_i e; simp [e] at h
  · rename_i e; simp [e] at h
  · rfl

theorem flatLine_real {code : Ins} {v : Value} (h : v.type = .R) {u : List Char} (hu : ftos v.raw = .ok u) (h3 : u.length ≠ 3) (b : String) :
    flatLine code v b = .ok (fit ("     RE ".toList ++ u ++ "      ".toList ++ b.toList)) := by
  unfold flatLine
  rw [h]
  show (ftos v.raw >>= _) = _
  rw [hu]
  show Except.ok (fit ("     RE ".toList ++ (if u.length = 3 then u ++ [' '] else u) ++ "      ".toList ++ b.toList)) = _
  rw [if_neg h3]

theorem boxed_real {v : Value} {t : List Char} (ht : boxed "    " v = .ok t) (h : v.type = .R) (hn : Numeric v.raw)
    (hb : (units v.raw).natAbs ≤ 1000000 * 2^149) : ∃ u, Amount u v.raw ∧
      fit ("   ".toList ++ t ++ "  ".toList) = "   | RE ".toList ++ u ++ "    |  ".toList := by
  obtain ⟨u, hu, u1, u2, u3⟩ := ftos_amount hn hb
  have e : boxed "    " v = .ok ("| RE ".toList ++ u ++ "    |".toList) := by
    unfold boxed
    rw [h]
    show (ftos v.raw >>= _) = _
    rw [hu]
    show Except.ok ("| RE ".toList ++ u ++ "    ".toList ++ "|".toList) = _
    simp
  rw [e] at ht
  have : _ = t := Except.ok.inj ht
  refine ⟨u, u3, ?_⟩
  rw [← this, fit_id (by simp; omega)]
  simp

theorem label_length (k : Reg) : (label k).toList.length = 2 := by cases k <;> rfl

theorem base_length {k : Reg} (h : k.code ≤ 4) : (base k).toList.length = 5 := by
  cases k <;> first | rfl | (exfalso; revert h; decide)

/-! ### Pictures -/

/-- What the lines below the first show: `h` rows, the first operand, and their width. -/
structure Lower (c : Ctx) (n r k : Nat) (x : Cell) (h : Nat) (ls : List (List Char)) : Prop where
  lines : ls.length = 5
  end' : ∀ i, 2 * h ≤ i + 1 → line ls i = []
  rows : ∀ j, 0 < j → j < h → line ls (2 * j - 1) ≠ []
  number : ∀ v, x.code ≠ .CONN → 0 < x.dataQty → at? x.data 0 = some v → v.type ∉ [.S, .I, .Q, .R] →
    v.raw.toNat < 10000 → ∃ t, t.length = 4 ∧ Numeral t v.raw.toNat ∧
      (h = 1 → line ls 0 = "     ".toList ++ (label v.type).toList ++ ' ' :: t ++ "      ".toList ++
        [if barAt c n (r + 1) k then '|' else ' ']) ∧
      (1 < h → line ls 0 = "   | ".toList ++ (label v.type).toList ++ ' ' :: t ++ "    |  ".toList)
  port : ∀ v, 0 < x.dataQty → at? x.data 0 = some v → v.type = .I ∨ v.type = .Q →
    h = 1 → v.raw.toNat % 256 < 10 → v.raw.toNat / 256 % 256 < 10 →
    ∃ m p, Numeral [m] (v.raw.toNat % 256) ∧ Numeral [p] (v.raw.toNat / 256 % 256) ∧
      line ls 0 = "     ".toList ++ (label v.type).toList ++ [' ', m, '.', p] ++ "       ".toList ++
        [if barAt c n (r + 1) k then '|' else ' ']
  real : ∀ v, 0 < x.dataQty → at? x.data 0 = some v → v.type = .R → (units v.raw).natAbs ≤ 1000000 * 2^149 → ∃ t, Amount t v.raw ∧
    (h = 1 → line ls 0 = "     RE ".toList ++ t ++ "      ".toList ++ [if barAt c n (r + 1) k then '|' else ' ']) ∧
    (1 < h → line ls 0 = "   | RE ".toList ++ t ++ "    |  ".toList)
  tidy : (0 < x.dataQty → ∀ i v, i < h → at? x.data i = some v →
    (timing x.code = true ∧ i = 1 ∧ v.type.code ≤ 4 ∧ -1000 < v.i32 ∧ v.i32 < 10000) ∨ ¬ (timing x.code = true ∧ i = 1) ∧ Brief v ∨
    h = 1 ∧ BriefPort v) → ∀ i, line ls i = [] ∨ (line ls i).length = 19

theorem module_eq (v : Value) : v.module = v.raw.toNat % 256 := by
  simp [Value.module, BitVec.extractLsb'_toNat]

theorem port_eq (v : Value) : v.port = v.raw.toNat / 256 % 256 := by
  simp [Value.port, BitVec.extractLsb'_toNat, Nat.shiftRight_eq_div_pow]

theorem decimal_single {n : Nat} (h : n < 10) : ∃ m, decimal n = [m] ∧ Numeral [m] n := by
  have e : decimal n = [digitChar n] := by rw [decimal, if_pos h]
  exact ⟨_, e, e ▸ decimal_numeral n⟩

theorem ports_single {v : Value} (h1 : v.raw.toNat % 256 < 10) (h2 : v.raw.toNat / 256 % 256 < 10) :
    ∃ m p, ports v = [m, '.', p] ∧ Numeral [m] (v.raw.toNat % 256) ∧ Numeral [p] (v.raw.toNat / 256 % 256) := by
  obtain ⟨m, e1, n1⟩ := decimal_single h1
  obtain ⟨p, e2, n2⟩ := decimal_single h2
  exact ⟨m, p, by rw [ports, module_eq, port_eq, e1, e2]; rfl, n1, n2⟩

theorem ports_brief {v : Value} (h : BriefPort v) : (ports v).length = 3 ∨ (ports v).length = 4 := by
  rw [ports, module_eq, port_eq, List.length_append, List.length_cons]
  rcases h.2 with ⟨h1, h2⟩ | ⟨h1, h2⟩
  · have := decimal_length (k := 0) (n := v.raw.toNat % 256) (by omega)
    have := decimal_length (k := 1) (n := v.raw.toNat / 256 % 256) (by omega)
    omega
  · have := decimal_length (k := 1) (n := v.raw.toNat % 256) (by omega)
    have := decimal_length (k := 0) (n := v.raw.toNat / 256 % 256) (by omega)
    omega

theorem line_cons_zero (t : List Char) (ls : List (List Char)) : line (t :: ls) 0 = t := rfl
theorem line_cons_succ (t : List Char) (ls : List (List Char)) (i : Nat) : line (t :: ls) (i + 1) = line ls i := rfl
theorem line_nil (i : Nat) : line [] i = [] := rfl

/-- Lines are empty or 19 characters long if those of a list are. -/
theorem lines_all {ls : List (List Char)} (h : ∀ t ∈ ls, t = [] ∨ t.length = 19) (i : Nat) : line ls i = [] ∨ (line ls i).length = 19 := by
  unfold line
  rw [List.getD_eq_getElem?_getD]
  cases e : ls[i]? with
  | none => exact .inl rfl
  | some t => exact h t (List.mem_of_getElem? e)

theorem line_empty {ls : List (List Char)} (h : ∀ t ∈ ls, t = []) (i : Nat) : line ls i = [] := by
  unfold line
  rw [List.getD_eq_getElem?_getD]
  cases e : ls[i]? with
  | none => rfl
  | some t => exact h t (List.mem_of_getElem? e)

theorem flat_ok {c : Ctx} (hg : Grids c) {n : Nat} (hn : n < c.qty.networks) {net : Network} (h : at? c.network n = some net)
    (h32 : net.rows ≤ 32) (r k : Nat) {x : Cell} (hx : 0 < x.dataQty → ∃ v, at? x.data 0 = some v ∧ Sayable v) :
    ∃ ls, flat c n r k x = .ok ls ∧ Lower c n r k x 1 ls := by
  unfold flat
  split
  · rename_i hq
    obtain ⟨v, hv, hs⟩ := hx hq
    obtain ⟨t, ht, hne⟩ := flatLine_ok (code := x.code) hs (String.ofList [if barAt c n (r + 1) k then '|' else ' '])
    rw [okb (aget_eq_ok.2 hv), okb (spaceBar_eq hg hn h h32 r k), okb ht]
    refine ⟨_, rfl, rfl, ?_, by omega, ?_, ?_, ?_, ?_⟩
    · intro i hi
      match i, hi with
      | i + 1, _ => exact line_empty (by simp) i
    · intro v' hc _ hv' ht' hb
      cases hv.symm.trans hv'
      obtain ⟨h1, h2⟩ := four_numeral hb
      rw [flatLine_number ht' hc] at ht
      refine ⟨four v.raw, h1, h2, fun _ => ?_, by omega⟩
      have hl := label_length v.type
      have : fit _ = t := Except.ok.inj ht
      rw [line_cons_zero, ← this, fit_id (by simp [h1, hl]), String.toList_ofList]
      simp
    · intro v' _ hv' ht' _ h1 h2
      cases hv.symm.trans hv'
      obtain ⟨m, p, e, n1, n2⟩ := ports_single h1 h2
      rw [flatLine_port ht'] at ht
      have hl := label_length v.type
      have : fit _ = t := Except.ok.inj ht
      refine ⟨m, p, n1, n2, ?_⟩
      rw [line_cons_zero, ← this, e, fit_id (by simp [hl]), String.toList_ofList]
      simp
    · intro v' _ hv' ht' hb
      cases hv.symm.trans hv'
      obtain ⟨u, hu, u1, u2, u3⟩ := ftos_amount (hs.2 ht') hb
      rw [flatLine_real ht' hu u2] at ht
      have : fit _ = t := Except.ok.inj ht
      refine ⟨u, u3, fun _ => ?_, by omega⟩
      rw [line_cons_zero, ← this, fit_id (by simp; omega)]
      simp
    · intro htd i
      refine lines_all ?_ i
      simp only [List.mem_cons, List.not_mem_nil, or_false]
      rintro t' (rfl | rfl | rfl | rfl | rfl) <;> try exact .inl rfl
      right
      have hl := label_length v.type
      rcases htd hq 0 v (by omega) hv with ⟨-, h0, -⟩ | ⟨-, hb⟩ | ⟨-, hb⟩
      · omega
      · have h4 := four_length hb.2.1 hb.2.2
        by_cases hc : x.code = .CONN
        · rw [hc, flatLine_conn hb.1] at ht
          have : fit _ = t' := Except.ok.inj ht
          rw [← this, String.toList_ofList, fit_id (by simp)]
          simp
        · rw [flatLine_number hb.1 hc] at ht
          have : fit _ = t' := Except.ok.inj ht
          rw [← this, String.toList_ofList, fit_id (by simp [hl, h4])]
          simp [hl, h4]
      · rw [flatLine_port hb.1] at ht
        have : fit _ = t' := Except.ok.inj ht
        rw [← this, String.toList_ofList]
        rcases ports_brief hb with h3 | h4
        · rw [if_pos h3, fit_id (by simp [hl, h3])]
          simp [hl, h3]
        · rw [if_neg (by omega), fit_id (by simp [hl, h4])]
          simp [hl, h4]
  · rename_i hq
    rw [okb (spaceBar_eq hg hn h h32 r k)]
    refine ⟨_, rfl, rfl, ?_, by omega, fun _ _ h' => absurd h' hq, fun _ h' => absurd h' hq, fun _ h' => absurd h' hq, ?_⟩
    · intro i hi
      match i, hi with
      | i + 1, _ => exact line_empty (by simp) i
    · intro _ i
      refine lines_all ?_ i
      simp only [List.mem_cons, List.not_mem_nil, or_false]
      rintro t' (rfl | rfl | rfl | rfl | rfl) <;> try exact .inl rfl
      right
      rw [String.toList_ofList, fit_id (by simp)]
      simp

theorem isTimer_eq (f : Ins) : isTimer f = timing f := by cases f <;> rfl

/-- The second operand of an instruction of two or three rows. -/
theorem second_ok {f : Ins} {w : Value} (hw : timing f = true ∨ Sayable w) :
    ∃ b, second f w = .ok b ∧
      ((timing f = true ∧ w.type.code ≤ 4 ∧ -1000 < w.i32 ∧ w.i32 < 10000) ∨ timing f = false ∧ Brief w → b.length = 14) := by
  rw [second, isTimer_eq]
  split
  · rename_i ht
    refine ⟨_, rfl, ?_⟩
    rintro (⟨-, h1, h2, h3⟩ | ⟨h, -⟩)
    · have := four_length h2 h3
      have hb := base_length h1
      simp [preset, this, hb]
    · rw [ht] at h; cases h
  · rename_i ht
    obtain ⟨b, hb⟩ := boxed_ok (hw.resolve_left ht) "    "
    refine ⟨b, hb, ?_⟩
    rintro (⟨h, -⟩ | ⟨-, h⟩)
    · exact absurd h ht
    · rw [boxed_number h.1] at hb
      have : _ = b := Except.ok.inj hb
      have h4 := four_length h.2.1 h.2.2
      have hl := label_length w.type
      rw [← this]
      simp [h4, hl]

theorem boxed_brief {g : String} {v : Value} {t : List Char} (ht : boxed g v = .ok t) (h : Brief v) : t.length = 14 := by
  rw [boxed_number h.1] at ht
  have : _ = t := Except.ok.inj ht
  have h4 := four_length h.2.1 h.2.2
  have hl := label_length v.type
  rw [← this]
  simp [h4, hl]

/-- The walls of a box with the first operand. -/
theorem boxed_first {v : Value} {t : List Char} (ht : boxed "    " v = .ok t) (h : v.type ∉ [.S, .I, .Q, .R])
    (hb : v.raw.toNat < 10000) : ∃ u, u.length = 4 ∧ Numeral u v.raw.toNat ∧
      fit ("   ".toList ++ t ++ "  ".toList) = "   | ".toList ++ (label v.type).toList ++ ' ' :: u ++ "    |  ".toList := by
  obtain ⟨h1, h2⟩ := four_numeral hb
  rw [boxed_number h] at ht
  have : _ = t := Except.ok.inj ht
  have hl := label_length v.type
  refine ⟨four v.raw, h1, h2, ?_⟩
  rw [← this, fit_id (by simp [h1, hl])]
  simp

theorem left_length (p : Prop) [Decidable p] : (if p then "   " else "---").toList.length = 3 := by split <;> rfl

theorem double_ok {c : Ctx} (hg : Grids c) {n : Nat} (hn : n < c.qty.networks) {net : Network} (h : at? c.network n = some net)
    (h32 : net.rows ≤ 32) {r : Nat} (hr : r < net.rows) (k : Nat) {x : Cell} (d : Iocd) (hx : 0 < x.dataQty → ∀ i, i < 2 →
      ∃ v, at? x.data i = some v ∧ (timing x.code = true ∧ i = 1 ∨ Sayable v)) :
    ∃ ls, double c n r k x d = .ok ls ∧ Lower c n r k x 2 ls := by
  unfold double
  rw [okb (aget_eq_ok.2 h), if_neg (by omega)]
  split
  · rename_i hq
    obtain ⟨v, hv, hs⟩ := hx hq 0 (by omega)
    obtain ⟨w, hw, hs'⟩ := hx hq 1 (by omega)
    obtain ⟨a, ha⟩ := boxed_ok (hs.resolve_left (by omega)) "    "
    obtain ⟨b, hb, hb'⟩ := second_ok (f := x.code) (w := w) (hs'.imp (·.1) id)
    obtain ⟨p, hp, hp'⟩ := rightPin_ok hg hn h h32 r k (decide (d.outputs = 1))
    rw [okb (aget_eq_ok.2 hv), okb ha, okb (aget_eq_ok.2 hw), okb hb, okb hp, okb (spaceBar_eq hg hn h h32 r k)]
    refine ⟨_, rfl, rfl, ?_, ?_, ?_, by omega, ?_, ?_⟩
    · intro i hi
      match i, hi with
      | i + 3, _ => exact line_empty (by simp) i
    · intro j h0 h2
      obtain rfl : j = 1 := by omega
      exact fit_ne (by simp only [ne_eq, List.append_eq_nil_iff, not_and]; intro h; have := left_length (d.inputs = 1); rw [h.1] at this; cases this)
    · intro v' _ _ hv' ht' hb
      cases hv.symm.trans hv'
      obtain ⟨u, u1, u2, u3⟩ := boxed_first ha ht' hb
      exact ⟨u, u1, u2, by omega, fun _ => u3⟩
    · intro v' _ hv' ht' hb
      cases hv.symm.trans hv'
      obtain ⟨u, u1, u2⟩ := boxed_real ha ht' ((hs.resolve_left (by omega)).2 ht') hb
      exact ⟨u, u1, by omega, fun _ => u2⟩
    · intro htd i
      have hl := left_length (d.inputs = 1)
      refine lines_all ?_ i
      simp only [List.mem_cons, List.not_mem_nil, or_false]
      rintro t' (rfl | rfl | rfl | rfl | rfl) <;> (try exact .inl rfl) <;> right
      · rcases htd hq 0 v (by omega) hv with ⟨-, h0, -⟩ | ⟨-, hb⟩ | ⟨h1, -⟩
        · omega
        · have := boxed_brief ha hb
          rw [fit_id (by simp [this])]
          simp [this]
        · omega
      · have : b.length = 14 := by
          apply hb'
          rcases htd hq 1 w (by omega) hw with ⟨h1, -, h2⟩ | ⟨h1, h2⟩ | ⟨h1, -⟩
          · exact .inl ⟨h1, h2⟩
          · exact .inr ⟨by simpa using h1, h2⟩
          · omega
        rw [fit_id (by simp [this, hl, hp'])]
        simp [this, hl, hp']
      · rw [String.toList_ofList, fit_id (by simp)]
        simp
  · rename_i hq
    rw [okb (spaceBar_eq hg hn h h32 r k)]
    refine ⟨_, rfl, rfl, ?_, ?_, fun _ _ h' => absurd h' hq, by omega, fun _ h' => absurd h' hq, ?_⟩
    · intro i hi
      match i, hi with
      | i + 3, _ => exact line_empty (by simp) i
    · intro j h0 h2
      obtain rfl : j = 1 := by omega
      exact (by decide : blank ≠ [])
    · intro _ i
      refine lines_all ?_ i
      simp only [List.mem_cons, List.not_mem_nil, or_false]
      rintro t' (rfl | rfl | rfl | rfl | rfl) <;> (try exact .inl rfl) <;> right <;> try rfl
      rw [String.toList_ofList, fit_id (by simp)]
      simp

theorem triple_ok {c : Ctx} (hg : Grids c) {n : Nat} (hn : n < c.qty.networks) {net : Network} (h : at? c.network n = some net)
    (h32 : net.rows ≤ 32) {r : Nat} (k : Nat) {x : Cell} (d : Iocd) (hx : 0 < x.dataQty → ∀ i, i < 3 →
      ∃ v, at? x.data i = some v ∧ (timing x.code = true ∧ i = 1 ∨ Sayable v)) (ht : timing x.code = false) :
    ∃ ls, triple c n r k x d = .ok ls ∧ (r + 3 ≤ net.rows → Lower c n r k x 3 ls) := by
  unfold triple
  rw [okb (aget_eq_ok.2 h)]
  split
  · exact ⟨_, rfl, fun _ => by omega⟩
  obtain ⟨p, hp, hp'⟩ := rightPin_ok hg hn h h32 r k (decide (d.outputs < 3))
  have hl := left_length (d.inputs < 3)
  by_cases hq : x.dataQty > 0
  · obtain ⟨u, hu, hs⟩ := hx hq 0 (by omega)
    obtain ⟨v, hv, hs'⟩ := hx hq 1 (by omega)
    obtain ⟨w, hw, hs2⟩ := hx hq 2 (by omega)
    obtain ⟨a, ha⟩ := boxed_ok (hs.resolve_left (by omega)) "    "
    obtain ⟨b, hb⟩ := boxed_ok (hs'.resolve_left (by simp [ht])) "    "
    obtain ⟨e, he⟩ := boxed_ok (hs2.resolve_left (by omega)) " "
    obtain ⟨q, hq', hq2⟩ := rightPin_ok hg hn h h32 r k (decide (d.outputs < 2))
    have hl2 := left_length (d.inputs < 2)
    unfold operands
    rw [if_pos hq, okb (aget_eq_ok.2 hu), okb ha, okb (aget_eq_ok.2 hv), okb hb, okb hq', okb (aget_eq_ok.2 hw), okb he, okb rfl, okb hp,
      okb (spaceBar_eq hg hn h h32 r k)]
    refine ⟨_, rfl, fun _ => ⟨rfl, ?_, ?_, ?_, by omega, ?_, ?_⟩⟩
    · intro i hi
      match i, hi with
      | i + 5, _ => rfl
    · intro j h0 h2
      rcases (by omega : j = 1 ∨ j = 2) with rfl | rfl
      · exact fit_ne (by simp only [ne_eq, List.append_eq_nil_iff, not_and]; intro h; rw [h.1] at hl2; cases hl2)
      · exact fit_ne (by simp only [ne_eq, List.append_eq_nil_iff, not_and]; intro h; rw [h.1] at hl; cases hl)
    · intro v' _ _ hv' ht' hb
      cases hu.symm.trans hv'
      obtain ⟨t, u1, u2, u3⟩ := boxed_first ha ht' hb
      exact ⟨t, u1, u2, by omega, fun _ => u3⟩
    · intro v' _ hv' ht' hb
      cases hu.symm.trans hv'
      obtain ⟨t, u1, u2⟩ := boxed_real ha ht' ((hs.resolve_left (by omega)).2 ht') hb
      exact ⟨t, u1, by omega, fun _ => u2⟩
    · intro htd i
      have key : ∀ {i v}, i < 3 → at? x.data i = some v → Brief v := by
        intro i v hi hv
        rcases htd hq i v hi hv with ⟨h1, -⟩ | ⟨-, h2⟩ | ⟨h1, -⟩
        · rw [ht] at h1; cases h1
        · exact h2
        · omega
      have la := boxed_brief ha (key (by omega) hu)
      have lb := boxed_brief hb (key (by omega) hv)
      have le := boxed_brief he (key (by omega) hw)
      refine lines_all ?_ i
      simp only [List.cons_append, List.nil_append, List.mem_cons, List.not_mem_nil, or_false]
      rintro t' (rfl | rfl | rfl | rfl | rfl) <;> right
      · rw [fit_id (by simp [la])]; simp [la]
      · rw [fit_id (by simp [lb, hl2, hq2])]; simp [lb, hl2, hq2]
      · rw [fit_id (by simp [le])]; simp [le]
      · rw [fit_id (by simp [hl, hp'])]; simp [hl, hp']
      · rw [String.toList_ofList, fit_id (by simp)]; simp
  · unfold operands
    rw [if_neg hq, okb rfl, okb hp, okb (spaceBar_eq hg hn h h32 r k)]
    refine ⟨_, rfl, fun _ => ⟨rfl, ?_, ?_, fun _ _ h' => absurd h' hq, by omega, fun _ h' => absurd h' hq, ?_⟩⟩
    · intro i hi
      match i, hi with
      | i + 5, _ => rfl
    · intro j h0 h2
      rcases (by omega : j = 1 ∨ j = 2) with rfl | rfl
      · exact (by decide : blank ≠ [])
      · exact fit_ne (by simp only [ne_eq, List.append_eq_nil_iff, not_and]; intro h; rw [h.1] at hl; cases hl)
    · intro _ i
      refine lines_all ?_ i
      simp only [List.cons_append, List.nil_append, List.mem_cons, List.not_mem_nil, or_false]
      rintro t' (rfl | rfl | rfl | rfl | rfl) <;> right <;> try rfl
      · rw [fit_id (by simp [hl, hp'])]; simp [hl, hp']
      · rw [String.toList_ofList, fit_id (by simp)]; simp

theorem body_ok {c : Ctx} (hg : Grids c) {n : Nat} (hn : n < c.qty.networks) {net : Network} (h : at? c.network n = some net)
    (h32 : net.rows ≤ 32) {r : Nat} (hr : r < net.rows) (k : Nat) {x : Cell} (d : Iocd) (hx : 0 < x.dataQty → ∀ i, i < d.cells → i < 3 →
      ∃ v, at? x.data i = some v ∧ (timing x.code = true ∧ i = 1 ∨ Sayable v)) (ht : timing x.code = true → d.cells = 2) :
    ∃ ls, body c n r k x d = .ok ls ∧ (1 ≤ d.cells → d.cells ≤ 3 → r + d.cells ≤ net.rows → Lower c n r k x d.cells ls) := by
  unfold body
  split
  · rename_i e
    rw [e] at hx ht ⊢
    obtain ⟨ls, h1, h2⟩ := flat_ok hg hn h h32 r k (x := x) fun hq => by
      obtain ⟨v, hv, hs⟩ := hx hq 0 (by omega) (by omega)
      exact ⟨v, hv, hs.resolve_left (by omega)⟩
    exact ⟨ls, h1, fun _ _ _ => h2⟩
  · rename_i e
    rw [e] at hx ht ⊢
    obtain ⟨ls, h1, h2⟩ := double_ok hg hn h h32 hr k d fun hq i hi => hx hq i hi (by omega)
    exact ⟨ls, h1, fun _ _ _ => h2⟩
  · rename_i e
    rw [e] at hx ht ⊢
    obtain ⟨ls, h1, h2⟩ := triple_ok hg hn h h32 (r := r) k d (fun hq i hi => hx hq i hi hi) (by
      cases hc : timing x.code with
      | false => rfl
      | true => cases ht hc)
    exact ⟨ls, h1, fun _ _ => h2⟩
  · rename_i e1 e2 e3
    refine ⟨_, rfl, fun h1 h2 _ => ?_⟩
    rcases (by omega : d.cells = 1 ∨ d.cells = 2 ∨ d.cells = 3) with h | h | h
    · exact absurd h e1
    · exact absurd h e2
    · exact absurd h e3

/-- What is known of the picture of an instruction that fits in its column. -/
structure Drawn (c : Ctx) (n r k : Nat) (x : Cell) (ls : List (List Char)) : Prop where
  depicts : Depicts c n r k x ls
  low : span c x.code (callee x) ≤ 3
  tall : 1 ≤ span c x.code (callee x)
  end' : ∀ i, 2 * span c x.code (callee x) ≤ i → line ls i = []
  rows : ∀ j, j < span c x.code (callee x) → line ls (2 * j) ≠ []
  tidy : Slim c x → ∀ i, line ls i = [] ∨ (line ls i).length = 19

theorem glyph_eq {f : Ins} (h : f ≠ .MULTI) : symbol f = .ok (glyph f) := by cases f <;> first | rfl | exact absurd rfl h

theorem glyph_length {f : Ins} : (glyph f).toList.length = 3 := by cases f <;> rfl

theorem iocd_span (c : Ctx) {f : Ins} (h : f ≠ .MULTI) (hf : f ≠ .FOREIGN) (id : Nat) : ∃ d, iocd f = .ok d ∧ d.cells = span c f id := by
  cases f <;> first | exact ⟨_, rfl, rfl⟩ | exact absurd rfl h | exact absurd rfl hf

theorem span_range (c : Ctx) {f : Ins} (hf : f ≠ .FOREIGN) (id : Nat) : 1 ≤ span c f id ∧ span c f id ≤ 3 := by
  cases f <;> first | exact absurd rfl hf | simp [span]

theorem timing_span (c : Ctx) {f : Ins} (h : timing f = true) (id : Nat) : span c f id = 2 := by
  cases f <;> first | rfl | cases h

theorem wire_eq (b : Bool) : (if b then "-+" else "--").toList = wire b := by cases b <;> rfl

/-- From the lines below the first to the whole picture. -/
theorem drawn_of {c : Ctx} {n r k : Nat} {x : Cell} {top : List Char} {ls : List (List Char)} (h0 : x.code ≠ .NOP)
    (hL : Lower c n r k x (span c x.code (callee x)) ls) (h1 : 1 ≤ span c x.code (callee x)) (h3 : span c x.code (callee x) ≤ 3)
    (hne : top ≠ []) (hl : x.code ≠ .FOREIGN → top.length = 19)
    (hflat : x.code ≠ .FOREIGN → span c x.code (callee x) = 1 →
      top = "--------".toList ++ (glyph x.code).toList ++ "------".toList ++ wire (barAt c n r k || barAt c n (r + 1) k))
    (hbox : x.code ≠ .FOREIGN → 1 < span c x.code (callee x) →
      top = "---+-".toList ++ (glyph x.code).toList ++ "--------+".toList ++ wire (barAt c n r k || barAt c n (r + 1) k)) :
    Drawn c n r k x (top :: ls) where
  depicts :=
    { lines := by simp [hL.lines]
      nop := fun h => absurd h h0
      flat := fun _ => hflat
      box := hbox
      number := fun v _ => hL.number v
      port := fun v _ => hL.port v
      real := fun v _ => hL.real v }
  low := h3
  tall := h1
  end' := fun i hi => by
    cases i with
    | zero => omega
    | succ i => exact hL.end' i hi
  rows := fun j hj => by
    cases j with
    | zero => exact hne
    | succ j => exact hL.rows (j + 1) (by omega) hj
  tidy := fun ht i => by
    cases i with
    | zero => exact .inr (hl ht.1)
    | succ i => exact hL.tidy ht.2 i

theorem picture_ok {H : Host} {c : Ctx} (P : Printable c) {n r k : Nat} (hn : n < c.qty.networks) {net : Network}
    (h : at? c.network n = some net) (h32 : net.rows ≤ 32) (hr : r < net.rows) (hk : k < net.cols) {x : Cell}
    (hx : cell? c n r k = some x) (hm : x.code ≠ .MULTI) :
    ∃ ls, picture H c n r k = .ok ([], ls) ∧ (Low c → r + span c x.code (callee x) ≤ net.rows → Drawn c n r k x ls) := by
  obtain ⟨row, hrow, hx'⟩ := cell_parts h hx
  unfold picture
  rw [okb (aget_eq_ok.2 h), okb (aget_eq_ok.2 hrow), okb (aget_eq_ok.2 (show at? (some row) k = some x from hx'))]
  have hS := P.cells n r k x ⟨hn, net, h, hr, hk⟩ hx
  have hg := P.grids
  split
  · rename_i e
    rw [okb (verticalBar_eq hg hn r k)]
    refine ⟨_, rfl, fun _ _ => ?_⟩
    have hs : span c x.code (callee x) = 1 := by rw [e]; rfl
    have e0 : fit ("                  ".toList ++ (if barAt c n r k then "+" else " ").toList)
        = List.replicate 18 ' ' ++ [if barAt c n r k then '+' else ' '] := by
      cases barAt c n r k <;> rfl
    rw [e0]
    refine ⟨⟨rfl, fun _ => rfl, fun h => absurd e h, fun _ h => by omega, fun _ h => absurd e h, fun _ h => absurd e h, fun _ h => absurd e h⟩, by omega,
      by omega, ?_, ?_, ?_⟩
    · rw [hs]
      intro i hi
      match i, hi with
      | i + 2, _ => exact line_empty (by simp) i
    · rw [hs]
      intro j hj
      obtain rfl : j = 0 := by omega
      simp [line]
    · intro _ i
      refine lines_all ?_ i
      simp only [List.mem_cons, List.not_mem_nil, or_false]
      rintro t' (rfl | rfl | rfl | rfl | rfl | rfl)
      · right; simp
      · right; rfl
      all_goals exact .inl rfl
  · rename_i e
    exact absurd e hm
  · rename_i e
    obtain ⟨hS1, hS2⟩ := hS (by rw [e]; decide) hm
    obtain ⟨⟨v, hv⟩, hf⟩ := hS2 e
    obtain ⟨f, hf⟩ := Option.isSome_iff_exists.1 hf
    have hcal : callee x = v.raw.toNat := by simp [callee, hv]
    have hs : span c x.code (callee x) = f.desc.cells := by rw [e, span, hf]; rfl
    rw [hcal] at hf
    rw [okb (aget_eq_ok.2 hv), okb (aget_eq_ok.2 hf), okb (pinOut_eq hg hn h h32 r k)]
    simp only
    split
    · rename_i hq
      exact ⟨_, rfl, fun hL => absurd (hL _ _ hf).1 (by omega)⟩
    obtain ⟨ls, h1, h2⟩ := body_ok hg hn h h32 hr k f.desc (x := x) (by rwa [← hs]) (by rw [e]; intro h; cases h)
    rw [okb h1]
    refine ⟨_, rfl, fun hL hfit => ?_⟩
    have h3 := hL _ _ hf
    rw [← hs] at h2 h3
    exact drawn_of (by rw [e]; decide) (h2 h3.2.1 h3.2.2 hfit) h3.2.1 h3.2.2 (fit_ne (by simp)) (fun h => absurd e h)
      (fun h => absurd e h) (fun h => absurd e h)
  · rename_i e0 e1 e2
    obtain ⟨hS1, -⟩ := hS e0 hm
    obtain ⟨d, hd, hs⟩ := iocd_span c hm e2 (callee x)
    rw [okb hd, okb (glyph_eq hm), okb (pinOut_eq hg hn h h32 r k)]
    obtain ⟨ls, h1, h2⟩ := body_ok hg hn h h32 hr k d (x := x) (by rwa [hs]) (fun h => hs.trans (timing_span c h _))
    simp only
    rw [okb h1]
    refine ⟨_, rfl, fun _ hfit => ?_⟩
    obtain ⟨h3, h4⟩ := span_range c e2 (callee x)
    have lg := glyph_length (f := x.code)
    have lw : ∀ b, (wire b).length = 2 := by intro b; cases b <;> rfl
    have ofw : ∀ b, (String.ofList (wire b)).toList = wire b := fun b => String.toList_ofList
    rw [hs] at h2
    refine drawn_of e0 (h2 h3 h4 hfit) h3 h4 ?_ (fun _ => ?_) (fun _ h => ?_) fun _ h => ?_
    · split <;> exact fit_ne (by simp)
    · split
      · rw [fit_id (by simp [lg, lw])]; simp [lg, lw]
      · rw [fit_id (by simp [lg, lw])]; simp [lg, lw]
    · rw [if_neg (by omega), fit_id (by simp [lg, lw]), ofw]
    · rw [if_pos (by omega), fit_id (by simp [lg, lw]), ofw]

end Ladder.Print
