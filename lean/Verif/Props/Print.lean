import Verif.Lemmas.Sheet
import Verif.Props.App
import Verif.Props.Checked
import Verif.Props.Check

/-
C86 and C87: the drawing of a program.
-/

set_option autoImplicit false

namespace Ladder
namespace Props

open Spec Print Ladder.Demo Demo

/-- What an accepted program lets the drawing rely on: its cells are stored, and so are the operands and the foreign functions. -/
theorem accepted_printable {c : Ctx} (h : Accepts c) (hw : Worded c) : Printable c where
  grids := by
    intro n hn
    obtain ⟨net, h1, h2⟩ := accepts_columns h n hn
    refine ⟨net, h1, fun r k hr hk => ?_⟩
    obtain ⟨es, -, hes⟩ := column_cells h1 (h2 k hk)
    obtain ⟨x, hx, -⟩ := hes r hr
    rw [hx]; rfl
  cells := by
    intro n r k x hin hx h0 hm
    refine ⟨fun hq i h1 h2 => ?_, fun hf => ?_⟩
    · obtain ⟨h3, h4⟩ := hw n r k x hin hx h0 hq
      obtain ⟨v, hv, -⟩ := accepts_operand h hin hx (h3 i h1 h2)
      exact ⟨v, hv, .inr (h4 i v (h3 i h1 h2) hv)⟩
    · obtain ⟨hn, net, hnet, hr, hk⟩ := hin
      obtain ⟨net', hn', hp⟩ := accepts_columns h n hn
      cases hnet.symm.trans hn'
      obtain ⟨es, -, hes⟩ := column_cells hnet (hp k hk)
      obtain ⟨y, hy, hc⟩ := hes r hr
      cases hx.symm.trans hy
      rcases checkCell_pass.1 hc with ⟨-, hm', -⟩ | ⟨-, -, -, hsp⟩
      · exact absurd hm'.1 hm
      unfold checkSpan at hsp
      rw [hf] at hsp
      simp only at hsp
      split at hsp
      · simp at hsp
      split at hsp
      · simp at hsp
      rename_i v hv
      rw [aget_eq_ok] at hv
      split at hsp
      · simp at hsp
      split at hsp
      · simp at hsp
      rename_i g hg
      rw [aget_eq_ok] at hg
      refine ⟨⟨v, hv⟩, ?_⟩
      have hcal : callee x = v.raw.toNat := by simp [callee, hv]
      rw [hcal, hg]; rfl

/-- **C86** (the drawing alone): if the cells, the operands that are shown and the foreign functions that are called are stored, strings
are there and floats are numbers, then the program is drawn without undefined behaviour, whether memory is granted or not. -/
theorem C86_prints {c : Ctx} (P : Printable c) (H : Print.Host) (alloc : Nat → Bool) : ∃ t, print H alloc c = .ok t := by
  have : ∀ n, ∃ t, n < c.qty.networks → network H (alloc n) c n = .ok t := by
    intro n
    by_cases hn : n < c.qty.networks
    · obtain ⟨t, ht⟩ := network_total (H := H) P (alloc n) hn
      exact ⟨t, fun _ => ht⟩
    · exact ⟨[], fun h => absurd h hn⟩
  exact ⟨_, networks_ok (fun n => (this n).choose) _ 0 fun i _ hi => (this i).choose_spec (by omega)⟩

/-- **C86**: an accepted program is drawn without undefined behaviour if its instructions have as many operands as their pictures show,
strings are there and floats are numbers.
Missing for the full claim: the checker does not guarantee this (`C86_refuted_text`, `C86_refuted_operands`, `C86_refuted_float`). -/
theorem C86_prints_partial {c : Ctx} (h : Accepts c) (hw : Worded c) (H : Print.Host) (alloc : Nat → Bool) : ∃ t, print H alloc c = .ok t :=
  C86_prints (accepted_printable h hw) H alloc

/-- **C86 is violated**: a move of a string that is not there is accepted, and the drawing prints a null pointer. -/
theorem C86_refuted_text : ∃ c, Full c ∧ Stored c ∧ Accepts c ∧ ∀ H, print H (fun _ => true) c = .error .nullDeref :=
  ⟨ctx [net [[ins .MOVE [op .S 0, op .D 0]], [contMark]]], full_of (by decide +kernel), stored_of (by decide +kernel),
    accepts_of (by decide +kernel), fun _ => rfl⟩

/-- **C86 is violated**: an addition with a single operand is accepted, and the drawing reads the other two behind it. -/
theorem C86_refuted_operands : ∃ c, Full c ∧ Stored c ∧ Accepts c ∧ ∀ H, print H (fun _ => true) c = .error .oob :=
  ⟨ctx [net [[ins .ADD [op .D 0]], [contMark], [contMark]]], full_of (by decide +kernel), stored_of (by decide +kernel),
    accepts_of (by decide +kernel), fun _ => rfl⟩

/-- **C86 is violated**: a move of a float that is not a number is accepted, and the drawing converts it to an integer. -/
theorem C86_refuted_float : ∃ c, Full c ∧ Stored c ∧ Accepts c ∧ ∀ H, print H (fun _ => true) c = .error .floatCast :=
  ⟨ctx [net [[ins .MOVE [op .R 0x7FC00000, op .D 0]], [contMark]]], full_of (by decide +kernel), stored_of (by decide +kernel),
    accepts_of (by decide +kernel), fun _ => rfl⟩

/-- **C87** (the drawing alone): the drawing of a program that is laid out is the sequence of the drawings of its networks.  Each cell of a
network is covered by exactly one instruction; each instruction has a picture that shows it, and at each row of a column stand the two
lines of the picture of the instruction that covers it which belong to that row. -/
theorem C87_drawing {c : Ctx} (P : Printable c) (hl : LaidOut c) (hlow : Low c) (hdim : ∀ n net, at? c.network n = some net → net.rows ≤ 32 ∧
    net.cols ≤ 255) (H : Print.Host) : ∃ text : Nat → List Char, print H (fun _ => true) c = .ok ((List.range c.qty.networks).flatMap text) ∧
    ∀ n net, n < c.qty.networks → at? c.network n = some net → ∃ (pics : Nat → Nat → List (List Char)) (shown : Nat → Nat → Nat → List Char),
      text n = sheet n net.enable net.rows net.cols shown ∧
      (∀ r k x, r < net.rows → k < net.cols → cell? c n r k = some x → x.code ≠ .MULTI → Depicts c n r k x (pics r k) ∧
        (Slim c x → ∀ i, line (pics r k) i = [] ∨ (line (pics r k) i).length = 19)) ∧
      (∀ j k, j < net.rows → k < net.cols → ∃ i, Covers c n i j k ∧ (∀ i', Covers c n i' j k → i' = i) ∧
        ∀ l, l < 2 → shown j k l = solid (line (pics i k) (2 * (j - i) + l))) := by
  have one : ∀ n, ∃ t, ∀ net, n < c.qty.networks → at? c.network n = some net → network H true c n = .ok t ∧
      ∃ (pics : Nat → Nat → List (List Char)) (shown : Nat → Nat → Nat → List Char),
      t = sheet n net.enable net.rows net.cols shown ∧
      (∀ r k x, r < net.rows → k < net.cols → cell? c n r k = some x → x.code ≠ .MULTI → Depicts c n r k x (pics r k) ∧
        (Slim c x → ∀ i, line (pics r k) i = [] ∨ (line (pics r k) i).length = 19)) ∧
      (∀ j k, j < net.rows → k < net.cols → ∃ i, Covers c n i j k ∧ (∀ i', Covers c n i' j k → i' = i) ∧
        ∀ l, l < 2 → shown j k l = solid (line (pics i k) (2 * (j - i) + l))) := by
    intro n
    rcases Nat.lt_or_ge n c.qty.networks with hn | hn
    case inr => exact ⟨[], fun _ h => absurd h (by omega)⟩
    obtain ⟨net, h, -⟩ := P.grids n hn
    obtain ⟨h32, h255⟩ := hdim n net h
    have pic : ∀ r k, ∃ ls, ∀ x, r < net.rows → k < net.cols → cell? c n r k = some x → x.code ≠ .MULTI →
        picture H c n r k = .ok ([], ls) ∧ Drawn c n r k x ls := by
      intro r k
      by_cases hh : r < net.rows ∧ k < net.cols ∧ ∃ x, cell? c n r k = some x ∧ x.code ≠ .MULTI
      · obtain ⟨hr, hk, x, hx, hm⟩ := hh
        obtain ⟨ls, h1, h2⟩ := picture_ok (H := H) P hn h h32 hr hk hx hm
        refine ⟨ls, fun y _ _ hy _ => ?_⟩
        cases hx.symm.trans hy
        obtain ⟨net', h', hfit⟩ := (hl.whole n r k x ⟨hn, net, h, hr, hk⟩ hx hm).1
        cases h.symm.trans h'
        exact ⟨h1, h2 hlow hfit⟩
      · exact ⟨[], fun x hr hk hx hm => absurd ⟨hr, hk, x, hx, hm⟩ hh⟩
    obtain ⟨shown, h1, h2⟩ := draw P hl hlow hn h h32 h255 (fun r k => (pic r k).choose) fun r k => (pic r k).choose_spec
    refine ⟨sheet n net.enable net.rows net.cols shown, fun net' _ h' => ?_⟩
    cases h.symm.trans h'
    refine ⟨h1, fun r k => (pic r k).choose, shown, rfl, fun r k x hr hk hx hm => ?_, fun j k hj hk => ?_⟩
    · have := ((pic r k).choose_spec x hr hk hx hm).2
      exact ⟨this.depicts, this.tidy⟩
    · obtain ⟨i, -, hi⟩ := covers_exists P hl hlow ⟨hn, net, h, hj, hk⟩
      exact ⟨i, hi, fun i' hi' => covers_unique hl hn h hj hk hi' hi, fun l hl' => h2 i j k l hj hk hl' hi⟩
  refine ⟨fun n => (one n).choose, ?_, fun n net hn h => ((one n).choose_spec net hn h).2⟩
  rw [List.range_eq_range']
  refine networks_ok (alloc := fun _ => true) _ _ 0 fun i _ hi => ?_
  obtain ⟨net, h, -⟩ := P.grids i (by omega)
  exact ((one i).choose_spec net (by omega) h).1

/-- **C87** (alignment): if moreover the operands are short, all pieces of the drawing are 19 characters wide, so that columns are aligned.
Missing for the full claim: longer operands (`C87_refuted_aligned`) and foreign functions. -/
theorem C87_aligned_partial {c : Ctx} (P : Printable c) (hl : LaidOut c) (hlow : Low c) (hdim : ∀ n net, at? c.network n = some net →
    net.rows ≤ 32 ∧ net.cols ≤ 255) (hs : ∀ n r k x, Within c n r k → cell? c n r k = some x → x.code ≠ .MULTI → Slim c x)
    (H : Print.Host) : ∃ text : Nat → List Char, print H (fun _ => true) c = .ok ((List.range c.qty.networks).flatMap text) ∧
    ∀ n net, n < c.qty.networks → at? c.network n = some net → ∃ shown : Nat → Nat → Nat → List Char,
      text n = sheet n net.enable net.rows net.cols shown ∧
      ∀ j k l, j < net.rows → k < net.cols → l < 2 → (shown j k l).length = 19 := by
  obtain ⟨text, h1, h2⟩ := C87_drawing P hl hlow hdim H
  refine ⟨text, h1, fun n net hn h => ?_⟩
  obtain ⟨pics, shown, h3, h4, h5⟩ := h2 n net hn h
  refine ⟨shown, h3, fun j k l hj hk hl' => ?_⟩
  obtain ⟨i, hc, -, h6⟩ := h5 j k hj hk
  obtain ⟨x, hx, hm, h7, h8⟩ := hc
  rw [h6 l hl', solid]
  have hi : i < net.rows := by omega
  rcases (h4 i k x hi hk hx hm).2 (hs n i k x ⟨hn, net, h, hi, hk⟩ hx hm) (2 * (j - i) + l) with h9 | h9
  · rw [h9]; rfl
  · rw [if_neg (fun h => by rw [h] at h9; cases h9), h9]

/-! ### Programs that can be drawn -/

instance (x : W32) : Decidable (Numeric x) := inferInstanceAs (Decidable (¬ _))
instance (v : Value) : Decidable (Sayable v) := inferInstanceAs (Decidable (_ ∧ _))

/-- Tests all cells of the networks. -/
def allCells (c : Ctx) (p : Cell → Bool) : Bool :=
  (List.range c.qty.networks).all fun n =>
    match at? c.network n with
    | none => true
    | some net => (List.range net.rows).all fun r => (List.range net.cols).all fun k =>
      match cell? c n r k with
      | none => true
      | some x => p x

theorem of_allCells {c : Ctx} {p : Cell → Bool} (h : allCells c p = true) {n r k : Nat} {x : Cell} (hw : Within c n r k)
    (hx : cell? c n r k = some x) : p x = true := by
  obtain ⟨hn, net, h1, hr, hk⟩ := hw
  have := List.all_eq_true.1 h n (List.mem_range.2 hn)
  rw [h1] at this
  have := List.all_eq_true.1 (List.all_eq_true.1 this r (List.mem_range.2 hr)) k (List.mem_range.2 hk)
  rwa [hx] at this

/-- Tests `Worded` for a cell. -/
def wordedOk (c : Ctx) (x : Cell) : Bool :=
  decide (x.code = .NOP) || decide (x.dataQty = 0) ||
    (((List.range 3).all fun i => decide (span c x.code (callee x) ≤ i) || decide (i < x.dataQty)) &&
      (List.range x.dataQty).all fun i => match at? x.data i with | none => true | some v => decide (Sayable v))

theorem worded_of {c : Ctx} (h : allCells c (wordedOk c) = true) : Worded c := by
  intro n r k x hw hx h0 hq
  have := of_allCells h hw hx
  simp only [wordedOk, Bool.or_eq_true, Bool.and_eq_true, decide_eq_true_eq, List.all_eq_true, List.mem_range] at this
  rcases this with (h1 | h1) | ⟨h1, h2⟩
  · exact absurd h1 h0
  · omega
  · refine ⟨fun i h3 h4 => ?_, fun i v hi hv => ?_⟩
    · rcases h1 i h4 with h5 | h5
      · omega
      · exact h5
    · have := h2 i hi
      rw [hv] at this
      exact of_decide_eq_true this

instance (v : Value) : Decidable (Brief v) := inferInstanceAs (Decidable (_ ∧ _))
instance (v : Value) : Decidable (BriefPort v) := inferInstanceAs (Decidable (_ ∧ _))

/-- Tests `Slim`. -/
def slimOk (c : Ctx) (x : Cell) : Bool :=
  decide (x.code = .MULTI) || decide (x.code ≠ .FOREIGN) && (decide (x.dataQty = 0) || (List.range (span c x.code (callee x))).all fun i =>
    match at? x.data i with
    | none => true
    | some v => decide ((timing x.code = true ∧ i = 1 ∧ v.type.code ≤ 4 ∧ -1000 < v.i32 ∧ v.i32 < 10000) ∨
        ¬ (timing x.code = true ∧ i = 1) ∧ Brief v ∨ span c x.code (callee x) = 1 ∧ BriefPort v))

theorem slim_of {c : Ctx} (h : allCells c (slimOk c) = true) : ∀ n r k x, Within c n r k → cell? c n r k = some x → x.code ≠ .MULTI →
    Slim c x := by
  intro n r k x hw hx hm
  have := of_allCells h hw hx
  simp only [slimOk, Bool.or_eq_true, Bool.and_eq_true, decide_eq_true_eq, List.all_eq_true, List.mem_range] at this
  rcases this with h1 | ⟨h1, h2⟩
  · exact absurd h1 hm
  · refine ⟨h1, fun hq i v hi hv => ?_⟩
    rcases h2 with h2 | h2
    · omega
    · have := h2 i hi
      rw [hv] at this
      exact of_decide_eq_true this

theorem low_demo (nets : List Network) : Low (ctx nets) := by
  intro i g h
  simp [Demo.ctx, at?] at h

/-- A program that meets the hypotheses of C86 and C87. -/
theorem checkDemo_printable : Printable checkDemo := accepted_printable checkDemo_accepted (worded_of (by decide +kernel))

example : Accepts checkDemo ∧ Worded checkDemo ∧ Printable checkDemo ∧ LaidOut checkDemo ∧ Low checkDemo ∧
    (∀ n net, at? checkDemo.network n = some net → net.rows ≤ 32 ∧ net.cols ≤ 255) ∧
    cell? checkDemo 0 2 1 = some (ins .ADD [op .D 0, op .NONE 3, op .D 1]) :=
  ⟨checkDemo_accepted, worded_of (by decide +kernel), checkDemo_printable, C64_laid_out_partial (tall_demo _) checkDemo_accepted, low_demo _,
    fun n net h => by
      match n, h with
      | 0, h => cases h; decide
      | n + 1, h => exact absurd h (by simp [checkDemo, Demo.ctx, at?]), rfl⟩

/-- The hypothesis of the alignment is met. -/
example : ∀ n r k x, Within checkDemo n r k → cell? checkDemo n r k = some x → x.code ≠ .MULTI → Slim checkDemo x :=
  slim_of (by decide +kernel)

/-- The shipped program is drawn without undefined behaviour. -/
theorem C86_shipped (H : Print.Host) (alloc : Nat → Bool) : ∃ t, print H alloc Shipped.ready = .ok t := by
  obtain ⟨s, h⟩ := Shipped.check_ok
  exact C86_prints_partial ⟨s, h⟩ (worded_of (by decide +kernel)) H alloc

/-! ### Violations -/

/-- A counter with a preset of five digits. -/
def wide : Ctx := ctx [net [[ins .NO [op .M 0], ins .CTU [op .C 0, op .NONE 10000]], [bare, contMark]]]

/-- Programs with the same pictures have the same drawing. -/
theorem print_congr {H H' : Print.Host} {c c' : Ctx} (hq : c.qty.networks = c'.qty.networks) (hn : ∀ n, n < c.qty.networks →
    ∃ net net', at? c.network n = some net ∧ at? c'.network n = some net' ∧ net.rows = net'.rows ∧ net.cols = net'.cols ∧ net.enable = net'.enable)
    (hp : ∀ n r k, picture H c n r k = picture H' c' n r k) (alloc : Nat → Bool) : print H alloc c = print H' alloc c' := by
  have cell : ∀ n cols r k s, drawCell H c n cols r k s = drawCell H' c' n cols r k s := by
    intro n cols r k s
    unfold drawCell
    rw [hp]
  have all : ∀ n cols ps s, drawAll H c n cols ps s = drawAll H' c' n cols ps s := by
    intro n cols ps
    induction ps with
    | nil => exact fun _ => rfl
    | cons p ps ih =>
      intro s
      obtain ⟨r, k⟩ := p
      simp only [drawAll, cell, ih]
  have one : ∀ n a, n < c.qty.networks → network H a c n = network H' a c' n := by
    intro n a h
    obtain ⟨net, net', h, h', e1, e2, e3⟩ := hn n h
    unfold network
    rw [okb (aget_eq_ok.2 h), okb (aget_eq_ok.2 h'), e1, e2, e3]
    simp only [all]
  have many : ∀ k n, n + k ≤ c.qty.networks → networks H alloc c n k = networks H' alloc c' n k := by
    intro k
    induction k with
    | zero => exact fun _ _ => rfl
    | succ k ih => intro n h; simp only [networks]; rw [one n _ (by omega), ih (n + 1) (by omega)]
  rw [print, print, many _ _ (by omega), hq]

/-- The pictures of a program without foreign functions do not depend on the host. -/
theorem wide_picture (n r k : Nat) : ∃ p, ∀ H, picture H wide n r k = p :=
  match n, r, k with
  | 0, 0, 0 => ⟨.ok ([], [fit ("--------".toList ++ "| |".toList ++ "------".toList ++ "--".toList),
      fit ("     ".toList ++ " M".toList ++ " ".toList ++ four 0 ++ "      ".toList ++ " ".toList), [], [], [], []]), fun _ => rfl⟩
  | 0, 0, 1 => ⟨.ok ([], [fit ("---+-".toList ++ "CTU".toList ++ "--------+".toList ++ "--".toList),
      fit ("   ".toList ++ ("| ".toList ++ " C".toList ++ " ".toList ++ four 0 ++ "    |".toList) ++ "  ".toList),
      fit ("---".toList ++ ("| ".toList ++ "--".toList ++ " ".toList ++ four 10000 ++ "    |".toList) ++ "--".toList),
      fit ("   +------------+ ".toList ++ " ".toList), [], []]), fun _ => rfl⟩
  | 0, 0, _ + 2 => ⟨.error .oob, fun _ => rfl⟩
  | 0, 1, 0 => ⟨.ok ([], [fit ("                  ".toList ++ " ".toList), Print.blank, [], [], [], []]), fun _ => rfl⟩
  | 0, 1, 1 => ⟨.ok ("MULTI\n".toList, ["---+-ERR MULTI--+--".toList, "---++++++++++++++--".toList, [], [], [], []]), fun _ => rfl⟩
  | 0, 1, _ + 2 => ⟨.error .oob, fun _ => rfl⟩
  | 0, _ + 2, _ => ⟨.error .oob, fun _ => rfl⟩
  | _ + 1, _, _ => ⟨.error .oob, fun _ => rfl⟩

theorem wide_host (H : Print.Host) : print H (fun _ => true) wide = print ⟨fun _ => []⟩ (fun _ => true) wide := by
  refine print_congr rfl (fun n hn => ?_) (fun n r k => ?_) _
  · obtain ⟨net, h⟩ : ∃ net, at? wide.network n = some net := by
      match n, hn with
      | 0, _ => exact ⟨_, rfl⟩
    exact ⟨net, net, h, h, rfl, rfl, rfl⟩
  · obtain ⟨p, hp⟩ := wide_picture n r k
    rw [hp, hp]

theorem wideOk_of {e : Except UB (List Char)} {t : List Char} (h : (match e with | .ok u => decide (u = t) | .error _ => false) = true) :
    e = .ok t := by
  cases e with
  | error _ => cases h
  | ok u => rw [of_decide_eq_true h]

set_option maxRecDepth 100000 in
/-- **C87 is violated** (alignment): a preset of five digits is wider than its box, and the rest of its line is moved to the right. -/
theorem C87_refuted_aligned : ∃ c, Full c ∧ Accepts c ∧ Printable c ∧ LaidOut c ∧ ∀ H, ∃ a b, a.length ≠ b.length ∧
    print H (fun _ => true) c = .ok ("[Network 0 (enabled)]\n\n    |".toList ++ a ++ "|\n    |      M 0000          |  C 0000    |  |\n    |".toList ++
      b ++ "|\n    |                      +------------+  |\n\n\n".toList) :=
  ⟨wide, full_of (by decide +kernel), accepts_of (by decide +kernel),
    accepted_printable (accepts_of (by decide +kernel)) (worded_of (by decide +kernel)),
    C64_laid_out_partial (tall_demo _) (accepts_of (by decide +kernel)), fun H =>
    ⟨"--------| |-----------+-CTU--------+--".toList, "                   ---| -- 10000    |--".toList, by decide,
      (wide_host H).trans (wideOk_of (by decide +kernel))⟩⟩

theorem sameOk_of {α : Type} [DecidableEq α] {e e' : Except UB α}
    (h : (match e, e' with | .ok a, .ok b => decide (a = b) | _, _ => false) = true) : e = e' := by
  match e, e', h with
  | .ok a, .ok b, h => rw [of_decide_eq_true h]

/-- A move from a float register. -/
def fromReal (i : Nat) : Ctx := ctx [net [[ins .MOVE [op .R i, op .D 0]], [contMark]]]

/-- Only pictures of foreign functions depend on the host. -/
theorem picture_host {H H' : Print.Host} {c : Ctx} {n r k : Nat} {net : Network} {row : List Cell} {x : Cell} (h1 : at? c.network n = some net)
    (h2 : at? net.cells r = some row) (h3 : row[k]? = some x) (hx : x.code ≠ .FOREIGN) : picture H c n r k = picture H' c n r k := by
  unfold picture
  rw [okb (aget_eq_ok.2 h1), okb (aget_eq_ok.2 h1), okb (aget_eq_ok.2 h2), okb (aget_eq_ok.2 h2),
    okb (aget_eq_ok.2 (show at? (some row) k = some x from h3)), okb (aget_eq_ok.2 (show at? (some row) k = some x from h3))]
  split
  · rfl
  · rfl
  · rename_i e; exact absurd e hx
  · rfl

/-- The picture of such a move does not depend on the register. -/
theorem fromReal_picture (H : Print.Host) : picture H (fromReal 1) 0 0 0 = picture H (fromReal 0) 0 0 0 := by
  rw [picture_host (H' := ⟨fun _ => []⟩) (c := fromReal 1) rfl rfl rfl (by decide), picture_host (H' := ⟨fun _ => []⟩) (c := fromReal 0) rfl rfl rfl (by decide)]
  exact sameOk_of (by decide +kernel)

theorem fromReal_print {H : Print.Host} : print H (fun _ => true) (fromReal 1) = print H (fun _ => true) (fromReal 0) := by
  refine print_congr (c := fromReal 1) (c' := fromReal 0) rfl (fun n hn => ?_) (fun n r k => ?_) _
  · match n, hn with
    | 0, _ => exact ⟨_, _, rfl, rfl, rfl, rfl, rfl⟩
  · match n, r, k with
    | 0, 0, 0 => exact fromReal_picture H
    | 0, 0, _ + 1 => exact Eq.trans (b := .error .oob) rfl rfl
    | 0, 1, 0 => exact Eq.trans (b := .ok ("MULTI\n".toList, ["---+-ERR MULTI--+--".toList, "---++++++++++++++--".toList, [], [], [], []])) rfl rfl
    | 0, 1, _ + 1 => exact Eq.trans (b := .error .oob) rfl rfl
    | 0, _ + 2, _ => exact Eq.trans (b := .error .oob) rfl rfl
    | _ + 1, _, _ => exact Eq.trans (b := .error .oob) rfl rfl

set_option maxRecDepth 100000 in
/-- **C87 is violated** (float registers): the number of a float register is drawn as if its bits were a float.  The tiny floats whose bits
are 0 and 1 have the same text, so a move from one register and a move from another have the same drawing. -/
theorem C87_refuted_registers : ∃ c c', Full c ∧ Full c' ∧ Accepts c ∧ Accepts c' ∧ (∃ v, operand? c 0 0 0 0 = some v ∧ place v = some (.R 0)) ∧
    (∃ v, operand? c' 0 0 0 0 = some v ∧ place v = some (.R 1)) ∧ ∀ H : Print.Host,
      ∃ t, print H (fun _ => true) c = .ok t ∧ print H (fun _ => true) c' = .ok t := by
  refine ⟨fromReal 0, fromReal 1, full_of (by decide +kernel), full_of (by decide +kernel), accepts_of (by decide +kernel),
    accepts_of (by decide +kernel), ⟨_, rfl, rfl⟩, ⟨_, rfl, rfl⟩, fun H => ?_⟩
  obtain ⟨t, ht⟩ := C86_prints_partial (c := fromReal 0) (accepts_of (by decide +kernel)) (worded_of (by decide +kernel)) H fun _ => true
  refine ⟨t, ht, ?_⟩
  exact fromReal_print.trans ht

/-! ### The text of a float -/

/-- **C88** (floats from -1 down and from 0 up): the text of a float of magnitude up to one million is a decimal number with two digits after
the point that differs from the float by half a hundredth, up to an error of the arithmetic of less than 1/65536 of a hundredth, and has the
sign of the float; it fits into its buffer of 12 bytes.
Missing: the sign of floats between -1 and 0, see `C88_refuted_sign`. -/
theorem C88_decimals_partial {x : W32} (hx : Numeric x) (hm : (units x).natAbs ≤ 1000000 * 2^149) (hs : 0 ≤ units x ∨ units x ≤ -2^149) :
    ∃ t h, ftos x = .ok t ∧ t.length < 12 ∧ Cents t (decide (units x < 0)) h ∧ Nearly x h := by
  obtain ⟨t, ht, hl, -, neg, h, h1, h2, h3⟩ := ftos_amount hx hm
  have : neg = decide (units x < 0) := by
    rcases hs with hs | hs
    · cases neg with
      | false => exact (decide_eq_false (by omega)).symm
      | true => have := (h3.1 rfl).1; omega
    · cases neg with
      | true => exact (decide_eq_true (h3.1 rfl).1).symm
      | false =>
        exfalso
        have : ¬ 100 ≤ h := fun h' => Bool.false_ne_true (h3.2 ⟨by omega, h'⟩)
        have hk := h2
        unfold Nearly at hk
        omega
  exact ⟨t, h, ht, by omega, this ▸ h1, h2⟩

/-- -2.5 and 0.126. -/
example : Numeric 0xC0200000#32 ∧ units 0xC0200000#32 = -5 * 2^148 ∧ ftos 0xC0200000#32 = .ok "-2.50  ".toList ∧
    Numeric 0x3E010625#32 ∧ 0 ≤ units 0x3E010625#32 ∧ ftos 0x3E010625#32 = .ok "0.13  ".toList :=
  ⟨by decide +kernel, by decide +kernel, wideOk_of (by decide +kernel), by decide +kernel, by decide +kernel, wideOk_of (by decide +kernel)⟩

/-- **C88** (large floats): beyond one million, and for the infinities, the text says overflow. -/
theorem C88_overflow {x : W32} (hx : Numeric x) (hm : 1000000 * 2^149 < (units x).natAbs) : ftos x = .ok "OVF     ".toList := by
  unfold ftos
  rw [isNaN_iff.2 hx, if_neg Bool.false_ne_true, if_pos]
  rw [magnitude_eq]
  exact hm

/-- 1000001 and minus infinity. -/
example : Numeric 0x49742410#32 ∧ units 0x49742410#32 = 1000001 * 2^149 ∧ Numeric 0xFF800000#32 ∧ 1000000 * 2^149 < (units 0xFF800000#32).natAbs :=
  ⟨by decide +kernel, by decide +kernel, by decide +kernel, by decide +kernel⟩

/-- **C88 is violated** (sign): floats between -0.99 and 0 are drawn without their sign; for example -0.5 is drawn as 0.50. -/
theorem C88_refuted_sign : (∀ x, Numeric x → units x < 0 → -99 * 2^149 < 100 * units x → ∃ t h, ftos x = .ok t ∧ Cents t false h ∧ Nearly x h) ∧
    units 0xBF000000#32 = -2^148 ∧ ftos 0xBF000000#32 = .ok "0.50  ".toList := by
  refine ⟨fun x hx h0 hb => ?_, by decide +kernel, wideOk_of (by decide +kernel)⟩
  obtain ⟨t, ht, -, -, neg, h, h1, h2, h3⟩ := ftos_amount hx (by omega)
  refine ⟨t, h, ht, ?_, h2⟩
  cases neg with
  | false => exact h1
  | true =>
    have := (h3.1 rfl).2
    unfold Nearly at h2
    omega

end Props
end Ladder
