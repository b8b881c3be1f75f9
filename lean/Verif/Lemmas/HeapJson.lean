import Verif.Lemmas.HeapCell
import Verif.Lemmas.JsonDoc

/-
Ownership accounting for the loader.
-/

namespace Ladder.Heap

open Ladder (Ins Json Host member strMember insOf tableQty u32OfDouble)
open Ladder.Spec (Ranged Number Member)

theorem walkWhile_runs {ι α : Type} {f : ι → α → H (Bool × α)} {I : ι → Prop} {P W Q : α → Prop} {B : α → Bag}
    (hw : ∀ x, P x → W x)
    (hf : ∀ j x, I j → P x → ∀ (h : Store) (R : Bag), Fits h (fun a => B x a + R a) →
      Runs (f j x) h fun r h' => W r.2 ∧ (r.1 = true → Q r.2) ∧ Fits h' fun a => B r.2 a + R a) (b : Nat) :
    ∀ (js : List ι) (xs : List α), (∀ j ∈ js, I j) → (∀ x ∈ xs, P x) → js.length = xs.length →
    ∀ (h : Store) (R : Bag), Fits h (fun a => sumBag B xs a + (one b a + R a)) →
    Runs (walkWhile (fun j x => do touch (some b); f j x) js xs) h fun r h' =>
      r.2.length = xs.length ∧ (∀ y ∈ r.2, W y) ∧ (r.1 = true → ∀ y ∈ r.2, Q y) ∧
        Fits h' fun a => sumBag B r.2 a + (one b a + R a)
  | [], [], _, _, _, h, R, f0 => .pure ⟨rfl, by simp, by simp, f0⟩
  | [], _ :: _, _, _, hl, _, _, _ => by simp at hl
  | _ :: _, [], _, _, hl, _, _, _ => by simp at hl
  | j :: js, x :: xs, hi, hp, hl, h, R, f0 => by
    unfold walkWhile
    refine Runs.bind (Q := fun r h' => W r.2 ∧ (r.1 = true → Q r.2) ∧
      Fits h' fun a => B r.2 a + (sumBag B xs a + (one b a + R a))) ?_ ?_
    · refine Runs.keep (touch_runs f0 (b := b) (by simp [one_self]; omega)) ?_
      refine hf j x (hi j (by simp)) (hp x (by simp)) _ _ (f0.congr fun a => ?_)
      simp only [sumBag]; omega
    · rintro ⟨ok, y⟩ h1 ⟨wy, qy, f1⟩
      simp only at wy qy f1
      cases ok with
      | false =>
        refine .pure ⟨by simp, ?_, by simp, f1.congr fun a => by simp only [sumBag]; omega⟩
        intro z hz
        rcases List.mem_cons.1 hz with rfl | hz
        · exact wy
        · exact hw z (hp z (by simp [hz]))
      | true =>
        refine (walkWhile_runs hw hf b js xs (fun z hz => hi z (by simp [hz])) (fun z hz => hp z (by simp [hz]))
          (by simpa using hl) h1 (fun a => B y a + R a) (f1.congr fun a => by omega)).bind ?_
        rintro ⟨r, ys⟩ h2 ⟨hl2, wys, qys, f2⟩
        simp only at hl2 wys qys f2
        refine .pure ⟨by simp [hl2], ?_, fun hr => ?_, f2.congr fun a => by simp only [sumBag]; omega⟩
        · intro z hz
          rcases List.mem_cons.1 hz with rfl | hz
          · exact wy
          · exact wys z hz
        · intro z hz
          rcases List.mem_cons.1 hz with rfl | hz
          · exact qy rfl
          · exact qys hr z hz

theorem ArrOk.mono {α : Type} {n : Nat} {P Q : α → Prop} {a : Option (Nat × List α)} (h : ArrOk n P a)
    (hq : ∀ x, P x → Q x) : ArrOk n Q a := by
  cases a with
  | none => exact h
  | some bx => exact ⟨h.1, fun x hx => hq x (h.2 x hx)⟩

theorem eachWhile_runs {ι α : Type} {f : ι → α → H (Bool × α)} {I : ι → Prop} {P W Q : α → Prop} {B : α → Bag}
    (hw : ∀ x, P x → W x)
    (hf : ∀ j x, I j → P x → ∀ (h : Store) (R : Bag), Fits h (fun a => B x a + R a) →
      Runs (f j x) h fun r h' => W r.2 ∧ (r.1 = true → Q r.2) ∧ Fits h' fun a => B r.2 a + R a)
    {js : List ι} (hi : ∀ j ∈ js, I j) {arr : Option (Nat × List α)} (ha : ArrOk js.length P arr) {h : Store} {R : Bag}
    (f0 : Fits h fun a => arrBag B arr a + R a) :
    Runs (eachWhile f js arr) h fun r h' => ptrOf r.2 = ptrOf arr ∧ ArrOk js.length W r.2 ∧
      (r.1 = true → ArrOk js.length Q r.2) ∧ Fits h' fun a => arrBag B r.2 a + R a := by
  unfold eachWhile
  cases js with
  | nil =>
    rw [if_pos rfl]
    refine .pure ⟨rfl, ha.mono hw, fun _ => ?_, f0⟩
    cases arr with
    | none => rfl
    | some bx =>
      obtain ⟨b, xs⟩ := bx
      have : xs = [] := List.eq_nil_of_length_eq_zero ha.1
      subst this
      exact ⟨rfl, by simp⟩
  | cons j js =>
    rw [if_neg (by simp)]
    cases arr with
    | none => simp [ArrOk] at ha
    | some bx =>
      obtain ⟨b, xs⟩ := bx
      refine (walkWhile_runs hw hf b (j :: js) xs hi ha.2 ha.1.symm h R
        (f0.congr fun a => by simp only [arrBag]; omega)).bind ?_
      rintro ⟨r, ys⟩ h1 ⟨hl, wys, qys, f1⟩
      simp only at hl wys qys f1
      exact .pure ⟨rfl, ⟨hl.trans ha.1, wys⟩, fun hr => ⟨hl.trans ha.1, qys hr⟩,
        f1.congr fun a => by simp only [arrBag]; omega⟩

/-- A cell as the loader leaves it: an operand array has at least one entry. -/
def Neat (x : Cell) : Prop := x.data.isSome → 0 < x.qty ∧ ArrOk x.qty (fun _ => True) x.data

theorem Neat.ok {x : Cell} (h : Neat x) : CellOk x := fun hd => (h hd).2
theorem Bare.neat {x : Cell} (h : Bare x) : Neat x := fun hd => by rw [show x.data = none from h] at hd; cases hd

def NeatNet (x : Net) : Prop := ArrOk x.rows (ArrOk x.cols Neat) x.cells

theorem NeatNet.ok {x : Net} (h : NeatNet x) : NetOk x := h.mono fun _ hr => hr.mono fun _ => Neat.ok

theorem loadOperand_runs (p : Policy) (host : Host) (code : Ins) (j : Json × Nat) {q : Ptr} (hq : q = none) {h : Store}
    {R : Bag} (f0 : Fits h fun a => ptrBag q a + R a) :
    Runs (loadOperand p host code j q) h fun r h' => Fits h' fun a => ptrBag r.2 a + R a := by
  subst hq
  unfold loadOperand
  split
  · exact .pure f0
  · split
    · refine (alloc_runs p (R := R) (f0.congr fun a => by simp [ptrBag])).bind ?_
      rintro q h1 ⟨f1, -, -⟩
      exact .pure f1
    · exact .pure f0

theorem loadOperands_runs (p : Policy) (host : Host) (l : List Json) {x : Cell} (hx : Bare x)
    (hm : x.code = .MULTI → host.beyond ≠ none) {h : Store} {R : Bag} (f0 : Fits h fun a => cellBag x a + R a) :
    Runs (loadOperands p host l x) h fun r h' => Neat r.2 ∧ Fits h' fun a => cellBag r.2 a + R a := by
  have hx' : x.data = none := hx
  have fR : Fits h R := f0.congr fun a => by simp [cellBag, hx', arrBag]
  unfold loadOperands
  obtain ⟨q, hq⟩ : ∃ q, tableQty host x.code = .ok q := by
    by_cases hc : x.code = .MULTI
    · unfold tableQty
      split
      · exact ⟨_, rfl⟩
      · split
        · rename_i hb
          exact absurd hb (hm hc)
        · exact ⟨_, rfl⟩
    · exact ⟨_, tableQty_operands hc⟩
  rw [hq]
  refine Runs.bind (Q := fun q' h' => q' = q ∧ h' = h) (.pure ⟨rfl, rfl⟩) ?_
  rintro q' h' ⟨eq, eh⟩
  subst eq eh
  split
  · exact .pure ⟨hx.neat, f0⟩
  split
  · refine .pure ⟨Bare.neat hx, f0⟩
  rename_i h0
  refine (alloc_runs p fR).bind ?_
  rintro s h1 ⟨f1, -, -⟩
  cases s with
  | none =>
    refine .pure ⟨Bare.neat rfl, f1.congr fun a => ?_⟩
    simp [cellBag, arrBag, ptrBag]
  | some b =>
    refine (eachWhile_runs (I := fun _ => True) (P := fun q => q = none) (W := fun _ => True) (Q := fun _ => True)
      (B := ptrBag) (R := R) (arr := some (b, List.replicate l.length none)) (fun _ _ => trivial) ?_
      (fun _ _ => trivial) ?_ (f1.congr fun a => ?_)).bind ?_
    · intro j q _ hq h R fh
      exact (loadOperand_runs p host x.code j hq fh).mono fun r h' hr => ⟨trivial, fun _ => trivial, hr⟩
    · refine ⟨by simp, fun q hq => (List.mem_replicate.1 hq).2⟩
    · have : sumBag ptrBag (List.replicate l.length none) a = 0 := sumBag_replicate (fun a => rfl) _ _
      simp only [arrBag, this, ptrBag]
      omega
    · rintro ⟨ok, data⟩ h2 ⟨hp, hk, -, f2⟩
      simp only at hp hk f2
      have hk' : ArrOk l.length (fun _ => True) data := by simpa using hk
      have hneat : Neat { x with qty := l.length, data := data } := fun _ => ⟨by simp only; omega, hk'⟩
      cases ok with
      | true => exact .pure ⟨hneat, f2⟩
      | false =>
        refine (dropData_cell _ hneat.ok h2 R f2).bind ?_
        rintro y h3 ⟨⟨-, hd, -⟩, f3⟩
        exact .pure ⟨Bare.neat hd, f3⟩

theorem loadCell_runs (p : Policy) (host : Host) {j : Json}
    (hj : ∀ ms, j = .obj ms → Member "symbol" (.str "occupied") ms → host.beyond ≠ none) {x : Cell} (hx : Bare x)
    {h : Store} {R : Bag} (f0 : Fits h fun a => cellBag x a + R a) :
    Runs (loadCell p host j x) h fun r h' => Neat r.2 ∧ Fits h' fun a => cellBag r.2 a + R a := by
  unfold loadCell
  split
  case h_2 => exact .pure ⟨hx.neat, f0⟩
  rename_i ms
  split
  · exact .pure ⟨hx.neat, f0⟩
  rename_i s hs
  split
  · exact .pure ⟨hx.neat, f0⟩
  have hx' : Bare { x with code := insOf s } := hx
  dsimp only
  split
  · split
    · refine loadOperands_runs p host _ hx' ?_ f0
      intro hm
      refine hj ms rfl ?_
      have : s = "occupied" := insOf_multi hm
      rw [← this]
      exact strMember_iff.1 hs
    · exact .pure ⟨hx'.neat, f0⟩
  · exact .pure ⟨hx'.neat, f0⟩

/-- The continuation cells of a row can be read. -/
def Readable (host : Host) (j : Json) : Prop :=
  ∀ cells x, j = .arr cells → x ∈ cells → ∀ xs, x = .obj xs → Member "symbol" (.str "occupied") xs → host.beyond ≠ none

theorem loadRow_runs (p : Policy) (host : Host) (cols : Nat) {j : Json} (hj : Readable host j) {row : Row}
    (hr : ArrOk cols Bare row) {h : Store} {R : Bag} (f0 : Fits h fun a => rowBag row a + R a) :
    Runs (loadRow p host cols j row) h fun r h' => ArrOk cols Neat r.2 ∧ Fits h' fun a => rowBag r.2 a + R a := by
  unfold loadRow
  split
  case h_2 => exact .pure ⟨hr.mono fun _ => Bare.neat, f0⟩
  rename_i l
  split
  · rename_i hl
    subst hl
    refine (eachWhile_runs (I := fun y => ∀ ms, y = .obj ms → Member "symbol" (.str "occupied") ms → host.beyond ≠ none)
      (P := Bare) (W := Neat) (Q := Neat) (B := cellBag) (R := R) (fun _ => Bare.neat) ?_ ?_ hr f0).mono ?_
    · intro y x hy hx h R fh
      exact (loadCell_runs p host hy hx fh).mono fun r h' hr => ⟨hr.1, fun _ => hr.1, hr.2⟩
    · exact fun y hy ms e => hj l y rfl hy ms e
    · rintro r h' ⟨-, hw, -, f'⟩
      exact ⟨hw, f'⟩
  · exact .pure ⟨hr.mono fun _ => Bare.neat, f0⟩

theorem releaseCell_does : Does releaseCell Neat cellBag (fun _ _ => True) (fun _ _ => 0) := by
  intro x hx h R hh
  unfold releaseCell
  split
  · exact (dropData_does x hx.ok h R hh).mono fun y h' hy => ⟨trivial, hy.2⟩
  · refine .pure ⟨trivial, hh.congr fun a => ?_⟩
    cases hd : x.data with
    | none => simp [cellBag, hd, arrBag]
    | some d =>
      have := (hx (by simp [hd])).1
      omega

theorem releaseNet_does : Does releaseNet NeatNet netBag (fun _ y => y = {}) (fun _ _ => 0) := by
  intro x hx h R hh
  have hd : Does (fun row => do
      let row ← each releaseCell x.cols row
      free (ptrOf row)
      pure row) (ArrOk x.cols Neat) rowBag (fun _ _ => True) (fun _ _ => 0) := by
    intro row hrow h R hh
    refine (each_does releaseCell_does x.cols row hrow h R hh).bind ?_
    rintro y h' ⟨-, fy⟩
    refine (free_runs (q := ptrOf y) (R := R) (fy.congr fun a => ?_)).bind fun _ h'' f'' =>
      .pure ⟨trivial, f''.congr fun a => by simp⟩
    cases y with
    | none => rfl
    | some by_ => simp [arrBag, ptrOf, ptrBag, sumBag_zero]
  refine (each_does hd x.rows x.cells hx h R hh).bind ?_
  rintro y h' ⟨-, fy⟩
  refine (free_runs (q := ptrOf y) (R := R) (fy.congr fun a => ?_)).bind fun _ h'' f'' =>
    .pure ⟨rfl, f''.congr fun a => by simp⟩
  cases y with
  | none => rfl
  | some by_ => simp [arrBag, ptrOf, ptrBag, sumBag_zero]

theorem newRow_runs (p : Policy) (cols : Nat) {u : Unit} {row : Row} (hr : row = none) {h : Store} {R : Bag}
    (f0 : Fits h fun a => rowBag row a + R a) :
    Runs (newRow p cols u row) h fun r h' => (r.2.isSome = r.1) ∧ (r.2.isSome → ArrOk cols Bare r.2) ∧
      (∀ a, rowBag r.2 a = ptrBag (ptrOf r.2) a) ∧ Fits h' fun a => rowBag r.2 a + R a := by
  subst hr
  unfold newRow
  refine (alloc_runs p (R := R) (f0.congr fun a => by simp [rowBag, arrBag])).bind ?_
  rintro q h1 ⟨f1, -, -⟩
  cases q with
  | none => exact .pure ⟨rfl, by simp, fun _ => rfl, f1⟩
  | some b =>
    have hz : ∀ a, sumBag cellBag (List.replicate cols {}) a = 0 := fun a => sumBag_replicate (fun a => rfl) _ _
    refine .pure ⟨rfl, fun _ => ⟨by simp, fun x hx => ?_⟩, fun a => ?_, f1.congr fun a => ?_⟩
    · rw [(List.mem_replicate.1 hx).2]; rfl
    · simp only [rowBag, Option.map_some, arrBag, hz, ptrOf, ptrBag]; omega
    · simp only [rowBag, Option.map_some, arrBag, hz, ptrBag]; omega

theorem fillGrid_runs (p : Policy) (host : Host) {l : List Json} (hl : ∀ j ∈ l, Readable host j) {x : Net}
    (hx : ArrOk x.rows (ArrOk x.cols Bare) x.cells) (hr : x.rows = l.length) {h : Store} {R : Bag}
    (f0 : Fits h fun a => netBag x a + R a) :
    Runs (fillGrid p host l x) h fun r h' => NeatNet r.2 ∧ Fits h' fun a => netBag r.2 a + R a := by
  unfold fillGrid
  rw [hr] at hx
  refine (eachWhile_runs (I := Readable host) (P := ArrOk x.cols Bare) (W := ArrOk x.cols Neat) (Q := ArrOk x.cols Neat)
    (B := rowBag) (R := R) (fun _ h => h.mono fun _ => Bare.neat) ?_ hl hx f0).bind ?_
  · intro j row hj hrow h R fh
    exact (loadRow_runs p host x.cols hj hrow fh).mono fun r h' hr => ⟨hr.1, fun _ => hr.1, hr.2⟩
  · rintro ⟨ok, cells⟩ h1 ⟨-, hw, -, f1⟩
    simp only at hw f1
    have hn : NeatNet { x with cells := cells } := by
      show ArrOk x.rows _ _
      rw [hr]
      exact hw
    cases ok with
    | true => exact .pure ⟨hn, f1⟩
    | false =>
      refine (releaseNet_does _ hn h1 R f1).bind ?_
      rintro y h2 ⟨rfl, f2⟩
      exact .pure ⟨rfl, f2.congr fun a => by simp [netBag, arrBag]⟩

theorem loadGrid_runs (p : Policy) {t : Policy} (ht : ∀ k, t.grow k = true) (host : Host) {rows : Nat} (cols : Nat)
    {data : Option Json} (hd : 0 < rows → ∃ l, data = some (.arr l) ∧ l.length = rows)
    (hl : ∀ l, data = some (.arr l) → ∀ j ∈ l, Readable host j) {h : Store} {R : Bag} (f0 : Fits h R) :
    Runs (loadGrid p t host rows cols data) h fun r h' => NeatNet r.2 ∧ Fits h' fun a => netBag r.2 a + R a := by
  have empty : ∀ {h : Store}, Fits h R → (0 < rows → False) → Runs (pure (false, { rows := rows, cols := cols }) : H (Bool × Net)) h
      fun r h' => NeatNet r.2 ∧ Fits h' fun a => netBag r.2 a + R a := by
    intro h f hz
    refine .pure ⟨?_, f.congr fun a => by simp [netBag, arrBag]⟩
    exact Nat.eq_zero_of_not_pos hz
  unfold loadGrid
  split
  case h_2 hno =>
    refine empty f0 fun hz => ?_
    obtain ⟨l, e, -⟩ := hd hz
    exact hno l e
  rename_i l
  split
  · rename_i hne
    refine empty f0 fun hz => ?_
    obtain ⟨l', e, hl'⟩ := hd hz
    cases e
    exact hne hl'.symm
  rename_i hrows
  have hrows : rows = l.length := Classical.not_not.1 hrows
  refine (alloc_runs t f0).bind ?_
  rintro q h1 ⟨f1, hq, -⟩
  rw [ht] at hq
  cases q with
  | none => cases hq
  | some b =>
    have hz : ∀ a, sumBag rowBag (List.replicate rows none) a = 0 := fun a => sumBag_replicate (fun a => rfl) _ _
    refine (eachWhile_runs (I := fun _ => True) (P := fun row => row = none)
      (W := fun row => (row.isSome → ArrOk cols Bare row) ∧ ∀ a, rowBag row a = ptrBag (ptrOf row) a)
      (Q := fun row => ArrOk cols Bare row) (B := rowBag) (R := R) ?_ ?_ (fun _ _ => trivial)
      (arr := some (b, List.replicate rows none)) ?_ (f1.congr fun a => ?_)).bind ?_
    · rintro row rfl
      exact ⟨by simp, fun _ => rfl⟩
    · intro u row _ hrow h R fh
      refine (newRow_runs p cols hrow fh).mono ?_
      rintro ⟨ok, row'⟩ h' ⟨e1, e2, e3, f'⟩
      exact ⟨⟨e2, e3⟩, fun hok => e2 (e1.trans hok), f'⟩
    · refine ⟨by simp, fun row hrow => (List.mem_replicate.1 hrow).2⟩
    · simp only [arrBag, hz, ptrBag]; omega
    · rintro ⟨ok, cells⟩ h2 ⟨hp, hw, hq, f2⟩
      simp only [List.length_replicate] at hp hw hq f2
      cases ok with
      | true =>
        exact fillGrid_runs p host (hl l rfl) (x := { rows := rows, cols := cols, cells := cells }) (hq rfl) hrows f2
      | false =>
        have hfree : Does (fun row : Row => do free (ptrOf row); pure row)
            (fun row => (row.isSome → ArrOk cols Bare row) ∧ ∀ a, rowBag row a = ptrBag (ptrOf row) a) rowBag
            (fun _ _ => True) (fun _ _ => 0) := by
          intro row hrow h R hh
          exact (free_runs (q := ptrOf row) (R := R) (hh.congr fun a => by rw [hrow.2])).bind fun _ h'' f'' =>
            .pure ⟨trivial, f''.congr fun a => by simp⟩
        refine (each_does hfree rows cells hw h2 R f2).bind ?_
        rintro y h3 ⟨-, f3⟩
        refine (free_runs (q := ptrOf y) (R := R) (f3.congr fun a => ?_)).bind fun _ h4 f4 =>
          .pure ⟨rfl, f4.congr fun a => by simp [netBag, arrBag]⟩
        cases y with
        | none => rfl
        | some by_ => simp [arrBag, ptrOf, ptrBag, sumBag_zero]

theorem ofUB_u32 {name : String} {ms : List (String × Json)} (hr : Ranged name ms) {x : Ladder.Num}
    (hm : member ms name = some (.num x)) :
    ∃ k : Nat, u32OfDouble x.trunc = .ok k ∧ Number name k ms := by
  obtain ⟨k, e, h0, h1⟩ := hr x (has_member.2 hm)
  refine ⟨k.toNat, ?_, x, has_member.2 hm, ?_⟩
  · rw [e]
    unfold u32OfDouble
    simp only
    rw [if_pos ⟨h0, h1⟩]
  · rw [e]; congr 1; omega

theorem Number.unique {name : String} {a b : Int} {ms : List (String × Json)} (ha : Number name a ms)
    (hb : Number name b ms) : a = b := by
  obtain ⟨x, mx, ex⟩ := ha
  obtain ⟨y, my, ey⟩ := hb
  have := (has_member.1 mx).symm.trans (has_member.1 my)
  cases this
  rw [ex] at ey
  cases ey
  rfl

theorem loadShape_runs (p : Policy) {t : Policy} (ht : ∀ k, t.grow k = true) {host : Host} {ms : List (String × Json)}
    (hm : Firm host (.obj ms)) {h : Store} {R : Bag} (f0 : Fits h R) :
    Runs (loadShape p t host ms {}) h fun r h' => NeatNet r.2 ∧ Fits h' fun a => netBag r.2 a + R a := by
  obtain ⟨-, h1, h2, h3, h4⟩ := hm ms rfl
  unfold loadShape
  split
  case h_2 => exact .pure ⟨rfl, f0.congr fun a => by simp [netBag, arrBag]⟩
  rename_i r hr
  obtain ⟨rows, er, nr⟩ := ofUB_u32 h1 hr
  rw [er]
  refine Runs.bind (Q := fun q h' => q = rows ∧ h' = h) (.pure ⟨rfl, rfl⟩) ?_
  rintro q h' ⟨eq, eh⟩
  subst eq eh
  have hread : ∀ l, member ms "networkData" = some (.arr l) → ∀ j ∈ l, Readable host j :=
    fun l hl j hj cells x e hx xs ex => h4 l j cells x (has_member.2 hl) hj e hx xs ex
  split
  · rename_i c hc
    obtain ⟨cols, ec, nc⟩ := ofUB_u32 h2 hc
    rw [ec]
    refine Runs.bind (Q := fun q h'' => q = cols ∧ h'' = h') (.pure ⟨rfl, rfl⟩) ?_
    rintro q' h'' ⟨eq, eh⟩
    subst eq eh
    refine loadGrid_runs p ht host _ (fun hz => ?_) hread f0
    obtain ⟨-, l, hl, el⟩ := h3 q nr (by omega)
    exact ⟨l, has_member.1 hl, by omega⟩
  · rename_i hc
    have hz : q = 0 := by
      refine Nat.eq_zero_of_not_pos fun hz => ?_
      obtain ⟨⟨k, x, hx, -⟩, -⟩ := h3 q nr (by omega)
      exact hc x (has_member.1 hx)
    subst hz
    exact .pure ⟨rfl, f0.congr fun a => by simp [netBag, arrBag]⟩

/-- The networks of a context while a program is being loaded. -/
def Loaded (x y : Ctx) : Prop :=
  ∃ nets, y = { x with nets := nets } ∧ nets.isSome ∧ ArrOk x.networks NeatNet nets

theorem Loaded.trans {x y z : Ctx} (h : Loaded x y) (h' : Loaded y z) : Loaded x z := by
  obtain ⟨n, rfl, -, -⟩ := h
  obtain ⟨m, rfl, h1, h2⟩ := h'
  exact ⟨m, rfl, h1, h2⟩

theorem loadNet_runs (p : Policy) {t : Policy} (ht : ∀ k, t.grow k = true) {host : Host} {j : Json} (hj : Firm host j)
    {x : Ctx} (hx : Loaded x x) {h : Store} {R : Bag} (f0 : Fits h fun a => arrBag netBag x.nets a + R a) :
    Runs (loadNet p t host j x) h fun r h' => Loaded x r.2 ∧ Fits h' fun a => arrBag netBag r.2.nets a + R a := by
  unfold loadNet
  split
  case h_2 => exact .pure ⟨hx, f0⟩
  rename_i ms
  split
  case h_2 => exact .pure ⟨hx, f0⟩
  rename_i v hv
  obtain ⟨n, en, -⟩ := ofUB_u32 (hj ms rfl).1 hv
  rw [en]
  refine Runs.bind (Q := fun q h' => q = n ∧ h' = h) (.pure ⟨rfl, rfl⟩) ?_
  rintro q h' ⟨eq, eh⟩
  subst eq eh
  split
  · exact .pure ⟨hx, f0⟩
  rename_i hn
  obtain ⟨nets, e, hs, hok⟩ := hx
  have hnets : x.nets = nets := by rw [e]
  obtain ⟨⟨b, ns⟩, h1⟩ := Option.isSome_iff_exists.1 hs
  subst h1
  have ln : q < ns.length := by have := hok.1; omega
  have h2 : ns[q]? = some ns[q] := List.getElem?_eq_getElem ln
  unfold onNet
  refine (at_runs (B := netBag) (G := fun _ => 0) (R := R) (Q := fun _ net => NeatNet net) hnets h2 ?_
    (f0.congr fun a => by omega)).bind ?_
  · intro h R fh
    refine (releaseNet_does _ (hok.2 _ (List.mem_of_getElem? h2)) h R (fh.congr fun a => by omega)).bind ?_
    rintro y h1 ⟨rfl, f1⟩
    exact loadShape_runs p ht hj (f1.congr fun a => by dsimp only; omega)
  · rintro ⟨ok, nets'⟩ h1 ⟨⟨net, hnet, e'⟩, f1⟩
    simp only at hnet e' f1
    subst e'
    refine .pure ⟨⟨_, rfl, rfl, by simpa using hok.1, fun z hz => ?_⟩, f1⟩
    rcases List.mem_or_eq_of_mem_set hz with hz | rfl
    · exact hok.2 z hz
    · exact hnet

theorem loadNets_runs (p : Policy) {t : Policy} (ht : ∀ k, t.grow k = true) {host : Host} :
    ∀ {js : List Json}, (∀ j ∈ js, Firm host j) → ∀ {x : Ctx}, Loaded x x → ∀ {h : Store} {R : Bag},
    Fits h (fun a => arrBag netBag x.nets a + R a) →
    Runs (loadNets p t host js x) h fun r h' => Loaded x r.2 ∧ Fits h' fun a => arrBag netBag r.2.nets a + R a
  | [], _, x, hx, h, R, f0 => .pure ⟨hx, f0⟩
  | j :: js, hj, x, hx, h, R, f0 => by
    unfold loadNets
    refine (loadNet_runs p ht (hj j (by simp)) hx f0).bind ?_
    rintro ⟨ok, y⟩ h1 ⟨hy, f1⟩
    simp only at hy f1
    cases ok with
    | false => exact .pure ⟨hy, f1⟩
    | true =>
      have hyy : Loaded y y := by
        obtain ⟨m, rfl, a, b⟩ := hy
        exact ⟨m, rfl, a, b⟩
      refine (loadNets_runs p ht (fun z hz => hj z (by simp [hz])) hyy f1).mono ?_
      rintro r h2 ⟨hr, f2⟩
      exact ⟨hy.trans hr, f2⟩

theorem clearCell_bare : Does clearCell CellOk cellBag (fun _ y => Bare y) cellBag := by
  intro x hx h R hh
  refine (dropData_cell x hx h R hh).bind ?_
  rintro y h' ⟨⟨hy, hd, -⟩, fy⟩
  exact .pure ⟨hd, fy.congr fun a => rfl⟩

/-- A network none of whose cells has operands. -/
def BareNet (x : Net) : Prop := ArrOk x.rows (ArrOk x.cols Bare) x.cells

theorem BareNet.neat {x : Net} (h : BareNet x) : NeatNet x := h.mono fun _ hr => hr.mono fun _ => Bare.neat

theorem clearNet_bare : Does clearNet NetOk netBag (fun _ y => BareNet y) netBag := by
  intro x hx h R hh
  unfold clearNet
  split
  · rename_i h0
    refine .pure ⟨hx.mono fun row hrow => ?_, hh⟩
    have hrow : ArrOk x.cols CellOk row := hrow
    rw [h0] at hrow ⊢
    cases row with
    | none => exact hrow
    | some bx =>
      obtain ⟨b, xs⟩ := bx
      have : xs = [] := List.eq_nil_of_length_eq_zero hrow.1
      subst this
      exact ⟨rfl, by simp⟩
  refine Runs.bind (Q := fun y h' => ArrOk x.rows (ArrOk x.cols Bare) y ∧ Fits h' fun a => arrBag rowBag y a + R a) ?_ ?_
  · have hd : Does (fun row => each clearCell x.cols row) (RowOk x.cols) rowBag (fun _ y => ArrOk x.cols Bare y) rowBag := by
      intro row hrow h R hh
      refine (each_does clearCell_bare x.cols row hrow h R hh).mono ?_
      rintro y h' ⟨⟨a, -⟩, b⟩
      exact ⟨a, b⟩
    refine (each_does hd x.rows x.cells hx h R hh).mono ?_
    rintro y h' ⟨⟨a, -⟩, b⟩
    exact ⟨a, b⟩
  · rintro y h' ⟨hy, fy⟩
    exact .pure ⟨hy, fy⟩

theorem clearProgram_bare {x : Ctx} (hs : x.nets.isSome) (ok : ArrOk x.networks NetOk x.nets) {h : Store} {R : Bag}
    (f : Fits h fun a => arrBag netBag x.nets a + R a) :
    Runs (clearProgram x) h fun y h' => (Loaded x y ∧ ArrOk x.networks BareNet y.nets) ∧ Fits h' fun a => arrBag netBag y.nets a + R a := by
  refine (each_does clearNet_bare x.networks x.nets ok h R f).bind ?_
  rintro y h' ⟨⟨hy, hp⟩, fy⟩
  refine .pure ⟨⟨⟨y, rfl, ?_, hy.mono fun _ => BareNet.neat⟩, hy⟩, fy⟩
  cases y with
  | some _ => rfl
  | none =>
    cases e : x.nets with
    | none => rw [e] at hs; cases hs
    | some bx => rw [e] at hp; cases hp

theorem loadList_runs (p : Policy) {t : Policy} (ht : ∀ k, t.grow k = true) {host : Host} {l : List Json}
    (hl : ∀ j ∈ l, Firm host j) {x : Ctx} (ok : CtxOk x) {h : Store} {R : Bag}
    (f : Fits h fun a => arrBag netBag x.nets a + R a) :
    Runs (loadList p t host l x) h fun r h' => (Loaded x r.2 ∧ (r.1 = false → ArrOk x.networks BareNet r.2.nets)) ∧ Fits h' fun a => arrBag netBag r.2.nets a + R a := by
  unfold loadList
  refine (clearProgram_bare ok.present ok.nets f).bind ?_
  rintro y h1 ⟨⟨hy, -⟩, f1⟩
  have hyy : Loaded y y := by
    obtain ⟨m, rfl, a, b⟩ := hy
    exact ⟨m, rfl, a, b⟩
  refine (loadNets_runs p ht hl hyy f1).bind ?_
  rintro ⟨good, z⟩ h2 ⟨hz, f2⟩
  simp only at hz f2
  have hxz := hy.trans hz
  cases good with
  | true => exact .pure ⟨⟨hxz, by simp⟩, f2⟩
  | false =>
    obtain ⟨nets, rfl, hs, hok⟩ := hxz
    refine (clearProgram_bare (x := { x with nets := nets }) hs (hok.mono fun _ => NeatNet.ok) f2).bind ?_
    rintro w h3 ⟨⟨hw, hb⟩, f3⟩
    obtain ⟨m, rfl, a, b⟩ := hw
    exact .pure ⟨⟨⟨m, rfl, a, b⟩, fun _ => hb⟩, f3⟩

theorem readFile_runs (p : Policy) (file : File) {h : Store} {R : Bag} (f : Fits h R) :
    Runs (readFile p file) h fun q h' => (q.isSome → file ≠ .missing) ∧ Fits h' fun a => ptrBag q a + R a := by
  have key : Runs (do
      let q ← alloc p
      if q.isSome then touch q
      pure q : H Ptr) h fun q h' => Fits h' fun a => ptrBag q a + R a := by
    refine (alloc_runs p f).bind ?_
    rintro q h1 ⟨f1, -, -⟩
    cases q with
    | none => exact .pure f1
    | some b => exact Runs.keep (touch_runs f1 (b := b) (by simp [ptrBag, one_self])) (.pure f1)
  cases file with
  | missing => exact .pure ⟨by simp, f.congr fun a => by simp [ptrBag]⟩
  | broken => exact key.mono fun q h' hq => ⟨fun _ => by simp, hq⟩
  | tree doc => exact key.mono fun q h' hq => ⟨fun _ => by simp, hq⟩

theorem parse_runs (p : Policy) {b : Nat} (file : File) {h : Store} {R : Bag} (f : Fits h fun a => one b a + R a) :
    Runs (parse p (some b) file) h fun q h' => (∀ r, q = some r → file = .tree r.2) ∧
      Fits h' fun a => ptrBag (ptrOf q) a + (one b a + R a) := by
  have tb := touch_runs f (b := b) (by simp [one_self])
  cases file with
  | missing => exact tb.keep (.pure ⟨by simp, f.congr fun a => by simp [ptrOf, ptrBag]⟩)
  | broken => exact tb.keep (.pure ⟨by simp, f.congr fun a => by simp [ptrOf, ptrBag]⟩)
  | tree doc =>
    refine tb.keep ((alloc_runs p f).bind ?_)
    rintro q h1 ⟨f1, -, -⟩
    cases q with
    | none => exact .pure ⟨by simp, f1⟩
    | some c =>
      refine .pure ⟨?_, f1⟩
      rintro r hr
      cases hr
      rfl

theorem loadFile_runs (p : Policy) {t : Policy} (ht : ∀ k, t.grow k = true) {host : Host} {file : File}
    (hf : FirmFile host file) {x : Ctx} (ok : CtxOk x) {h : Store} {R : Bag} (f : Fits h fun a => ctxBag x a + R a) :
    Runs (loadFile p t host file x) h fun r h' => (CtxOk r.2 ∧
      (r.1 = false → r.2 = x ∨ ArrOk r.2.networks BareNet r.2.nets)) ∧ Fits h' fun a => ctxBag r.2 a + R a := by
  unfold loadFile
  refine (readFile_runs p file f).bind ?_
  rintro q h1 ⟨-, f1⟩
  cases q with
  | none => exact .pure ⟨⟨ok, fun _ => .inl rfl⟩, f1.congr fun a => by simp [ptrBag]⟩
  | some b =>
    simp only [Option.isNone_some, Bool.false_eq_true, if_false]
    refine (parse_runs p file f1).bind ?_
    rintro root h2 ⟨hroot, f2⟩
    refine (free_runs (q := some b) (R := fun a => ptrBag (ptrOf root) a + (ctxBag x a + R a))
      (f2.congr fun a => by simp only [ptrBag]; omega)).bind ?_
    rintro _ h3 f3
    cases root with
    | none => exact .pure ⟨⟨ok, fun _ => .inl rfl⟩, f3.congr fun a => by simp [ptrOf, ptrBag]⟩
    | some r =>
      obtain ⟨c, doc⟩ := r
      have hdoc := hroot _ rfl
      simp only at hdoc
      have g3 : Fits h3 fun a => one c a + (ctxBag x a + R a) := f3
      have tc := touch_runs g3 (b := c) (by simp [one_self])
      have other : Runs (do touch (some c); free (some c); pure (false, x) : H (Bool × Ctx)) h3
          fun r h' => (CtxOk r.2 ∧ (r.1 = false → r.2 = x ∨ ArrOk r.2.networks BareNet r.2.nets)) ∧ Fits h' fun a => ctxBag r.2 a + R a :=
        tc.keep ((free_runs (q := some c) g3).bind fun _ h4 f4 => .pure ⟨⟨ok, fun _ => .inl rfl⟩, f4⟩)
      cases doc with
      | arr l =>
        refine tc.keep ?_
        refine (loadList_runs p ht (fun j hj => hf l hdoc j hj) ok
          (R := fun a => one c a + (slotBag x.slot a + ptrBag x.jobs a + R a))
          (g3.congr fun a => by simp only [ctxBag]; omega)).bind ?_
        rintro ⟨good, y⟩ h4 ⟨⟨⟨nets, rfl, hs, hn⟩, hb⟩, f4⟩
        simp only at f4
        refine (free_runs (q := some c) (R := fun a => ctxBag { x with nets := nets } a + R a)
          (f4.congr fun a => by simp only [ctxBag, ptrBag]; omega)).bind fun _ h5 f5 => .pure ⟨⟨?_, fun e => .inr (hb e)⟩, f5⟩
        exact ⟨hs, ok.pos, hn.mono fun _ => NeatNet.ok, ok.m, ok.c, ok.t, ok.foreign, ok.reads, ok.writes, ok.cron⟩
      | _ => exact other

theorem compactEnd_runs {text root buf : Ptr} {status : Bool} {h : Store} {R : Bag}
    (f : Fits h fun a => ptrBag text a + (ptrBag root a + (ptrBag buf a + R a))) :
    Runs (compactEnd text root buf status) h fun _ h' => Fits h' R :=
  (free_runs f).bind fun _ _ f1 => (free_runs f1).bind fun _ _ f2 => (free_runs f2).bind fun _ _ f3 => .pure f3

theorem compactFile_runs (p : Policy) (writable : Bool) (file : File) {h : Store} {R : Bag} (f : Fits h R) :
    Runs (compactFile p writable file) h fun _ h' => Fits h' R := by
  unfold compactFile
  refine (readFile_runs p file f).bind ?_
  rintro q h1 ⟨-, f1⟩
  cases q with
  | none => exact compactEnd_runs (f1.congr fun a => by simp [ptrBag])
  | some b =>
    simp only [Option.isNone_some, Bool.false_eq_true, if_false]
    refine (parse_runs p file f1).bind ?_
    rintro root h2 ⟨-, f2⟩
    cases root with
    | none => exact compactEnd_runs (f2.congr fun a => by simp [ptrOf, ptrBag])
    | some r =>
      obtain ⟨c, doc⟩ := r
      have f2 : Fits h2 fun a => one c a + (one b a + R a) := f2
      refine (touch_runs f2 (b := c) (by simp [one_self])).keep ((alloc_runs p f2).bind ?_)
      rintro text h3 ⟨f3, -, -⟩
      cases text with
      | none => exact compactEnd_runs (text := none) (root := some c) (buf := some b) f3
      | some d =>
        simp only [Option.isNone_some, Bool.false_eq_true, if_false]
        split
        · exact (touch_runs f3 (b := d) (by simp [ptrBag, one_self])).keep
            (compactEnd_runs (text := some d) (root := some c) (buf := some b) f3)
        · exact compactEnd_runs (text := some d) (root := some c) (buf := some b) f3

theorem validateFile_runs (p : Policy) (verdict : Json → Json → Bool) (file schema : File) {h : Store} {R : Bag}
    (f : Fits h R) : Runs (validateFile p verdict file schema) h fun _ h' => Fits h' R := by
  unfold validateFile
  refine (readFile_runs p file f).bind ?_
  rintro q h1 ⟨-, f1⟩
  cases q with
  | none => exact .pure (f1.congr fun a => by simp [ptrBag])
  | some b =>
    simp only [Option.isNone_some, Bool.false_eq_true, if_false]
    refine (readFile_runs p schema f1).bind ?_
    rintro q h2 ⟨-, f2⟩
    cases q with
    | none =>
      exact (free_runs (q := some b) (R := R) (f2.congr fun a => by simp [ptrBag])).bind fun _ h3 f3 => .pure f3
    | some b' =>
      simp only [Option.isNone_some, Bool.false_eq_true, if_false]
      refine (parse_runs p file (b := b) (R := fun a => one b' a + R a)
        (f2.congr fun a => by simp only [ptrBag]; omega)).bind ?_
      rintro json h3 ⟨-, f3⟩
      refine (free_runs (q := some b) (R := fun a => ptrBag (ptrOf json) a + (one b' a + R a))
        (f3.congr fun a => by simp only [ptrBag]; omega)).bind ?_
      rintro _ h4 f4
      cases json with
      | none =>
        exact (free_runs (q := some b') (R := R) (f4.congr fun a => by simp [ptrOf, ptrBag])).bind fun _ h5 f5 => .pure f5
      | some r =>
        obtain ⟨c, j⟩ := r
        have f4 : Fits h4 fun a => one c a + (one b' a + R a) := f4
        refine (parse_runs p schema (b := b') (R := fun a => one c a + R a) (f4.congr fun a => by omega)).bind ?_
        rintro tree h5 ⟨-, f5⟩
        refine (free_runs (q := some b') (R := fun a => ptrBag (ptrOf tree) a + (one c a + R a))
          (f5.congr fun a => by simp only [ptrBag]; omega)).bind ?_
        rintro _ h6 f6
        cases tree with
        | none =>
          exact (free_runs (q := some c) (R := R) (f6.congr fun a => by simp [ptrOf, ptrBag])).bind fun _ h7 f7 => .pure f7
        | some r' =>
          obtain ⟨c', s⟩ := r'
          have f6 : Fits h6 fun a => one c' a + (one c a + R a) := f6
          refine (touch_runs f6 (b := c) (by simp [one_self]; omega)).keep
            ((touch_runs f6 (b := c') (by simp [one_self])).keep ?_)
          refine (free_runs (q := some c) (R := fun a => one c' a + R a) (f6.congr fun a => by simp only [ptrBag]; omega)).bind
            fun _ h7 f7 => (free_runs (q := some c') (R := R) f7).bind fun _ h8 f8 => .pure f8

end Ladder.Heap
