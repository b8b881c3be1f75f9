import Verif.Spec.Heap

/-
Ownership accounting for the heap model: a state is described by how often each block is owned; each operation is
specified with an arbitrary remainder `R` owned by somebody else.
-/

namespace Ladder.Heap

/-- How often each block is owned. -/
abbrev Bag := Nat → Nat

/-- The block of a pointer. -/
def one (b : Nat) : Bag := fun a => if a = b then 1 else 0

def ptrBag : Ptr → Bag
  | none => fun _ => 0
  | some b => one b

def sumBag {α : Type} (B : α → Bag) : List α → Bag
  | [] => fun _ => 0
  | x :: xs => fun a => B x a + sumBag B xs a

def arrBag {α : Type} (B : α → Bag) : Option (Nat × List α) → Bag
  | none => fun _ => 0
  | some (b, xs) => fun a => one b a + sumBag B xs a

def cellBag (x : Cell) : Bag := arrBag ptrBag x.data
def rowBag : Row → Bag := arrBag cellBag
def netBag (x : Net) : Bag := arrBag rowBag x.cells

/-- The blocks in use are those of the bag, each owned once, and new block numbers are new. -/
structure Fits (h : Store) (B : Bag) : Prop where
  live : ∀ a, h.live.count a = B a
  once : ∀ a, B a ≤ 1
  fresh : ∀ a, h.next ≤ a → B a = 0

theorem Fits.congr {h : Store} {B B' : Bag} (f : Fits h B) (e : ∀ a, B a = B' a) : Fits h B' :=
  ⟨fun a => by rw [f.live, e], fun a => by rw [← e]; exact f.once a, fun a ha => by rw [← e]; exact f.fresh a ha⟩

/-- The run ends without misuse in a state described by `Q`. -/
def Runs {α : Type} (m : H α) (h : Store) (Q : α → Store → Prop) : Prop :=
  ∃ a h', m h = .ok (a, h') ∧ Q a h'

theorem Runs.pure {α : Type} {a : α} {h : Store} {Q : α → Store → Prop} (q : Q a h) :
    Runs (pure a : H α) h Q := ⟨a, h, rfl, q⟩

theorem Runs.bind {α β : Type} {m : H α} {f : α → H β} {h : Store} {Q : α → Store → Prop} {Q' : β → Store → Prop}
    (r : Runs m h Q) (k : ∀ a h', Q a h' → Runs (f a) h' Q') : Runs (m >>= f) h Q' := by
  obtain ⟨a, h', e, q⟩ := r
  obtain ⟨b, h'', e', q'⟩ := k a h' q
  refine ⟨b, h'', ?_, q'⟩
  show H.bind m f h = _
  unfold H.bind
  rw [e]
  exact e'

theorem Runs.mono {α : Type} {m : H α} {h : Store} {Q Q' : α → Store → Prop} (r : Runs m h Q)
    (k : ∀ a h', Q a h' → Q' a h') : Runs m h Q' := by
  obtain ⟨a, h', e, q⟩ := r
  exact ⟨a, h', e, k _ _ q⟩

theorem one_self (b : Nat) : one b b = 1 := by simp [one]

theorem Fits.mem {h : Store} {B : Bag} (f : Fits h B) {b : Nat} (hb : 1 ≤ B b) : b ∈ h.live := by
  have := f.live b
  exact List.count_pos_iff.1 (by omega)

theorem touch_runs {h : Store} {B : Bag} (f : Fits h B) {b : Nat} (hb : 1 ≤ B b) :
    Runs (touch (some b)) h fun _ h' => h' = h :=
  ⟨(), h, by simp [touch, f.mem hb], rfl⟩

theorem Fits.erase {h : Store} {R : Bag} {b : Nat} (f : Fits h fun a => one b a + R a) :
    Fits { h with live := h.live.erase b } R := by
  refine ⟨fun a => ?_, fun a => ?_, fun a ha => ?_⟩
  · have := f.live a
    show (h.live.erase b).count a = _
    rw [List.count_erase]
    simp only [one] at this
    by_cases hab : a = b
    · subst hab
      simp at this ⊢
      omega
    · have hba : ¬ b = a := fun e => hab e.symm
      simp [hab] at this
      simp [hba, this]
  · have : one b a + R a ≤ 1 := f.once a
    omega
  · have : one b a + R a = 0 := f.fresh a ha
    omega

theorem free_runs {h : Store} {R : Bag} {q : Ptr} (f : Fits h fun a => ptrBag q a + R a) :
    Runs (free q) h fun _ h' => Fits h' R := by
  cases q with
  | none => exact ⟨(), h, rfl, f.congr fun a => by simp [ptrBag]⟩
  | some b =>
    have hb : b ∈ h.live := f.mem (by simp [ptrBag, one_self])
    exact ⟨(), _, by simp only [free, if_pos hb], f.erase⟩

theorem Fits.insert {h : Store} {R : Bag} (f : Fits h R) {t : Nat} :
    Fits { live := h.next :: h.live, next := h.next + 1, tries := t } fun a => one h.next a + R a := by
  have h0 := f.fresh h.next (Nat.le_refl _)
  refine ⟨fun a => ?_, fun a => ?_, fun a ha => ?_⟩
  · show (h.next :: h.live).count a = _
    rw [List.count_cons, f.live]
    by_cases e : h.next = a
    · subst e; simp [one]; omega
    · have : ¬ a = h.next := fun x => e x.symm
      simp [one, e, this]
  · have := f.once a
    simp only [one]
    by_cases e : a = h.next
    · subst e; simp; omega
    · simp [e]; omega
  · have ha' : h.next + 1 ≤ a := ha
    have := f.fresh a (by omega)
    have e : ¬ a = h.next := by omega
    simp [one, e, this]

theorem Fits.tries {h : Store} {R : Bag} (f : Fits h R) {t : Nat} : Fits { h with tries := t } R :=
  ⟨f.live, f.once, f.fresh⟩

theorem alloc_runs (p : Policy) {h : Store} {R : Bag} (f : Fits h R) :
    Runs (alloc p) h fun q h' => Fits h' (fun a => ptrBag q a + R a) ∧ q.isSome = p.grow h.tries ∧
      h'.tries = h.tries + 1 := by
  unfold alloc
  cases hg : p.grow h.tries with
  | true =>
    refine ⟨some h.next, _, ?_, f.insert (t := h.tries + 1), rfl, rfl⟩
    simp [hg]
  | false =>
    refine ⟨none, _, ?_, (f.tries (t := h.tries + 1)).congr fun a => by simp [ptrBag], rfl, rfl⟩
    simp [hg]

theorem moveBlock_runs {h : Store} {R : Bag} {b : Nat} (g : Bool) (f : Fits h fun a => one b a + R a) :
    Runs (moveBlock b g) h fun q h' => q.isSome = g ∧
      (if g then Fits h' (fun a => ptrBag q a + R a) else Fits h' fun a => one b a + R a) := by
  have hb : b ∈ h.live := f.mem (by simp [one_self])
  unfold moveBlock
  cases g with
  | true =>
    refine ⟨some h.next, { live := h.next :: h.live.erase b, next := h.next + 1, tries := h.tries + 1 }, ?_, rfl, ?_⟩
    · simp only [if_pos hb, if_true]
    · simp only [if_true]
      exact (f.erase).insert (t := h.tries + 1)
  | false =>
    refine ⟨none, { h with tries := h.tries + 1 }, ?_, rfl, ?_⟩
    · simp only [if_pos hb]
      rfl
    · simpa using f.tries (t := h.tries + 1)

theorem enlarge_runs (p : Policy) {h : Store} {R : Bag} {q : Ptr} (f : Fits h fun a => ptrBag q a + R a) :
    Runs (enlarge p q) h fun q' h' =>
      (q' = none ∧ Fits h' fun a => ptrBag q a + R a) ∨ (∃ b, q' = some b ∧ Fits h' fun a => one b a + R a) := by
  cases q with
  | none =>
    have f' : Fits h R := f.congr fun a => by simp [ptrBag]
    refine (alloc_runs p f').mono ?_
    rintro q h' ⟨fq, -, -⟩
    cases q with
    | none => exact .inl ⟨rfl, fq⟩
    | some b => exact .inr ⟨b, rfl, fq⟩
  | some b =>
    obtain ⟨q', h', e, hq, hf⟩ := moveBlock_runs (p.grow h.tries) f
    refine ⟨q', h', e, ?_⟩
    cases hg : p.grow h.tries with
    | true =>
      rw [hg] at hq hf
      cases q' with
      | none => cases hq
      | some b' => exact .inr ⟨b', rfl, by simpa [ptrBag] using hf⟩
    | false =>
      rw [hg] at hq hf
      cases q' with
      | none => exact .inl ⟨rfl, by simpa [ptrBag] using hf⟩
      | some b' => cases hq

theorem reduce_runs (p : Policy) (hs : ∀ k, p.shrink k = true) (n : Nat) {h : Store} {R : Bag} {b : Nat}
    (f : Fits h fun a => one b a + R a) :
    Runs (reduce p n (some b)) h fun q h' => Fits h' (fun a => ptrBag q a + R a) ∧ (n ≠ 0 → q.isSome) := by
  by_cases hn : n = 0
  · subst hn
    have : Runs (do free (some b); pure none : H Ptr) h
        fun q h' => Fits h' (fun a => ptrBag q a + R a) ∧ ((0 : Nat) ≠ 0 → q.isSome) := by
      refine (free_runs (q := some b) f).bind fun _ h' f' => .pure ⟨f'.congr fun a => by simp [ptrBag], fun x => ?_⟩
      exact absurd rfl x
    exact this
  · obtain ⟨q', h', e, hq, hf⟩ := moveBlock_runs (p.shrink h.tries) f
    rw [hs] at hq hf
    refine ⟨q', h', ?_, by simpa using hf, fun _ => hq⟩
    show (if n = 0 then _ else _) = _
    rw [if_neg hn]
    exact e

/-- An array of `n` elements with property `P`; NULL counts as an array of no elements. -/
def ArrOk {α : Type} (n : Nat) (P : α → Prop) : Option (Nat × List α) → Prop
  | none => n = 0
  | some (_, xs) => xs.length = n ∧ ∀ x ∈ xs, P x

/-- What a function does to an element: from `P` and the blocks `B` to `Q` and the blocks `B'`. -/
def Does {α β : Type} (f : α → H β) (P : α → Prop) (B : α → Bag) (Q : α → β → Prop) (B' : β → Bag) : Prop :=
  ∀ x, P x → ∀ (h : Store) (R : Bag), Fits h (fun a => B x a + R a) → Runs (f x) h fun y h' => Q x y ∧ Fits h' fun a => B' y a + R a

theorem walk_runs {α : Type} {f : α → H α} {P Q : α → Prop} {B B' : α → Bag} (hf : Does f P B (fun _ => Q) B')
    (b : Nat) : ∀ xs : List α, (∀ x ∈ xs, P x) → ∀ (h : Store) (R : Bag), Fits h (fun a => sumBag B xs a + (one b a + R a)) →
    Runs (walk (fun x => do touch (some b); f x) xs.length xs) h fun ys h' =>
      ys.length = xs.length ∧ (∀ y ∈ ys, Q y) ∧ Fits h' fun a => sumBag B' ys a + (one b a + R a)
  | [], _, h, R, hh => .pure ⟨rfl, by simp, hh⟩
  | x :: xs, hp, h, R, hh => by
    show Runs (walk _ (xs.length + 1) (x :: xs)) _ _
    unfold walk
    refine Runs.bind (Q := fun y h' => Q y ∧ Fits h' fun a => B' y a + (sumBag B xs a + (one b a + R a))) ?_ ?_
    · refine (touch_runs hh (b := b) (by simp [one_self]; omega)).bind ?_
      rintro _ h' rfl
      refine hf x (hp x (by simp)) _ _ (hh.congr fun a => ?_)
      simp only [sumBag]; omega
    · rintro y h' ⟨qy, fy⟩
      refine (walk_runs hf b xs (fun z hz => hp z (by simp [hz])) h' (fun a => B' y a + R a)
        (fy.congr fun a => by omega)).bind ?_
      rintro ys h'' ⟨hl, hq, fys⟩
      refine .pure ⟨by simp [hl], ?_, fys.congr fun a => ?_⟩
      · intro z hz
        rcases List.mem_cons.1 hz with rfl | hz
        · exact qy
        · exact hq z hz
      · simp only [sumBag]; omega

theorem each_does {α : Type} {f : α → H α} {P Q : α → Prop} {B B' : α → Bag} (hf : Does f P B (fun _ => Q) B')
    (n : Nat) : Does (each f n) (ArrOk n P) (arrBag B) (fun a y => ArrOk n Q y ∧ ptrOf y = ptrOf a) (arrBag B') := by
  intro a ha h R hh
  unfold each
  cases a with
  | none =>
    have : n = 0 := ha
    rw [if_pos this]
    exact .pure ⟨⟨this, rfl⟩, hh⟩
  | some bx =>
    obtain ⟨b, xs⟩ := bx
    obtain ⟨hl, hp⟩ := ha
    by_cases hn : n = 0
    · rw [if_pos hn]
      have : xs = [] := List.eq_nil_of_length_eq_zero (by omega)
      subst this
      exact .pure ⟨⟨⟨hl, by simp⟩, rfl⟩, hh⟩
    · rw [if_neg hn]
      subst hl
      refine (walk_runs hf b xs hp h R (hh.congr fun a => by simp only [arrBag]; omega)).bind ?_
      rintro ys h' ⟨hl, hq, fys⟩
      refine .pure ⟨⟨⟨hl, hq⟩, rfl⟩, fys.congr fun a => by simp only [arrBag]; omega⟩

theorem sumBag_zero {α : Type} {B : α → Bag} {xs : List α} (h : ∀ x ∈ xs, ∀ a, B x a = 0) (a : Nat) :
    sumBag B xs a = 0 := by
  induction xs with
  | nil => rfl
  | cons x xs ih =>
    simp only [sumBag]
    rw [h x (by simp), ih fun y hy => h y (by simp [hy])]

theorem sumBag_congr {α : Type} {B B' : α → Bag} {xs : List α} (h : ∀ x ∈ xs, ∀ a, B x a = B' x a) (a : Nat) :
    sumBag B xs a = sumBag B' xs a := by
  induction xs with
  | nil => rfl
  | cons x xs ih =>
    simp only [sumBag]
    rw [h x (by simp), ih fun y hy => h y (by simp [hy])]

/-- A cell whose operand array, if any, has `data_qty` entries. -/
def CellOk (x : Cell) : Prop := x.data.isSome → ArrOk x.qty (fun _ => True) x.data
def RowOk (cols : Nat) : Row → Prop := ArrOk cols CellOk
def NetOk (x : Net) : Prop := ArrOk x.rows (RowOk x.cols) x.cells

theorem dropData_does : Does dropData CellOk cellBag
    (fun x y => y.data = none ∧ y.code = x.code) (fun _ _ => 0) := by
  intro x hx h R hh
  unfold dropData
  cases hd : x.data with
  | none =>
    refine .pure ⟨⟨hd, rfl⟩, hh.congr fun a => ?_⟩
    simp [cellBag, hd, arrBag]
  | some d =>
    have ht : Does (fun q : Ptr => do free q; pure (none : Ptr)) (fun _ => True) ptrBag (fun _ _ => True)
        (fun _ _ => 0) := by
      intro q _ h R hh
      refine (free_runs hh).bind fun _ h' f' => .pure ⟨trivial, f'.congr fun a => by simp⟩
    have hok : ArrOk x.qty (fun _ : Ptr => True) (some d) := by
      have := hx (by simp [hd])
      rwa [hd] at this
    refine ((each_does ht x.qty) (some d) hok h R (hh.congr fun a => by simp [cellBag, hd])).bind ?_
    rintro y h' ⟨⟨-, hp⟩, fy⟩
    refine (free_runs (q := ptrOf (some d)) (R := R) (fy.congr fun a => ?_)).bind fun _ h'' f'' =>
      .pure ⟨⟨rfl, rfl⟩, f''.congr fun a => by simp⟩
    rw [← hp]
    cases y with
    | none => rfl
    | some by_ => simp [arrBag, ptrOf, ptrBag, sumBag_zero]

theorem dropData_cell : Does dropData CellOk cellBag (fun x y => CellOk y ∧ y.data = none ∧ y.code = x.code) cellBag := by
  intro x hx h R hh
  refine (dropData_does x hx h R hh).mono ?_
  rintro y h' ⟨⟨hd, hc⟩, fy⟩
  refine ⟨⟨by simp [CellOk, hd], hd, hc⟩, fy.congr fun a => by simp [cellBag, hd, arrBag]⟩

/-- A cleared cell. -/
def Bare (x : Cell) : Prop := x.data = none

theorem clearCell_does : Does clearCell CellOk cellBag (fun _ y => CellOk y) cellBag := by
  intro x hx h R hh
  refine (dropData_cell x hx h R hh).bind ?_
  rintro y h' ⟨⟨hy, hd, -⟩, fy⟩
  refine .pure ⟨?_, fy.congr fun a => rfl⟩
  simp [CellOk, hd]

theorem clearNet_does : Does clearNet NetOk netBag (fun x y => NetOk y ∧ y.rows = x.rows ∧ y.cols = x.cols) netBag := by
  intro x hx h R hh
  unfold clearNet
  split
  · exact .pure ⟨⟨hx, rfl, rfl⟩, hh⟩
  refine Runs.bind (Q := fun y h' => ArrOk x.rows (RowOk x.cols) y ∧ Fits h' fun a => arrBag rowBag y a + R a) ?_ ?_
  · have hd : Does (fun row => each clearCell x.cols row) (RowOk x.cols) rowBag (fun _ y => RowOk x.cols y) rowBag := by
      intro row hrow h R hh
      refine (each_does clearCell_does x.cols row hrow h R hh).mono ?_
      rintro y h' ⟨⟨a, -⟩, b⟩
      exact ⟨a, b⟩
    refine (each_does hd x.rows x.cells hx h R hh).mono ?_
    rintro y h' ⟨⟨a, -⟩, b⟩
    exact ⟨a, b⟩
  · rintro y h' ⟨hy, fy⟩
    exact .pure ⟨⟨hy, rfl, rfl⟩, fy⟩

theorem freeNet_does : Does freeNet NetOk netBag (fun _ _ => True) (fun _ _ => 0) := by
  intro x hx h R hh
  have hd : Does (fun row => do
      let row ← each dropData x.cols row
      free (ptrOf row)
      pure row) (RowOk x.cols) rowBag (fun _ _ => True) (fun _ _ => 0) := by
    intro row hrow h R hh
    have h1 : Does dropData CellOk cellBag (fun _ _ => True) (fun _ _ => 0) := by
      intro x hx h R hh
      exact (dropData_does x hx h R hh).mono fun y h' hy => ⟨trivial, hy.2⟩
    refine (each_does h1 x.cols row hrow h R hh).bind ?_
    rintro y h' ⟨-, fy⟩
    refine (free_runs (q := ptrOf y) (R := R) (fy.congr fun a => ?_)).bind fun _ h'' f'' =>
      .pure ⟨trivial, f''.congr fun a => by simp⟩
    cases y with
    | none => rfl
    | some by_ => simp [arrBag, ptrOf, ptrBag, sumBag_zero]
  refine (each_does hd x.rows x.cells hx h R hh).bind ?_
  rintro y h' ⟨-, fy⟩
  refine (free_runs (q := ptrOf y) (R := R) (fy.congr fun a => ?_)).bind fun _ h'' f'' =>
    .pure ⟨trivial, f''.congr fun a => by simp⟩
  cases y with
  | none => rfl
  | some by_ => simp [arrBag, ptrOf, ptrBag, sumBag_zero]

end Ladder.Heap
