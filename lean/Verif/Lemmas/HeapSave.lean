import Verif.Model.HeapSave
import Verif.Lemmas.HeapJson
import Verif.Lemmas.HeapSame

/-
Ownership accounting for the writer of program files.
-/

set_option autoImplicit false

namespace Ladder.Heap

open Ladder (Ins)

/-- The blocks of a tree. -/
def treeBag (t : Tree) : Bag := sumBag one t

/-- The blocks of a tree that may be missing. -/
def optBag : Option Tree → Bag
  | none => fun _ => 0
  | some t => treeBag t

theorem treeBag_append (t u : Tree) (a : Nat) : treeBag (t ++ u) a = treeBag t a + treeBag u a := sumBag_append one t u a

theorem treeBag_cons (b : Nat) (t : Tree) (a : Nat) : treeBag (b :: t) a = one b a + treeBag t a := rfl

theorem deleteTree_runs : ∀ (t : Tree) {h : Store} {R : Bag}, Fits h (fun a => treeBag t a + R a) →
    Runs (deleteTree t) h fun _ h' => Fits h' R
  | [], h, R, f => .pure (f.congr fun a => by simp [treeBag, sumBag])
  | b :: bs, h, R, f => by
    unfold deleteTree
    refine (free_runs (q := some b) (R := fun a => treeBag bs a + R a)
      (f.congr fun a => by rw [treeBag_cons]; simp only [ptrBag]; omega)).bind fun _ h' f' => ?_
    exact deleteTree_runs bs f'

/-- What the functions that make an item return: a tree with a root, or nothing unless `G`. -/
structure Item (G : Prop) (o : Option Tree) : Prop where
  root : ∀ t, o = some t → t ≠ []
  made : G → o.isSome

theorem Item.some {G : Prop} {t : Tree} (ht : t ≠ []) : Item G (some t) := ⟨fun _ e => by cases e; exact ht, fun _ => rfl⟩

theorem Item.none {G : Prop} (h : ¬ G) : Item G none := ⟨(fun _ e => nomatch e), fun g => absurd g h⟩

theorem Item.no {G : Prop} (h : Item G (Option.none : Option Tree)) : ¬ G := fun g => by have := h.made g; cases this

theorem newNode_runs (p : Policy) {h : Store} {R : Bag} (f : Fits h R) :
    Runs (newNode p) h fun o h' => Item (∀ i, p.grow i = true) o ∧ Fits h' fun a => optBag o a + R a := by
  unfold newNode
  refine (alloc_runs p f).bind fun q h' hq => .pure ?_
  cases q with
  | none => exact ⟨.none (fun hp => by have := hq.2.1; rw [hp] at this; cases this), hq.1⟩
  | some b =>
    refine ⟨.some (by simp), hq.1.congr fun a => ?_⟩
    simp [optBag, treeBag, sumBag, ptrBag]

theorem requests_runs (p : Policy) : ∀ (n : Nat) {h : Store} {R : Bag}, Fits h R →
    Runs (requests p n) h fun o h' => Fits h' fun a => optBag o a + R a
  | 0, h, R, f => .pure (f.congr fun a => by simp [optBag, treeBag, sumBag])
  | n + 1, h, R, f => by
    unfold requests
    refine (alloc_runs p f).bind fun q h' hq => ?_
    cases q with
    | none => exact .pure hq.1
    | some b =>
      refine (requests_runs p n hq.1).bind fun o h'' f' => ?_
      cases o with
      | none =>
        refine (free_runs (q := some b) (R := R) (f'.congr fun a => by simp [optBag])).bind fun _ h3 f3 => .pure ?_
        exact f3.congr fun a => by simp [optBag]
      | some bs =>
        refine .pure (f'.congr fun a => ?_)
        simp only [optBag, treeBag_cons, ptrBag]
        omega

theorem touchRoot_runs {t : Tree} (ht : t ≠ []) {h : Store} {B : Bag} (f : Fits h B) (hb : ∀ a, treeBag t a ≤ B a) :
    Runs (touchRoot t) h fun _ h' => h' = h := by
  cases t with
  | nil => exact absurd rfl ht
  | cons b bs =>
    refine touch_runs f ?_
    have := hb b
    rw [treeBag_cons, one_self] at this
    omega

theorem addMember_runs (p : Policy) (n : Nat) {t : Tree} (ht : t ≠ []) {h : Store} {R : Bag}
    (f : Fits h fun a => treeBag t a + R a) :
    Runs (addMember p n t) h fun t' h' => t' ≠ [] ∧ Fits h' fun a => treeBag t' a + R a := by
  unfold addMember
  refine (requests_runs p n f).bind fun o h' f' => ?_
  cases o with
  | none => exact .pure ⟨ht, f'.congr fun a => by simp [optBag]⟩
  | some bs =>
    refine (touchRoot_runs ht f' fun a => by omega).keep (.pure ⟨by simp [ht], f'.congr fun a => ?_⟩)
    rw [treeBag_append]
    simp only [optBag]
    omega

theorem addItem_runs {t u : Tree} (ht : t ≠ []) (hu : u ≠ []) {h : Store} {R : Bag}
    (f : Fits h fun a => treeBag u a + (treeBag t a + R a)) :
    Runs (addItem t u) h fun t' h' => t' ≠ [] ∧ Fits h' fun a => treeBag t' a + R a := by
  unfold addItem
  refine (touchRoot_runs ht f fun a => by omega).keep ((touchRoot_runs hu f fun a => by omega).keep
    (.pure ⟨by simp [ht], f.congr fun a => ?_⟩))
  rw [treeBag_append]
  omega

/-- The blocks in use are those of the bag and others that nobody owns; if `K` there are no others. -/
def Leaves (K : Prop) (h : Store) (B : Bag) : Prop := ∃ L : Bag, (K → ∀ a, L a = 0) ∧ Fits h fun a => L a + B a

theorem Fits.leaves {K : Prop} {h : Store} {B : Bag} (f : Fits h B) : Leaves K h B :=
  ⟨fun _ => 0, fun _ _ => rfl, f.congr fun a => by simp⟩

theorem Leaves.congr {K : Prop} {h : Store} {B B' : Bag} (f : Leaves K h B) (e : ∀ a, B a = B' a) : Leaves K h B' := by
  obtain ⟨L, hL, f⟩ := f
  exact ⟨L, hL, f.congr fun a => by rw [e]⟩

/-- Blocks that nobody owns may be left out of the account. -/
theorem Leaves.drop {K : Prop} {h : Store} {B L : Bag} (f : Leaves K h fun a => L a + B a) (hL : K → ∀ a, L a = 0) :
    Leaves K h B := by
  obtain ⟨L', hL', f⟩ := f
  exact ⟨fun a => L' a + L a, fun k a => by simp [hL k a, hL' k a], f.congr fun a => by dsimp only; omega⟩

theorem addNamed_runs (k : Policy) {t u : Tree} (ht : t ≠ []) (hu : u ≠ []) {h : Store} {R : Bag}
    (f : Fits h fun a => treeBag u a + (treeBag t a + R a)) :
    Runs (addNamed k t u) h fun t' h' => t' ≠ [] ∧ Leaves (∀ i, k.grow i = true) h' fun a => treeBag t' a + R a := by
  unfold addNamed
  refine (alloc_runs k f).bind fun q h' hq => ?_
  cases q with
  | none =>
    refine .pure ⟨ht, treeBag u, fun hk => ?_, hq.1.congr fun a => by simp only [ptrBag]; omega⟩
    have := hq.2.1
    rw [hk] at this
    cases this
  | some b =>
    refine (touchRoot_runs ht hq.1 fun a => by omega).keep ((touchRoot_runs hu hq.1 fun a => by omega).keep
      (.pure ⟨by simp [ht], Fits.leaves (hq.1.congr fun a => ?_)⟩))
    rw [treeBag_append, treeBag_cons]
    simp only [ptrBag]
    omega

/-- Beside the blocks `C`, which it only uses, the item `m` makes owns its blocks, and there are none if it fails. -/
def Makes (G K : Prop) (C : Bag) (m : H (Option Tree)) : Prop :=
  ∀ (h : Store) (R : Bag), Fits h (fun a => C a + R a) →
    Runs m h fun o h' => Item G o ∧ Leaves K h' fun a => optBag o a + (C a + R a)

theorem collect_runs {α : Type} {G K : Prop} {C : Bag} {f : α → H (Option Tree)} : ∀ (n : Nat) (xs : List α), n ≤ xs.length →
    (∀ x ∈ xs, Makes G K C (f x)) → ∀ {t : Tree}, t ≠ [] → ∀ {h : Store} {R : Bag},
    Fits h (fun a => treeBag t a + (C a + R a)) →
    Runs (collect f n xs t) h fun o h' => Item G o ∧ Leaves K h' fun a => optBag o a + (C a + R a)
  | 0, xs, _, _, t, ht, h, R, f0 => by
    unfold collect
    exact .pure ⟨.some ht, f0.leaves⟩
  | n + 1, [], hn, _, _, _, _, _, _ => by simp at hn
  | n + 1, x :: xs, hn, hf, t, ht, h, R, f0 => by
    unfold collect
    refine (hf x (by simp) h (fun a => treeBag t a + R a) (f0.congr fun a => by omega)).bind fun o h' ho => ?_
    obtain ⟨hi, L, hL, f1⟩ := ho
    cases o with
    | none =>
      refine (deleteTree_runs t (R := fun a => L a + (C a + R a)) (f1.congr fun a => by simp only [optBag]; omega)).bind
        fun _ h2 f2 => ?_
      exact .pure ⟨.none hi.no, L, hL, f2.congr fun a => by simp [optBag]⟩
    | some u =>
      refine (addItem_runs ht (hi.root u rfl) (R := fun a => C a + (L a + R a))
        (f1.congr fun a => by simp only [optBag]; omega)).bind fun t' h2 h2' => ?_
      refine (collect_runs n xs (by simpa using hn) (fun y hy => hf y (by simp [hy])) h2'.1 h2'.2).mono fun o h3 h3' => ?_
      exact ⟨h3'.1, Leaves.drop (L := L) (h3'.2.congr fun a => by omega) hL⟩

theorem gather_runs {α : Type} {G K : Prop} {C : Bag} {f : α → H (Option Tree)} {n : Nat} {a : Option (Nat × List α)}
    (ha : 0 < n → ∃ b xs, a = some (b, xs) ∧ n ≤ xs.length ∧ 1 ≤ C b ∧ ∀ x ∈ xs, Makes G K C (f x)) {t : Tree} (ht : t ≠ [])
    {h : Store} {R : Bag} (f0 : Fits h fun a => treeBag t a + (C a + R a)) :
    Runs (gather f n a t) h fun o h' => Item G o ∧ Leaves K h' fun a => optBag o a + (C a + R a) := by
  unfold gather
  by_cases hn : n = 0
  · rw [if_pos hn]
    exact .pure ⟨.some ht, f0.leaves⟩
  · rw [if_neg hn]
    obtain ⟨b, xs, rfl, hlen, hb, hf⟩ := ha (by omega)
    refine collect_runs n xs hlen (fun x hx h R f1 => ?_) ht f0
    exact (touch_runs f1 (b := b) (by omega)).keep (hf x hx h R f1)

/-- The end of a cell and of a network: the array, made or not, goes under its name into the object. -/
theorem named_runs (k : Policy) {G : Prop} {C : Bag} {t : Tree} (ht : t ≠ []) {m : H (Option Tree)}
    {h : Store} {R : Bag}
    (hm : Runs m h fun o h' => Item G o ∧ Leaves (∀ i, k.grow i = true) h' fun a => optBag o a + (C a + (treeBag t a + R a))) :
    Runs (m >>= fun o => match o with
      | none => do deleteTree t; pure none
      | some u => do
        let t ← addNamed k t u
        pure (some t)) h fun o h' => Item G o ∧ Leaves (∀ i, k.grow i = true) h' fun a => optBag o a + (C a + R a) := by
  refine hm.bind fun o h' ho => ?_
  obtain ⟨hi, L, hL, f1⟩ := ho
  cases o with
  | none =>
    refine (deleteTree_runs t (R := fun a => L a + (C a + R a)) (f1.congr fun a => by simp only [optBag]; omega)).bind
      fun _ h2 f2 => ?_
    exact .pure ⟨.none hi.no, L, hL, f2.congr fun a => by simp [optBag]⟩
  | some u =>
    refine (addNamed_runs k ht (hi.root u rfl) (R := fun a => L a + (C a + R a))
      (f1.congr fun a => by simp only [optBag]; omega)).bind fun t' h2 h2' => ?_
    exact .pure ⟨.some h2'.1, Leaves.drop (L := L) (h2'.2.congr fun a => by simp only [optBag]; omega) hL⟩

theorem saveOperand_makes (p k : Policy) (code : Ins) (C : Bag) {x : Ptr × Nat} (hx : x.1 = none) :
    Makes (∀ i, p.grow i = true) (∀ i, k.grow i = true) C (saveOperand p code x) := by
  intro h R f
  unfold saveOperand
  refine (newNode_runs p f).bind fun o h1 ho => ?_
  cases o with
  | none => exact .pure ⟨ho.1, ho.2.leaves⟩
  | some t =>
    refine (addMember_runs p 3 (ho.1.root t rfl) ho.2).bind fun t h2 h2' => ?_
    refine (addMember_runs p 3 h2'.1 h2'.2).bind fun t h3 h3' => ?_
    have hmid : Runs (addValue p code x.2 t) h3 fun t' h' =>
        t' ≠ [] ∧ Fits h' fun a => treeBag t' a + (C a + R a) := by
      unfold addValue
      by_cases hd : timerPreset code x.2 = true
      · rw [if_pos hd]; exact .pure h3'
      · rw [if_neg hd]; exact addMember_runs p 3 h3'.1 h3'.2
    refine hmid.bind fun t h4 h4' => ?_
    rw [hx]
    refine (addMember_runs p 3 h4'.1 h4'.2).bind fun t h5 h5' => ?_
    exact .pure ⟨.some h5'.1, h5'.2.leaves⟩

/-- A cell has the operands it announces, and they have no texts. -/
def Savable (x : Cell) : Prop := 0 < x.qty → ∃ b ts, x.data = some (b, ts) ∧ x.qty ≤ ts.length ∧ ∀ q ∈ ts, q = none

theorem saveCell_makes (p : Policy) (k : Policy) {C : Bag} {x : Cell} (hx : Savable x)
    (hC : ∀ a, cellBag x a ≤ C a) : Makes (∀ i, p.grow i = true) (∀ i, k.grow i = true) C (saveCell p k x) := by
  intro h R f
  unfold saveCell
  refine (newNode_runs p f).bind fun o h1 ho => ?_
  cases o with
  | none => exact .pure ⟨ho.1, ho.2.leaves⟩
  | some t =>
    refine (addMember_runs p 3 (ho.1.root t rfl) ho.2).bind fun t h2 h2' => ?_
    refine (addMember_runs p 2 h2'.1 h2'.2).bind fun t h3 h3' => ?_
    refine (newNode_runs p h3'.2).bind fun o h4 h4' => ?_
    cases o with
    | none =>
      refine (deleteTree_runs t (R := fun a => C a + R a) (h4'.2.congr fun a => by simp only [optBag]; omega)).bind
        fun _ h5 f5 => ?_
      exact .pure ⟨.none h4'.1.no, Fits.leaves (f5.congr fun a => by simp [optBag])⟩
    | some u =>
      refine named_runs k h3'.1 (gather_runs (fun hq => ?_) (h4'.1.root u rfl) (h4'.2.congr fun a => by simp only [optBag]; omega))
      obtain ⟨b, ts, hd, hlen, hts⟩ := hx hq
      refine ⟨b, ts.zipIdx, by rw [hd]; rfl, by simpa using hlen, ?_, fun y hy => saveOperand_makes p k _ C ?_⟩
      · have := hC b
        simp only [cellBag, hd, arrBag, one_self] at this
        omega
      · exact hts y.1 (List.fst_mem_of_mem_zipIdx hy)

theorem saveRow_makes (p : Policy) (k : Policy) {C : Bag} {cols : Nat} {row : Row}
    (hr : 0 < cols → ∃ b cs, row = some (b, cs) ∧ cols ≤ cs.length ∧ ∀ x ∈ cs, Savable x) (hC : ∀ a, rowBag row a ≤ C a) :
    Makes (∀ i, p.grow i = true) (∀ i, k.grow i = true) C (saveRow p k cols row) := by
  intro h R f
  unfold saveRow
  refine (newNode_runs p f).bind fun o h1 ho => ?_
  cases o with
  | none => exact .pure ⟨ho.1, ho.2.leaves⟩
  | some t =>
    refine gather_runs (fun hq => ?_) (ho.1.root t rfl) ho.2
    obtain ⟨b, cs, rfl, hlen, hcs⟩ := hr hq
    refine ⟨b, cs, rfl, hlen, ?_, fun x hx => saveCell_makes p k (hcs x hx) fun a => ?_⟩
    · have := hC b
      simp only [rowBag, arrBag, one_self] at this
      omega
    · have h1 := hC a
      have h2 := sumBag_mem (B := cellBag) hx a
      simp only [rowBag, arrBag] at h1
      omega

/-- A network whose rows and columns are there, with such cells. -/
def SavableNet (x : Net) : Prop :=
  0 < x.cols → 0 < x.rows → ∃ b rs, x.cells = some (b, rs) ∧ x.rows ≤ rs.length ∧
    ∀ row ∈ rs, ∃ b cs, row = some (b, cs) ∧ x.cols ≤ cs.length ∧ ∀ y ∈ cs, Savable y

theorem saveNet_makes (p : Policy) (k : Policy) {C : Bag} {x : Net} (hx : SavableNet x)
    (hC : ∀ a, netBag x a ≤ C a) : Makes (∀ i, p.grow i = true) (∀ i, k.grow i = true) C (saveNet p k x) := by
  intro h R f
  unfold saveNet
  refine (newNode_runs p f).bind fun o h1 ho => ?_
  cases o with
  | none => exact .pure ⟨ho.1, ho.2.leaves⟩
  | some t =>
    refine (addMember_runs p 2 (ho.1.root t rfl) ho.2).bind fun t h2 h2' => ?_
    refine (addMember_runs p 2 h2'.1 h2'.2).bind fun t h2 h2' => ?_
    refine (addMember_runs p 2 h2'.1 h2'.2).bind fun t h3 h3' => ?_
    refine (newNode_runs p h3'.2).bind fun o h4 h4' => ?_
    cases o with
    | none =>
      refine (deleteTree_runs t (R := fun a => C a + R a) (h4'.2.congr fun a => by simp only [optBag]; omega)).bind
        fun _ h5 f5 => ?_
      exact .pure ⟨.none h4'.1.no, Fits.leaves (f5.congr fun a => by simp [optBag])⟩
    | some u =>
      have f4 : Fits h4 fun a => treeBag u a + (C a + (treeBag t a + R a)) := h4'.2.congr fun a => by simp only [optBag]; omega
      refine named_runs k h3'.1 ?_
      by_cases hc : x.cols = 0
      · rw [if_pos hc]
        exact collect_runs _ _ (by simp) (fun _ _ h R f => (newNode_runs p f).mono fun _ _ h => ⟨h.1, h.2.leaves⟩) (h4'.1.root u rfl) f4
      · rw [if_neg hc]
        refine gather_runs (fun hq => ?_) (h4'.1.root u rfl) f4
        obtain ⟨b, rs, e, hlen, hrs⟩ := hx (by omega) hq
        refine ⟨b, rs, e, hlen, ?_, fun row hrow => saveRow_makes p k (fun _ => hrs row hrow) fun a => ?_⟩
        · have := hC b
          simp only [netBag, e, arrBag, one_self] at this
          omega
        · have h1 := hC a
          have h2 := sumBag_mem (B := rowBag) hrow a
          simp only [netBag, e, arrBag] at h1
          omega

theorem openFile_runs (w : Bool) {h : Store} {R : Bag} (f : Fits h R) :
    Runs (openFile w) h fun q h' => Fits h' (fun a => ptrBag q a + R a) ∧ q.isSome = w := by
  unfold openFile
  cases w with
  | false => exact .pure ⟨f.congr fun a => by simp [ptrBag], rfl⟩
  | true => exact (alloc_runs _ f).mono fun q h' hq => ⟨hq.1, hq.2.1⟩

/-- `saveFile` on a context whose networks can be saved. -/
theorem saveFile_runs (p k : Policy) (w : Bool) {x : Ctx}
    (hx : 0 < x.networks → ∃ b ns, x.nets = some (b, ns) ∧ x.networks ≤ ns.length ∧ ∀ n ∈ ns, SavableNet n) {h : Store}
    {R : Bag} (f : Fits h fun a => ctxBag x a + R a) :
    Runs (saveFile p k w x) h fun ok h' => Leaves (∀ i, k.grow i = true) h' (fun a => ctxBag x a + R a) ∧
      ((∀ i, p.grow i = true) → ok = w) ∧ (w = false → ok = false) := by
  unfold saveFile
  refine (openFile_runs w f).bind fun q h1 hq => ?_
  cases q with
  | none =>
    have hw : w = false := by have := hq.2; simpa using this.symm
    exact .pure ⟨Fits.leaves (hq.1.congr fun a => by simp [ptrBag]), fun _ => hw.symm, fun _ => rfl⟩
  | some file =>
    have hw : w = true := by have := hq.2; simpa using this.symm
    subst hw
    have f1 : Fits h1 fun a => ptrBag (some file) a + (ctxBag x a + R a) := hq.1
    have bad : ∀ {h' : Store} {R' : Bag}, Fits h' (fun a => ptrBag (some file) a + R' a) → ¬ (∀ i, p.grow i = true) →
        Runs (do free (some file); pure false : H Bool) h' fun ok h' => Fits h' R' ∧
          ((∀ i, p.grow i = true) → ok = true) ∧ (true = false → ok = false) := fun f hg =>
      (free_runs f).bind fun _ h2 f2 => .pure ⟨f2, fun g => absurd g hg, fun e => nomatch e⟩
    refine (newNode_runs p f1).bind fun o h2 h2' => ?_
    cases o with
    | none => exact (bad (h2'.2.congr fun a => by simp [optBag]) h2'.1.no).mono fun _ _ h => ⟨h.1.leaves, h.2⟩
    | some t =>
      refine (gather_runs (C := ctxBag x) (R := fun a => ptrBag (some file) a + R a) (G := ∀ i, p.grow i = true)
        (K := ∀ i, k.grow i = true) (f := saveNet p k) (n := x.networks) (a := x.nets) (fun hn => ?_) (h2'.1.root t rfl)
        (h2'.2.congr fun a => by simp only [optBag]; omega)).bind fun o h3 h3' => ?_
      · obtain ⟨b, ns, e, hlen, hns⟩ := hx hn
        refine ⟨b, ns, e, hlen, ?_, fun n hn => saveNet_makes p k (hns n hn) fun a => ?_⟩
        · simp only [ctxBag, e, arrBag, one_self]
          omega
        · have h2 := sumBag_mem (B := netBag) hn a
          simp only [ctxBag, e, arrBag]
          omega
      · obtain ⟨hi, L, hL, f3⟩ := h3'
        have drop : ∀ {h' : Store}, (Fits h' fun a => L a + (ctxBag x a + R a)) →
            Leaves (∀ i, k.grow i = true) h' fun a => ctxBag x a + R a := fun f => f.leaves.drop hL
        cases o with
        | none =>
          exact (bad (R' := fun a => L a + (ctxBag x a + R a)) (f3.congr fun a => by simp only [optBag]; omega) hi.no).mono
            fun _ _ h => ⟨drop h.1, h.2⟩
        | some t =>
          refine (alloc_runs p f3).bind fun q h4 h4' => ?_
          cases q with
          | none =>
            refine (deleteTree_runs t (R := fun a => ptrBag (some file) a + (L a + (ctxBag x a + R a)))
              (h4'.1.congr fun a => by simp only [optBag, ptrBag]; omega)).bind fun _ h5 f5 => ?_
            exact (bad f5 fun hp => by have := h4'.2.1; rw [hp] at this; cases this).mono fun _ _ h => ⟨drop h.1, h.2⟩
          | some text =>
            have f4 := h4'.1
            refine (touchRoot_runs (hi.root t rfl) f4 fun a => by simp only [optBag]; omega).keep ?_
            refine (touch_runs f4 (b := file) (by simp only [ptrBag, one_self]; omega)).keep ?_
            refine (touch_runs f4 (b := text) (by simp only [ptrBag, one_self]; omega)).keep ?_
            refine (free_runs f4).bind fun _ h5 f5 => ?_
            refine (deleteTree_runs t (R := fun a => ptrBag (some file) a + (L a + (ctxBag x a + R a)))
              (f5.congr fun a => by simp only [optBag, ptrBag]; omega)).bind fun _ h6 f6 => ?_
            exact (free_runs f6).bind fun _ h7 f7 => .pure ⟨drop f7, fun _ => rfl, fun e => nomatch e⟩

/-- If the names are granted nothing is left. -/
theorem Leaves.fits {K : Prop} {h : Store} {B : Bag} (f : Leaves K h B) (hk : K) : Fits h B := by
  obtain ⟨L, hL, f⟩ := f
  exact f.congr fun a => by simp [hL hk a]

end Ladder.Heap
