import Verif.Model.Port
import Verif.Props.Teardown

/-
C82: the shipped port and the shipped foreign function release all their memory.
-/

set_option autoImplicit false

namespace Ladder.Heap

def portsBag (x : Ports) : Bag := fun a => ptrBag x.a a + ptrBag x.b a + ptrBag x.c a

def rackBag (k : Rack) : Bag := fun a => sumBag portsBag k.reads a + sumBag portsBag k.writes a + sumBag ptrBag k.foreign a

/-- A module is open or closed: all three arrays are there or none is. -/
def Ports.Whole (x : Ports) : Prop := x.a.isSome = x.b.isSome ∧ x.b.isSome = x.c.isSome

theorem freeSome_runs {h : Store} {R : Bag} {q : Ptr} (f : Fits h fun a => ptrBag q a + R a) :
    Runs (freeSome q) h fun _ h' => Fits h' R := by
  unfold freeSome
  cases q with
  | none => exact .pure (f.congr fun a => by simp [ptrBag])
  | some b => exact free_runs f

theorem close_runs {h : Store} {R : Bag} {x : Ports} (f : Fits h fun a => portsBag x a + R a) :
    Runs x.close h fun y h' => y = {} ∧ Fits h' R := by
  unfold Ports.close
  refine (freeSome_runs (R := fun a => ptrBag x.b a + ptrBag x.c a + R a)
    (f.congr fun a => by simp only [portsBag]; omega)).bind fun _ h1 f1 => ?_
  refine (freeSome_runs (R := fun a => ptrBag x.c a + R a) (f1.congr fun a => by omega)).bind fun _ h2 f2 => ?_
  refine (freeSome_runs (R := R) f2).bind fun _ h3 f3 => ?_
  exact .pure ⟨rfl, f3⟩

theorem touchAll_runs {h : Store} {B : Bag} (f : Fits h B) : ∀ (qs : List Ptr),
    (∀ q ∈ qs, ∃ b, q = some b ∧ 1 ≤ B b) → Runs (touchAll qs) h fun _ h' => h' = h
  | [], _ => .pure rfl
  | q :: qs, hq => by
    obtain ⟨b, rfl, hb⟩ := hq q (by simp)
    refine (touch_runs f hb).bind fun _ h1 e => ?_
    subst e
    exact touchAll_runs f qs fun q hm => hq q (by simp [hm])

theorem open_runs (p : Policy) (wipe : Bool) {h : Store} {R : Bag} {x : Ports} (f : Fits h fun a => portsBag x a + R a) :
    Runs (x.open p wipe) h fun r h' => (r.2.a.isSome = r.1 ∧ r.2.b.isSome = r.1 ∧ r.2.c.isSome = r.1) ∧
      Fits h' fun a => portsBag r.2 a + R a := by
  unfold Ports.open
  refine (close_runs f).bind ?_
  rintro _ h1 ⟨-, f1⟩
  have none_bag : ∀ a, portsBag {} a = 0 := fun a => by simp [portsBag, ptrBag]
  refine (alloc_runs p f1).bind ?_
  rintro qa h2 ⟨f2, -, -⟩
  cases qa with
  | none => exact .pure ⟨⟨rfl, rfl, rfl⟩, f2.congr fun a => by simp [none_bag, ptrBag]⟩
  | some ba =>
    refine (alloc_runs p f2).bind ?_
    rintro qb h3 ⟨f3, -, -⟩
    cases qb with
    | none =>
      refine (free_runs (R := R) (q := some ba) (f3.congr fun a => by simp [ptrBag])).bind fun _ h4 f4 => ?_
      exact .pure ⟨⟨rfl, rfl, rfl⟩, f4.congr fun a => by simp [none_bag]⟩
    | some bb =>
      refine (alloc_runs p f3).bind ?_
      rintro qc h4 ⟨f4, -, -⟩
      cases qc with
      | none =>
        refine (free_runs (R := fun a => ptrBag (some bb) a + R a) (q := some ba)
          (f4.congr fun a => by simp only [ptrBag]; omega)).bind fun _ h5 f5 => ?_
        refine (free_runs (R := R) f5).bind fun _ h6 f6 => ?_
        exact .pure ⟨⟨rfl, rfl, rfl⟩, f6.congr fun a => by simp [none_bag]⟩
      | some bc =>
        refine (touchAll_runs f4 _ ?_).bind fun _ h5 e => ?_
        · cases wipe with
          | false => simp
          | true =>
            intro q hq
            simp only [if_true, List.mem_cons, List.not_mem_nil, or_false] at hq
            rcases hq with rfl | rfl | rfl
            · exact ⟨ba, rfl, by simp [ptrBag, one_self]; omega⟩
            · exact ⟨bc, rfl, by simp [ptrBag, one_self]⟩
            · exact ⟨bb, rfl, by simp [ptrBag, one_self]; omega⟩
        · subst e
          exact .pure ⟨⟨rfl, rfl, rfl⟩, f4.congr fun a => by simp only [portsBag]; omega⟩

theorem sumBag_snoc {α : Type} (B : α → Bag) (xs : List α) (x : α) (a : Nat) :
    sumBag B (xs ++ [x]) a = sumBag B xs a + B x a := by
  induction xs with
  | nil => simp [sumBag]
  | cons y ys ih => simp only [List.cons_append, sumBag, ih]; omega

theorem plugIn_runs (p : Policy) (wipe tables : Bool) {xs : List Ports} {h : Store} {R : Bag}
    (f : Fits h fun a => sumBag portsBag xs a + R a) :
    Runs (plugIn p wipe tables xs) h fun ys h' => Fits h' fun a => sumBag portsBag ys a + R a := by
  unfold plugIn
  cases tables with
  | false => exact .pure f
  | true =>
    refine (open_runs p wipe (x := {}) (R := fun a => sumBag portsBag xs a + R a) (f.congr fun a => by simp [portsBag, ptrBag])).bind ?_
    rintro ⟨ok, x⟩ h1 ⟨-, f1⟩
    cases ok with
    | true => exact .pure (f1.congr fun a => by simp only [sumBag_snoc]; omega)
    | false =>
      refine (close_runs f1).bind ?_
      rintro _ h2 ⟨-, f2⟩
      exact .pure f2

theorem addDummy_runs (p : Policy) (tables : Bool) {xs : List Ptr} {h : Store} {R : Bag}
    (f : Fits h fun a => sumBag ptrBag xs a + R a) :
    Runs (addDummy p tables xs) h fun ys h' => Fits h' fun a => sumBag ptrBag ys a + R a := by
  unfold addDummy
  refine (alloc_runs p f).bind ?_
  rintro d h1 ⟨f1, -, -⟩
  cases tables with
  | true => exact .pure (f1.congr fun a => by rw [sumBag_snoc]; omega)
  | false => exact (free_runs f1).bind fun _ h2 f2 => .pure f2

theorem reopen_runs (p : Policy) (wipe : Bool) : ∀ (n : Nat) (xs : List Ports) {h : Store} {R : Bag},
    (Fits h fun a => sumBag portsBag xs a + R a) →
    Runs (reopen p wipe n xs) h fun ys h' => Fits h' fun a => sumBag portsBag ys a + R a
  | n, [], h, R, f => by unfold reopen; exact .pure f
  | 0, x :: xs, h, R, f => by
    unfold reopen
    refine (open_runs p wipe (R := fun a => sumBag portsBag xs a + R a)
      (f.congr fun a => by simp only [sumBag]; omega)).bind ?_
    rintro ⟨ok, y⟩ h1 ⟨-, f1⟩
    exact .pure (f1.congr fun a => by simp only [sumBag]; omega)
  | n + 1, x :: xs, h, R, f => by
    unfold reopen
    refine (reopen_runs p wipe n xs (R := fun a => portsBag x a + R a)
      (f.congr fun a => by simp only [sumBag]; omega)).bind fun ys h1 f1 => ?_
    exact .pure (f1.congr fun a => by simp only [sumBag]; omega)

theorem rackAct_runs (p : Policy) (act : RackAct) (k : Rack) {h : Store} {R : Bag} (f : Fits h fun a => rackBag k a + R a) :
    Runs (act.run p k) h fun k' h' => Fits h' fun a => rackBag k' a + R a := by
  cases act with
  | addRead t =>
    refine (plugIn_runs p true t (R := fun a => sumBag portsBag k.writes a + sumBag ptrBag k.foreign a + R a)
      (f.congr fun a => by simp only [rackBag]; omega)).bind fun ys h1 f1 => ?_
    exact .pure (f1.congr fun a => by simp only [rackBag]; omega)
  | addWrite t =>
    refine (plugIn_runs p false t (R := fun a => sumBag portsBag k.reads a + sumBag ptrBag k.foreign a + R a)
      (f.congr fun a => by simp only [rackBag]; omega)).bind fun ys h1 f1 => ?_
    exact .pure (f1.congr fun a => by simp only [rackBag]; omega)
  | addForeign t =>
    refine (addDummy_runs p t (R := fun a => sumBag portsBag k.reads a + sumBag portsBag k.writes a + R a)
      (f.congr fun a => by simp only [rackBag]; omega)).bind fun ys h1 f1 => ?_
    exact .pure (f1.congr fun a => by simp only [rackBag]; omega)
  | initRead id =>
    refine (reopen_runs p true id k.reads (R := fun a => sumBag portsBag k.writes a + sumBag ptrBag k.foreign a + R a)
      (f.congr fun a => by simp only [rackBag]; omega)).bind fun ys h1 f1 => ?_
    exact .pure (f1.congr fun a => by simp only [rackBag]; omega)
  | initWrite id =>
    refine (reopen_runs p false id k.writes (R := fun a => sumBag portsBag k.reads a + sumBag ptrBag k.foreign a + R a)
      (f.congr fun a => by simp only [rackBag]; omega)).bind fun ys h1 f1 => ?_
    exact .pure (f1.congr fun a => by simp only [rackBag]; omega)

theorem runActs_runs (p : Policy) : ∀ (acts : List RackAct) (k : Rack) {h : Store} {R : Bag},
    (Fits h fun a => rackBag k a + R a) →
    Runs (runActs p acts k) h fun k' h' => Fits h' fun a => rackBag k' a + R a
  | [], k, h, R, f => .pure f
  | x :: xs, k, h, R, f => by
    unfold runActs
    exact (rackAct_runs p x k f).bind fun k' h1 f1 => runActs_runs p xs k' f1

theorem freeAll_runs : ∀ (ds : List Ptr) {h : Store} {R : Bag}, (Fits h fun a => sumBag ptrBag ds a + R a) →
    Runs (freeAll ds) h fun _ h' => Fits h' R
  | [], h, R, f => .pure (f.congr fun a => by simp [sumBag])
  | d :: ds, h, R, f => by
    unfold freeAll
    refine (free_runs (R := fun a => sumBag ptrBag ds a + R a)
      (f.congr fun a => by simp only [sumBag]; omega)).bind fun _ h1 f1 => ?_
    exact freeAll_runs ds f1

theorem closeAll_runs : ∀ (xs : List Ports) {h : Store} {R : Bag}, (Fits h fun a => sumBag portsBag xs a + R a) →
    Runs (closeAll xs) h fun _ h' => Fits h' R
  | [], h, R, f => .pure (f.congr fun a => by simp [sumBag])
  | x :: xs, h, R, f => by
    unfold closeAll
    refine (close_runs (R := fun a => sumBag portsBag xs a + R a)
      (f.congr fun a => by simp only [sumBag]; omega)).bind ?_
    rintro _ h1 ⟨-, f1⟩
    exact closeAll_runs xs f1

theorem teardown_runs (k : Rack) {h : Store} {R : Bag} (f : Fits h fun a => rackBag k a + R a) :
    Runs k.teardown h fun _ h' => Fits h' R := by
  unfold Rack.teardown
  refine (freeAll_runs k.foreign (R := fun a => sumBag portsBag k.reads a + sumBag portsBag k.writes a + R a)
    (f.congr fun a => by simp only [rackBag]; omega)).bind fun _ h1 f1 => ?_
  refine (closeAll_runs k.reads (R := fun a => sumBag portsBag k.writes a + R a)
    (f1.congr fun a => by omega)).bind fun _ h2 f2 => ?_
  exact closeAll_runs k.writes f2

end Ladder.Heap

namespace Ladder.Props

open Ladder.Heap

/-- C82: whatever the application registers and initialises again, and whichever requests are refused, the shipped port
and the shipped foreign function never misuse the heap. -/
theorem C82_no_misuse (p : Policy) (acts : List RackAct) {h0 : Store} (s0 : h0.Sound) :
    ∃ k h, runActs p acts {} h0 = .ok (k, h) := by
  obtain ⟨k, h, e, -⟩ := runActs_runs p acts {} (R := fun a => h0.live.count a) ((sound_fits s0).congr fun a => by simp [rackBag, sumBag])
  exact ⟨k, h, e⟩

/-- C82: teardown after any such history neither misuses the heap nor leaves a block behind, and frees nothing that
belongs to somebody else. -/
theorem C82_all_released (p : Policy) (acts : List RackAct) {h0 h : Store} (s0 : h0.Sound) {k : Rack}
    (e : runActs p acts {} h0 = .ok (k, h)) :
    ∃ h', k.teardown h = .ok ((), h') ∧ ∀ b, b ∈ h'.live ↔ b ∈ h0.live := by
  obtain ⟨k', h1, e1, f1⟩ := runActs_runs p acts {} (R := fun a => h0.live.count a) ((sound_fits s0).congr fun a => by simp [rackBag, sumBag])
  rw [e] at e1
  cases e1
  obtain ⟨u, h', e', f'⟩ := teardown_runs k f1
  refine ⟨h', e', fun b => ?_⟩
  rw [← List.count_pos_iff, ← List.count_pos_iff, f'.live]

/-- C82: initialising a module again gives back its old arrays: it never holds more than three blocks, and the three
arrays exist together. -/
theorem C82_module_whole (p : Policy) (wipe : Bool) (x : Ports) {h : Store} {R : Bag}
    (f : Fits h fun a => portsBag x a + R a) :
    ∃ ok y h', x.open p wipe h = .ok ((ok, y), h') ∧ y.a.isSome = ok ∧ y.b.isSome = ok ∧ y.c.isSome = ok := by
  obtain ⟨⟨ok, y⟩, h', e, ⟨h1, h2, h3⟩, -⟩ := open_runs p wipe f
  exact ⟨ok, y, h', e, h1, h2, h3⟩

/-- Registrations of which the third request for memory is refused, and a module opened twice. -/
def history : H (Nat × Nat) := fun h =>
  match runActs ⟨fun n => decide (n ≠ 2), fun _ => true⟩ [.addRead true, .addRead true, .addForeign true, .initRead 0] {} h with
  | .error e => .error e
  | .ok (k, h1) =>
    match k.teardown h1 with
    | .error e => .error e
    | .ok (_, h2) => .ok ((h1.live.length, h2.live.length), h2)

example : (match history {} with | .ok (r, _) => decide (r = (4, 0)) | .error _ => false) = true := by decide +kernel

end Ladder.Props
