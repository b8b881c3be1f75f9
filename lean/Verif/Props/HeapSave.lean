import Verif.Props.HeapJson

/-
C92: saving a program neither misuses the heap nor leaves blocks behind, and the file is closed.
-/

namespace Ladder.Props

open Ladder.Heap

/-- C92: whatever was done with the context before, saving a program without texts misuses no block, whichever requests for
memory are refused, and keeps every block that was in use before.  Unless the name of one of its arrays is refused, it frees
everything it allocated and closes the file, on every path.  If the file cannot be opened it fails; with memory for everything
it otherwise succeeds. -/
theorem C92_save_partial {p : Policy} (hs : ∀ k, p.shrink k = true) {a : Heap.InitArgs} (hn : a.initNetwork = true)
    {h0 : Store} (s0 : h0.Sound) {x : Heap.Ctx} {h : Store} (b : Built p a h0 x h) (ht : Textless x) (k : Policy)
    (writable : Bool) :
    ∃ ok h', saveFile p k writable x h = .ok (ok, h') ∧ (∀ b ∈ h.live, b ∈ h'.live) ∧
      ((∀ i, k.grow i = true) → h'.live.Perm h.live) ∧ (writable = false → ok = false) ∧
      ((∀ i, p.grow i = true) → ok = writable) := by
  obtain ⟨cok, f⟩ := built_ok hs hn s0 b
  obtain ⟨ok, h', e, hl, h1, h2⟩ := saveFile_runs p k writable (savable cok (built_whole b) ht) f
  refine ⟨ok, h', e, fun b hb => ?_, fun hk => List.perm_iff_count.2 fun a => ?_, h2, h1⟩
  · obtain ⟨L, -, fl⟩ := hl
    have h3 := fl.live b
    have h4 := f.live b
    have h5 := List.count_pos_iff.2 hb
    exact List.count_pos_iff.1 (by dsimp only at h3 h4; omega)
  · rw [(hl.fits hk).live, f.live]

/-- C92: a cell of a program made by the library has the operands it announces, which is what the writer relies on. -/
theorem C92_whole {p : Policy} {a : Heap.InitArgs} {h0 : Store} {x : Heap.Ctx} {h : Store} (b : Built p a h0 x h)
    {n r c : Nat} {cell : Heap.Cell} (hc : x.cell n r c = some cell) (hd : cell.data = none) : cell.qty = 0 :=
  built_whole b n r c cell hc hd

/-- C92: saving at any point of a history and going on, a teardown still frees every block allocated since the
initialisation. -/
theorem C92_teardown {p : Policy} (hs : ∀ k, p.shrink k = true) {a : Heap.InitArgs} (hn : a.initNetwork = true)
    {h0 : Store} (s0 : h0.Sound) {x : Heap.Ctx} {h : Store} (b : Built p a h0 x h) (ht : Textless x) {k : Policy}
    (hk : ∀ i, k.grow i = true) (writable : Bool) :
    ∃ ok h' z h'', saveFile p k writable x h = .ok (ok, h') ∧ Heap.deinit x h' = .ok (z, h'') ∧ h''.live.Perm h0.live := by
  obtain ⟨ok, h', e, -⟩ := C92_save_partial hs hn s0 b ht k writable
  have b' : Built p a h0 x h' := .step (r := ok) (.save k writable) b ⟨hk, ht⟩ (by
    show H.bind (saveFile p k writable x) _ h = _
    unfold H.bind
    rw [e]
    rfl)
  obtain ⟨z, h'', e', hp⟩ := C60_teardown_partial hs hn s0 b'
  exact ⟨ok, h', z, h'', e, e', hp⟩

/-! ### Where it fails -/

/-- Initialisation, a list of calls, and a save: its result and the number of blocks it left, or the misuse. -/
def saves (p k : Policy) (acts : List Act) (writable : Bool) : Except Misuse (Bool × Nat) :=
  match Heap.ctxInit p {} smallInit {} with
  | .error e => .error e
  | .ok ((false, _), _) => .error .outOfBounds
  | .ok ((true, x), h) =>
    match play p acts x h with
    | none => .error .outOfBounds
    | some (x, h) =>
      match saveFile p k writable x h with
      | .error e => .error e
      | .ok (ok, h') => .ok (ok, h'.live.length - h.live.length)

/-- Tests for the result. -/
def savesTo (ok : Bool) (n : Nat) : Except Misuse (Bool × Nat) → Bool
  | .ok (ok', n') => ok == ok' && n == n'
  | .error _ => false

def savesUndefined : Except Misuse (Bool × Nat) → Bool
  | .error .undefined => true
  | _ => false

theorem savesTo_iff {ok : Bool} {n : Nat} {r : Except Misuse (Bool × Nat)} (h : savesTo ok n r = true) : r = .ok (ok, n) := by
  cases r with
  | error => cases h
  | ok a =>
    obtain ⟨ok', n'⟩ := a
    simp [savesTo] at h
    rw [h.1, h.2]

theorem savesUndefined_iff {r : Except Misuse (Bool × Nat)} (h : savesUndefined r = true) : r = .error .undefined := by
  cases r with
  | ok => cases h
  | error e => cases e <;> first | rfl | cases h

/-- C92 fails if the names of the arrays are refused: the writer does not notice, says that it has succeeded, and the arrays
that were to be attached stay allocated for ever. -/
theorem C92_refuted_names : ∃ n, 0 < n ∧ saves granting denyAll [] true = .ok (true, n) :=
  ⟨_, by decide, savesTo_iff (n := 46) (by decide +kernel)⟩

/-- C92 fails if the memory for a member is refused: here request 27, for the number of columns, is refused; the member is left
out of the file and the writer says that it has succeeded.  That the request is made is seen from the effect of a later one. -/
theorem C92_refuted_members : saves (refusing 27) granting [] true = .ok (true, 0) ∧
    saves (refusing 29) granting [] true = .ok (false, 0) :=
  ⟨savesTo_iff (by decide +kernel), savesTo_iff (by decide +kernel)⟩

/-- C92 fails for a program with a text: the buffer that is added as its value has not been written. -/
theorem C92_refuted_text :
    saves granting granting [.fnCell twoCells .MOVE 0 0 1 0, .setText 0 1 0 0] true = .error .undefined :=
  savesUndefined_iff (by decide +kernel)

/-! ### Concrete cases -/

/-- Test for `Textless`. -/
def textlessTest (x : Heap.Ctx) : Bool :=
  x.nets.all fun a => a.2.all fun net => net.cells.all fun g => g.2.all fun row => row.all fun b => b.2.all fun cell =>
    cell.data.all fun d => d.2.all fun q => q.isNone

theorem textless_of {x : Heap.Ctx} (t : textlessTest x = true) : Textless x := by
  intro n r c cell b ts hc hd q hq
  obtain ⟨⟨b1, ns⟩, h1, h2⟩ := Option.bind_eq_some_iff.1 hc
  obtain ⟨net, h3, h4⟩ := Option.bind_eq_some_iff.1 h2
  obtain ⟨⟨b2, rows⟩, h5, h6⟩ := Option.bind_eq_some_iff.1 h4
  obtain ⟨row, h7, h8⟩ := Option.bind_eq_some_iff.1 h6
  obtain ⟨⟨b3, cells⟩, h9, h10⟩ := Option.bind_eq_some_iff.1 h8
  unfold textlessTest at t
  rw [h1] at t
  have t := List.all_eq_true.1 t net (List.mem_of_getElem? h3)
  rw [h5] at t
  have t := List.all_eq_true.1 t row (List.mem_of_getElem? h7)
  rw [h9] at t
  have t := List.all_eq_true.1 t cell (List.mem_of_getElem? h10)
  rw [hd] at t
  have t := List.all_eq_true.1 t q hq
  simpa using t

/-- A program with an instruction of two operands. -/
example : ∃ x h, Built granting smallInit {} x h ∧ Textless x ∧ ∃ cell, x.cell 0 1 0 = some cell ∧ cell.qty = 2 := by
  have t : (playFrom granting smallInit [.addRead true, .fnCell twoCells .MOVE 0 0 1 0]).any (fun r =>
      textlessTest r.1 && (r.1.cell 0 1 0).any fun c => c.qty == 2) = true := by decide +kernel
  obtain ⟨⟨x, h⟩, e, hl⟩ := (Option.any_eq_true _ _).1 t
  obtain ⟨hl1, hl2⟩ := Bool.and_eq_true_iff.1 hl
  obtain ⟨cell, h1, h2⟩ := (Option.any_eq_true _ _).1 hl2
  exact ⟨x, h, playFrom_built e, textless_of hl1, cell, h1, by simpa using h2⟩

/-- Saving it: with memory, with the 41st request refused, and without access to the file. -/
example : saves granting granting [.fnCell twoCells .MOVE 0 0 1 0] true = .ok (true, 0) := savesTo_iff (by decide +kernel)
example : saves ⟨fun k => k != 40, fun _ => true⟩ granting [.fnCell twoCells .MOVE 0 0 1 0] true = .ok (false, 0) :=
  savesTo_iff (by decide +kernel)
example : saves granting granting [.fnCell twoCells .MOVE 0 0 1 0] false = .ok (false, 0) := savesTo_iff (by decide +kernel)

end Ladder.Props
