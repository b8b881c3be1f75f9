import Verif.Props.Logic

/-
Arithmetic on ladder diagrams: a scan is undefined exactly when the diagram has arithmetic without a result.
-/

set_option autoImplicit false

namespace Ladder.Props

open Spec Spec.Logic Op

/-- A program, in a state from which its scans can be compared with its diagram. -/
structure Comparable (B : Ctx) (env : Env) (jobs : List CronJob) (nets : List Network) (w : World) : Prop where
  formed : Formed B
  fits : Fits B
  still : Still env
  planned : Planned B jobs
  network : B.network = some nets
  diagram : ∀ net ∈ nets, net.enable = true → Diagram net ∧ Room env w.ctx.scan.maxScanCycles (effort net)
  running : w.ctx.state = .running
  alike : Alike B w.ctx
  flags : Flags w.ctx
  clean : Clean w.trace

/-- What the diagram makes of the registers of `w`, with readings `us` of the clock. -/
def result (B : Ctx) (env : Env) (jobs : List CronJob) (nets : List Network) (w : World) (us : List Reading) (rest : Nat → Reading) : State :=
  Logic.program (nets.take B.qty.networks) ⟨calendar (env.localtime w.tick) jobs (load w.ctx), prior us rest, true⟩

theorem Comparable.shown {B : Ctx} {env : Env} {jobs : List CronJob} {nets : List Network} {w : World} (h : Comparable B env jobs nets w) :
    Shown env w.tick [] B w.ctx.scan.maxScanCycles (core w.ctx) (load w.ctx) w :=
  ⟨⟨h.alike, h.flags, h.clean, by simp, by simp⟩, ⟨rfl, rfl⟩, .done (Nat.le_refl _), fun _ _ => rfl⟩

/-- C76.  A scan of a ladder diagram with additions, multiplications, divisions, remainders and rotations of any registers either ends,
all arithmetic of the diagram had a result, and the registers hold what the diagram prescribes; or it is undefined (overflow,
division by zero or shift out of range, and nothing else), and in the diagram, with readings the clock had given, some
arithmetic has no result. -/
theorem C76_outcome {B : Ctx} {env : Env} {jobs : List CronJob} {nets : List Network} {w : World} (h : Comparable B env jobs nets w) :
    (∃ w' us, scan env w = .ok ((), w') ∧ Told env w.tick w'.tick us ∧ Comparable B env jobs nets w' ∧
      ∀ rest, (result B env jobs nets w us rest).sure = true ∧ (result B env jobs nets w us rest).time = rest ∧
        ∀ ℓ, register ℓ = true → load w'.ctx ℓ = (result B env jobs nets w us rest).reg ℓ) ∨
    (∃ e us hi, scan env w = .error e ∧ (e = .signedOverflow ∨ e = .divZero ∨ e = .shiftRange) ∧ Told env w.tick hi us ∧
      ∀ rest, (result B env jobs nets w us rest).sure = false) := by
  have key := Shown.scan h.formed h.fits h.still h.planned h.network h.diagram (z := core w.ctx) (.inl h.running) h.shown
  unfold Yields at key
  split at key
  · rename_i a w' e
    obtain ⟨vs, m', hgo, h'⟩ := key
    refine .inl ⟨w', vs, e, h'.told, ⟨h.formed, h.fits, h.still, h.planned, h.network, ?_, ?_, h'.resting.alike, h'.resting.flags, h'.resting.clean⟩,
      fun rest => ?_⟩
    · rw [h'.limit.1]; exact h.diagram
    · exact (congrArg Ctx.state h'.limit.2 : _).trans h.running
    · unfold result
      rw [hgo rest]
      exact ⟨rfl, rfl, h'.image⟩
  · rename_i e he
    obtain ⟨ha, vs, hi, ht, hs⟩ := key
    refine .inr ⟨e, vs, hi, he, ?_, ht, hs⟩
    cases e <;> simp [arithmetic] at ha ⊢

/-- The readings of the clock do not matter for the arithmetic of the diagram. -/
def Timeless (B : Ctx) (env : Env) (jobs : List CronJob) (nets : List Network) (w : World) : Prop :=
  ∀ t t' : Nat → Reading, (Logic.program (nets.take B.qty.networks) ⟨calendar (env.localtime w.tick) jobs (load w.ctx), t, true⟩).sure =
    (Logic.program (nets.take B.qty.networks) ⟨calendar (env.localtime w.tick) jobs (load w.ctx), t', true⟩).sure

/-- C76, exactly: unless the time decides about the arithmetic, a scan ends normally if and only if all arithmetic in the diagram
has a result. -/
theorem C76_exact {B : Ctx} {env : Env} {jobs : List CronJob} {nets : List Network} {w : World} (h : Comparable B env jobs nets w)
    (ht : Timeless B env jobs nets w) (rest : Nat → Reading) :
    (∃ w', scan env w = .ok ((), w')) ↔ (result B env jobs nets w [] rest).sure = true := by
  rcases C76_outcome h with ⟨w', us, e, -, -, h'⟩ | ⟨e, us, hi, he, -, -, hs⟩
  · refine ⟨fun _ => ?_, fun _ => ⟨w', e⟩⟩
    rw [← (h' rest).1]
    exact ht _ _
  · refine ⟨fun ⟨w', e'⟩ => (by rw [he] at e'; cases e'), fun hh => ?_⟩
    have := ht (prior [] rest) (prior us rest)
    unfold result at hh hs
    rw [hh, hs rest] at this
    cases this

/-- Programs without timers. -/
def Untimed (nets : List Network) : Prop :=
  ∀ net ∈ nets, net.enable = true → ∀ row ∈ net.cells.getD [], ∀ x ∈ row, x.code ≠ .TON ∧ x.code ≠ .TOF ∧ x.code ≠ .TP

/-- States that differ in the readings to come only. -/
def Same (s t : State) : Prop := s.reg = t.reg ∧ s.sure = t.sure

theorem act_same {s t : State} {p q d : Bool} {x : Cell} (hx : x.code ≠ .TON ∧ x.code ≠ .TOF ∧ x.code ≠ .TP) (h : Same s t) :
    Same (act s p q d x).1 (act t p q d x).1 ∧ (act s p q d x).2 = (act t p q d x).2 := by
  obtain ⟨m, u, b⟩ := s
  obtain ⟨m', u', b'⟩ := t
  obtain ⟨h1, h2⟩ := h
  simp only at h1 h2
  subst h1 h2
  cases hc : x.code <;> simp_all [act, Same]

theorem sweep_same (p : Nat → Bool) : ∀ (xs : List Cell) (i : Nat) (d : Bool) (s t : State),
    (∀ x ∈ xs, x.code ≠ .TON ∧ x.code ≠ .TOF ∧ x.code ≠ .TP) → Same s t →
    Same (sweep p i xs d s).1 (sweep p i xs d t).1 ∧ (sweep p i xs d s).2 = (sweep p i xs d t).2
  | [], _, _, _, _, _, h => ⟨h, rfl⟩
  | x :: xs, i, d, s, t, hx, h => by
    obtain ⟨h1, h2⟩ := act_same (p := p i) (q := p (i + 1)) (d := d) (hx x List.mem_cons_self) h
    obtain ⟨h3, h4⟩ := sweep_same p xs (i + 1) (act s (p i) (p (i + 1)) d x).2.2 _ _ (fun y hy => hx y (List.mem_cons_of_mem _ hy)) h1
    rw [h2] at h3 h4
    simp only [sweep]
    rw [h2]
    exact ⟨h3, by rw [h4]⟩

theorem columns_same {rows : List (List Cell)} (above : Nat → Bool) (hx : ∀ row ∈ rows, ∀ x ∈ row, x.code ≠ .TON ∧ x.code ≠ .TOF ∧ x.code ≠ .TP) :
    ∀ (k c : Nat) (s t : State) (p : Nat → Bool), Same s t →
    Same (columns rows above c k s p).1 (columns rows above c k t p).1 ∧ (columns rows above c k s p).2 = (columns rows above c k t p).2
  | 0, _, _, _, _, h => ⟨h, rfl⟩
  | k + 1, c, s, t, p, h => by
    obtain ⟨h1, h2⟩ := sweep_same p (column rows c) 0 (above c) s t (fun x hm => by
      obtain ⟨row, hr, hm⟩ := List.mem_filterMap.1 hm
      exact hx row hr x (List.mem_of_getElem? hm)) h
    simp only [columns]
    rw [h2]
    obtain ⟨h3, h4⟩ := columns_same above hx k (c + 1) _ _ (wire (column rows c) (sweep p 0 (column rows c) (above c) t).2) h1
    exact ⟨h3, by rw [h4]⟩

theorem rungs_same (cols : Nat) : ∀ (k : Nat) (rows : List (List Cell)) (above : Nat → Bool) (s t : State),
    (∀ row ∈ rows, ∀ x ∈ row, x.code ≠ .TON ∧ x.code ≠ .TOF ∧ x.code ≠ .TP) → Same s t →
    Same (rungs cols k rows above s) (rungs cols k rows above t)
  | 0, _, _, _, _, _, h => h
  | k + 1, [], _, _, _, _, h => h
  | k + 1, row :: rest, above, s, t, hx, h => by
    simp only [rungs]
    split
    · exact rungs_same cols k _ _ _ _ (fun row hr => hx row (List.mem_cons_of_mem _ hr)) h
    · obtain ⟨h1, h2⟩ := columns_same above (rows := row :: rest.takeWhile joined) (fun row' hr => hx row' (by
        rcases List.mem_cons.1 hr with rfl | hr
        · exact List.mem_cons_self
        · exact List.mem_cons_of_mem _ ((List.takeWhile_sublist _).subset hr))) cols 0 s t (fun _ => true) h
      rw [h2]
      exact rungs_same cols k _ _ _ _ (fun row hr => hx row (List.mem_cons_of_mem _ ((List.dropWhile_sublist _).subset hr))) h1

theorem program_same : ∀ (nets : List Network) (s t : State), Untimed nets → Same s t → Same (Logic.program nets s) (Logic.program nets t)
  | [], _, _, _, h => h
  | net :: nets, s, t, hx, h => by
    simp only [Logic.program, List.foldl_cons]
    refine program_same nets _ _ (fun net hn => hx net (List.mem_cons_of_mem _ hn)) ?_
    split
    · rename_i he
      exact rungs_same _ _ _ _ _ _ (hx net List.mem_cons_self he) h
    · exact h

/-- C76, exactly, for programs without timers: a scan ends normally if and only if all arithmetic in the diagram has a result. -/
theorem C76_untimed {B : Ctx} {env : Env} {jobs : List CronJob} {nets : List Network} {w : World} (h : Comparable B env jobs nets w)
    (hu : Untimed nets) (rest : Nat → Reading) :
    (∃ w', scan env w = .ok ((), w')) ↔ (result B env jobs nets w [] rest).sure = true :=
  C76_exact h (fun t t' => (program_same (nets.take B.qty.networks) ⟨_, t, true⟩ ⟨_, t', true⟩ (fun net hn => hu net (List.mem_of_mem_take hn))
    ⟨rfl, rfl⟩).2) rest

/-- C76, exactly, when the clock stands still: all timers see the time `t`. -/
theorem C76_instant {B : Ctx} {env : Env} {jobs : List CronJob} {nets : List Network} {w : World} {t : BitVec 64} (h : Comparable B env jobs nets w)
    (ht : ∀ k, env.clock k = t) :
    (∃ w', scan env w = .ok ((), w')) ↔ (result B env jobs nets w [] fun _ => ⟨t, t, t⟩).sure = true := by
  have key : ∀ {lo hi : Nat} {us : List Reading}, Told env lo hi us → result B env jobs nets w us (fun _ => ⟨t, t, t⟩) =
      result B env jobs nets w [] fun _ => ⟨t, t, t⟩ := fun hu => by
    unfold result
    rw [prior_const hu fun k _ _ => ht k]
    rfl
  rcases C76_outcome h with ⟨w', us, e, hu, -, h'⟩ | ⟨e, us, hi, he, -, hu, hs⟩
  · rw [← key hu, (h' _).1]
    exact ⟨fun _ => rfl, fun _ => ⟨w', e⟩⟩
  · rw [← key hu, hs]
    exact ⟨fun ⟨w', e'⟩ => (by rw [he] at e'; cases e'), fun e => (by cases e)⟩

/-- C76, many scans: either all of them end, and the registers run through the images of the diagram; or after some of them, which do,
the next one is undefined and the diagram has arithmetic without a result. -/
theorem C76_scans {B : Ctx} {env : Env} {jobs : List CronJob} {nets : List Network} {w : World} {between : Nat → Ctx → Ctx}
    {turn : Nat → Image → Image} (h : Comparable B env jobs nets w)
    (hb : ∀ i c, Alike B c → Flags c → Alike B (between i c) ∧ Flags (between i c) ∧
      (between i c).scan.maxScanCycles = c.scan.maxScanCycles ∧ (between i c).state = c.state)
    (ht : ∀ i c m, (∀ ℓ, register ℓ = true → load c ℓ = m ℓ) → ∀ ℓ, register ℓ = true → load (between i c) ℓ = turn i m ℓ)
    (rest : Nat → Reading) (k : Nat) :
    (∃ (w' : World) (log : List (Nat × List Reading)), scans env between k w = .ok ((), w') ∧ log.length = k ∧ Kept env w.tick w'.tick log ∧
      ∀ ℓ, register ℓ = true → load w'.ctx ℓ =
        images (nets.take B.qty.networks) jobs turn rest (load w.ctx) (log.map fun e => (env.localtime e.1, e.2)) ℓ) ∨
    (∃ (i : Nat) (w' : World) (log : List (Nat × List Reading)) (e : UB) (us : List Reading) (hi : Nat), i < k ∧
      scans env between i w = .ok ((), w') ∧ log.length = i ∧ Kept env w.tick w'.tick log ∧
      (∀ ℓ, register ℓ = true → load w'.ctx ℓ =
        images (nets.take B.qty.networks) jobs turn rest (load w.ctx) (log.map fun e => (env.localtime e.1, e.2)) ℓ) ∧
      (∀ j, i < j → scans env between j w = .error e) ∧ (e = .signedOverflow ∨ e = .divZero ∨ e = .shiftRange) ∧ Told env w'.tick hi us ∧
      ∀ more, (result B env jobs nets { w' with ctx := between i w'.ctx } us more).sure = false) := by
  suffices (∃ (w' : World) (log : List (Nat × List Reading)), scans env between k w = .ok ((), w') ∧ log.length = k ∧ Kept env w.tick w'.tick log ∧
      Comparable B env jobs nets w' ∧ Shown env w'.tick [] B w'.ctx.scan.maxScanCycles (core w'.ctx)
        (images (nets.take B.qty.networks) jobs turn rest (load w.ctx) (log.map fun e => (env.localtime e.1, e.2))) w') ∨ _ by
    rcases this with ⟨w', log, e, hl, hkept, -, h⟩ | h
    · exact .inl ⟨w', log, e, hl, hkept, h.image⟩
    · exact .inr h
  induction k with
  | zero => exact .inl ⟨w, [], rfl, rfl, .none (Nat.le_refl _), h, h.shown⟩
  | succ k ih =>
    rcases ih with ⟨w1, log, e1, hl, hkept, hr, h1⟩ | ⟨i, w1, log, e, us, hi, hlt, h'⟩
    · obtain ⟨h2, h3, h4, h5⟩ := hb k w1.ctx hr.alike hr.flags
      have hr' : Comparable B env jobs nets { w1 with ctx := between k w1.ctx } := ⟨hr.formed, hr.fits, hr.still, hr.planned, hr.network,
        by rw [show ({ w1 with ctx := between k w1.ctx } : World).ctx.scan.maxScanCycles = w1.ctx.scan.maxScanCycles from h4]; exact hr.diagram,
        h5.trans hr.running, h2, h3, hr.clean⟩
      have hm := ht k w1.ctx _ h1.image
      rcases C76_outcome hr' with ⟨w2, us, e2, -, hr2, -⟩ | ⟨e, us, hi, he, hu, hto, hs⟩
      · have key := Shown.scan hr'.formed hr'.fits hr'.still hr'.planned hr'.network hr'.diagram (z := core (between k w1.ctx)) (.inl hr'.running)
          ⟨hr'.shown.resting, ⟨rfl, rfl⟩, .done (Nat.le_refl _), hm⟩
        rw [e2] at key
        obtain ⟨vs, m', hgo, h6⟩ := key
        refine .inl ⟨w2, (w1.tick, vs) :: log, ?_, by simp [hl], .scan hkept h6.told, hr2, h6.resting, ⟨rfl, rfl⟩, .done (Nat.le_refl _), ?_⟩
        · unfold scans
          rw [bind_ok e1, bind_ok (modCtx_apply _ w1)]
          exact e2
        · rw [List.map_cons, images, List.length_map, hl, hgo rest]
          exact h6.image
      · refine .inr ⟨k, w1, log, e, us, hi, by omega, e1, hl, hkept, h1.image, fun j hj => ?_, hu, hto, hs⟩
        induction j with
        | zero => omega
        | succ j ihj =>
          unfold scans
          by_cases hjk : k < j
          · rw [bind_apply, ihj hjk]
          · rw [show j = k by omega, bind_ok e1, bind_ok (modCtx_apply _ w1)]
            exact he
    · exact .inr ⟨i, w1, log, e, us, hi, by omega, h'⟩

end Ladder.Props

namespace Ladder.Demo

open Spec Spec.Logic

/-- `M0, D0 + D0 to D0, D1 / D0 to D2`: the sum doubles in every scan. -/
def doubling : Network := net [
  [ins .NO [op .M 0], ins .ADD [op .D 0, op .D 0, op .D 0], ins .DIV [op .D 1, op .D 0, op .D 2]],
  [ins .NOP [], ins .MULTI [], ins .MULTI []],
  [ins .NOP [], ins .MULTI [], ins .MULTI []]]

/-- The context with the given content of the first data register. -/
def holding (x : W32) : Ctx := { ctx [doubling] with D := some [x, 0xFFFFFFFD, 100] }

theorem doubling_net : FormedNet (ctx [doubling]) 0 doubling where
  stored := rfl
  rows := by decide
  cols := by decide
  width := by decide
  cells := by
    intro r c hr hc
    have hr : r < 3 := hr
    have hc : c < 3 := hc
    match r, c, hr, hc with
    | 0, 0, _, _ => exact ⟨_, rfl, _, rfl, by decide, .inr (.inr (.inr ⟨_, rfl, rfl⟩))⟩
    | 0, 1, _, _ => exact ⟨_, rfl, ⟨_, rfl, by decide, .inr (.inr (.inr ⟨_, rfl, rfl⟩))⟩,
        ⟨_, rfl, by decide, .inr (.inr (.inr ⟨_, rfl, rfl⟩))⟩, _, rfl, rfl⟩
    | 0, 2, _, _ => exact ⟨_, rfl, ⟨_, rfl, by decide, .inr (.inr (.inr ⟨_, rfl, rfl⟩))⟩,
        ⟨_, rfl, by decide, .inr (.inr (.inr ⟨_, rfl, rfl⟩))⟩, _, rfl, rfl⟩
    | 1, 0, _, _ | 1, 1, _, _ | 1, 2, _, _ | 2, 0, _, _ | 2, 1, _, _ | 2, 2, _, _ => exact ⟨_, rfl, trivial⟩

theorem doubling_formed : Formed (ctx [doubling]) where
  count := by decide
  nets := by
    intro n hn
    have hn : n < 1 := hn
    match n, hn with
    | 0, _ => exact ⟨_, rfl, rfl, fun _ => doubling_net⟩

theorem doubling_comparable (x : W32) : Props.Comparable (ctx [doubling]) env [] [doubling] ⟨holding x, 0, []⟩ where
  formed := doubling_formed
  fits := fits_of rfl
  still := still
  planned := .inl ⟨rfl, rfl⟩
  network := rfl
  diagram := fun net hn _ => by
    rw [List.mem_singleton.1 hn]
    exact ⟨diagram_of (by decide), (by decide : 3 * 4 ≤ 1000), .inl fun _ _ => rfl⟩
  running := rfl
  alike := ⟨fits_of rfl, rfl, fun ℓ => by cases ℓ <;> try rfl
                                          rename_i i; cases i with | zero => rfl | succ i => cases i with | zero => rfl | succ i => cases i <;> rfl,
    rfl, rfl, rfl, rfl, rfl⟩
  flags := fun ℓ y h hl => Props.flags_demo [doubling] ℓ y h (by cases ℓ <;> first | exact hl | cases h)
  clean := fun _ _ _ _ h => by cases h

end Ladder.Demo

namespace Ladder.Props

open Spec Spec.Logic

open _root_.Ladder.Demo in
/-- The hypotheses of `C76_untimed` can be met: the scan of this program ends when the first data register holds 7. -/
example : ∃ w', scan env ⟨holding 7, 0, []⟩ = .ok ((), w') :=
  (C76_untimed (doubling_comparable 7) (fun net hn _ row hr x hx => by
    rw [List.mem_singleton.1 hn] at hr
    revert x
    revert row
    decide) fun _ => ⟨0, 0, 0⟩).2 (by decide +kernel)

open _root_.Ladder.Demo in
/-- With 2^30 there it is undefined, and by `C76_outcome` for no other reason than arithmetic. -/
example : ∃ e us hi, scan env ⟨holding (2^30), 0, []⟩ = .error e ∧ (e = .signedOverflow ∨ e = .divZero ∨ e = .shiftRange) ∧ Told env 0 hi us := by
  rcases C76_outcome (doubling_comparable (2^30)) with ⟨w', us, e, -, -, h⟩ | ⟨e, us, hi, h1, h2, h3, -⟩
  · have h1 := (h fun _ => ⟨0, 0, 0⟩).1
    have h2 : Untimed [doubling] := fun net hn _ row hr x hx => by
      rw [List.mem_singleton.1 hn] at hr
      revert x
      revert row
      decide
    have h3 := (C76_untimed (doubling_comparable (2^30)) h2 fun _ => ⟨0, 0, 0⟩).1 ⟨w', e⟩
    exact absurd h3 (by decide +kernel)
  · exact ⟨e, us, hi, h1, h2, h3⟩

open _root_.Ladder.Demo in
/-- The hypotheses of `C76_scans` can be met. -/
example (k : Nat) : (∃ w', scans env (fun _ c => c) k ⟨holding 7, 0, []⟩ = .ok ((), w')) ∨
    ∃ i e, i < k ∧ ∀ j, i < j → scans env (fun _ c => c) j ⟨holding 7, 0, []⟩ = .error e := by
  rcases C76_scans (between := fun _ c => c) (turn := fun _ m => m) (doubling_comparable 7) (fun i c h h' => ⟨h, h', rfl, rfl⟩)
    (fun i c m h => h) (fun _ => ⟨0, 0, 0⟩) k with ⟨w', -, e, -⟩ | ⟨i, -, -, e, -, -, h1, -, -, -, -, h2, -⟩
  · exact .inl ⟨w', e⟩
  · exact .inr ⟨i, e, h1, h2⟩

end Ladder.Props
