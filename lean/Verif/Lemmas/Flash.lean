import Verif.Spec.Flash
import Verif.Spec.Demo

/-
What the diagram of the shipped program does with an image.
-/

set_option autoImplicit false

namespace Ladder.Flash

open Spec Spec.Logic Spec.Flash Demo

/-- The cells of a rung of one row, from left to right. -/
def line (above : Nat → Bool) : Nat → List Cell → State → Bool → Bool → State × List Bool
  | _, [], s, _, _ => (s, [])
  | c, x :: xs, s, p, q =>
    let a := act s p q (above c) x
    let t := line above (c + 1) xs a.1 a.2.1 a.2.2
    (t.1, a.2.2 :: t.2)

theorem wire_single (x : Cell) (b d : Bool) : wire [x] [b, d] 0 = b ∧ wire [x] [b, d] 1 = d := by
  cases b <;> cases d <;> simp [wire, linked, List.range, List.range.loop, List.range', List.all]

theorem columns_single (row : List Cell) (above : Nat → Bool) : ∀ (k c : Nat) (s : State) (p : Nat → Bool), c + k = row.length →
    columns [row] above c k s p = line above c (row.drop c) s (p 0) (p 1)
  | 0, c, s, p, h => by rw [List.drop_of_length_le (by omega)]; rfl
  | k + 1, c, s, p, h => by
    have hc : c < row.length := by omega
    have e : column [row] c = [row[c]] := by simp [column, hc]
    rw [List.drop_eq_getElem_cons hc]
    simp only [columns, e, line, sweep]
    rw [columns_single row above k (c + 1) _ _ (by omega), (wire_single _ _ _).1, (wire_single _ _ _).2]
    rfl

/-- A cell without operands. -/
def bareCell (code : Ins) (bar : Bool := false) : Cell := { code := code, bar := bar }

/-- An operand names an active register. -/
def on (m : Image) (v : Value) : Bool := decide (now m v ≠ 0)

/-- A timer of five seconds. -/
def ton (p : Bool) (q : Reading) (t : Watch) : Watch := timed .TON p 5 1000 q t

theorem ton_off (q : Reading) (t : Watch) : ton false q t = rewound t := rfl

theorem ton_on (q : Reading) (t : Watch) : ton true q t = moved 5 1000 q (begun q t) := by
  unfold ton timed
  exact if_pos rfl

theorem moved_aux (u z y : Nat) (t : Watch) (hu : u = 5000) : 
    let m : Watch := if !t.running then t else if u ≤ z then { t with running := false, done := true, acc := 5 } else { t with acc := y / 1000 % 2^16 }
    m.running = (t.running && !decide (5000 ≤ z)) ∧ m.done = (t.done || t.running && decide (5000 ≤ z)) ∧ m.stamp = t.stamp := by
  subst hu
  obtain ⟨r, d, a, s⟩ := t
  cases r with
  | false => simp
  | true =>
    by_cases h' : 5000 ≤ z <;> simp [h']
theorem moved_run (q : Reading) (t : Watch) : (moved 5 1000 q t).running = (t.running && !passed q.test t.stamp) ∧
    (moved 5 1000 q t).done = (t.done || t.running && passed q.test t.stamp) ∧ (moved 5 1000 q t).stamp = t.stamp := by
  unfold moved passed
  exact moved_aux (5 * 1000 % 2^32) (lapse q.test t.stamp) (lapse q.update t.stamp) t (by decide)

theorem line_nops (above : Nat → Bool) (s : State) (c : Nat) (p q : Bool) (codes : List Ins) (h : ∀ x ∈ codes, x = .NOP ∨ x = .MULTI ∨ x = .CONN) :
    (line above c (codes.map (bareCell ·)) s p q).1 = s := by
  induction codes generalizing c p q with
  | nil => rfl
  | cons x xs ih =>
    simp only [List.map_cons, line]
    have : (act s p q (above c) (bareCell x)).1 = s := by
      rcases h x (by simp) with rfl | rfl | rfl <;> simp [act, bareCell, simple, defined]
    rw [this]
    exact ih _ _ _ fun y hy => h y (by simp [hy])

/-! ### The networks -/

/-- An empty row below a timer or counter in column 2, and in column 3. -/
def under2 : List Cell := [Ins.NOP, .NOP, .MULTI, .NOP, .NOP].map (bareCell ·)
def under3 (x : Ins) : List Cell := [Ins.NOP, .NOP, .NOP, .MULTI, x].map (bareCell ·)

/-- The first network. -/
def net0 : Network := { enable := true, rows := 7, cols := 5, cells := some [
  [ins .NC [op .M 3], ins .NC [op .M 2], ins .TON [op .T 0, op .I 5], bareCell .CONN, ins .COIL [op .M 1]],
  under2,
  [ins .NO [op .M 1], bareCell .CONN, ins .TON [op .T 1, op .I 5], bareCell .CONN, ins .COIL [op .M 2]],
  under2,
  [ins .NO [op .M 1], bareCell .CONN, bareCell .CONN, bareCell .CONN, ins .COIL [op .Q 0]],
  [ins .NO [op .Q 0], bareCell .CONN, ins .CTU [op .C 0, op .NONE 5], bareCell .CONN, ins .COIL [op .M 3]],
  under2] }

/-- The second network. -/
def net1 : Network := { enable := true, rows := 7, cols := 5, cells := some [
  [ins .NO [op .M 3], ins .NC [op .M 4], ins .NC [op .M 5], ins .TON [op .T 2, op .I 5], ins .COIL [op .M 6]],
  under3 .CONN,
  [ins .NO [op .M 6], bareCell .CONN, bareCell .CONN, ins .TON [op .T 3, op .I 5], ins .COIL [op .M 5]],
  under3 .NOP,
  [ins .NO [op .M 6], bareCell .CONN, bareCell .CONN, bareCell .CONN, ins .COIL [op .Q 256]],
  [ins .NO [op .Q 256], bareCell .CONN, bareCell .CONN, ins .CTU [op .C 1, op .NONE 5], ins .COIL [op .M 4]],
  under3 .NOP] }

/-- An empty row. -/
def emptyRow : List Cell := [Ins.NOP, .NOP, .NOP, .NOP, .NOP].map (bareCell ·)

/-- The third network. -/
def net2 : Network := { enable := true, rows := 7, cols := 5, cells := some [
  [ins .NO [op .I 1792], bareCell .CONN, bareCell .CONN, bareCell .CONN, ins .COIL [op .Q 768]],
  [bareCell .NOP, bareCell .NOP, bareCell .NOP, bareCell .NOP true, ins .COIL [op .Q 1024]],
  emptyRow, emptyRow, emptyRow, emptyRow,
  [ins .COIL [op .M 10], ins .COIL [op .M 12], ins .COIL [op .M 14], bareCell .CONN, bareCell .CONN]] }

/-- What the rungs of the first two networks do: `p` is the power of the first timer. -/
def stage (a b d t u k o : Nat) (p : Bool) (q r : Reading) (m : Image) : Image :=
  let x := ton p q (watch m t)
  let m := put (wound m t x) (op .M a) (bit x.done)
  let y := ton (on m (op .M a)) r (watch m u)
  let m := put (wound m u y) (op .M b) (bit y.done)
  let m := put m (op .Q o) (bit (on m (op .M a)))
  let z := tally m k
  let m' := noted m k (advanced .CTU (on m (op .Q o)) 5 z)
  put m' (op .M d) (bit (reached .CTU 5 (counted .CTU (on m (op .Q o)) z)))

theorem rungs_row {row : List Cell} {rest : List (List Cell)} {k : Nat} {s s1 s' : State} (hl : ∀ above, (line above 0 row s true true).1 = s1)
    (hr : ∀ above, rungs 5 k rest above s1 = s') (h1 : covered row = false)
    (h2 : rest.takeWhile joined = []) (h3 : rest.dropWhile joined = rest) (h4 : row.length = 5) (above : Nat → Bool) :
    rungs 5 (k + 1) (row :: rest) above s = s' := by
  have := columns_single row above 5 0 s (fun _ => true) (by omega)
  simp only [List.drop_zero] at this
  simp only [rungs, h1, h2, h3, this, Bool.false_eq_true, if_false, hl, hr]

/-- A row of empty cells does nothing. -/
theorem rungs_nops {codes : List Ins} {rest : List (List Cell)} {k : Nat} {s s' : State} (hr : ∀ above, rungs 5 k rest above s = s')
    (h : ∀ x ∈ codes, x = .NOP ∨ x = .MULTI ∨ x = .CONN) (h1 : covered (codes.map (bareCell ·)) = false)
    (h2 : rest.takeWhile joined = []) (h3 : rest.dropWhile joined = rest) (h4 : codes.length = 5) (above : Nat → Bool) :
    rungs 5 (k + 1) (codes.map (bareCell ·) :: rest) above s = s' :=
  rungs_row (fun _ => line_nops _ _ _ _ _ _ h) hr h1 h2 h3 (by simpa using h4) above

/-- The first rungs. -/
theorem timer0 (above : Nat → Bool) (s : State) :
    (line above 0 [ins .NC [op .M 3], ins .NC [op .M 2], ins .TON [op .T 0, op .I 5], bareCell .CONN, ins .COIL [op .M 1]] s true true).1 =
      let x := ton (!on s.reg (op .M 3) && !on s.reg (op .M 2)) (s.time 0) (watch s.reg 0)
      ⟨put (wound s.reg 0 x) (op .M 1) (bit x.done), fun k => s.time (k + 1), s.sure⟩ := by
  simp only [line, act, simple, ins, bareCell, arg, at?, defined, passes, Bool.and_true, Bool.true_and]
  rfl

theorem timer2 (above : Nat → Bool) (s : State) :
    (line above 0 [ins .NO [op .M 3], ins .NC [op .M 4], ins .NC [op .M 5], ins .TON [op .T 2, op .I 5], ins .COIL [op .M 6]] s true true).1 =
      let x := ton (on s.reg (op .M 3) && !on s.reg (op .M 4) && !on s.reg (op .M 5)) (s.time 0) (watch s.reg 2)
      ⟨put (wound s.reg 2 x) (op .M 6) (bit x.done), fun k => s.time (k + 1), s.sure⟩ := by
  simp only [line, act, simple, ins, bareCell, arg, at?, defined, passes, Bool.and_true, Bool.true_and]
  rfl

/-- The second rungs. -/
theorem timer1 (above : Nat → Bool) (s : State) :
    (line above 0 [ins .NO [op .M 1], bareCell .CONN, ins .TON [op .T 1, op .I 5], bareCell .CONN, ins .COIL [op .M 2]] s true true).1 =
      let x := ton (on s.reg (op .M 1)) (s.time 0) (watch s.reg 1)
      ⟨put (wound s.reg 1 x) (op .M 2) (bit x.done), fun k => s.time (k + 1), s.sure⟩ := by
  simp only [line, act, simple, ins, bareCell, arg, at?, defined, passes, Bool.and_true, Bool.true_and]
  rfl

theorem timer3 (above : Nat → Bool) (s : State) :
    (line above 0 [ins .NO [op .M 6], bareCell .CONN, bareCell .CONN, ins .TON [op .T 3, op .I 5], ins .COIL [op .M 5]] s true true).1 =
      let x := ton (on s.reg (op .M 6)) (s.time 0) (watch s.reg 3)
      ⟨put (wound s.reg 3 x) (op .M 5) (bit x.done), fun k => s.time (k + 1), s.sure⟩ := by
  simp only [line, act, simple, ins, bareCell, arg, at?, defined, passes, Bool.and_true, Bool.true_and]
  rfl

/-- The rungs of the outputs. -/
theorem output (above : Nat → Bool) (s : State) (v o : Value) :
    (line above 0 [ins .NO [v], bareCell .CONN, bareCell .CONN, bareCell .CONN, ins .COIL [o]] s true true).1 =
      ⟨put s.reg o (bit (on s.reg v)), s.time, s.sure⟩ := by
  simp only [line, act, simple, ins, bareCell, arg, at?, defined, Bool.and_true, Bool.true_and]
  rfl

/-- The rungs of the counters. -/
theorem counter0 (above : Nat → Bool) (s : State) :
    (line above 0 [ins .NO [op .Q 0], bareCell .CONN, ins .CTU [op .C 0, op .NONE 5], bareCell .CONN, ins .COIL [op .M 3]] s true true).1 =
      let z := tally s.reg 0
      ⟨put (noted s.reg 0 (advanced .CTU (on s.reg (op .Q 0)) 5 z)) (op .M 3) (bit (reached .CTU 5 (counted .CTU (on s.reg (op .Q 0)) z))),
        s.time, s.sure⟩ := by
  simp only [line, act, simple, ins, bareCell, arg, at?, defined, Bool.and_true, Bool.true_and, fresh, Bool.false_eq_true, if_false]
  rfl

theorem counter1 (above : Nat → Bool) (s : State) :
    (line above 0 [ins .NO [op .Q 256], bareCell .CONN, bareCell .CONN, ins .CTU [op .C 1, op .NONE 5], ins .COIL [op .M 4]] s true true).1 =
      let z := tally s.reg 1
      ⟨put (noted s.reg 1 (advanced .CTU (on s.reg (op .Q 256)) 5 z)) (op .M 4) (bit (reached .CTU 5 (counted .CTU (on s.reg (op .Q 256)) z))),
        s.time, s.sure⟩ := by
  simp only [line, act, simple, ins, bareCell, arg, at?, defined, Bool.and_true, Bool.true_and, fresh, Bool.false_eq_true, if_false]
  rfl

theorem network0 (s : State) : network net0 s =
    ⟨stage 1 2 3 0 1 0 0 (!on s.reg (op .M 3) && !on s.reg (op .M 2)) (s.time 0) (s.time 1) s.reg, fun k => s.time (k + 2), s.sure⟩ :=
  rungs_row (fun _ => timer0 _ _) (rungs_nops (rungs_row (fun _ => timer1 _ _) (rungs_nops (rungs_row (fun _ => output _ _ _ _)
    (rungs_row (fun _ => counter0 _ _) (rungs_nops (fun _ => rfl) (by decide) rfl rfl rfl rfl) rfl rfl rfl rfl) rfl rfl rfl rfl)
    (by decide) rfl rfl rfl rfl) rfl rfl rfl rfl) (by decide) rfl rfl rfl rfl) rfl rfl rfl rfl _

theorem network1 (s : State) : network net1 s =
    ⟨stage 6 5 4 2 3 1 256 (on s.reg (op .M 3) && !on s.reg (op .M 4) && !on s.reg (op .M 5)) (s.time 0) (s.time 1) s.reg,
      fun k => s.time (k + 2), s.sure⟩ :=
  rungs_row (fun _ => timer2 _ _) (rungs_nops (rungs_row (fun _ => timer3 _ _) (rungs_nops (rungs_row (fun _ => output _ _ _ _)
    (rungs_row (fun _ => counter1 _ _) (rungs_nops (fun _ => rfl) (by decide) rfl rfl rfl rfl) rfl rfl rfl rfl) rfl rfl rfl rfl)
    (by decide) rfl rfl rfl rfl) rfl rfl rfl rfl) (by decide) rfl rfl rfl rfl) rfl rfl rfl rfl _

theorem rungs_pair {row row' : List Cell} {rest : List (List Cell)} {k : Nat} {s s1 s' : State}
    (hl : ∀ above, (columns [row, row'] above 0 5 s fun _ => true).1 = s1)
    (hr : ∀ above, rungs 5 k rest above s1 = s') (h1 : covered row = false)
    (h2 : (row' :: rest).takeWhile joined = [row']) (h3 : (row' :: rest).dropWhile joined = rest) (above : Nat → Bool) :
    rungs 5 (k + 1) (row :: row' :: rest) above s = s' := by
  rw [rungs]
  simp only [h1, h2, h3, Bool.false_eq_true, if_false, hl, hr]

theorem always (above : Nat → Bool) (s : State) :
    (line above 0 [ins .COIL [op .M 10], ins .COIL [op .M 12], ins .COIL [op .M 14], bareCell .CONN, bareCell .CONN] s true true).1 =
      ⟨put (put (put s.reg (op .M 10) 1) (op .M 12) 1) (op .M 14) 1, s.time, s.sure⟩ := by
  simp only [line, act, simple, ins, bareCell, arg, at?, defined, passes, Bool.and_true, Bool.true_and]
  rfl

/-- The rung with the row that hangs from it. -/
theorem branch (above : Nat → Bool) (s : State) :
    (columns [[ins .NO [op .I 1792], bareCell .CONN, bareCell .CONN, bareCell .CONN, ins .COIL [op .Q 768]],
      [bareCell .NOP, bareCell .NOP, bareCell .NOP, bareCell .NOP true, ins .COIL [op .Q 1024]]] above 0 5 s fun _ => true).1 =
      ⟨put (put s.reg (op .Q 768) (bit (on s.reg (op .I 1792)))) (op .Q 1024) (bit (on s.reg (op .I 1792))), s.time, s.sure⟩ := by
  simp [columns, column, sweep, act, simple, ins, bareCell, arg, at?, defined, wire, linked, List.range, List.range.loop, List.range', on]

theorem network2 (s : State) : network net2 s =
    ⟨put (put (put (put (put s.reg (op .Q 768) (bit (on s.reg (op .I 1792)))) (op .Q 1024) (bit (on s.reg (op .I 1792))))
      (op .M 10) 1) (op .M 12) 1) (op .M 14) 1, s.time, s.sure⟩ := by
  have key : ∀ above s, rungs 5 6 [emptyRow, emptyRow, emptyRow, emptyRow, [ins .COIL [op .M 10], ins .COIL [op .M 12], ins .COIL [op .M 14], bareCell .CONN, bareCell .CONN]] above s =
      ⟨put (put (put s.reg (op .M 10) 1) (op .M 12) 1) (op .M 14) 1, s.time, s.sure⟩ := fun above s =>
    rungs_nops (rungs_nops (rungs_nops (rungs_nops (rungs_row (fun _ => always _ _) (fun _ => rfl) rfl rfl rfl rfl)
      (by decide) rfl rfl rfl rfl) (by decide) rfl rfl rfl rfl) (by decide) rfl rfl rfl rfl) (by decide) rfl rfl rfl rfl above
  exact rungs_pair (fun _ => branch _ s) (fun above => key above _) rfl rfl rfl _

/-! ### A lamp -/

/-- The lamp is in a pause. -/
def pausing (l : Lamp) : Bool := match l.phase with | .pause _ => true | _ => false

/-- The flash of a lamp is over. -/
def over (l : Lamp) : Bool := match l.phase with | .lit _ o => o | _ => false

/-- The lamp has flashed five times. -/
def full (l : Lamp) : Bool := decide (5 ≤ l.flashes)

/-- The registers of a lamp: flags `a` (lit), `b` (flash over), `d` (flashed five times), timers `t` (pause) and `u` (flash), counter `k`, and
port `p` of output module 0. -/
structure Shows (a b d t u k p : Nat) (l : Lamp) (m : Image) : Prop where
  lit : m (.M a) = some l.lit.toNat
  over : m (.M b) = some (over l).toNat
  full : m (.M d) = some (full l).toNat
  out : m (.Q 0 p) = some l.lit.toNat
  run : m (.Tr t) = some (pausing l).toNat
  done : m (.Td t) = some l.lit.toNat
  stamp : ∀ x, l.phase = .pause x → m (.stamp t) = some x
  run' : m (.Tr u) = some (l.lit && !Flash.over l).toNat
  done' : m (.Td u) = some (Flash.over l).toNat
  stamp' : ∀ x, l.phase = .lit x false → m (.stamp u) = some x
  count : m (.C k) = some l.flashes
  counted : m (.Cr k) = some l.lit.toNat
  ended : m (.Cd k) = some (Flash.full l).toNat
  few : l.flashes ≤ 5

theorem bit_some (b : Bool) : decide (some b.toNat = some 1) = b := by cases b <;> rfl

theorem stored_bit (k : Reg) (b : Bool) : stored k (bit b) = b.toNat := by cases b <;> (unfold stored; split <;> rfl)

theorem ofNat_bit (b : Bool) : decide (BitVec.ofNat 32 b.toNat ≠ 0) = b := by cases b <;> decide

theorem place_M {i : Nat} (h : i < 2^31) : place (op .M i) = some (.M i) := by
  have : i % 2^32 = i := Nat.mod_eq_of_lt (by omega)
  simp only [place, op, BitVec.toNat_ofNat, this, if_pos h]

theorem on_M {m : Image} {i : Nat} {b : Bool} (h : i < 2^31) (hm : m (.M i) = some b.toNat) : on m (op .M i) = b := by
  have : now m (op .M i) = BitVec.ofNat 32 b.toNat := by
    show ((place (op .M i)).bind m |>.bind (decode .M)).getD 0 = _
    rw [place_M h]
    simp [hm, decode]
  rw [on, this, ofNat_bit]

theorem on_Q {m : Image} {o p : Nat} {b : Bool} (h : place (op .Q o) = some (.Q 0 p)) (hm : m (.Q 0 p) = some b.toNat) : on m (op .Q o) = b := by
  have : now m (op .Q o) = BitVec.ofNat 32 b.toNat := by
    show ((place (op .Q o)).bind m |>.bind (decode .Q)).getD 0 = _
    rw [h]
    simp [hm, decode]
  rw [on, this, ofNat_bit]

theorem put_at {m : Image} {v : Value} {k : Loc} {b : Bool} (hk : writableKind v.type = true) (hp : place v = some k) (hm : (m k).isSome) (ℓ : Loc) :
    put m v (bit b) ℓ = if ℓ = k then some b.toNat else m ℓ := by
  unfold put
  by_cases e : ℓ = k
  · subst e; rw [if_pos ⟨hk, hp, hm⟩, if_pos rfl, stored_bit]
  · rw [if_neg e, if_neg]
    rintro ⟨-, h, -⟩
    rw [hp] at h
    exact e (Option.some.inj h).symm

/-- The timer of the pause. -/
theorem pause_timer {l : Lamp} {en : Bool} {q r : Reading} {w : Watch} (h1 : w.running = pausing l) (h2 : w.done = l.lit)
    (h3 : ∀ x, l.phase = .pause x → w.stamp = x) :
    let x := ton (en && !full l && !over l) q w
    let l' := l.step en q r
    x.running = pausing l' ∧ x.done = l'.lit ∧ ∀ s, l'.phase = .pause s → x.stamp = s := by
  obtain ⟨ph, n⟩ := l
  obtain ⟨a, b, c, d⟩ := w
  simp only at h1 h2 h3
  subst h1 h2
  have hf : full ⟨ph, n⟩ = !decide (n < 5) := by simp only [full]; by_cases h : n < 5 <;> simp [h] <;> omega
  cases en with
  | false => simp [ton, timed, rewound, Lamp.step, pausing, Lamp.lit]
  | true =>
    by_cases hn : n < 5
    · cases ph with
      | out =>
        simp only [hf, hn, over, Lamp.step, Lamp.wait, decide_true, Bool.not_true, Bool.not_false, Bool.and_true, if_true, ton_on, moved_run, begun, pausing,
          Lamp.lit, Bool.or_false, Bool.false_eq_true, if_false]
        rcases Bool.eq_false_or_eq_true (passed q.test q.start.toNat) with h | h <;> simp [h]
      | pause s =>
        have := h3 s rfl
        subst this
        simp only [hf, hn, over, Lamp.step, Lamp.wait, decide_true, Bool.not_true, Bool.not_false, Bool.and_true, if_true, ton_on, moved_run, begun, pausing,
          Lamp.lit, Bool.or_false]
        rcases Bool.eq_false_or_eq_true (passed q.test d) with h | h <;> simp [h]
      | lit s o =>
        cases o <;> simp [ton_on, ton_off, moved_run, hf, hn, over, pausing, Lamp.lit, begun, Lamp.step, rewound]
    · simp [ton, timed, hf, hn, rewound, Lamp.step, pausing, Lamp.lit]

theorem flash_aux {l' : Lamp} {r : Reading} {w : Watch} (h : l'.lit = false ∨ ∃ s, l'.phase = .lit s (passed r.test s) ∧
      (begun r w).running = true ∧ (begun r w).done = false ∧ (begun r w).stamp = s) :
    (ton l'.lit r w).running = (l'.lit && !over l') ∧ (ton l'.lit r w).done = over l' ∧
      ∀ s, l'.phase = .lit s false → (ton l'.lit r w).stamp = s := by
  rcases h with h | ⟨s, h, h1, h2, h3⟩
  · rw [h, ton_off]
    have : over l' = false := by
      unfold over; unfold Lamp.lit at h
      cases hp : l'.phase <;> simp [hp] at h ⊢
    refine ⟨rfl, by rw [this]; rfl, fun s hs => ?_⟩
    simp [Lamp.lit, hs] at h
  · have e1 : l'.lit = true := by unfold Lamp.lit; rw [h]
    have e2 : over l' = passed r.test s := by unfold over; rw [h]
    obtain ⟨m1, m2, m3⟩ := moved_run r (begun r w)
    rw [e1, e2, ton_on, m1, m2, m3, h1, h2, h3, h]
    refine ⟨rfl, by rw [Bool.false_or, Bool.true_and], fun s' hs => ?_⟩
    exact (Phase.lit.inj hs).1

/-- The timer of the flash. -/
theorem flash_timer {l : Lamp} {en : Bool} {q r : Reading} {w : Watch} (h1 : w.running = (l.lit && !over l)) (h2 : w.done = over l)
    (h3 : ∀ x, l.phase = .lit x false → w.stamp = x) :
    let l' := l.step en q r
    let x := ton l'.lit r w
    x.running = (l'.lit && !over l') ∧ x.done = over l' ∧ ∀ s, l'.phase = .lit s false → x.stamp = s := by
  refine flash_aux ?_
  have wait : ∀ s, l.lit = false → over l = false → (l.wait q r s).lit = false ∨ ∃ s', (l.wait q r s).phase = .lit s' (passed r.test s') ∧
      (begun r w).running = true ∧ (begun r w).done = false ∧ (begun r w).stamp = s' := by
    intro s e1 e2
    rw [e1, e2] at h1
    rw [e2] at h2
    unfold Lamp.wait begun
    rw [h1, h2]
    split
    · exact .inr ⟨_, rfl, rfl, rfl, rfl⟩
    · exact .inl rfl
  unfold Lamp.step
  split
  · split
    · rename_i e; exact wait _ (by simp [Lamp.lit, e]) (by simp [over, e])
    · rename_i e; exact wait _ (by simp [Lamp.lit, e]) (by simp [over, e])
    · rename_i s o e
      cases o with
      | true => exact .inl rfl
      | false =>
        have e1 : w.running = true := by rw [h1]; simp [Lamp.lit, over, e]
        have e2 : w.done = false := by rw [h2]; simp [over, e]
        refine .inr ⟨s, rfl, ?_⟩
        unfold begun
        rw [e1, Bool.true_or, if_pos rfl]
        exact ⟨e1, e2, h3 s e⟩
  · exact .inl rfl

/-- The counter of the flashes. -/
theorem flash_counter {l : Lamp} {en : Bool} {q r : Reading} (hf : l.flashes ≤ 5) :
    let l' := l.step en q r
    let z : Tally := ⟨l.flashes, l.lit, full l⟩
    counted .CTU l'.lit z = l'.flashes ∧ advanced .CTU l'.lit 5 z = ⟨l'.flashes, l'.lit, full l'⟩ ∧ l'.flashes ≤ 5 := by
  obtain ⟨ph, n⟩ := l
  simp only at hf
  have key : ∀ l' : Lamp, (l'.lit = true → n < 5 ∧ (l'.flashes = if Lamp.lit ⟨ph, n⟩ then n else n + 1)) → (l'.lit = false → l'.flashes = n) →
      counted .CTU l'.lit ⟨n, Lamp.lit ⟨ph, n⟩, full ⟨ph, n⟩⟩ = l'.flashes ∧
      advanced .CTU l'.lit 5 ⟨n, Lamp.lit ⟨ph, n⟩, full ⟨ph, n⟩⟩ = ⟨l'.flashes, l'.lit, full l'⟩ ∧ l'.flashes ≤ 5 := by
    intro l' h1 h2
    cases hl : l'.lit with
    | false =>
      rw [h2 hl]
      simp [counted, counts, advanced, reached, full, h2 hl, hf]
    | true =>
      obtain ⟨h3, h4⟩ := h1 hl
      have h5 : full ⟨ph, n⟩ = false := by simp only [full]; exact decide_eq_false (by simp; omega)
      rw [h5]
      cases hb : Lamp.lit ⟨ph, n⟩ with
      | true =>
        rw [hb, if_pos rfl] at h4
        simp [counted, counts, advanced, reached, full, h4, hf]
      | false =>
        rw [hb, if_neg (by decide)] at h4
        have : (n + 1) % 4294967296 = n + 1 := Nat.mod_eq_of_lt (by omega)
        simp [counted, counts, advanced, reached, full, h4, this]
        omega
  refine key _ ?_ ?_
  · unfold Lamp.step
    split
    · rename_i h
      have hn : n < 5 := (by simp only [Bool.and_eq_true, decide_eq_true_eq] at h; exact h.2)
      intro h'
      refine ⟨hn, ?_⟩
      revert h'
      cases ph with
      | out => simp only [Lamp.wait]; split <;> simp [Lamp.lit]
      | pause s => simp only [Lamp.wait]; split <;> simp [Lamp.lit]
      | lit s o => simp [Lamp.lit]
    · simp [Lamp.lit]
  · unfold Lamp.step
    split
    · cases ph with
      | out => simp only [Lamp.wait]; split <;> simp [Lamp.lit]
      | pause s => simp only [Lamp.wait]; split <;> simp [Lamp.lit]
      | lit s o => simp [Lamp.lit]
    · simp [Lamp.lit]

/-- The locations of a lamp. -/
def lampLocs (a b d t u k p : Nat) : List Loc :=
  [.M a, .M b, .M d, .Q 0 p, .Tr t, .Td t, .acc t, .stamp t, .Tr u, .Td u, .acc u, .stamp u, .C k, .Cr k, .Cd k]

theorem wound_ne {m : Image} {i : Nat} {x : Watch} {ℓ : Loc} (h : ℓ ∉ [Loc.Tr i, .Td i, .acc i, .stamp i]) : wound m i x ℓ = m ℓ := by
  simp only [List.mem_cons, List.not_mem_nil, or_false, not_or] at h
  unfold wound
  split
  · rw [if_neg fun e => h.1 (by rw [e])]
  · rw [if_neg fun e => h.2.1 (by rw [e])]
  · rw [if_neg fun e => h.2.2.1 (by rw [e])]
  · rw [if_neg fun e => h.2.2.2 (by rw [e])]
  · rfl

theorem noted_ne {m : Image} {i : Nat} {x : Tally} {ℓ : Loc} (h : ℓ ∉ [Loc.C i, .Cr i, .Cd i]) : noted m i x ℓ = m ℓ := by
  simp only [List.mem_cons, List.not_mem_nil, or_false, not_or] at h
  unfold noted
  split
  · rw [if_neg fun e => h.1 (by rw [e])]
  · rw [if_neg fun e => h.2.1 (by rw [e])]
  · rw [if_neg fun e => h.2.2 (by rw [e])]
  · rfl

/-- The rungs of a lamp do one step of it. -/
theorem Shows.stage {a b d t u k p o : Nat} {l : Lamp} {m : Image} {en : Bool} {q r : Reading} (h : Shows a b d t u k p l m)
    (ha : a < 2^31) (hb : b < 2^31) (hd : d < 2^31) (hab : a ≠ b) (had : a ≠ d) (hbd : b ≠ d) (htu : t ≠ u)
    (ho : place (op .Q o) = some (.Q 0 p)) :
    Shows a b d t u k p (l.step en q r) (Flash.stage a b d t u k o (en && !Flash.full l && !Flash.over l) q r m) ∧
      ∀ ℓ, ℓ ∉ lampLocs a b d t u k p → Flash.stage a b d t u k o (en && !Flash.full l && !Flash.over l) q r m ℓ = m ℓ := by
  have hw : (watch m t).running = pausing l ∧ (watch m t).done = l.lit ∧ ∀ x, l.phase = .pause x → (watch m t).stamp = x := by
    simp only [watch, h.run, h.done, bit_some, true_and]
    exact fun x hx => by rw [h.stamp x hx]; rfl
  obtain ⟨x1, x2, x3⟩ := pause_timer (en := en) (q := q) (r := r) hw.1 hw.2.1 hw.2.2
  obtain ⟨y0, y0', y0''⟩ := flash_counter (l := l) (en := en) (q := q) (r := r) h.few
  unfold Flash.stage
  generalize ton (en && !Flash.full l && !Flash.over l) q (watch m t) = x at *
  simp only at x1 x2 x3 y0 y0' y0'' ⊢
  generalize hm1 : put (wound m t x) (op .M a) (bit x.done) = m1
  have e1 : ∀ ℓ, m1 ℓ = if ℓ = .M a then some (l.step en q r).lit.toNat else wound m t x ℓ := fun ℓ => by
    rw [← hm1, put_at rfl (place_M ha) (by rw [wound_ne (by simp), h.lit]; rfl), x2]
  have o1 : on m1 (op .M a) = (l.step en q r).lit := on_M ha (by rw [e1, if_pos rfl])
  have hv : (watch m1 u).running = (l.lit && !Flash.over l) ∧ (watch m1 u).done = Flash.over l ∧ ∀ x, l.phase = .lit x false → (watch m1 u).stamp = x := by
    have n1 : ∀ ℓ, ℓ ∈ [Loc.Tr u, .Td u, .stamp u] → m1 ℓ = m ℓ := fun ℓ hl => by
      simp only [List.mem_cons, List.not_mem_nil, or_false] at hl
      rw [e1]
      rcases hl with rfl | rfl | rfl <;> rw [if_neg (by simp), wound_ne (by simp [Ne.symm htu])]
    simp only [watch, n1 (.Tr u) (by simp), n1 (.Td u) (by simp), n1 (.stamp u) (by simp), h.run', h.done', bit_some, true_and]
    exact fun x hx => by rw [h.stamp' x hx]; rfl
  obtain ⟨y1, y2, y3⟩ := flash_timer (en := en) (q := q) (r := r) hv.1 hv.2.1 hv.2.2
  rw [o1]
  generalize ton (l.step en q r).lit r (watch m1 u) = y at *
  generalize hm2 : put (wound m1 u y) (op .M b) (bit y.done) = m2
  have e2 : ∀ ℓ, m2 ℓ = if ℓ = .M b then some (Flash.over (l.step en q r)).toNat else wound m1 u y ℓ := fun ℓ => by
    rw [← hm2, put_at rfl (place_M hb) (by rw [wound_ne (by simp), e1, if_neg (by simp [Ne.symm hab]), wound_ne (by simp), h.over]; rfl), y2]
  have o2 : on m2 (op .M a) = (l.step en q r).lit := on_M ha (by rw [e2, if_neg (by simp [hab]), wound_ne (by simp), e1, if_pos rfl])
  rw [o2]
  generalize hm3 : put m2 (op .Q o) (bit (l.step en q r).lit) = m3
  have e3 : ∀ ℓ, m3 ℓ = if ℓ = .Q 0 p then some (l.step en q r).lit.toNat else m2 ℓ := fun ℓ => by
    rw [← hm3, put_at rfl ho (by rw [e2, if_neg (by simp), wound_ne (by simp), e1, if_neg (by simp), wound_ne (by simp), h.out]; rfl)]
  have o3 : on m3 (op .Q o) = (l.step en q r).lit := on_Q ho (by rw [e3, if_pos rfl])
  have n3 : ∀ ℓ, ℓ ∈ [Loc.C k, .Cr k, .Cd k] → m3 ℓ = m ℓ := fun ℓ hl => by
    simp only [List.mem_cons, List.not_mem_nil, or_false] at hl
    rw [e3]
    rcases hl with rfl | rfl | rfl <;> rw [if_neg (by simp), e2, if_neg (by simp), wound_ne (by simp), e1, if_neg (by simp), wound_ne (by simp)]
  have hz : tally m3 k = ⟨l.flashes, l.lit, Flash.full l⟩ := by
    simp only [tally, n3 (.C k) (by simp), n3 (.Cr k) (by simp), n3 (.Cd k) (by simp), h.count, h.counted, h.ended, bit_some]
    rfl
  rw [o3, hz, y0, y0']
  have hr : reached .CTU 5 (l.step en q r).flashes = Flash.full (l.step en q r) := rfl
  rw [hr]
  generalize l.step en q r = l' at *
  generalize hm4 : put (noted m3 k ⟨l'.flashes, l'.lit, Flash.full l'⟩) (op .M d) (bit (Flash.full l')) = m4
  have e4 : ∀ ℓ, m4 ℓ = if ℓ = .M d then some (Flash.full l').toNat else noted m3 k ⟨l'.flashes, l'.lit, Flash.full l'⟩ ℓ := fun ℓ => by
    rw [← hm4, put_at rfl (place_M hd) (by rw [noted_ne (by simp), e3, if_neg (by simp), e2, if_neg (by simp [Ne.symm hbd]), wound_ne (by simp), e1,
      if_neg (by simp [Ne.symm had]), wound_ne (by simp), h.full]; rfl)]
  refine ⟨?_, fun ℓ hl => ?_⟩
  · constructor
    · rw [e4, if_neg (by simp [had]), noted_ne (by simp), e3, if_neg (by simp), e2, if_neg (by simp [hab]), wound_ne (by simp), e1, if_pos rfl]
    · rw [e4, if_neg (by simp [hbd]), noted_ne (by simp), e3, if_neg (by simp), e2, if_pos rfl]
    · rw [e4, if_pos rfl]
    · rw [e4, if_neg (by simp), noted_ne (by simp), e3, if_pos rfl]
    · rw [e4, if_neg (by simp), noted_ne (by simp), e3, if_neg (by simp), e2, if_neg (by simp), wound_ne (by simp [htu]), e1, if_neg (by simp), ← x1]
      simp [wound]
    · rw [e4, if_neg (by simp), noted_ne (by simp), e3, if_neg (by simp), e2, if_neg (by simp), wound_ne (by simp [htu]), e1, if_neg (by simp), ← x2]
      simp [wound]
    · intro s hs
      rw [e4, if_neg (by simp), noted_ne (by simp), e3, if_neg (by simp), e2, if_neg (by simp), wound_ne (by simp [htu]), e1, if_neg (by simp), ← x3 s hs]
      simp [wound]
    · rw [e4, if_neg (by simp), noted_ne (by simp), e3, if_neg (by simp), e2, if_neg (by simp), ← y1]
      simp [wound]
    · rw [e4, if_neg (by simp), noted_ne (by simp), e3, if_neg (by simp), e2, if_neg (by simp), ← y2]
      simp [wound]
    · intro s hs
      rw [e4, if_neg (by simp), noted_ne (by simp), e3, if_neg (by simp), e2, if_neg (by simp), ← y3 s hs]
      simp [wound]
    · rw [e4, if_neg (by simp)]; simp [noted]
    · rw [e4, if_neg (by simp)]; simp [noted]
    · rw [e4, if_neg (by simp)]; simp [noted]
    · exact y0''
  · simp only [lampLocs, List.mem_cons, List.not_mem_nil, or_false, not_or] at hl
    obtain ⟨l1, l2, l3, l4, l5, l6, l7, l8, l9, l10, l11, l12, l13, l14, l15⟩ := hl
    rw [e4, if_neg l3, noted_ne (by simp [l13, l14, l15]), e3, if_neg l4, e2, if_neg l2, wound_ne (by simp [l9, l10, l11, l12]), e1, if_neg l1,
      wound_ne (by simp [l5, l6, l7, l8])]

end Ladder.Flash
