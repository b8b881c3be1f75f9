import Verif.Lemmas.Ready
import Verif.Props.ScanSafe
import Verif.Props.Json
import Verif.Props.Check

/-
C69, C70: programs that the checker accepts, written with the editing functions or loaded from a document, run without faults.
-/

set_option autoImplicit false

namespace Ladder.Props

open Spec Op

/-! ### C69: accepted programs -/

/-- **C69**: in a context with all memory, a clock and an orderly cron table, an accepted program runs any number of scans without
undefined behaviour and without any instruction reporting an error, whatever the register contents, the clock, and what callbacks and
the rest of the system do to the registers in the meantime.
Missing for the full claim: what the checker does not look at (`Tame`: float registers, shifts and moves of constants, overflow,
division, rotation; `Complete`: missing operands; `Wide`: networks without columns). -/
theorem C69_accepted_runs_partial {c : Ctx} {env : Env} {between : Nat → Ctx → Ctx} (hr : Ready c) (hs : Solid c) (ha : Accepts c)
    (hq : Complete c) (hwd : Wide c) (ht : TameProgram c) (hfl : Flags c) (hk : MildEnv c env)
    (hb : ∀ i d, Alike c d → Flags d → Alike c (between i d) ∧ Flags (between i d)) (t k : Nat) :
    ∃ w', scans env between k ⟨c, t, []⟩ = .ok ((), w') ∧ Clean w'.trace ∧ Alike c w'.ctx ∧ Flags w'.ctx :=
  C32_never_faults_partial (accepted_well hr hs hwd ha hq ht) hk hb ⟨hr.full.fits, rfl, fun _ => rfl, rfl, rfl, rfl, rfl, rfl⟩ hfl
    (fun _ _ _ _ h => by cases h) k

/-- Test of the verdict. -/
def acceptsOk (c : Ctx) : Bool := match programCheck c with | .ok (some s) => decide (s.error = .ok) | _ => false

theorem accepts_of {c : Ctx} (h : acceptsOk c = true) : Accepts c := by
  unfold acceptsOk at h
  split at h
  · rename_i s hs
    exact ⟨s, hs, of_decide_eq_true h⟩
  · cases h

/-- Test for a run in which an instruction reports an error. -/
def tainted (x : Except UB (Unit × World)) : Bool :=
  match x with
  | .error _ => false
  | .ok (_, w) => w.trace.any fun e => match e with | .ret _ _ _ e => decide (e ≠ .ok) | _ => false

theorem of_tainted {x : Except UB (Unit × World)} (h : tainted x = true) : ∃ w, x = .ok ((), w) ∧ ¬ Clean w.trace := by
  unfold tainted at h
  split at h
  · cases h
  · rename_i a w
    refine ⟨w, rfl, fun hc => ?_⟩
    obtain ⟨e, he, h⟩ := List.any_eq_true.1 h
    split at h
    · exact of_decide_eq_true h (hc _ _ _ _ he)
    · cases h

theorem ready_demo {nets : List Network} (h : Demo.fitsOk (Demo.ctx nets) = true) (hn : nets.length < 2 ^ 32) :
    Ready (Demo.ctx nets) := by
  refine ⟨full_of h, ⟨fun _ => rfl, fun _ => rfl, fun _ => rfl, fun _ => rfl, fun _ => rfl, ?_, ?_⟩, tall_demo nets, rfl, .inl rfl, hn⟩
  · intro m o ho
    cases m with
    | zero => obtain rfl := Option.some.inj ho; exact fun _ => rfl
    | succ m => simp [Demo.ctx, at?] at ho
  · intro m o ho
    cases m with
    | zero => obtain rfl := Option.some.inj ho; exact fun _ => rfl
    | succ m => simp [Demo.ctx, at?] at ho

theorem flags_demo (nets : List Network) : Flags (Demo.ctx nets) := by
  refine Demo.flags_of fun a ha i b hb => ?_
  have : ∀ a : Arr Byte, a ∈ [(Demo.ctx nets).Cd, (Demo.ctx nets).Cr, (Demo.ctx nets).Td, (Demo.ctx nets).Tr, (Demo.ctx nets).Cdh,
      (Demo.ctx nets).Crh, (Demo.ctx nets).Tdh, (Demo.ctx nets).Trh] → ∀ l, a = some l → ∀ b ∈ l, b.toNat ≤ 1 := by
    simp only [Demo.ctx]; decide
  obtain ⟨l, hl, hm⟩ := mem_of_at? hb
  exact this a ha l hl b hm

theorem mild_demo (B : Ctx) : MildEnv B Demo.env :=
  ⟨fun _ _ h h' => ⟨h, h', rfl⟩, fun _ _ h h' => ⟨h, h', rfl⟩, fun _ _ h h' => ⟨h, h', rfl⟩,
    fun _ _ _ => ⟨fun _ _ h h' => ⟨h, h', rfl⟩, fun _ _ _ _ => rfl⟩, fun _ => by
    constructor <;> simp [Demo.env]⟩

/-- `M1, timer 1 (5 s), coil Q0.1` above `D0 / 3 to D1, D1 and 12 nowhere, counter 1 to 9`. -/
def firmNet : Network := Demo.net [
  [Demo.ins .RE [Demo.op .M 1], Demo.ins .TON [Demo.op .T 1, Demo.op .I 5], Demo.ins .COIL [Demo.op .Q 256]],
  [bare, contMark, bare],
  [Demo.ins .DIV [Demo.op .D 0, Demo.op .NONE 3, Demo.op .D 1], Demo.ins .AND [Demo.op .D 1, Demo.op .NONE 12, Demo.op .NONE 0],
    Demo.ins .CTU [Demo.op .C 1, Demo.op .NONE 9]],
  [contMark, contMark, contMark],
  [contMark, contMark, bare]]

theorem firm_cells {n r k : Nat} (h : Within (Demo.ctx [firmNet]) n r k) : n = 0 ∧ r < 5 ∧ k < 3 := by
  obtain ⟨net, hn, hr, hk⟩ := within_demo h
  cases n with
  | zero => obtain rfl := Option.some.inj hn; exact ⟨rfl, hr, hk⟩
  | succ n => simp at hn

theorem firm_complete : Complete (Demo.ctx [firmNet]) := by
  intro n r k x hw hx h1 h2
  obtain ⟨rfl, hr, hk⟩ := firm_cells hw
  match r, k, hr, hk with
  | 0, 0, _, _ | 0, 1, _, _ | 0, 2, _, _ | 1, 0, _, _ | 1, 1, _, _ | 1, 2, _, _ | 2, 0, _, _ | 2, 1, _, _ | 2, 2, _, _ | 3, 0, _, _
  | 3, 1, _, _ | 3, 2, _, _ | 4, 0, _, _ | 4, 1, _, _ | 4, 2, _, _ => obtain rfl := Option.some.inj hx; first | decide | exact absurd rfl h1

theorem firm_tame : TameProgram (Demo.ctx [firmNet]) := by
  intro n r k x hw hx
  obtain ⟨rfl, hr, hk⟩ := firm_cells hw
  match r, k, hr, hk with
  | 0, 0, _, _ | 0, 1, _, _ | 0, 2, _, _ | 1, 0, _, _ | 1, 1, _, _ | 1, 2, _, _ | 2, 2, _, _ | 3, 0, _, _
  | 3, 1, _, _ | 3, 2, _, _ | 4, 0, _, _ | 4, 1, _, _ | 4, 2, _, _ => obtain rfl := Option.some.inj hx; exact trivial
  | 2, 0, _, _ =>
    obtain rfl := Option.some.inj hx
    refine ⟨fun v hv => ?_, fun v hv => ?_⟩ <;> obtain rfl := Option.some.inj hv
    · decide
    · exact ⟨rfl, by decide⟩
  | 2, 1, _, _ =>
    obtain rfl := Option.some.inj hx
    refine ⟨fun v hv => ?_, fun v hv => ?_⟩ <;> obtain rfl := Option.some.inj hv <;> decide

theorem firm_solid : Solid (Demo.ctx [firmNet]) := by
  refine ⟨rfl, fun n hn => ?_⟩
  have hn : n < 1 := hn
  match n, hn with
  | 0, _ => exact ⟨_, rfl, rfl, by decide, by decide⟩

/-- The hypotheses of C69 can be met, with an input toggling between scans. -/
example (t k : Nat) : ∃ w', scans Demo.env (fun i c => upd c (.I 0 0) (i % 2)) k ⟨Demo.ctx [firmNet], t, []⟩ = .ok ((), w') ∧
    Clean w'.trace ∧ Alike (Demo.ctx [firmNet]) w'.ctx ∧ Flags w'.ctx :=
  C69_accepted_runs_partial (ready_demo rfl (by decide)) firm_solid (accepts_of (by decide +kernel)) firm_complete
    (by
      intro n net hn _
      cases n with
      | zero => obtain rfl := Option.some.inj hn; decide
      | succ n => simp [Demo.ctx, at?] at hn) firm_tame (flags_demo _) (mild_demo _)
    (fun i c h h' => ⟨h.upd _ _, h'.upd (by simp [isFlag])⟩) t k

/-- **C69 is violated** by arithmetic: an accepted addition of a register and a constant overflows. -/
theorem C69_refuted_overflow : Ready (Demo.ctx [Demo.net [[Demo.ins .ADD [Demo.op .D 0, Demo.op .NONE 0x7FFFFFFF, Demo.op .D 1]],
      [contMark], [contMark]]]) ∧
    Accepts (Demo.ctx [Demo.net [[Demo.ins .ADD [Demo.op .D 0, Demo.op .NONE 0x7FFFFFFF, Demo.op .D 1]], [contMark], [contMark]]]) ∧
    scan Demo.env (Demo.world [Demo.net [[Demo.ins .ADD [Demo.op .D 0, Demo.op .NONE 0x7FFFFFFF, Demo.op .D 1]], [contMark],
      [contMark]]]) = .error .signedOverflow :=
  ⟨ready_demo rfl (by decide), (accepts_of (by decide +kernel)), of_fails (by decide +kernel)⟩

/-- **C69 is violated** by remainders: an accepted remainder by the constant 0 divides by zero. -/
theorem C69_refuted_remainder : Ready (Demo.ctx [Demo.net [[Demo.ins .MOD [Demo.op .D 0, Demo.op .NONE 0, Demo.op .D 1]],
      [contMark], [contMark]]]) ∧
    Accepts (Demo.ctx [Demo.net [[Demo.ins .MOD [Demo.op .D 0, Demo.op .NONE 0, Demo.op .D 1]], [contMark], [contMark]]]) ∧
    scan Demo.env (Demo.world [Demo.net [[Demo.ins .MOD [Demo.op .D 0, Demo.op .NONE 0, Demo.op .D 1]], [contMark],
      [contMark]]]) = .error .divZero :=
  ⟨ready_demo rfl (by decide), (accepts_of (by decide +kernel)), of_fails (by decide +kernel)⟩

/-- **C69 is violated** by rotations: an accepted rotation by the constant 0 shifts by 32. -/
theorem C69_refuted_rotation : Ready (Demo.ctx [Demo.net [[Demo.ins .ROL [Demo.op .D 0, Demo.op .NONE 0]], [contMark]]]) ∧
    Accepts (Demo.ctx [Demo.net [[Demo.ins .ROL [Demo.op .D 0, Demo.op .NONE 0]], [contMark]]]) ∧
    scan Demo.env (Demo.world [Demo.net [[Demo.ins .ROL [Demo.op .D 0, Demo.op .NONE 0]], [contMark]]]) = .error .shiftRange :=
  ⟨ready_demo rfl (by decide), (accepts_of (by decide +kernel)), of_fails (by decide +kernel)⟩

/-- **C69 is violated** by table moves: an accepted one names a network that does not exist. -/
theorem C69_refuted_table : Ready (Demo.ctx [Demo.net [[Demo.ins .TMOVE [Demo.op .NONE 9, Demo.op .NONE 0, Demo.op .NONE 0,
      Demo.op .NONE 0, Demo.op .NONE 1]]]]) ∧
    Accepts (Demo.ctx [Demo.net [[Demo.ins .TMOVE [Demo.op .NONE 9, Demo.op .NONE 0, Demo.op .NONE 0, Demo.op .NONE 0,
      Demo.op .NONE 1]]]]) ∧
    scan Demo.env (Demo.world [Demo.net [[Demo.ins .TMOVE [Demo.op .NONE 9, Demo.op .NONE 0, Demo.op .NONE 0, Demo.op .NONE 0,
      Demo.op .NONE 1]]]]) = .error .oob :=
  ⟨ready_demo rfl (by decide), (accepts_of (by decide +kernel)), of_fails (by decide +kernel)⟩

/-- **C69 is violated** by missing operands: a coil without any is accepted, and executing it reads through a null pointer. -/
theorem C69_refuted_operands : Ready (Demo.ctx [Demo.net [[{ code := .COIL }]]]) ∧ Accepts (Demo.ctx [Demo.net [[{ code := .COIL }]]]) ∧
    scan Demo.env (Demo.world [Demo.net [[{ code := .COIL }]]]) = .error .nullDeref :=
  ⟨ready_demo rfl (by decide), (accepts_of (by decide +kernel)), of_fails (by decide +kernel)⟩

/-- **C69 is violated** by networks without columns: one is accepted (beside another network), and executing it writes outside its
rows. -/
theorem C69_refuted_width : Ready (Demo.ctx [Demo.net [[]], Demo.net [[Demo.ins .CONN []]]]) ∧
    Accepts (Demo.ctx [Demo.net [[]], Demo.net [[Demo.ins .CONN []]]]) ∧
    scan Demo.env (Demo.world [Demo.net [[]], Demo.net [[Demo.ins .CONN []]]]) = .error .oob :=
  ⟨ready_demo rfl (by decide), (accepts_of (by decide +kernel)), of_fails (by decide +kernel)⟩

/-- **C69 is violated** by moves: an accepted one from a constant is refused when executed, and the program
stops with an error. -/
theorem C69_refuted_move : Ready (Demo.ctx [Demo.net [[Demo.ins .MOVE [Demo.op .NONE 5, Demo.op .D 0]], [contMark]]]) ∧
    Accepts (Demo.ctx [Demo.net [[Demo.ins .MOVE [Demo.op .NONE 5, Demo.op .D 0]], [contMark]]]) ∧
    ∃ w, scan Demo.env (Demo.world [Demo.net [[Demo.ins .MOVE [Demo.op .NONE 5, Demo.op .D 0]], [contMark]]]) = .ok ((), w) ∧
      ¬ Clean w.trace :=
  ⟨ready_demo rfl (by decide), accepts_of (by decide +kernel), of_tainted (by decide +kernel)⟩

/-! ### C70: loaded programs -/

theorem ready_network {c : Ctx} {a : Arr Network} (hr : Ready c) (hf : Fits { c with network := a }) : Ready { c with network := a } where
  full := { hr.full with fits := hf }
  kept := ⟨hr.kept.Mh, hr.kept.Cdh, hr.kept.Crh, hr.kept.Tdh, hr.kept.Trh, hr.kept.ins, hr.kept.outs⟩
  tall := hr.tall
  clock := hr.clock
  cron := hr.cron.imp id fun ⟨jobs, h⟩ => ⟨jobs, h.table, h.sized, h.flags⟩
  count := hr.count

theorem flags_network {c : Ctx} {a : Arr Network} (h : Flags c) : Flags { c with network := a } := by
  intro ℓ x hf hl
  refine h ℓ x hf ?_
  rw [← hl]
  cases ℓ <;> first | rfl | cases hf

theorem arity_operands {c : Ctx} {f : Ins} (h1 : f ≠ .MULTI) (h2 : f ≠ .FOREIGN) (h3 : f ≠ .INV) : arity c f 0 = operands f := by
  cases f <;> first | rfl | contradiction

/-- An accepted document leaves complete, stored networks. -/
theorem loaded_solid {H : Host} {c c' : Ctx} {doc : Json} (hc : Receptive c) (hs : Solid c)
    (h : loadProgram H c doc = .ok (.ok, c')) : Solid c' ∧ Complete c' := by
  obtain ⟨⟨l', hl', -⟩, -, l, rfl, hm⟩ := C68_means hc h
  obtain ⟨a, rfl, -⟩ := C67_only_program h
  constructor
  · refine ⟨by rw [hl']; rfl, fun n hn => ?_⟩
    obtain ⟨old, net, h1, h2, h3⟩ := hm n hn
    refine ⟨net, h2, ?_⟩
    rcases h3 with ⟨_, _, _, -, -, -, ms, l, g, -, -, -, -, b1, b2, -, h4, -⟩ | ⟨-, -, e1, e2, e3, -⟩
    · exact ⟨by rw [h4]; rfl, b1, b2⟩
    · obtain ⟨net', h5, h6, h7, h8⟩ := hs.2 n hn
      rw [h1] at h5
      obtain rfl := Option.some.inj h5
      exact ⟨e3.trans h6, by omega, by omega⟩
  · intro n r k x hw hx hmu hfo
    obtain ⟨hn, -⟩ := hw
    obtain ⟨old, net, h1, h2, h3⟩ := hm n hn
    simp only [cell?, Option.bind_eq_some_iff] at hx
    obtain ⟨net', h4, row, h5, h6⟩ := hx
    rw [h2] at h4
    obtain rfl := Option.some.inj h4
    rcases h3 with ⟨_, _, _, -, -, -, ms, l, g, -, -, -, -, b1, b2, -, h7, -, -, h8⟩ | ⟨-, -, e1, e2, e3, h7⟩
    · simp only [at?, h7, Option.bind_some] at h5
      obtain ⟨-, cells, -, -, h9⟩ := h8 r row h5
      obtain ⟨y, -, _, s, d, -, -, hsym, -, -, -, e, e', -⟩ := h9 k x h6
      rw [e, e' hmu, arity_operands hmu hfo]
      · exact Nat.le_refl _
      · intro e; rw [e] at hsym; revert hsym; simp [symbols]
    · obtain ⟨g, hg, hmem⟩ := mem_of_at? h5
      rw [(h7 g hg row hmem x (List.mem_of_getElem? h6)).1]
      exact Nat.zero_le _

/-- **C70**: a document that is loaded without error and whose program the checker accepts runs any number of scans without undefined
behaviour and without any instruction reporting an error.  That every instruction has its operands follows from the loader.
Missing for the full claim: what neither the loader nor the checker looks at (`Tame`, and networks without columns). -/
theorem C70_loaded_runs_partial {H : Host} {c c' : Ctx} {doc : Json} {env : Env} {between : Nat → Ctx → Ctx} (hc : Receptive c)
    (hr : Ready c) (hs : Solid c) (h : loadProgram H c doc = .ok (.ok, c')) (ha : Accepts c') (hwd : Wide c') (ht : TameProgram c')
    (hfl : Flags c) (hk : MildEnv c' env) (hb : ∀ i d, Alike c' d → Flags d → Alike c' (between i d) ∧ Flags (between i d)) (t k : Nat) :
    ∃ w', scans env between k ⟨c', t, []⟩ = .ok ((), w') ∧ Clean w'.trace ∧ Alike c' w'.ctx ∧ Flags w'.ctx := by
  obtain ⟨h1, h2⟩ := loaded_solid hc hs h
  have hf := (C68_means hc h).2.1 hr.full.fits
  obtain ⟨a, rfl, -⟩ := C67_only_program h
  exact C69_accepted_runs_partial (ready_network hr hf) h1 ha h2 hwd ht (flags_network hfl) hk hb t k

/-- A cell with operands of the given types and values. -/
def jsonCell (s : String) (ops : List (String × String)) : Json :=
  .obj [("symbol", .str s), ("bar", .bool false), ("data", .arr (ops.map fun p => oneOperand p.1 p.2))]

/-- A document with one network of the given cells. -/
def jsonDoc (rows cols : Nat) (cells : List (List Json)) : Json :=
  .arr [.obj [("id", .num (.fin 0)), ("rows", .num (.fin rows)), ("cols", .num (.fin cols)), ("networkData", .arr (cells.map .arr))]]

/-- `I0.0, timer 1 (3 s), coil Q0.1`. -/
def firmDoc : Json := jsonDoc 2 3 [[jsonCell "NO" [("I", "0.0")], jsonCell "TON" [("T", "1"), ("SEC", "3")], jsonCell "COIL" [("Q", "0.1")]],
  [jsonCell "NOP" [], jsonCell "occupied" [], jsonCell "NOP" []]]

/-- The network it describes. -/
def firmLoaded : Network := { enable := true, rows := 2, cols := 3, cells := some [
  [Demo.ins .NO [Demo.op .I 0], Demo.ins .TON [Demo.op .T 1, Demo.op .I 3], Demo.ins .COIL [Demo.op .Q 256]], [bare, contMark, bare]] }

/-- The hypotheses of C70 can be met, with an input toggling between scans. -/
example (t k : Nat) : ∃ c', loadProgram kindHost (Demo.ctx [Demo.net [[bare]]]) firmDoc = .ok (.ok, c') ∧
    ∃ w', scans Demo.env (fun i c => upd c (.I 0 0) (i % 2)) k ⟨c', t, []⟩ = .ok ((), w') ∧ Clean w'.trace ∧ Alike c' w'.ctx ∧
      Flags w'.ctx := by
  have h : loadProgram kindHost (Demo.ctx [Demo.net [[bare]]]) firmDoc = .ok (.ok, Demo.ctx [firmLoaded]) := rfl
  refine ⟨_, h, C70_loaded_runs_partial (receptive_ctx rfl) (ready_demo rfl (by decide)) ?_ h (accepts_of (by decide +kernel)) ?_ ?_
    (flags_demo _) (mild_demo _) (fun i c h h' => ⟨h.upd _ _, h'.upd (by simp [isFlag])⟩) t k⟩
  · refine ⟨rfl, fun n hn => ?_⟩
    have hn : n < 1 := hn
    match n, hn with
    | 0, _ => exact ⟨_, rfl, rfl, by decide, by decide⟩
  · intro n net hn _
    cases n with
    | zero => obtain rfl := Option.some.inj hn; decide
    | succ n => simp [Demo.ctx, at?] at hn
  · intro n r k x hw hx
    obtain ⟨net, hn, hr, hk⟩ := within_demo hw
    obtain rfl : n = 0 := by
      cases n with
      | zero => rfl
      | succ n => simp at hn
    obtain rfl := Option.some.inj hn
    have hr : r < 2 := hr
    have hk : k < 3 := hk
    match r, k, hr, hk with
    | 0, 0, _, _ | 0, 1, _, _ | 0, 2, _, _ | 1, 0, _, _ | 1, 1, _, _ | 1, 2, _, _ => obtain rfl := Option.some.inj hx; exact trivial

/-- **C70 is violated** by arithmetic: a document with an addition of two registers is loaded and accepted, and its first scan overflows
when the registers hold large numbers. -/
theorem C70_refuted_overflow : ∃ c c', c = { Demo.ctx [Demo.net [[bare]]] with D := some [0x7FFFFFFF, 1, 0] } ∧
    loadProgram kindHost c (jsonDoc 3 1 [[jsonCell "ADD" [("D", "0"), ("D", "1"), ("D", "2")]], [jsonCell "occupied" []],
      [jsonCell "occupied" []]]) = .ok (.ok, c') ∧ Accepts c' ∧ scan Demo.env ⟨c', 0, []⟩ = .error .signedOverflow :=
  ⟨_, _, rfl, rfl, accepts_of (by decide +kernel), of_fails (by decide +kernel)⟩

/-- **C70 is violated** by a network without columns, beside another one. -/
theorem C70_refuted_width : ∃ c', loadProgram kindHost (Demo.ctx [Demo.net [[bare]], Demo.net [[bare]]]) (jsonDoc 1 0 [[]]) = .ok (.ok, c') ∧
    Accepts c' ∧ scan Demo.env ⟨c', 0, []⟩ = .error .oob :=
  ⟨_, rfl, accepts_of (by decide +kernel), of_fails (by decide +kernel)⟩

end Ladder.Props
