import Verif.Lemmas.JsonMean
import Verif.Spec.Demo

/-
Programs in JSON form: C58 (saving and loading is lossless), C59 (malformed documents are rejected), C66 (nothing is left of a
rejected document), C67 (loading changes nothing but the program) and C68 (an accepted document means what it says).
-/

set_option autoImplicit false

namespace Ladder.Props

open Spec Demo

/-! ### C58: saving and loading -/

/-- C58 for the programs that the JSON form can express (`ProgramExpressible`): saved and loaded into any context with as many
networks, whatever was there before, the same program results, and nothing else of the receiving context changes.  Missing: the
programs of the refutations below. -/
theorem C58_round_trip_partial {H : Host} {src c : Ctx} (hs : ProgramExpressible H src) (hc : Receptive c)
    (hq : c.qty.networks = src.qty.networks) :
    ∃ doc, saveProgram H src = .ok doc ∧ loadProgram H c doc = .ok (.ok, { c with network := program src }) := by
  obtain ⟨hb, l, e, hl, hx⟩ := hs
  obtain ⟨cur, h1, h2, h3⟩ := clearProgram_total hc
  obtain ⟨js, h4, h5⟩ := nets_trip e (by omega) hx l.length 0 { c with network := some cur } cur (by omega) rfl (by omega)
    (by show c.qty.networks = l.length; omega) (fun net hn => (h3 net hn).1)
  refine ⟨.arr js, ?_, ?_⟩
  · unfold saveProgram
    rw [← hl, h4]
  · unfold loadProgram
    simp only
    rw [h1]
    simp only
    rw [h5]
    simp only [List.take_zero, List.nil_append, List.drop_zero]
    unfold program
    rw [e, Option.map_some]

/-- A platform whose printed floats can be read back, with a zero byte behind the table. -/
def kindHost : Host := ⟨fun s => if s = "3.140000" then 0x4048F5C3 else 0, fun r => if r = 0x4048F5C3 then "3.140000" else "0", some 0⟩

/-- A platform on which reading behind the table is undefined. -/
def strictHost : Host := { kindHost with beyond := none }

/-- A program with a contact, a timer with base 100 ms, a counter with its preset, a port, a float and continuation cells. -/
def sampleSource : Ctx :=
  ctx [net [[ins .NO [op .I 256] true true, ins .TON [op .T 1, op .Q 250], ins .CTU [op .C 0, op .NONE 7]],
      [{}, { code := .MULTI }, { code := .MULTI, state := true }]],
    net [[ins .MOVE [{ type := .R, raw := 0x4048F5C3 }, op .D 2]]]]

/-- Test of an operand. -/
def valueOk (H : Host) (code : Ins) (d : Nat) (v : Value) : Bool :=
  v.cstr.isNone &&
  if timed code && d == 1 then v.type == .M || v.type == .Q || v.type == .I || v.type == .Cd
  else v.type != .S && v.type != .INV && (v.type != .NONE || ((code == .CTU || code == .CTD) && d == 1)) &&
    (!(v.type == .I || v.type == .Q) || decide (v.raw.toNat < 2 ^ 16)) && (v.type != .R || H.strtof (H.fmtReal v.raw) == v.raw)

theorem value_expressible {H : Host} {code : Ins} {d : Nat} {v : Value} (h : valueOk H code d v = true) : Expressible H code d v := by
  unfold valueOk at h
  rw [Bool.and_eq_true] at h
  obtain ⟨h0, h⟩ := h
  have ht : (timed code && d == 1) = true ↔ IsBase code d := by
    rw [Bool.and_eq_true, beq_iff_eq]; exact timed_iff
  by_cases hb : IsBase code d
  · rw [if_pos (ht.2 hb)] at h
    simp only [Bool.or_eq_true, beq_iff_eq] at h
    exact ⟨Option.isNone_iff_eq_none.1 h0, fun _ => by rcases h with ((h | h) | h) | h <;> simp [h], fun x => absurd hb x,
      fun x => absurd hb x, fun x => absurd hb x⟩
  · rw [if_neg fun x => hb (ht.1 x)] at h
    simp only [Bool.and_eq_true, Bool.or_eq_true, bne_iff_ne, beq_iff_eq, Bool.not_eq_true', decide_eq_true_eq] at h
    obtain ⟨⟨⟨⟨h1, h2⟩, h3⟩, h4⟩, h5⟩ := h
    refine ⟨Option.isNone_iff_eq_none.1 h0, fun x => absurd x hb, fun _ => ⟨h1, h2, ?_⟩, ?_, ?_⟩
    · intro e
      exact h3.resolve_left fun x => x e
    · intro _ e
      refine h4.resolve_left fun x => ?_
      rw [← Bool.not_eq_true] at x
      exact x (by simpa using e)
    · intro _ e
      exact h5.resolve_left fun x => x e

/-- Test of a cell. -/
def cellOk (H : Host) (x : Cell) : Bool :=
  x.code != .INV && (x.code != .MULTI || H.beyond == some 0) && x.dataQty == operands x.code &&
  match x.data with
  | none => x.dataQty == 0
  | some l => x.dataQty != 0 && l.length == x.dataQty && l.zipIdx.all fun p => valueOk H x.code p.2 p.1

theorem cell_expressible {H : Host} {x : Cell} (h : cellOk H x = true) : CellExpressible H x := by
  unfold cellOk at h
  simp only [Bool.and_eq_true, Bool.or_eq_true, bne_iff_ne, beq_iff_eq] at h
  obtain ⟨⟨⟨h1, h2⟩, h3⟩, h4⟩ := h
  cases hd : x.data with
  | none =>
    rw [hd] at h4
    have h4 : x.dataQty = 0 := by simpa using h4
    exact ⟨h1, fun e => h2.resolve_left fun y => y e, h3, fun _ => hd, fun y => absurd h4 y, by simp [at?, hd]⟩
  | some l =>
    rw [hd] at h4
    simp only [Bool.and_eq_true, bne_iff_ne, beq_iff_eq, List.all_eq_true] at h4
    obtain ⟨⟨h4, h5⟩, h6⟩ := h4
    refine ⟨h1, fun e => h2.resolve_left fun y => y e, h3, fun y => absurd y h4, fun _ => ⟨l, hd, h5⟩, ?_⟩
    intro d v hv
    refine value_expressible (h6 (v, d) ?_)
    rw [List.mem_zipIdx_iff_getElem?]
    simpa [at?, hd] using hv

/-- Test of a network. -/
def netOk (H : Host) (net : Network) : Bool :=
  net.enable && decide (net.rows < 2 ^ 32) && decide (net.cols < 2 ^ 32) &&
  match net.cells with
  | none => false
  | some g => g.length == net.rows && g.all fun row => row.length == net.cols && row.all (cellOk H)

theorem net_expressible {H : Host} {net : Network} (h : netOk H net = true) : NetExpressible H net := by
  unfold netOk at h
  simp only [Bool.and_eq_true, decide_eq_true_eq] at h
  obtain ⟨⟨⟨h1, h2⟩, h3⟩, h4⟩ := h
  refine ⟨h1, ⟨h2, h3⟩, ?_⟩
  split at h4
  · cases h4
  · rename_i g hg
    simp only [Bool.and_eq_true, beq_iff_eq, List.all_eq_true] at h4
    exact ⟨g, hg, h4.1, fun row hr => ⟨(h4.2 row hr).1, fun x hx => cell_expressible ((h4.2 row hr).2 x hx)⟩⟩

theorem receptive_ctx {l : List Network} (h : l.all (fun n => gridOk n && n.cells.isSome) = true) : Receptive (ctx l) := by
  refine ⟨l, rfl, rfl, ?_⟩
  intro n hn
  have := List.all_eq_true.1 h n hn
  rw [Bool.and_eq_true] at this
  exact ⟨gridFits this.1, fun e => by rw [e] at this; simp at this⟩

example : ProgramExpressible kindHost sampleSource :=
  ⟨by decide, _, rfl, rfl, fun n hn => net_expressible (List.all_eq_true.1 (by decide +kernel : List.all _ (netOk kindHost) = true) n hn)⟩
example : Receptive (ctx [net [[ins .COIL [op .Q 0]]], net []]) := receptive_ctx (by decide +kernel)

theorem plain_digit {k : Reg} {x : Nat} (h : x < 10) : plainStr (op k x) = String.ofList [digitChar x] := by
  unfold plainStr op
  rw [show (BitVec.ofNat 32 x).toNat = x from by simp; omega]
  unfold decimal
  rw [if_pos h]

/-- C58 fails for constants: they are saved with the type name `K`, which the loader does not know. -/
theorem C58_refuted_constant (H : Host) :
    ∃ doc, saveProgram H (ctx [net [[ins .MOVE [op .NONE 5, op .D 0]], [{ code := .MULTI }]]]) = .ok doc ∧
      ∃ c', loadProgram H (ctx [net [[ins .MOVE [op .NONE 5, op .D 0]], [{ code := .MULTI }]]]) doc = .ok (.fail, c') :=
  ⟨_, rfl, _, rfl⟩

/-- C58 fails for timers with a base of 1 ms: they are saved with the type name `K`, too. -/
theorem C58_refuted_millisecond (H : Host) :
    ∃ doc, saveProgram H (ctx [net [[ins .TON [op .T 0, op .NONE 5]], [{ code := .MULTI }]]]) = .ok doc ∧
      ∃ c', loadProgram H (ctx [net [[ins .TON [op .T 0, op .NONE 5]], [{ code := .MULTI }]]]) doc = .ok (.fail, c') := by
  refine ⟨_, rfl, ?_⟩
  rw [plain_digit (by decide), plain_digit (by decide)]
  exact ⟨_, rfl⟩

/-- C58 fails for every instruction of more than one row: the loader looks up its continuation cells behind the end of the table of
instructions. -/
theorem C58_refuted_occupied :
    ∃ doc, saveProgram strictHost (ctx [net [[ins .CTU [op .C 0, op .NONE 7]], [{ code := .MULTI }]]]) = .ok doc ∧
      loadProgram strictHost (ctx [net [[ins .CTU [op .C 0, op .NONE 7]], [{ code := .MULTI }]]]) doc = .error .oob := by
  refine ⟨_, rfl, ?_⟩
  rw [plain_digit (by decide), plain_digit (by decide)]
  rfl

/-- C58 fails for texts: saving reads a buffer that was never written. -/
theorem C58_refuted_text (H : Host) :
    saveProgram H (ctx [net [[ins .NO [{ type := .S, raw := 0, cstr := some "pump" }]]]]) = .error .uninit :=
  rfl

/-- C58 fails for disabled networks: they come back enabled. -/
theorem C58_refuted_disabled (H : Host) :
    ∃ doc, saveProgram H (ctx [net [[ins .NO [op .M 1]]] false]) = .ok doc ∧
      ∃ c', loadProgram H (ctx [net [[ins .NO [op .M 1]]] false]) doc = .ok (.ok, c') ∧ (at? c'.network 0).map (·.enable) = some true := by
  refine ⟨_, rfl, ?_⟩
  rw [plain_digit (by decide)]
  exact ⟨_, rfl, rfl⟩

/-- C58 fails for foreign functions with operands: the loader expects none. -/
theorem C58_refuted_foreign (H : Host) :
    ∃ doc, saveProgram H (ctx [net [[ins .FOREIGN [op .D 0]]]]) = .ok doc ∧
      ∃ c', loadProgram H (ctx [net [[ins .FOREIGN [op .D 0]]]]) doc = .ok (.fail, c') :=
  ⟨_, rfl, _, rfl⟩

/-- C58 fails for floats whose form with six decimals is not exact: the smallest one comes back as zero. -/
theorem C58_refuted_real (H : Host) (hf : H.fmtReal 1 = "0.000000") (hs : H.strtof "0.000000" = 0) :
    ∃ doc, saveProgram H (ctx [net [[ins .NO [{ type := .R, raw := 1 }]]]]) = .ok doc ∧
      ∃ c', loadProgram H (ctx [net [[ins .NO [{ type := .R, raw := 1 }]]]]) doc = .ok (.ok, c') ∧
        operand? c' 0 0 0 0 = some { type := .R, raw := 0 } := by
  refine ⟨_, rfl, _, rfl, ?_⟩
  show some ({ type := .R, raw := H.strtof (H.fmtReal 1) } : Value) = _
  rw [hf, hs]

example : ∃ H : Host, H.fmtReal 1 = "0.000000" ∧ H.strtof "0.000000" = 0 := ⟨⟨fun _ => 0, fun _ => "0.000000", none⟩, rfl, rfl⟩

/-! ### C59: malformed documents -/

/-- C59: whatever the context and the platform, an accepted document is well-formed (`ProgramDoc`): every network, row, cell and
operand is there with its mandatory members, known instruction, type and time base names, and the right number of operands. -/
theorem C59_accepted_wellformed {H : Host} {c c' : Ctx} {doc : Json} (h : loadProgram H c doc = .ok (.ok, c')) :
    ProgramDoc H c.qty.networks doc := by
  unfold loadProgram at h
  split at h
  case h_2 => cases h
  rename_i l
  split at h
  · cases h
  rename_i c1 h1
  obtain ⟨⟨a, rfl, -⟩, -⟩ := clearProgram_at h1
  split at h
  · cases h
  · rename_i c2 h2
    exact ⟨l, rfl, loadNets_doc (c := { c with network := a }) h2⟩
  · split at h <;> cases h

/-- C59: a malformed document is rejected with an error, without undefined behaviour, if its numbers are in range, it has the rows
it announces, and it has no continuation cells where reading behind the table is undefined (`Sturdy`).  Missing: the documents of the
refutations below. -/
theorem C59_rejected_partial {H : Host} {c : Ctx} {doc : Json} (hc : Receptive c)
    (hs : ∀ l, doc = .arr l → ∀ j ∈ l, Sturdy H j) (hb : ¬ ProgramDoc H c.qty.networks doc) :
    ∃ e c', loadProgram H c doc = .ok (e, c') ∧ e ≠ .ok := by
  have key : ∃ e c', loadProgram H c doc = .ok (e, c') := by
    unfold loadProgram
    split
    case h_2 => exact ⟨_, _, rfl⟩
    rename_i l
    obtain ⟨cur, h1, h2, h3⟩ := clearProgram_total hc
    rw [h1]
    simp only
    obtain ⟨good, l', h4, h5, h6, -⟩ := loadNets_total (c := { c with network := some cur }) (hs l rfl) rfl h2
      (fun n hn => (h3 n hn).1)
    rw [h4]
    cases good
    · simp only
      obtain ⟨l'', h7, -⟩ := clearProgram_clearable (c := { c with network := some l' }) rfl h5 h6
      rw [h7]
      exact ⟨_, _, rfl⟩
    · exact ⟨_, _, rfl⟩
  obtain ⟨e, c', h⟩ := key
  refine ⟨e, c', h, ?_⟩
  rintro rfl
  exact hb (C59_accepted_wellformed h)

/-- A document with one cell, given by its members. -/
def oneCell (ms : List (String × Json)) : Json :=
  .arr [.obj [("id", .num (.fin 0)), ("rows", .num (.fin 1)), ("cols", .num (.fin 1)), ("networkData", .arr [.arr [.obj ms]])]]

/-- One operand. -/
def oneOperand (ty v : String) : Json := .obj [("name", .str "value"), ("type", .str ty), ("value", .str v)]

theorem sturdy_oneCell {H : Host} {ms : List (String × Json)} (h : ¬ Member "symbol" (.str "occupied") ms) :
    ∀ l, oneCell ms = .arr l → ∀ j ∈ l, Sturdy H j := by
  intro l e j hj
  cases e
  rw [List.mem_singleton] at hj
  subst hj
  intro ms' e
  cases e
  refine ⟨?_, ?_, ?_, ?_, ?_⟩
  · intro t ht; rw [has_member] at ht; cases ht; exact ⟨0, rfl, by omega, by omega⟩
  · intro t ht; rw [has_member] at ht; cases ht; exact ⟨1, rfl, by omega, by omega⟩
  · intro t ht; rw [has_member] at ht; cases ht; exact ⟨1, rfl, by omega, by omega⟩
  · rintro rows ⟨x, hr, hx⟩ _ _
    rw [has_member] at hr; cases hr; cases hx
    exact ⟨_, has_member.2 rfl, rfl⟩
  · intro l row cells x hl hr hc hx xs e1 e2
    rw [has_member] at hl; cases hl
    rw [List.mem_singleton] at hr; subst hr
    cases hc
    rw [List.mem_singleton] at hx; subst hx
    cases e1
    exact absurd e2 h

/-- An unknown instruction, an unknown type, a missing bar, a missing operand: all within the hypotheses of the theorem. -/
example (H : Host) (ms : List (String × Json))
    (h : ms ∈ ([[("symbol", .str "JMP"), ("bar", .bool true), ("data", .arr [])],
      [("symbol", .str "NO"), ("bar", .bool true), ("data", .arr [oneOperand "X" "1"])],
      [("symbol", .str "NO"), ("data", .arr [oneOperand "M" "1"])],
      [("symbol", .str "ADD"), ("bar", .bool false), ("data", .arr [oneOperand "D" "1"])]] : List (List (String × Json)))) :
    (∀ l, oneCell ms = .arr l → ∀ j ∈ l, Sturdy H j) ∧
      ∃ c', loadProgram H (ctx [net [[ins .COIL [op .Q 0]]]]) (oneCell ms) = .ok (.fail, c') := by
  simp only [List.mem_cons, List.not_mem_nil, or_false] at h
  refine ⟨sturdy_oneCell ?_, ?_⟩
  · rcases h with rfl | rfl | rfl | rfl <;> (rw [has_member]; simp [member])
  · rcases h with rfl | rfl | rfl | rfl <;> exact ⟨_, rfl⟩

/-- C59 fails for a document that announces rows and columns but has none: instead of an error there is an access through a null
pointer. -/
theorem C59_refuted_no_rows (H : Host) :
    loadProgram H (ctx [net [[{}]]]) (.arr [.obj [("id", .num (.fin 0)), ("rows", .num (.fin 1)), ("cols", .num (.fin 1))]]) =
      .error .nullDeref :=
  rfl

/-- C59 fails for a document with fewer rows than it announces. -/
theorem C59_refuted_fewer_rows (H : Host) :
    loadProgram H (ctx [net [[{}]]]) (.arr [.obj [("id", .num (.fin 0)), ("rows", .num (.fin 2)), ("cols", .num (.fin 1)),
      ("networkData", .arr [.arr [.obj [("symbol", .str "NOP"), ("bar", .bool false), ("data", .arr [])]]])]]) = .error .nullDeref :=
  rfl

/-- C59, a document without a number of columns is rejected, but the next one, which is well-formed, makes the loader access the
rows through a null pointer. -/
theorem C59_refuted_next_document (H : Host) :
    ∃ c', loadProgram H (ctx [net [[{}]]]) (.arr [.obj [("id", .num (.fin 0)), ("rows", .num (.fin 1))]]) = .ok (.fail, c') ∧
      loadProgram H c' (oneCell [("symbol", .str "NO"), ("bar", .bool false), ("data", .arr [oneOperand "M" "1"])]) =
        .error .nullDeref :=
  ⟨_, rfl, rfl⟩

/-- C59 fails for numbers out of range: a negative one is converted to an unsigned integer, which is undefined. -/
theorem C59_refuted_negative (H : Host) :
    loadProgram H (ctx [net [[{}]]]) (.arr [.obj [("id", .num (.fin (-1)))]]) = .error .floatCast :=
  rfl

/-- C59 fails for the names of time bases: the operand of a contact may have the type `SEC`, which is taken for a digital input. -/
theorem C59_refuted_base_as_type (H : Host) :
    ∃ c', loadProgram H (ctx [net [[{}]]]) (oneCell [("symbol", .str "NO"), ("bar", .bool false),
      ("data", .arr [oneOperand "SEC" "0.1"])]) = .ok (.ok, c') ∧ operand? c' 0 0 0 0 = some (op .I 256) :=
  ⟨_, rfl, rfl⟩

/-- C59: an operand without a number is accepted as number 0, and a number too large for 32 bits as its remainder. -/
theorem C59_refuted_number (H : Host) :
    (∃ c', loadProgram H (ctx [net [[{}]]]) (oneCell [("symbol", .str "NO"), ("bar", .bool false),
      ("data", .arr [oneOperand "M" ""])]) = .ok (.ok, c') ∧ operand? c' 0 0 0 0 = some (op .M 0)) ∧
    (∃ c', loadProgram H (ctx [net [[{}]]]) (oneCell [("symbol", .str "NO"), ("bar", .bool false),
      ("data", .arr [oneOperand "M" "4294967298"])]) = .ok (.ok, c') ∧ operand? c' 0 0 0 0 = some (op .M 2)) :=
  ⟨⟨_, rfl, rfl⟩, ⟨_, rfl, rfl⟩⟩

/-! ### C66: nothing is left of a rejected document -/

/-- C66: after a rejected document every cell of every network is an empty instruction, without bar, power and operands; a document
that is not a list of networks changes nothing at all. -/
theorem C66_rejected_empty {H : Host} {c c' : Ctx} {doc : Json} :
    (loadProgram H c doc = .ok (.fail, c') → ∀ n net, n < c.qty.networks → at? c'.network n = some net →
      ∀ r k x, r < net.rows → k < net.cols → cell? c' n r k = some x →
        x.code = .NOP ∧ x.bar = false ∧ x.state = false ∧ x.data = none) ∧
    (loadProgram H c doc = .ok (.typeInv, c') → c' = c) := by
  constructor
  · intro h
    unfold loadProgram at h
    split at h
    case h_2 => cases h
    rename_i l
    split at h
    · cases h
    rename_i c1 h1
    obtain ⟨⟨a, rfl, -⟩, -⟩ := clearProgram_at h1
    split at h
    · cases h
    · cases h
    · rename_i c2 h2
      obtain ⟨b, rfl, -⟩ := loadNets_keeps h2
      split at h
      · cases h
      · rename_i c3 h3
        cases h
        intro n net hn hx r k x hr hk hcell
        obtain ⟨old, -, h5⟩ := (clearProgram_at h3).2 n net hn hx
        refine (clearNetwork_keeps h5).2.2.2.2 r k x hr hk ?_
        unfold cell? at hcell
        rw [hx] at hcell
        exact hcell
  · intro h
    unfold loadProgram at h
    split at h
    case h_2 => cases h; rfl
    split at h
    · cases h
    split at h
    · cases h
    · cases h
    · split at h <;> cases h

/-! ### C67: loading changes nothing but the program -/

/-- C67: whether a document is accepted or rejected, nothing but the networks changes, and their number stays. -/
theorem C67_only_program {H : Host} {c c' : Ctx} {doc : Json} {e : JsonErr} (h : loadProgram H c doc = .ok (e, c')) :
    ∃ a, c' = { c with network := a } ∧ a.map List.length = c.network.map List.length := by
  unfold loadProgram at h
  split at h
  case h_2 => cases h; exact ⟨_, rfl, rfl⟩
  split at h
  · cases h
  rename_i c1 h1
  obtain ⟨⟨a, rfl, ha⟩, -⟩ := clearProgram_at h1
  split at h
  · cases h
  · rename_i c2 h2
    obtain ⟨b, rfl, hb⟩ := loadNets_keeps h2
    cases h
    exact ⟨b, rfl, hb.trans ha⟩
  · rename_i c2 h2
    obtain ⟨b, rfl, hb⟩ := loadNets_keeps h2
    split at h
    · cases h
    · rename_i c3 h3
      obtain ⟨⟨d, rfl, hd⟩, -⟩ := clearProgram_at h3
      cases h
      exact ⟨d, rfl, hd.trans (hb.trans ha)⟩

/-! ### C68: an accepted document means what it says -/

/-- C68: after an accepted document every network that it describes is as its last description says (`NetOf`: dimensions, enabled,
each cell with the instruction, bar and operands of its description), every other network is empty (`Erased`), and the blocks
have the sizes that the rest of the library relies on. -/
theorem C68_means {H : Host} {c c' : Ctx} {doc : Json} (hc : Receptive c) (h : loadProgram H c doc = .ok (.ok, c')) :
    Receptive c' ∧ (Fits c → Fits c') ∧ ∃ l, doc = .arr l ∧ ∀ n, n < c.qty.networks → ∃ old net, at? c.network n = some old ∧
      at? c'.network n = some net ∧
      ((∃ a j b, l = a ++ j :: b ∧ Names n j ∧ (∀ k ∈ b, ¬ Names n k) ∧ NetOf H j net) ∨
        ((∀ k ∈ l, ¬ Names n k) ∧ Erased old net)) := by
  have hkeep := C67_only_program h
  unfold loadProgram at h
  split at h
  case h_2 => cases h
  rename_i l
  obtain ⟨cur, h1, h2, h3⟩ := clearProgram_total hc
  rw [h1] at h
  simp only at h
  split at h
  · cases h
  case h_3 => split at h <;> cases h
  rename_i c2 h4
  cases h
  obtain ⟨nets, e, hl, -⟩ := hc
  obtain ⟨a, rfl, ha⟩ := hkeep
  rw [e] at ha
  obtain ⟨nets', rfl⟩ : ∃ l', a = some l' := by cases a with | none => cases ha | some l' => exact ⟨l', rfl⟩
  simp only [Option.map_some, Option.some.injEq] at ha
  have htidy := loadNets_tidy h4 (by rintro l ⟨⟩ net hn; exact (h3 net hn).1)
  have hfit : ∀ net ∈ nets', Tidy net := htidy nets' rfl
  refine ⟨⟨nets', rfl, ha.trans hl, hfit⟩, ?_, l, rfl, ?_⟩
  · intro hf
    exact { hf with network := by rintro l ⟨⟩ net hn; exact (hfit net hn).1 }
  · intro n hn
    have hlt : n < nets.length := by omega
    have hlt' : n < nets'.length := by omega
    refine ⟨nets[n], nets'[n], by rw [e]; exact List.getElem?_eq_getElem hlt, List.getElem?_eq_getElem hlt', ?_⟩
    rcases loadNets_of h4 n nets'[n] (List.getElem?_eq_getElem hlt') with h5 | ⟨h5, h6⟩
    · exact .inl h5
    · refine .inr ⟨h5, ?_⟩
      obtain ⟨old, h7, h8⟩ := (clearProgram_at h1).2 n _ hn h6
      rw [e] at h7
      have : old = nets[n] := by
        have := (List.getElem?_eq_getElem hlt).symm.trans h7
        injection this with this
        exact this.symm
      subst this
      exact tidy_erased h8 (hfit _ (List.getElem_mem hlt')).1

/-- Two networks, of which the document describes the second: the first is emptied. -/
example (H : Host) : ∃ c', loadProgram H (ctx [net [[ins .COIL [op .Q 0]]], net []])
    (.arr [.obj [("id", .num (.fin 1)), ("rows", .num (.fin 1)), ("cols", .num (.fin 1)), ("networkData", .arr [.arr [.obj
      [("symbol", .str "NC"), ("bar", .bool true), ("data", .arr [oneOperand "I" "0.1"])]]])]]) = .ok (.ok, c') ∧
    c'.network = some [net [[{}]], net [[ins .NC [op .I 256] false true]]] :=
  ⟨_, rfl, rfl⟩

end Ladder.Props
