import Verif.Spec.Mem

/-
A concrete context used by the `example`s that show the hypotheses of the theorems can be met.
-/

namespace Ladder.Demo

open Spec

/-- Callbacks that do nothing, and a clock advancing 10 ms per external call. -/
def env : Env :=
  { clock := fun t => BitVec.ofNat 64 (10 * t)
    panic := fun _ c => c, instruction := fun _ c => c, scanEnd := fun _ c => c, before := fun _ c => c
    after := fun _ c => c, endTask := fun _ c => c, delay := fun _ c => c, read := fun _ _ c => c
    write := fun _ _ c => c, foreign := fun _ _ _ _ c => (.ok, c)
    localtime := fun _ => ⟨0, 0, 0, 1, 0, 125, 3⟩ }

/-- An operand given by kind and number. -/
def op (k : Reg) (x : Nat) : Value := { type := k, raw := BitVec.ofNat 32 x }

/-- A cell with an instruction and its operands. -/
def ins (code : Ins) (ops : List Value) (state : Bool := false) (bar : Bool := false) : Cell :=
  { code := code, dataQty := ops.length, data := some ops, state := state, bar := bar }

/-- A network with the given cells. -/
def net (cells : List (List Cell)) (enable : Bool := true) : Network :=
  { enable := enable, rows := cells.length, cols := (cells.head?.getD []).length, cells := some cells }

/-- A context with three flags, two counters, two timers, three data and two float registers, one input and one
output module (two digital and one analog port each) and the given networks, executing network 0. -/
def ctx (nets : List Network) : Ctx :=
  { state := .running, writeOnFault := false, last := {}
    qty := { m := 3, c := 2, t := 2, d := 3, r := 2, networks := nets.length, delayNotRun := 1, watchdogMs := 0 }
    fnReadQty := 1, fnWriteQty := 1, read := some [true], write := some [true]
    initRead := some [false], initWrite := some [false], millis := true, delay := true, on := {}
    M := some [1, 0, 1], Cr := some [0, 0], Cd := some [0, 1], Tr := some [0, 0], Td := some [0, 0]
    Mh := some [0, 1, 1], Crh := some [0, 0], Cdh := some [0, 0], Trh := some [0, 0], Tdh := some [0, 0]
    input := some [{ iQty := 2, iwQty := 1, I := some [1, 0], IW := some [300], Ih := some [0, 0], IWh := some [300] }]
    output := some [{ qQty := 2, qwQty := 1, Q := some [0, 1], QW := some [5], Qh := some [0, 1], QWh := some [5] }]
    C := some [4, 0], D := some [7, 0xFFFFFFFD, 100], R := some [0x40490FDB, 0]
    timers := some [⟨0, 0⟩, ⟨0, 0⟩]
    scan := { actualScanTime := 0, startTime := 0, maxScanCycles := 1000, targetScanMs := 0, minScanTime := 0
              maxScanTime := 0, totalScanTime := 0, avgScanTime := 0, scanCount := 0, overrun := false }
    network := some nets, exec := some 0, foreignQty := 0, foreign := none, cron := none }

/-- The corresponding start of an execution. -/
def world (nets : List Network) : World := ⟨ctx nets, 0, []⟩

/-- Shape check of a network. -/
def gridOk (n : Network) : Bool :=
  match n.cells with
  | none => true
  | some l => decide (l.length = n.rows) && l.all fun row => decide (row.length = n.cols) && row.all fun c =>
      match c.data with
      | none => true
      | some d => decide (d.length = c.dataQty)

theorem gridFits {n : Network} (h : gridOk n = true) : GridFits n := by
  unfold gridOk at h
  cases hc : n.cells with
  | none => constructor <;> simp [hc]
  | some l =>
    simp only [hc, Bool.and_eq_true, decide_eq_true_eq, List.all_eq_true] at h
    constructor
    · intro l' hl; rw [hc] at hl; cases hl; exact h.1
    · intro l' hl row hrow; rw [hc] at hl; cases hl; exact (h.2 row hrow).1
    · intro l' hl row hrow cell hcell d hd
      rw [hc] at hl; cases hl
      have := (h.2 row hrow).2 cell hcell
      simpa [hd] using this

theorem fits (nets : List Network) (h : nets.all gridOk = true) : Fits (ctx nets) := by
  rw [List.all_eq_true] at h
  constructor
  case network =>
    intro l hl n hn
    simp only [ctx, Option.some.injEq] at hl
    subst hl
    exact gridFits (h n hn)
  case input =>
    intro l hl
    simp only [ctx, Option.some.injEq] at hl
    subst hl
    refine ⟨rfl, fun o ho => ?_⟩
    simp only [List.mem_singleton] at ho
    subst ho
    constructor <;> intro l hl <;> simp at hl <;> subst hl <;> rfl
  case output =>
    intro l hl
    simp only [ctx, Option.some.injEq] at hl
    subst hl
    refine ⟨rfl, fun o ho => ?_⟩
    simp only [List.mem_singleton] at ho
    subst ho
    constructor <;> intro l hl <;> simp at hl <;> subst hl <;> rfl
  case noInput => intro h; simp [ctx] at h
  case noOutput => intro h; simp [ctx] at h
  all_goals
    intro l hl
    simp only [ctx, Option.some.injEq] at hl
    subst hl
    rfl

/-- A block has the given size, if it exists. -/
def lenOk {α : Type} (a : Arr α) (n : Nat) : Bool := match a with | none => true | some l => decide (l.length = n)

theorem lenOk_iff {α : Type} {a : Arr α} {n : Nat} (h : lenOk a n = true) : ∀ l, a = some l → l.length = n := by
  intro l hl; subst hl; simpa [lenOk] using h

/-- Checks `Fits`. -/
def fitsOk (c : Ctx) : Bool :=
  lenOk c.M c.qty.m && lenOk c.Mh c.qty.m && lenOk c.Cd c.qty.c && lenOk c.Cdh c.qty.c && lenOk c.Cr c.qty.c &&
  lenOk c.Crh c.qty.c && lenOk c.C c.qty.c && lenOk c.Td c.qty.t && lenOk c.Tdh c.qty.t && lenOk c.Tr c.qty.t &&
  lenOk c.Trh c.qty.t && lenOk c.timers c.qty.t && lenOk c.D c.qty.d && lenOk c.R c.qty.r &&
  (match c.input with
    | none => decide (c.fnReadQty = 0)
    | some l => decide (l.length = c.fnReadQty) && l.all fun o =>
        lenOk o.I o.iQty && lenOk o.IW o.iwQty && lenOk o.Ih o.iQty && lenOk o.IWh o.iwQty) &&
  (match c.output with
    | none => decide (c.fnWriteQty = 0)
    | some l => decide (l.length = c.fnWriteQty) && l.all fun o =>
        lenOk o.Q o.qQty && lenOk o.QW o.qwQty && lenOk o.Qh o.qQty && lenOk o.QWh o.qwQty) &&
  (match c.network with
    | none => true
    | some l => l.all gridOk)

theorem fits_of {c : Ctx} (h : fitsOk c = true) : Fits c := by
  simp only [fitsOk, Bool.and_eq_true] at h
  obtain ⟨⟨⟨⟨⟨⟨⟨⟨⟨⟨⟨⟨⟨⟨⟨⟨h1, h2⟩, h3⟩, h4⟩, h5⟩, h6⟩, h7⟩, h8⟩, h9⟩, h10⟩, h11⟩, h12⟩, h13⟩, h14⟩, hin⟩, hout⟩, hnet⟩ := h
  refine { M := lenOk_iff h1, Mh := lenOk_iff h2, Cd := lenOk_iff h3, Cdh := lenOk_iff h4, Cr := lenOk_iff h5,
           Crh := lenOk_iff h6, C := lenOk_iff h7, Td := lenOk_iff h8, Tdh := lenOk_iff h9, Tr := lenOk_iff h10,
           Trh := lenOk_iff h11, timers := lenOk_iff h12, D := lenOk_iff h13, R := lenOk_iff h14,
           input := ?_, output := ?_, network := ?_, noInput := ?_, noOutput := ?_ }
  · intro l hl
    simp only [hl, Bool.and_eq_true, decide_eq_true_eq, List.all_eq_true] at hin
    refine ⟨hin.1, fun o ho => ?_⟩
    obtain ⟨⟨⟨a, b⟩, c⟩, d⟩ := hin.2 o ho
    exact ⟨lenOk_iff a, lenOk_iff b, lenOk_iff c, lenOk_iff d⟩
  · intro l hl
    simp only [hl, Bool.and_eq_true, decide_eq_true_eq, List.all_eq_true] at hout
    refine ⟨hout.1, fun o ho => ?_⟩
    obtain ⟨⟨⟨a, b⟩, c⟩, d⟩ := hout.2 o ho
    exact ⟨lenOk_iff a, lenOk_iff b, lenOk_iff c, lenOk_iff d⟩
  · intro l hl n hn
    simp only [hl, List.all_eq_true] at hnet
    exact gridFits (hnet n hn)
  · intro h; simpa [h] using hin
  · intro h; simpa [h] using hout

end Ladder.Demo
