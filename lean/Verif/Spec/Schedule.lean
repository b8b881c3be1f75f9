import Verif.Spec.Run

/-
Specification of the execution order: which cells a scan executes and how many counted steps it takes, as a function of
the program text (dimensions, instruction codes, vertical bars and enable flags) alone.
-/

set_option autoImplicit false

namespace Ladder.Spec

/-- The part of a network that decides the execution order. -/
structure Text where
  rows : Nat
  cols : Nat
  code : Nat → Nat → Ins
  bar  : Nat → Nat → Bool

/-- The cell in row `r` and column `c`. -/
def look (net : Network) (r c : Nat) : Option Cell := (at? net.cells r).bind (·[c]?)

/-- The text of a network. -/
def text (net : Network) : Text :=
  { rows := net.rows, cols := net.cols
    code := fun r c => ((look net r c).map (·.code)).getD .NOP
    bar := fun r c => ((look net r c).map (·.bar)).getD false }

namespace Text

/-- The rows joined to row `r` in column `c`: `r` and the rows directly below it that carry a vertical bar there. -/
def group (T : Text) (c r : Nat) : List Nat :=
  r :: (List.range' (r + 1) (T.rows - (r + 1))).takeWhile (T.bar · c)

/-- Instructions that act even without power, and continuation cells. -/
def acts (code : Ins) : Bool :=
  code ∈ [Ins.MULTI, .NEG, .COIL, .TON, .TOF, .TP, .CTU, .CTD, .FOREIGN, .TMOVE]

/-- Row `r` carries a bar that is not on top of a continuation cell. -/
def lower (T : Text) (r : Nat) : Bool :=
  (List.range T.cols).any fun c => T.bar r c && !(decide (r + 1 < T.rows) && T.code (r + 1) c == .MULTI)

/-- The cells executed in column `c` of the rung starting at row `r`. -/
def column (T : Text) (r c : Nat) : List (Nat × Nat) :=
  if T.lower r && (T.group c r).all (fun i => !acts (T.code i c)) then []
  else ((T.group c r).filter fun i => T.code i c ≠ .MULTI).map fun i => (i, c)

/-- The counted steps for that column: one per row up to the first row that acts without power. -/
def columnCost (T : Text) (r c : Nat) : Nat :=
  min (T.group c r).length (((T.group c r).takeWhile fun i => !acts (T.code i c)).length + 1)

/-- The cells executed for the rung starting at row `r`: columns from left to right. -/
def rung (T : Text) (r : Nat) : List (Nat × Nat) :=
  if T.code r 0 = .MULTI then [] else (List.range T.cols).flatMap (T.column r)

/-- The counted steps of that rung. -/
def rungCost (T : Text) (r : Nat) : Nat :=
  1 + if T.code r 0 = .MULTI then 0 else ((List.range T.cols).map (T.columnCost r)).sum

/-- The rows at which a rung starts, among the `n` rows from `r` on; a row belongs to the rung above (`inside`) when it
carries a bar in column 0. -/
def starts (T : Text) : Bool → Nat → Nat → List Nat
  | _, _, 0 => []
  | inside, r, n + 1 =>
    if inside && T.bar r 0 then starts T true (r + 1) n
    else r :: starts T (T.code r 0 ≠ .MULTI) (r + 1) n

/-- The cells of the network in execution order: rungs from top to bottom. -/
def plan (T : Text) : List (Nat × Nat) := (T.starts false 0 T.rows).flatMap T.rung

/-- The counted steps of the network. -/
def work (T : Text) : Nat := ((T.starts false 0 T.rows).map T.rungCost).sum

end Text

/-- The cells network `n` contributes to a scan. -/
def netPlan (ctx : Ctx) (n : Nat) : List (Nat × Nat × Nat × Ins) :=
  match at? ctx.network n with
  | some net => if net.enable then (text net).plan.map fun p => (n, p.1, p.2, (text net).code p.1 p.2) else []
  | none => []

/-- The cells a scan executes, in order: enabled networks by index. -/
def schedule (ctx : Ctx) : List (Nat × Nat × Nat × Ins) := (List.range ctx.qty.networks).flatMap (netPlan ctx)

/-- What is asked of callbacks here: they keep the program, the network being executed, the run state, the error record,
the scan limit, the number of networks and the panic handler. -/
structure Steady (c c' : Ctx) : Prop where
  program : program c' = program c
  exec : c'.exec = c.exec
  state : c'.state = c.state
  err : c'.last.err = c.last.err
  limit : c'.scan.maxScanCycles = c.scan.maxScanCycles
  networks : c'.qty.networks = c.qty.networks
  panic : c'.on.panic = c.on.panic

theorem Steady.refl (c : Ctx) : Steady c c := ⟨rfl, rfl, rfl, rfl, rfl, rfl, rfl⟩

end Ladder.Spec
