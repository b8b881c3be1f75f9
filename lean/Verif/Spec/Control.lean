import Verif.Spec.Logic
import Verif.Spec.Fault
import Verif.Spec.Cycle

/-
The task as a synchronous controller: sample the inputs, compute, keep what must be remembered, send the outputs.
-/

set_option autoImplicit false

namespace Ladder.Spec.Logic

/-- `old` replaced by `new`, when both exist. -/
def over {α : Type} (new old : Option α) : Option α :=
  match new, old with
  | some x, some _ => some x
  | _, old => old

/-- The register whose last value an input's history remembers. -/
def sampled : Loc → Option Loc
  | .Ih m p => some (.I m p) | .IWh m p => some (.IW m p)
  | _ => none

/-- The register whose last value the history of a flag or output remembers. -/
def kept : Loc → Option Loc
  | .Mh i => some (.M i) | .Cdh i => some (.Cd i) | .Crh i => some (.Cr i) | .Tdh i => some (.Td i) | .Trh i => some (.Tr i)
  | .Qh m p => some (.Q m p) | .QWh m p => some (.QW m p)
  | _ => none

/-- The image after remembering: the locations that `o` assigns a register take over its contents. -/
def recall (o : Loc → Option Loc) (m : Image) : Image := fun ℓ =>
  match o ℓ with
  | some k => over (m k) (m ℓ)
  | none => m ℓ

/-- What hardware makes of its inputs: the new value of an input, given the one it had. -/
abbrev Field := Loc → Nat → Nat

/-- The image with the inputs of modules 0 … `k`−1 replaced by what `field n` makes of them for module `n`. -/
def acquire (k : Nat) (field : Nat → Field) (m : Image) : Image := fun ℓ =>
  match ℓ with
  | .I n _ | .IW n _ => if n < k then (m ℓ).map (field n ℓ) else m ℓ
  | _ => m ℓ

/-- The outputs of an image. -/
def orders (m : Image) : Image := fun ℓ =>
  match ℓ with
  | .Q _ _ | .QW _ _ => m ℓ
  | _ => none

/-- What a cycle of a controller with `k` input modules and the networks `nets` computes, begun at instant `a`: the history of the inputs is
taken, the inputs are sampled (module `n` at instant `a + n`), the cron jobs that are due at instant `a + k` and then the networks are
executed, where the timers take the time from the readings `us` of the clock, and from `rest` if there were too few. -/
def computed (k : Nat) (field : Nat → Field) (zone : Nat → Tm) (jobs : List CronJob) (nets : List Network) (rest : Nat → Reading) (m : Image)
    (e : Nat × List Reading) : State :=
  program nets ⟨calendar (zone (e.1 + k)) jobs (acquire k (fun n => field (e.1 + n)) (recall sampled m)), prior e.2 rest, true⟩

/-- The whole cycle: then the history of flags and outputs is taken. -/
def turn (k : Nat) (field : Nat → Field) (zone : Nat → Tm) (jobs : List CronJob) (nets : List Network) (rest : Nat → Reading) (m : Image)
    (e : Nat × List Reading) : Image :=
  recall kept (computed k field zone jobs nets rest m e).reg

/-- The images after each of some cycles. -/
def successive {α : Type} (f : Image → α → Image) (m : Image) : List α → List Image
  | [] => []
  | a :: as => f m a :: successive f (f m a) as

/-- Each of the cycles uses all of its readings of the clock, and no others, and its arithmetic has results. -/
def Exhausts (f : Image → Nat × List Reading → State) (rest : Nat → Reading) : Image → List (Nat × List Reading) → Prop
  | _, [] => True
  | m, e :: as => (f m e).time = rest ∧ (f m e).sure = true ∧ Exhausts f rest (recall kept (f m e).reg) as

/-- Cycles with `k` input modules take place one after the other between instants `s` and `e`, each reading the clock after its inputs and
before the next cycle. -/
def Timely (env : Env) (k s : Nat) : List (Nat × List Reading) → Nat → Prop
  | [], e => s ≤ e
  | (a, us) :: as, e => s < a ∧ ∃ s', a + k < s' ∧ Told env (a + k) s' us ∧ Timely env k s' as e

/-- The commands sent to the output modules: module number, and the outputs as the module finds them. -/
def commands (l : List Event) : List (Nat × Image) :=
  l.filterMap fun | .write n outs => some (n, shown outs) | _ => none

/-- The history of the outputs is up to date. -/
def Settled (m : Image) : Prop := ∀ n p, over (m (.Q n p)) (m (.Qh n p)) = m (.Qh n p) ∧ over (m (.QW n p)) (m (.QWh n p)) = m (.QWh n p)

/-- Analog inputs have a history only in modules whose digital inputs have one. -/
def Paired (m : Image) : Prop := ∀ k p, (m (.IW k p)).isSome → (m (.IWh k p)).isSome → ∃ q, (m (.I k q)).isSome ∧ (m (.Ih k q)).isSome

/-- A context of a task with the program, the memory, the modules and the delay function of `B`. -/
structure Mounted (B c : Ctx) : Prop where
  alike : Alike B c
  flags : Flags c
  reads : c.fnReadQty = B.fnReadQty
  writes : c.fnWriteQty = B.fnWriteQty
  delay : c.delay = B.delay

/-- The context with state EXIT_TSK, if asked for. -/
def stopped (b : Bool) (c : Ctx) : Ctx := if b then { c with state := .exitTsk } else c

/-- A stop is requested while `k` input modules are read, the first one at instant `a`. -/
def asked (stop : Nat → Bool) (a k : Nat) : Bool := (List.range k).any fun j => stop (a + j)

/-- Hardware that makes `field t` of the inputs of a module when they are read at instant `t`, and then requests the end of the task by state
EXIT_TSK at the instants for which `stop` holds; callbacks that otherwise leave the context alone. -/
structure Attended (B : Ctx) (env : Env) (field : Nat → Field) (stop : Nat → Bool) : Prop extends Still env where
  before : ∀ t c, env.before t c = c
  after : ∀ t c, env.after t c = c
  delay : ∀ t c, env.delay t c = c
  write : ∀ t n c, n < B.fnWriteQty → Mounted B c → env.write t n c = c
  read : ∀ t n c, n < B.fnReadQty → Mounted B c → Alike B (env.read t n c) ∧ Flags (env.read t n c) ∧
    shell (env.read t n c) = shell (stopped (stop t) c) ∧
    ∀ ℓ, load (env.read t n c) ℓ = match ℓ with
      | .I k _ | .IW k _ => if k = n then (load c ℓ).map (field t ℓ) else load c ℓ
      | _ => load c ℓ

/-- Hardware that makes `field t` of the inputs of a module when they are read at instant `t`, and callbacks that otherwise leave the
context alone. -/
structure Plugged (B : Ctx) (env : Env) (field : Nat → Field) : Prop extends Still env where
  before : ∀ t c, env.before t c = c
  after : ∀ t c, env.after t c = c
  delay : ∀ t c, env.delay t c = c
  write : ∀ t n c, n < B.fnWriteQty → Mounted B c → env.write t n c = c
  read : ∀ t n c, n < B.fnReadQty → Mounted B c → Alike B (env.read t n c) ∧ Flags (env.read t n c) ∧ shell (env.read t n c) = shell c ∧
    ∀ ℓ, load (env.read t n c) ℓ = match ℓ with
      | .I k _ | .IW k _ => if k = n then (load c ℓ).map (field t ℓ) else load c ℓ
      | _ => load c ℓ

end Ladder.Spec.Logic
