import Verif.Spec.Run

/-
Specification vocabulary for the task: callbacks, the order of events in a cycle, waiting.
-/

set_option autoImplicit false

namespace Ladder.Spec

/-- Every callback of a task relates the context before and after the call by `P`. -/
structure TaskHooks (env : Env) (P : Ctx → Ctx → Prop) : Prop extends Hooks env P where
  before : ∀ t c, P c (env.before t c)
  after : ∀ t c, P c (env.after t c)
  endTask : ∀ t c, P c (env.endTask t c)
  delay : ∀ t c, P c (env.delay t c)
  read : ∀ t n c, P c (env.read t n c)
  write : ∀ t n c, P c (env.write t n c)

/-- Every callback outside of the scan other than the reads relates the context before and after the call by `P` (panic occurs
in both). -/
structure Quiet (env : Env) (P : Ctx → Ctx → Prop) : Prop where
  panic : ∀ t c, P c (env.panic t c)
  before : ∀ t c, P c (env.before t c)
  after : ∀ t c, P c (env.after t c)
  endTask : ∀ t c, P c (env.endTask t c)
  delay : ∀ t c, P c (env.delay t c)
  write : ∀ t n c, P c (env.write t n c)

/-- Every callback outside of the scan relates the context before and after the call by `P`. -/
structure Ports (env : Env) (P : Ctx → Ctx → Prop) : Prop extends Quiet env P where
  read : ∀ t n c, P c (env.read t n c)

theorem TaskHooks.ports {env : Env} {P : Ctx → Ctx → Prop} (h : TaskHooks env P) : Ports env P :=
  { panic := h.panic, before := h.before, after := h.after, endTask := h.endTask, delay := h.delay, read := h.read
    write := h.write }

/-- Events that may occur during a scan. -/
def isScan : Event → Bool
  | .panic | .exec .. | .ret .. | .instr _ | .scanEnd | .foreign .. => true
  | _ => false

/-- Events without panic reports. -/
def calm (l : List Event) : List Event := l.filter fun e => decide (e ≠ .panic)

/-- A callback that is invoked if it is registered. -/
def ifOn (b : Bool) (e : Event) : List Event := if b then [e] else []

/-- The registered modules and callbacks. -/
structure Wiring where
  reads : Nat
  writes : Nat
  read : Arr Bool
  write : Arr Bool
  on : On
  millis : Bool
  hasInput : Bool
  hasOutput : Bool

/-- The wiring of a context. -/
def wiring (c : Ctx) : Wiring :=
  { reads := c.fnReadQty, writes := c.fnWriteQty, read := c.read, write := c.write, on := c.on, millis := c.millis
    hasInput := c.input.isSome, hasOutput := c.output.isSome }

/-- A clock and all module functions and module areas exist. -/
structure Wired (c : Ctx) : Prop where
  millis : c.millis = true
  read : ∀ n, n < c.fnReadQty → at? c.read n = some true
  write : ∀ n, n < c.fnWriteQty → at? c.write n = some true
  input : 0 < c.fnReadQty → c.input.isSome
  output : 0 < c.fnWriteQty → c.output.isSome

/-- The events of a cycle, in phases: the before hook, reads of modules 0, 1, …, the scan, writes of modules 0, 1, …, and
the padding delay and after hook.  Panic reports may occur anywhere. -/
structure Phased (l : List Event) : Prop where
  phases : ∃ b rs s ws t, l = b ++ rs ++ s ++ ws ++ t ∧
    (calm b = [] ∨ calm b = [.before]) ∧ (∃ k, calm rs = (List.range k).map .read) ∧ (∀ e ∈ s, isScan e = true) ∧
    (∃ outs : List (Arr OutMod), calm ws = outs.mapIdx .write) ∧
    (∃ d a, calm t = d ++ a ∧ (d = [] ∨ ∃ ms, d = [.delay ms]) ∧ (a = [] ∨ a = [.after]))

/-- Only waiting: delays and panic reports. -/
def Waiting (l : List Event) : Prop := ∀ e ∈ l, e = .panic ∨ ∃ ms, e = .delay ms

/-- The world after `k` waits. -/
def afterWaits (env : Env) (w : World) : Nat → World
  | 0 => w
  | k + 1 =>
    let v := afterWaits env w k
    { ctx := env.delay v.tick v.ctx, tick := v.tick + 1, trace := v.trace ++ [.delay v.ctx.qty.delayNotRun] }

/-- The world in another state. -/
def inState (w : World) (s : St) : World := { w with ctx := { w.ctx with state := s } }

/-- A panic report, if the callback is registered. -/
def panicked (env : Env) (w : World) : World :=
  if w.ctx.on.panic then { ctx := env.panic w.tick w.ctx, tick := w.tick + 1, trace := w.trace ++ [.panic] } else w

/-- The after hook, if it is registered. -/
def afterHook (env : Env) (w : World) : World :=
  if w.ctx.on.taskAfter then { ctx := env.after w.tick w.ctx, tick := w.tick + 1, trace := w.trace ++ [.after] } else w

/-- A delay of `ms` milliseconds. -/
def delayed (env : Env) (w : World) (ms : Nat) : World :=
  { ctx := env.delay w.tick w.ctx, tick := w.tick + 1, trace := w.trace ++ [.delay ms] }

/-- The end hook, if it is registered. -/
def endHook (env : Env) (w : World) : World :=
  if w.ctx.on.endTask then { ctx := env.endTask w.tick w.ctx, tick := w.tick + 1, trace := w.trace ++ [.endTask] } else w

end Ladder.Spec
