import Verif.Model.Types

/-
The state/undefined-behaviour monad in which the C functions are modelled, with the primitive memory accesses
and external calls.
-/

namespace Ladder

/-- A C function body: runs on a `World`, ends with a result or with undefined behaviour. -/
def Op (α : Type) : Type := World → Except UB (α × World)

namespace Op

protected def pure {α : Type} (a : α) : Op α := fun w => .ok (a, w)

protected def bind {α β : Type} (x : Op α) (f : α → Op β) : Op β := fun w =>
  match x w with
  | .ok (a, w') => f a w'
  | .error e => .error e

instance : Monad Op where
  pure := Op.pure
  bind := Op.bind

/-- The current context. -/
def getCtx : Op Ctx := fun w => .ok (w.ctx, w)

/-- Assignment to fields of the context. -/
def modCtx (f : Ctx → Ctx) : Op Unit := fun w => .ok ((), { w with ctx := f w.ctx })

/-- A computation on memory that may be undefined but has no effect. -/
def lift {α : Type} (x : Except UB α) : Op α := fun w =>
  match x with
  | .ok a => .ok (a, w)
  | .error e => .error e

/-- Record an event. -/
def emit (e : Event) : Op Unit := fun w => .ok ((), { w with trace := w.trace ++ [e] })

/-- An external call that changes the context by `f tick` and records `e` (given the context at the call). -/
def external (e : Ctx → Event) (f : Nat → Ctx → Ctx) : Op Unit := fun w =>
  .ok ((), { ctx := f w.tick w.ctx, tick := w.tick + 1, trace := w.trace ++ [e w.ctx] })

end Op

open Op

/-- `a[i]` for an unsigned index: NULL and out-of-bounds accesses are undefined. -/
def aget {α : Type} (a : Arr α) (i : Nat) : Except UB α :=
  match a with
  | none => .error .nullDeref
  | some l =>
    match l[i]? with
    | none => .error .oob
    | some x => .ok x

/-- `a[i]` for a signed index. -/
def agetI {α : Type} (a : Arr α) (i : Int) : Except UB α :=
  if i < 0 then (match a with | none => .error .nullDeref | some _ => .error .oob) else aget a i.toNat

/-- The array after `a[i] = x` (only used after a successful `aget`/`agetI` at the same place). -/
def aset {α : Type} (a : Arr α) (i : Nat) (x : α) : Arr α := a.map fun l => l.set i x

/-- Value of a `bool` object from its byte; other bytes than 0/1 are trap representations. -/
def boolOf (b : Byte) : Except UB Bool :=
  if b = 0 then .ok false else if b = 1 then .ok true else .error .trapBool

/-- Byte of a `bool` object. -/
def byteOf (b : Bool) : Byte := if b then 1 else 0

/-- `hw.time.millis()`: calling a NULL function is undefined. -/
def callMillis (env : Env) : Op W64 := fun w =>
  if w.ctx.millis then .ok (env.clock w.tick, { w with tick := w.tick + 1 }) else .error .nullDeref

/-- `if (on.panic != NULL) on.panic(ctx);` -/
def callPanic (env : Env) : Op Unit := fun w =>
  if w.ctx.on.panic then external (fun _ => .panic) env.panic w else .ok ((), w)

end Ladder
