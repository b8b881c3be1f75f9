import Verif.Model.Monad

/-
Simplification rules for the operation monad.
-/

namespace Ladder.Op

variable {α β : Type}

@[simp] theorem pure_apply (a : α) (w : World) : (pure a : Op α) w = .ok (a, w) := rfl

@[simp] theorem bind_apply (x : Op α) (f : α → Op β) (w : World) :
    (x >>= f) w = match x w with | .ok (a, w') => f a w' | .error e => .error e := rfl

theorem bind_ok {x : Op α} {f : α → Op β} {w w' : World} {a : α} (h : x w = .ok (a, w')) :
    (x >>= f) w = f a w' := by rw [bind_apply, h]

theorem bind_err {x : Op α} {f : α → Op β} {w : World} {e : UB} (h : x w = .error e) :
    (x >>= f) w = .error e := by rw [bind_apply, h]

theorem bind_eq_ok {x : Op α} {f : α → Op β} {w w'' : World} {b : β} :
    (x >>= f) w = .ok (b, w'') ↔ ∃ a w', x w = .ok (a, w') ∧ f a w' = .ok (b, w'') := by
  rw [bind_apply]
  cases h : x w with
  | error e => simp
  | ok p =>
    obtain ⟨a, w'⟩ := p
    exact ⟨fun h => ⟨a, w', rfl, h⟩, fun ⟨_, _, h, h'⟩ => by cases h; exact h'⟩

@[simp] theorem getCtx_apply (w : World) : getCtx w = .ok (w.ctx, w) := rfl
@[simp] theorem modCtx_apply (f : Ctx → Ctx) (w : World) : modCtx f w = .ok ((), { w with ctx := f w.ctx }) := rfl
@[simp] theorem lift_ok (a : α) (w : World) : lift (.ok a) w = .ok (a, w) := rfl
@[simp] theorem lift_error (e : UB) (w : World) : (lift (.error e) : Op α) w = .error e := rfl
@[simp] theorem emit_apply (e : Event) (w : World) : emit e w = .ok ((), { w with trace := w.trace ++ [e] }) := rfl
@[simp] theorem external_apply (e : Ctx → Event) (f : Nat → Ctx → Ctx) (w : World) :
    external e f w = .ok ((), { ctx := f w.tick w.ctx, tick := w.tick + 1, trace := w.trace ++ [e w.ctx] }) := rfl

theorem lift_eq_ok {x : Except UB α} {w w' : World} {a : α} :
    lift x w = .ok (a, w') ↔ x = .ok a ∧ w' = w := by
  cases x <;> simp [lift, eq_comm]

@[simp] theorem ite_apply (p : Prop) [Decidable p] (x y : Op α) (w : World) :
    (if p then x else y) w = if p then x w else y w := by split <;> rfl

end Ladder.Op
