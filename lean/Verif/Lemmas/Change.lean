import Verif.Lemmas.Access
import Verif.Lemmas.Step

/-
Every run of an instruction decomposed into elementary changes of the world.
-/

set_option autoImplicit false

namespace Ladder

open Spec Op

theorem Op.bind_getCtx {β : Type} (f : Ctx → Op β) (w : World) : (getCtx >>= f) w = f w.ctx w := rfl
theorem Op.bind_modCtx {β : Type} (g : Ctx → Ctx) (f : Unit → Op β) (w : World) :
    (modCtx g >>= f) w = f () { w with ctx := g w.ctx } := rfl
theorem Op.bind_emit {β : Type} (e : Event) (f : Unit → Op β) (w : World) :
    (emit e >>= f) w = f () { w with trace := w.trace ++ [e] } := rfl
theorem Op.bind_pure {α β : Type} (a : α) (f : α → Op β) (w : World) : ((pure a : Op α) >>= f) w = f a w := rfl
theorem Op.bind_lift_ok {α β : Type} (a : α) (f : α → Op β) (w : World) :
    ((lift (.ok a) : Op α) >>= f) w = f a w := rfl

/-- A computation that only looks at the world. -/
theorem Op.bind_lift_eq_ok {α β : Type} {x : Except UB α} {f : α → Op β} {w w' : World} {b : β} :
    (lift x >>= f) w = .ok (b, w') ↔ ∃ a, x = .ok a ∧ f a w = .ok (b, w') := by
  cases x with
  | error e => simp
  | ok a => simp

/-- The location belongs to the previous-scan history. -/
def Spec.Loc.isHist : Loc → Bool
  | .Mh _ | .Cdh _ | .Crh _ | .Tdh _ | .Trh _ | .Ih _ _ | .IWh _ _ | .Qh _ _ | .QWh _ _ => true
  | _ => false

/-- Elementary changes made by instructions. -/
inductive Change (env : Env) : World → World → Prop
  | store {w : World} {ℓ : Loc} {x : Nat} (hist : ℓ.isHist = false)
      (own : ∀ n r c, ℓ = .cell n r c → w.ctx.exec = some n) (ex : (load w.ctx ℓ).isSome) (lt : x < ℓ.size) :
      Change env w (w.upd ℓ x)
  | clock {w : World} : Change env w { w with tick := w.tick + 1 }
  | err {w : World} (e : Err) :
      Change env w { w with ctx := { w.ctx with last := { w.ctx.last with err := e } } }
  | fault {w : World} : Change env w { w with ctx := { w.ctx with state := .error } }
  | panic {w : World} (on : w.ctx.on.panic = true) :
      Change env w { ctx := env.panic w.tick w.ctx, tick := w.tick + 1, trace := w.trace ++ [.panic] }
  | foreign {w : World} {f : Foreign} (id c r : Nat) (h : at? w.ctx.foreign id = some f) :
      Change env w { ctx := (env.foreign w.tick id c r w.ctx).2, tick := w.tick + 1
                     trace := w.trace ++ [.foreign id c r] }
  | table {w : World} {n r c : Nat} {net : Network} {cell : Cell} {v : Value} (x : W32)
      (hn : at? w.ctx.network n = some net) (en : net.enable = false) (hc : cell? w.ctx n r c = some cell)
      (hv : at? cell.data 0 = some v) :
      Change env w { w with ctx := w.ctx.modCell n r c fun cell =>
        { cell with data := aset cell.data 0 { v with raw := x } } }

/-- Reflexive and transitive closure. -/
inductive Star {α : Type} (R : α → α → Prop) : α → α → Prop
  | refl {a : α} : Star R a a
  | step {a b c : α} (h : R a b) (t : Star R b c) : Star R a c

namespace Star

variable {α : Type} {R : α → α → Prop}

theorem one {a b : α} (h : R a b) : Star R a b := .step h .refl

theorem trans {a b c : α} (h : Star R a b) (h' : Star R b c) : Star R a c := by
  induction h with
  | refl => exact h'
  | step h _ ih => exact .step h (ih h')

/-- A reflexive and transitive relation containing the steps contains the chains. -/
theorem lift {S : α → α → Prop} (hr : ∀ a, S a a) (ht : ∀ a b c, S a b → S b c → S a c) (hs : ∀ a b, R a b → S a b)
    {a b : α} (h : Star R a b) : S a b := by
  induction h with
  | refl => exact hr _
  | step h _ ih => exact ht _ _ _ (hs _ _ h) ih

/-- An invariant of the steps is an invariant of the chains. -/
theorem inv {P : α → Prop} (hs : ∀ a b, R a b → P a → P b) {a b : α} (h : Star R a b) : P a → P b := by
  induction h with
  | refl => exact id
  | step h _ ih => exact fun p => ih (hs _ _ h p)

theorem mono {S : α → α → Prop} (hs : ∀ a b, R a b → S a b) {a b : α} (h : Star R a b) : Star S a b := by
  induction h with
  | refl => exact .refl
  | step h _ ih => exact .step (hs _ _ h) ih

end Star

/-- Every successful run of the operation relates the worlds before and after. -/
def Pres {α : Type} (R : World → World → Prop) (m : Op α) : Prop := ∀ w a w', m w = .ok (a, w') → R w w'

namespace Pres

variable {α β : Type} {R : World → World → Prop}

theorem pure (hr : ∀ w, R w w) (a : α) : Pres R (pure a : Op α) := by
  intro w a' w' h; simp at h; rw [← h.2]; exact hr w

theorem bind (ht : ∀ a b c, R a b → R b c → R a c) {m : Op α} {f : α → Op β} (hm : Pres R m)
    (hf : ∀ a, Pres R (f a)) : Pres R (m >>= f) := by
  intro w b w'' h
  obtain ⟨a, w', h1, h2⟩ := bind_eq_ok.1 h
  exact ht _ _ _ (hm _ _ _ h1) (hf a _ _ _ h2)

theorem getCtx (hr : ∀ w, R w w) : Pres R getCtx := by
  intro w a' w' h; simp at h; rw [← h.2]; exact hr w

theorem lift (hr : ∀ w, R w w) (x : Except UB α) : Pres R (lift x : Op α) := by
  intro w a' w' h; rw [lift_eq_ok] at h; rw [h.2]; exact hr w

end Pres

/-- Runs of the operation are chains of elementary changes. -/
abbrev Chg {α : Type} (env : Env) (m : Op α) : Prop := Pres (Star (Change env)) m

namespace Chg

variable {α β : Type} {env : Env}

theorem pure (a : α) : Chg env (pure a : Op α) := Pres.pure (fun _ => .refl) a

theorem bind {m : Op α} {f : α → Op β} (hm : Chg env m) (hf : ∀ a, Chg env (f a)) : Chg env (m >>= f) :=
  Pres.bind (fun _ _ _ => Star.trans) hm hf

theorem getCtx : Chg env getCtx := Pres.getCtx fun _ => .refl
theorem lift (x : Except UB α) : Chg env (lift x : Op α) := Pres.lift (fun _ => .refl) x

theorem agetI_ok {a : Arr α} {i : Int} {x : α} (h : agetI a i = .ok x) : at? a i.toNat = some x := by
  unfold agetI at h
  split at h
  · split at h <;> simp at h
  · exact aget_eq_ok.1 h

theorem exnet_ok {ctx : Ctx} {r c : Nat} {cell : Cell} (h : ctx.execCell r c = .ok cell) :
    ∃ n, ctx.exec = some n ∧ cell? ctx n r c = some cell := by
  unfold Ctx.execCell at h
  cases he : ctx.exec with
  | none => simp [Ctx.exnet, he, Network.cell] at h
  | some n =>
    refine ⟨n, rfl, ?_⟩
    simp only [Ctx.exnet, he] at h
    cases hn : aget ctx.network n with
    | error e => simp [hn] at h
    | ok net =>
      simp only [hn, Network.cell] at h
      rw [aget_eq_ok] at hn
      simp only [cell?, hn, Option.bind_some]
      cases hc : net.cells with
      | none => simp [hc] at h
      | some rows =>
        simp only [hc] at h
        simp only [at?, Option.bind_some]
        cases hr : rows[r]? with
        | none => simp [hr] at h
        | some row =>
          simp only [hr] at h
          simp only [Option.bind_some]
          cases hcc : row[c]? with
          | none => simp [hcc] at h
          | some x => simp [hcc] at h; rw [h]

theorem getState (r c : Nat) : Chg env (getState r c) :=
  bind getCtx fun _ => bind (lift _) fun _ => pure _

theorem getLeft (r c : Nat) : Chg env (getLeft r c) := by
  unfold Ladder.getLeft
  split
  · exact pure _
  · exact getState _ _

theorem setState_eq {r c : Nat} {b : Bool} {w w' : World} {u : Unit} (h : setState r c b w = .ok (u, w')) :
    ∃ n, w.ctx.exec = some n ∧ (load w.ctx (.cell n r c)).isSome ∧ w' = w.upd (.cell n r c) b.toNat := by
  simp only [setState, bind_apply, getCtx_apply] at h
  cases hc : w.ctx.execCell r c with
  | error e => simp [hc] at h
  | ok cell =>
    simp only [hc, lift_ok, modCtx_apply, Except.ok.injEq, Prod.mk.injEq, true_and] at h
    obtain ⟨n, hn, hcell⟩ := exnet_ok hc
    refine ⟨n, hn, by simp [load, hcell], ?_⟩
    rw [← h]
    simp only [hn, World.upd, upd]
    cases b <;> rfl

theorem setState (r c : Nat) (b : Bool) : Chg env (setState r c b) := by
  intro w a w' h
  obtain ⟨n, hn, hc, rfl⟩ := setState_eq h
  exact .one (.store rfl (by intro n' r' c' e; injection e with e1; rw [hn, e1]) hc (Bool.toNat_lt _))

theorem getDataExec (r c i : Nat) : Chg env (getDataExec r c i) := bind getCtx fun _ => lift _

theorem callPanic : Chg env (callPanic env) := by
  intro w a w' h
  unfold Ladder.callPanic at h
  split at h
  · rename_i hp; simp at h; rw [← h]; exact .one (.panic hp)
  · simp at h; rw [← h]; exact .refl

theorem callMillis : Chg env (callMillis env) := by
  intro w a w' h
  unfold Ladder.callMillis at h
  split at h
  · simp at h; rw [← h.2]; exact .one .clock
  · simp at h

theorem fault : Chg env (modCtx fun ctx => { ctx with state := .error }) := by
  intro w a w' h; simp at h; rw [← h]; exact .one .fault

theorem err (e : Err) : Chg env (modCtx fun ctx => { ctx with last := { ctx.last with err := e } }) := by
  intro w a w' h; simp at h; rw [← h]; exact .one (.err e)

theorem readValue (v : Value) : Chg env (readValue env v) := by
  refine bind getCtx fun ctx => ?_
  split
  case h_1 => exact pure _
  case h_15 => exact pure _
  case h_16 => exact pure _
  all_goals first
    | (split
       · exact bind (err _) fun _ => by
           split
           · exact bind fault fun _ => bind callPanic fun _ => pure _
           · exact pure _
       · exact lift _)
    | (split
       · exact pure _
       · exact bind (lift _) fun _ => lift _)

theorem getData (r c i : Nat) : Chg env (getData env r c i) :=
  bind getCtx fun _ => bind (lift _) fun o => by
    cases o
    · exact pure _
    · exact readValue _

theorem getPrev (r c i : Nat) : Chg env (getPrev r c i) :=
  bind getCtx fun _ => bind (lift _) fun o => by
    cases o
    · exact pure _
    · exact lift _

theorem place_not_hist {v : Value} {ℓ : Loc} (h : place v = some ℓ) : ℓ.isHist = false := by
  unfold place at h
  simp only at h
  split at h <;> (try split at h) <;> simp at h <;> rw [← h] <;> rfl

theorem size_pos (ℓ : Loc) : 0 < ℓ.size := by cases ℓ <;> simp [Loc.size]

theorem setData (r c i : Nat) (x : W32) : Chg env (setData r c i x) := by
  refine bind (getDataExec _ _ _) fun v => ?_
  intro w a w' h
  simp only [bind_apply, getCtx_apply] at h
  cases hw : writeValue w.ctx v x with
  | error e => simp [hw] at h
  | ok p =>
    obtain ⟨e, ctx'⟩ := p
    simp only [hw, lift_ok, modCtx_apply, pure_apply, Except.ok.injEq, Prod.mk.injEq] at h
    rw [← h.2]
    rcases writeValue_cases hw with ⟨-, hc⟩ | ⟨-, -, ℓ, hp, hl, hc⟩
    · rw [hc]; exact .refl
    · rw [hc]
      exact .one (.store (place_not_hist hp) (by intro n r c e; rw [e] at hp; exact absurd hp place_ne_cell) hl
        (Nat.mod_lt _ (size_pos ℓ)))

theorem getB (a : BArea) (i : Int) : Chg env (getB a i) := bind getCtx fun _ => bind (lift _) fun _ => lift _

theorem setB_eq {a : BArea} {i : Int} {b : Bool} {w w' : World} {u : Unit} (h : setB a i b w = .ok (u, w')) :
    (load w.ctx (a.loc i.toNat)).isSome ∧ w' = w.upd (a.loc i.toNat) b.toNat := by
  have hb : byteOf b = BitVec.ofNat 8 b.toNat := by cases b <;> rfl
  simp only [setB, bind_apply, getCtx_apply] at h
  cases hc : agetI (a.get w.ctx) i with
  | error e => simp [hc] at h
  | ok y =>
    simp only [hc, lift_ok, modCtx_apply, Except.ok.injEq, Prod.mk.injEq, true_and] at h
    have := agetI_ok hc
    refine ⟨?_, ?_⟩
    · cases a <;> simp only [BArea.get] at this <;> simp [BArea.loc, load, this]
    · rw [← h, hb]; cases a <;> rfl

theorem loc_ne_cell (a : BArea) (i n r c : Nat) : a.loc i ≠ .cell n r c := by cases a <;> simp [BArea.loc]

theorem setB (a : BArea) (i : Int) (b : Bool) : Chg env (setB a i b) := by
  intro w u w' h
  obtain ⟨h1, rfl⟩ := setB_eq h
  refine .one (.store (by cases a <;> rfl) (by intro n r c e; exact absurd e (loc_ne_cell _ _ _ _ _)) h1 ?_)
  have := Bool.toNat_lt b
  cases a <;> simp only [BArea.loc, Loc.size] <;> omega

theorem getTimer (i : Int) : Chg env (getTimer i) := bind getCtx fun _ => lift _
theorem getC (i : Int) : Chg env (getC i) := bind getCtx fun _ => lift _

theorem setAcc (i : Int) (x : W32) : Chg env (setAcc i x) := by
  intro w u w' h
  simp only [Ladder.setAcc, bind_apply, getCtx_apply] at h
  cases hc : agetI w.ctx.timers i with
  | error e => simp [hc] at h
  | ok t =>
    have ht := agetI_ok hc
    simp only [hc, lift_ok, modCtx_apply, Except.ok.injEq, Prod.mk.injEq, true_and] at h
    have e : w' = w.upd (.acc i.toNat) x.toNat := by
      rw [← h, aset_modify (f := fun t => { t with acc := x }) ht]
      simp [World.upd, upd]
    rw [e]
    exact .one (.store rfl (by intro n r c e; cases e) (by simp [load, ht]) x.isLt)

theorem setStamp (i : Int) (x : W64) : Chg env (setStamp i x) := by
  intro w u w' h
  simp only [Ladder.setStamp, bind_apply, getCtx_apply] at h
  cases hc : agetI w.ctx.timers i with
  | error e => simp [hc] at h
  | ok t =>
    have ht := agetI_ok hc
    simp only [hc, lift_ok, modCtx_apply, Except.ok.injEq, Prod.mk.injEq, true_and] at h
    have e : w' = w.upd (.stamp i.toNat) x.toNat := by
      rw [← h, aset_modify (f := fun t => { t with timeStamp := x }) ht]
      simp [World.upd, upd]
    rw [e]
    exact .one (.store rfl (by intro n r c e; cases e) (by simp [load, ht]) x.isLt)

theorem setC (i : Int) (x : W32) : Chg env (setC i x) := by
  intro w u w' h
  simp only [Ladder.setC, bind_apply, getCtx_apply] at h
  cases hc : agetI w.ctx.C i with
  | error e => simp [hc] at h
  | ok t =>
    have ht := agetI_ok hc
    simp only [hc, lift_ok, modCtx_apply, Except.ok.injEq, Prod.mk.injEq, true_and] at h
    have e : w' = w.upd (.C i.toNat) x.toNat := by
      rw [← h]
      simp [World.upd, upd]
    rw [e]
    exact .one (.store rfl (by intro n r c e; cases e) (by simp [load, ht]) x.isLt)

theorem callForeign (id r c : Nat) : Chg env (callForeign env id r c) := by
  intro w a w' h
  unfold Ladder.callForeign at h
  cases hf : aget w.ctx.foreign id with
  | error e => simp [hf] at h
  | ok f =>
    simp only [hf, Except.ok.injEq, Prod.mk.injEq] at h
    rw [← h.2]
    exact .one (.foreign id c r (aget_eq_ok.1 hf))

theorem ite {p : Prop} [Decidable p] {a b : Op α} (ha : Chg env a) (hb : Chg env b) : Chg env (if p then a else b) := by
  split <;> assumption

end Chg

/-- Decompose a sequence of operations. -/
macro "chg" : tactic => `(tactic| repeat' first
  | with_reducible exact Chg.pure _
  | with_reducible exact Chg.getCtx
  | with_reducible exact Chg.lift _
  | with_reducible exact Chg.getState _ _
  | with_reducible exact Chg.getLeft _ _
  | with_reducible exact Chg.setState _ _ _
  | with_reducible exact Chg.getDataExec _ _ _
  | with_reducible exact Chg.getData _ _ _
  | with_reducible exact Chg.getPrev _ _ _
  | with_reducible exact Chg.setData _ _ _ _
  | with_reducible exact Chg.getB _ _
  | with_reducible exact Chg.setB _ _ _
  | with_reducible exact Chg.getTimer _
  | with_reducible exact Chg.getC _
  | with_reducible exact Chg.setAcc _ _
  | with_reducible exact Chg.setStamp _ _
  | with_reducible exact Chg.setC _ _
  | with_reducible exact Chg.callMillis
  | with_reducible exact Chg.callForeign _ _ _
  | with_reducible exact Chg.callPanic
  | refine Chg.bind ?_ ?_ | refine Chg.ite ?_ ?_ | intro _)

namespace Chg

variable {env : Env}

theorem timerRun (r c : Nat) (i : Int) : Chg env (timerRun env r c i) := by unfold Ladder.timerRun; chg
theorem timerDone (r c : Nat) (i : Int) : Chg env (timerDone env r c i) := by unfold Ladder.timerDone; chg
theorem ctReset (r c : Nat) : Chg env (ctReset r c) := by unfold Ladder.ctReset; chg
theorem ctDoReset (r c : Nat) (i : Int) (x : W32) : Chg env (ctDoReset r c i x) := by unfold Ladder.ctDoReset; chg
theorem ctCount (r c : Nat) (i : Int) (f : W32 → W32) : Chg env (ctCount r c i f) := by unfold Ladder.ctCount; chg
theorem moveStore (r c : Nat) (x : W32) : Chg env (moveStore r c x) := by unfold Ladder.moveStore; chg
theorem binop (f : W32 → W32 → Except UB W32) (r c : Nat) : Chg env (binop env f r c) := by unfold Ladder.binop; chg
theorem shiftop (f : W32 → Nat → Except UB W32) (r c : Nat) : Chg env (shiftop env f r c) := by
  unfold Ladder.shiftop; chg
theorem cmpop (p : Int → Int → Bool) (r c : Nat) : Chg env (cmpop env p r c) := by unfold Ladder.cmpop; chg

theorem entry_ok {ctx : Ctx} {net pos : W32} {r c : Nat} {v : Value} (h : tableEntry ctx net pos = .ok (.ok (r, c, v))) :
    ∃ cell, cell? ctx net.toNat r c = some cell ∧ at? cell.data 0 = some v := by
  unfold tableEntry at h
  split at h
  · simp at h
  · cases hn : aget ctx.network net.toNat with
    | error e => simp [hn] at h
    | ok nt =>
      simp only [hn] at h
      split at h
      · simp at h
      · split at h
        · simp at h
        · cases hc : nt.cell (pos.toNat / nt.cols) (pos.toNat % nt.cols) with
          | error e => simp [hc] at h
          | ok cell =>
            simp only [hc] at h
            split at h
            · simp at h
            · cases hv : aget cell.data 0 with
              | error e => simp [hv] at h
              | ok v' =>
                simp only [hv] at h
                split at h
                · simp only [Except.ok.injEq, Prod.mk.injEq] at h
                  obtain ⟨rfl, rfl, rfl⟩ := h
                  refine ⟨cell, ?_, aget_eq_ok.1 hv⟩
                  simp only [cell?, aget_eq_ok.1 hn, Option.bind_some]
                  unfold Network.cell at hc
                  split at hc
                  · simp at hc
                  · rename_i rows hrows
                    simp only [hrows, at?, Option.bind_some]
                    split at hc
                    · simp at hc
                    · rename_i row hrow
                      simp only [hrow, Option.bind_some]
                      split at hc
                      · simp at hc
                      · rename_i x hx; simp only [Except.ok.injEq] at hc; rw [hx, hc]
                · simp at h

theorem enable_modCell {ctx : Ctx} {n : Nat} {net : Network} (h : at? ctx.network n = some net) (n' r c : Nat)
    (f : Cell → Cell) : ∃ net', at? (ctx.modCell n' r c f).network n = some net' ∧ net'.enable = net.enable := by
  simp only [Ctx.modCell, at?_modify, h, Option.map_some]
  split <;> exact ⟨_, rfl, rfl⟩

theorem tableWrite {net : W32} : ∀ (xs : List W32) (pos : W32) {ctx ctx' : Ctx} {e : Err} {nt : Network} (t : Nat)
    (tr : List Event), at? ctx.network net.toNat = some nt → nt.enable = false →
    tableWrite net pos xs ctx = .ok (e, ctx') → Star (Change env) ⟨ctx, t, tr⟩ ⟨ctx', t, tr⟩
  | [], pos, ctx, ctx', e, nt, t, tr, hn, he, h => by
    simp only [Ladder.tableWrite, Except.ok.injEq, Prod.mk.injEq] at h; rw [h.2]; exact .refl
  | x :: xs, pos, ctx, ctx', e, nt, t, tr, hn, he, h => by
    unfold Ladder.tableWrite at h
    split at h
    · simp at h
    · simp only [Except.ok.injEq, Prod.mk.injEq] at h; rw [h.2]; exact .refl
    · rename_i r c v hent
      obtain ⟨cell, hc, hv⟩ := entry_ok hent
      obtain ⟨nt', hn', he'⟩ := enable_modCell hn net.toNat r c fun cell =>
        { cell with data := aset cell.data 0 { v with raw := x } }
      exact .step (.table (w := ⟨ctx, t, tr⟩) x hn he hc hv)
        (tableWrite xs (pos + 1) t tr hn' (by rw [he', he]) h)

theorem agetI_toInt {α : Type} {a : Arr α} {i : W32} {x : α} (h : agetI a i.toInt = .ok x) : at? a i.toNat = some x := by
  by_cases hi : i.toNat < 2^31
  · have := agetI_ok h
    rw [toInt_of_lt hi] at this
    simpa using this
  · have hneg := toInt_neg_of_ge hi
    unfold agetI at h
    rw [if_pos hneg] at h
    split at h <;> simp at h

theorem fnTMOVE (r c : Nat) : Chg env (fnTMOVE env r c) := by
  unfold Ladder.fnTMOVE
  refine bind (getData _ _ _) fun dnet => bind (getData _ _ _) fun dpos => bind (getData _ _ _) fun snet =>
    bind (getData _ _ _) fun spos => bind (getData _ _ _) fun raw => ?_
  refine ite (by chg) ?_
  intro w a w' h
  simp only [bind_apply, getCtx_apply] at h
  cases hd : agetI w.ctx.network dnet.toInt with
  | error e => simp [hd] at h
  | ok dn =>
    simp only [hd, lift_ok] at h
    have hfin : ∀ (vals : List W32) (w' : World) (a : Err), dn.enable = false →
        (do let p ← Op.lift (Ladder.tableWrite dnet dpos vals w.ctx)
            modCtx fun _ => p.2
            if p.1 ≠ Err.ok then do
              Ladder.setState r c false
              Pure.pure p.1
            else do
              let l ← Ladder.getLeft r c
              Ladder.setState r c l
              Pure.pure Err.ok) w = .ok (a, w') → Star (Change env) w w' := by
      intro vals w' a hen h
      rw [bind_apply] at h
      cases ht : Ladder.tableWrite dnet dpos vals w.ctx with
      | error e => simp [ht] at h
      | ok p =>
        simp only [ht, lift_ok] at h
        rw [bind_apply, modCtx_apply] at h
        refine (tableWrite vals dpos w.tick w.trace (agetI_toInt hd) hen ht).trans ?_
        refine (show Chg env (if p.1 ≠ Err.ok then do
              Ladder.setState r c false
              Pure.pure p.1
            else do
              let l ← Ladder.getLeft r c
              Ladder.setState r c l
              Pure.pure Err.ok) by chg) _ _ _ h
    split at h
    · rw [bind_apply, pure_apply] at h
      exact (show Chg env (do Ladder.setState r c false; Pure.pure Err.noTable) by chg) _ _ _ h
    · rename_i hen
      have hen : dn.enable = false := by simpa using hen
      obtain ⟨en, w1, h1, h⟩ := bind_eq_ok.1 h
      obtain ⟨sn, w2, h2, h3⟩ := bind_eq_ok.1 h1
      rw [lift_eq_ok] at h2
      simp only [pure_apply, Except.ok.injEq, Prod.mk.injEq] at h3
      rw [← h3.2, h2.2] at h
      split at h
      · exact (show Chg env (do Ladder.setState r c false; Pure.pure Err.noTable) by chg) _ _ _ h
      · obtain ⟨sn, w4, h4, h⟩ := bind_eq_ok.1 h
        rw [lift_eq_ok] at h4
        rw [h4.2] at h
        generalize (if BitVec.toInt raw < 0 ∨ BitVec.toInt raw > 1024 then 0 else BitVec.toNat raw) = q at h
        split at h
        · exact (show Chg env (do Ladder.setState r c false; Pure.pure Err.outOfRange) by chg) _ _ _ h
        · obtain ⟨rd, w5, h5, h⟩ := bind_eq_ok.1 h
          rw [lift_eq_ok] at h5
          rw [h5.2] at h
          cases rd with
          | error err => exact (show Chg env (do Ladder.setState r c false; Pure.pure err) by chg) _ _ _ h
          | ok vals => exact hfin vals _ _ hen h

/-- `chg` for timers and counters. -/
local macro "chgt" : tactic => `(tactic| repeat' first
  | with_reducible exact Chg.timerRun _ _ _ | with_reducible exact Chg.timerDone _ _ _
  | with_reducible exact Chg.ctReset _ _ | with_reducible exact Chg.ctDoReset _ _ _ _ | with_reducible exact Chg.ctCount _ _ _ _
  | with_reducible exact Chg.pure _ | with_reducible exact Chg.getLeft _ _
  | with_reducible exact Chg.setState _ _ _ | with_reducible exact Chg.getDataExec _ _ _ | with_reducible exact Chg.getPrev _ _ _
  | with_reducible exact Chg.getB _ _ | with_reducible exact Chg.setB _ _ _ | with_reducible exact Chg.setAcc _ _
  | with_reducible exact Chg.setStamp _ _ | with_reducible exact Chg.callMillis | with_reducible exact Chg.getC _ 
  | refine Chg.bind ?_ ?_ | refine Chg.ite ?_ ?_ | intro _)

theorem fnTON (r c : Nat) : Chg env (fnTON env r c) := by unfold Ladder.fnTON; chgt
theorem fnTOF (r c : Nat) : Chg env (fnTOF env r c) := by unfold Ladder.fnTOF; chgt
theorem fnTP (r c : Nat) : Chg env (fnTP env r c) := by unfold Ladder.fnTP; chgt
theorem fnCTU (r c : Nat) : Chg env (fnCTU r c) := by unfold Ladder.fnCTU; chgt
theorem fnCTD (r c : Nat) : Chg env (fnCTD r c) := by unfold Ladder.fnCTD; chgt

theorem execIns (code : Ins) (r c : Nat) : Chg env (execIns env code r c) := by
  cases code <;> simp only [Ladder.execIns]
  case TMOVE => exact fnTMOVE r c
  case FOREIGN => unfold fnFOREIGN; chg
  case MOVE =>
    unfold fnMOVE
    refine bind getCtx fun _ => bind (lift _) fun _ => ite (pure _) ?_
    refine bind (lift _) fun _ => bind (lift _) fun _ => ?_
    split
    all_goals first | exact pure _ | skip
    all_goals first
      | (refine bind (getData _ _ _) fun _ => ite (moveStore _ _ _) (pure _))
      | (refine ite (pure _) (bind (lift _) fun _ => ite (moveStore _ _ _) (pure _)))
  case TON => exact fnTON _ _
  case TOF => exact fnTOF _ _
  case TP => exact fnTP _ _
  case CTU => exact fnCTU _ _
  case CTD => exact fnCTD _ _
  case NOP => exact pure _
  case CONN => unfold fnCONN; chg
  case NEG => unfold fnNEG; chg
  case NO => unfold fnNO; chg
  case NC => unfold fnNC; chg
  case RE => unfold fnRE; chg
  case FE => unfold fnFE; chg
  case COIL => unfold fnCOIL; chg
  case COILL => unfold fnCOILL; chg
  case COILU => unfold fnCOILU; chg
  case SUB => unfold fnSUB; chg
  case DIV => unfold fnDIV; chg
  case NOT => unfold fnNOT; chg
  case INV => exact lift _
  case MULTI => exact lift _
  all_goals first | exact binop _ _ _ | exact shiftop _ _ _ | exact cmpop _ _ _

end Chg
end Ladder
