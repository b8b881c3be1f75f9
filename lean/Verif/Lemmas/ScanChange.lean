import Verif.Lemmas.Change
import Verif.Model.Scan

/-
Every scan decomposed into elementary changes of the world.
-/

set_option autoImplicit false

namespace Ladder

open Spec Op

/-- Elementary changes made by a scan; instructions are executed under the network numbers of `K`, and the executing
network may change if `E`. -/
inductive SChange (env : Env) (K : Nat → Prop) (E : Prop) : World → World → Prop
  | instr {w w' : World} (h : Change env w w') : SChange env K E w w'
  | last {w : World} (l : Last) : SChange env K E w { w with ctx := { w.ctx with last := l } }
  | inv {w : World} : SChange env K E w { w with ctx := { w.ctx with state := .inv } }
  | leave {w : World} (hE : E) : SChange env K E w { w with ctx := { w.ctx with exec := none } }
  | enter {w : World} {n : Nat} {net : Network} (hE : E) (hn : at? w.ctx.network n = some net)
      (en : net.enable = true) :
      SChange env K E w { w with ctx := { w.ctx with exec := some n } }
  | exec {w : World} {n r c : Nat} {cell : Cell} (m : Nat) (hm : K m) (he : w.ctx.exec = some n)
      (hc : cell? w.ctx n r c = some cell) :
      SChange env K E w { w with trace := w.trace ++ [.exec m r c cell.code] }
  | ret {w : World} (n r c : Nat) (e : Err) (hn : K n) : SChange env K E w { w with trace := w.trace ++ [.ret n r c e] }
  | callback {w : World} (on : w.ctx.on.instruction = true) :
      SChange env K E w { ctx := env.instruction w.tick w.ctx, tick := w.tick + 1, trace := w.trace ++ [.instr w.ctx.last] }
  | scanEnd {w : World} (on : w.ctx.on.scanEnd = true) :
      SChange env K E w { ctx := env.scanEnd w.tick w.ctx, tick := w.tick + 1, trace := w.trace ++ [.scanEnd] }

/-- Runs of the operation are chains of elementary changes of a scan. -/
abbrev SChg {α : Type} (env : Env) (K : Nat → Prop) (E : Prop) (m : Op α) : Prop := Pres (Star (SChange env K E)) m

namespace SChg

variable {α β : Type} {env : Env} {K : Nat → Prop} {E : Prop}

theorem of {m : Op α} (h : Chg env m) : SChg env K E m := fun _ _ _ e => (h _ _ _ e).mono fun _ _ => .instr

theorem pure (a : α) : SChg env K E (pure a : Op α) := of (Chg.pure a)

theorem bind {m : Op α} {f : α → Op β} (hm : SChg env K E m) (hf : ∀ a, SChg env K E (f a)) : SChg env K E (m >>= f) :=
  Pres.bind (fun _ _ _ => Star.trans) hm hf

theorem getCtx : SChg env K E getCtx := of Chg.getCtx
theorem lift (x : Except UB α) : SChg env K E (lift x : Op α) := of (Chg.lift x)

theorem ite {p : Prop} [Decidable p] {a b : Op α} (ha : SChg env K E a) (hb : SChg env K E b) :
    SChg env K E (if p then a else b) := by
  split <;> assumption

theorem setState (r c : Nat) (b : Bool) : SChg env K E (setState r c b) := of (Chg.setState r c b)

theorem inv : SChg env K E (modCtx fun ctx => { ctx with state := .inv }) := by
  intro w a w' h; simp at h; rw [← h]; exact .one .inv

theorem fault : SChg env K E (modCtx fun ctx => { ctx with state := .error }) := of Chg.fault

theorem callPanic : SChg env K E (callPanic env) := of Chg.callPanic

theorem err (e : Err) : SChg env K E (modCtx fun ctx => { ctx with last := { ctx.last with err := e } }) := of (Chg.err e)

theorem clearColumn (col : Nat) : ∀ n row, SChg env K E (clearColumn col row n)
  | 0, _ => pure _
  | n + 1, row => bind (setState _ _ _) fun _ => clearColumn col n (row + 1)

theorem clearColumns (rows : Nat) : ∀ n col, SChg env K E (clearColumns rows col n)
  | 0, _ => pure _
  | n + 1, col => bind (clearColumn _ _ _) fun _ => clearColumns rows n (col + 1)

theorem curCell (r c : Nat) : SChg env K E (curCell r c) := bind getCtx fun _ => lift _

theorem curNet : SChg env K E curNet := bind getCtx fun ctx => by
  cases ctx.exec <;> exact lift _

theorem watch (cnt : Nat) : SChg env K E (watch env cnt) := by
  have hov : SChg env K E (modCtx fun ctx => { ctx with state := .error, last := { ctx.last with err := .overflow } }) := by
    intro w a w' h
    simp at h
    rw [← h]
    exact .step (.instr .fault) (.one (.instr (.err .overflow)))
  unfold Ladder.watch
  refine bind getCtx fun _ => ?_
  refine ite ?_ ?_
  · exact bind callPanic fun _ => bind getCtx fun _ => ite (bind hov fun _ => bind callPanic fun _ => pure _) (pure _)
  · exact bind getCtx fun _ => ite (bind hov fun _ => bind callPanic fun _ => pure _) (pure _)

theorem skipLoop (col : Nat) : ∀ n gr cnt, SChg env K E (skipLoop env col gr n cnt)
  | 0, _, _ => pure _
  | n + 1, gr, cnt => by
    unfold Ladder.skipLoop
    exact bind (watch _) fun _ => ite (pure _) (bind (curCell _ _) fun _ => ite (pure _)
      (bind (lift _) fun _ => ite (pure _) (skipLoop col n _ _)))

theorem callInstruction : SChg env K E (callInstruction env) := by
  intro w a w' h
  unfold Ladder.callInstruction at h
  split at h
  · rename_i hp; simp at h; rw [← h]; exact .one (.callback hp)
  · simp at h; rw [← h]; exact .refl

theorem callScanEnd : SChg env K E (callScanEnd env) := by
  intro w a w' h
  unfold Ladder.callScanEnd at h
  split at h
  · rename_i hp; simp at h; rw [← h]; exact .one (.scanEnd hp)
  · simp at h; rw [← h]; exact .refl

theorem ret (n r c : Nat) (e : Err) (hn : K n) : SChg env K E (emit (.ret n r c e)) := by
  intro w a w' h; simp at h; rw [← h]; exact .one (.ret n r c e hn)

theorem execLoop (network col : Nat) (hk : K network) : ∀ n gr, SChg env K E (execLoop env network col gr n)
  | 0, _ => pure _
  | n + 1, gr => by
    unfold Ladder.execLoop
    intro w a w' h
    obtain ⟨cell, w1, h1, h⟩ := bind_eq_ok.1 h
    rw [Ladder.curCell, bind_getCtx] at h1
    obtain ⟨hcell, e1⟩ := lift_eq_ok.1 h1
    rw [e1, bind_modCtx] at h
    refine .step (.last { instr := cell.code, network := network, col := col, row := gr }) ?_
    split at h
    · refine (show SChg env K E _ from bind ?_ fun _ => bind (ret _ _ _ _ hk) fun _ => pure _) _ _ _ h
      intro w a w' h
      simp at h
      rw [← h]
      exact .step .inv (.one (.instr (.err .fail)))
    · split at h
      · exact execLoop network col hk n _ _ _ _ h
      · rw [bind_emit] at h
        obtain ⟨k, hx, hc⟩ := Chg.exnet_ok hcell
        refine .step (.exec (n := k) (r := gr) (c := col) (cell := cell) network hk hx hc) ?_
        exact bind (of (Chg.execIns _ _ _)) (fun _ => bind (ret _ _ _ _ hk) fun _ => bind (err _) fun _ => ite (pure _)
          (bind callInstruction fun _ => execLoop network col hk n _)) _ _ _ h

theorem orStates (col : Nat) : ∀ n gr acc, SChg env K E (orStates col gr n acc)
  | 0, _, _ => pure _
  | n + 1, _, _ => bind (curCell _ _) fun _ => orStates col n _ _

theorem setStates (col : Nat) (b : Bool) : ∀ n gr, SChg env K E (setStates col b gr n)
  | 0, _ => pure _
  | n + 1, _ => bind (setState _ _ _) fun _ => setStates col b n _

theorem scanColumn (network gs : Nat) (hk : K network) (power : Bool) (col cnt : Nat) :
    SChg env K E (scanColumn env network gs power col cnt) := by
  unfold Ladder.scanColumn
  refine bind curNet fun _ => bind (lift _) fun _ => bind (skipLoop _ _ _ _) fun o => ?_
  cases o with
  | none => exact pure _
  | some p =>
    exact ite (pure _) (bind (execLoop _ _ hk _ _) fun _ => ite (bind inv fun _ => pure _)
      (bind (orStates _ _ _ _) fun _ => bind (setStates _ _ _ _) fun _ => pure _))

theorem columnLoop (network gs : Nat) (hk : K network) (power : Bool) : ∀ fuel col cnt,
    SChg env K E (columnLoop env network gs power fuel col cnt)
  | 0, _, _ => lift _
  | fuel + 1, _, _ => by
    unfold Ladder.columnLoop
    refine bind curNet fun _ => ite (bind (scanColumn _ _ hk _ _ _) fun o => ?_) (pure _)
    cases o with
    | none => exact pure _
    | some cnt => exact columnLoop network gs hk power fuel _ _

theorem scanRow (network : Nat) (hk : K network) (row cnt : Nat) : SChg env K E (scanRow env network row cnt) := by
  unfold Ladder.scanRow
  refine bind (watch _) fun _ => ite (pure _) (bind (curCell _ _) fun _ => ite (pure _) (bind curNet fun _ =>
    bind (lift _) fun _ => bind (lift _) fun _ => bind (columnLoop _ _ hk _ _ _ _) fun o => ?_))
  cases o with
  | none => exact pure _
  | some cnt => exact bind callScanEnd fun _ => pure _

theorem rowLoop (network : Nat) (hk : K network) : ∀ fuel row cnt, SChg env K E (rowLoop env network fuel row cnt)
  | 0, _, _ => lift _
  | fuel + 1, _, _ => by
    unfold Ladder.rowLoop
    refine bind curNet fun _ => ite (bind (scanRow _ hk _ _) fun o => ?_) (pure _)
    cases o with
    | none => exact pure _
    | some p => exact rowLoop network hk fuel _ _

theorem scanNetwork (hE : E) (n : Nat) (hk : K n) : SChg env K E (scanNetwork env n) := by
  unfold Ladder.scanNetwork
  intro w a w' h
  rw [bind_getCtx] at h
  obtain ⟨net, hn, h⟩ := bind_lift_eq_ok.1 h
  rw [aget_eq_ok] at hn
  split at h
  · exact bind fault (fun _ => bind callPanic fun _ => pure _) _ _ _ h
  · split at h
    · simp at h; rw [← h.2]; exact .refl
    · rename_i hen
      rw [bind_modCtx] at h
      refine .step (.enter hE hn (by simpa using hen)) ?_
      exact bind (clearColumns _ _ _) (fun _ => rowLoop _ hk _ _ _) _ _ _ h

theorem networkLoop (hE : E) (hk : ∀ n, K n) : ∀ fuel n, SChg env K E (networkLoop env fuel n)
  | 0, _ => lift _
  | fuel + 1, n => by
    unfold Ladder.networkLoop
    exact bind getCtx fun _ => ite (bind (scanNetwork hE _ (hk _)) fun _ => ite (networkLoop hE hk fuel _) (pure _)) (pure _)

theorem cronReset {jobs : Arr CronJob} : ∀ (n k : Nat) {m m' : Arr Byte} {w : World}, w.ctx.M = m →
    cronResetLoop jobs k n m = .ok m' → Star (Change env) w { w with ctx := { w.ctx with M := m' } }
  | 0, k, m, m', w, hm, h => by
    simp only [cronResetLoop, Except.ok.injEq] at h
    rw [← h, ← hm]; exact .refl
  | n + 1, k, m, m', w, hm, h => by
    unfold cronResetLoop at h
    split at h
    · simp at h
    · rename_i j hj
      split at h
      · split at h
        · simp at h
        · rename_i b hb
          rw [aget_eq_ok] at hb
          have ih := cronReset n (k + 1) (w := w.upd (.M j.flagReg) 0) (by rw [World.upd_ctx, ← hm]; rfl) h
          exact .step (.store (ℓ := .M j.flagReg) (x := 0) rfl (by intro n r c e; cases e)
            (by simp [load, hm, hb]) (by simp [Loc.size])) ih
      · exact cronReset n (k + 1) hm h

theorem cronEvalLoop {tm : Tm} {jobs : List CronJob} : ∀ (n k : Nat) {m m' : Arr Byte} {w : World}, w.ctx.M = m →
    cronEvalLoop tm jobs k n m = .ok m' → Star (Change env) w { w with ctx := { w.ctx with M := m' } }
  | 0, k, m, m', w, hm, h => by
    simp only [Ladder.cronEvalLoop, Except.ok.injEq] at h
    rw [← h, ← hm]; exact .refl
  | n + 1, k, m, m', w, hm, h => by
    unfold Ladder.cronEvalLoop at h
    split at h
    · simp at h
    · rename_i j hj
      split at h
      · split at h
        · simp at h
        · exact cronEvalLoop n (k + 1) hm h
        · split at h
          · rename_i b b' h1 h2
            rw [aget_eq_ok] at h2
            have ih := cronEvalLoop n (k + 1) (w := w.upd (.M j.flagReg) b.toNat)
              (by rw [World.upd_ctx, ← hm]; simp only [upd, BitVec.ofNat_toNat, BitVec.setWidth_eq]) h
            exact .step (.store (ℓ := .M j.flagReg) (x := b.toNat) rfl (by intro n r c e; cases e)
              (by simp [load, hm, h2]) b.isLt) ih
          · simp at h
          · simp at h
      · exact cronEvalLoop n (k + 1) hm h

theorem cronEval : Chg env (cronEval env) := by
  intro w a w' h
  unfold Ladder.cronEval at h
  split at h
  · simp at h
  · split at h
    · simp at h; rw [← h.2]; exact .refl
    · split at h
      · simp at h; rw [← h.2]; exact .refl
      · split at h
        · simp at h
        · rename_i m hm
          simp only [Except.ok.injEq, Prod.mk.injEq] at h
          rw [← h.2]
          exact (cronEvalLoop _ _ rfl hm).trans (.one .clock)

theorem cronPhase : SChg env K E (cronPhase env) := by
  unfold Ladder.cronPhase
  intro w a w' h
  rw [bind_getCtx] at h
  cases hcr : w.ctx.cron with
  | none => simp [hcr] at h; rw [← h.2]; exact .refl
  | some cr =>
    simp only [hcr] at h
    obtain ⟨m, hm, h⟩ := bind_lift_eq_ok.1 h
    rw [bind_modCtx] at h
    refine ((cronReset _ _ rfl hm).mono fun _ _ => .instr).trans ?_
    exact bind (of cronEval) (fun _ => ite (bind inv fun _ => pure _) (pure _)) _ _ _ h

theorem scan (hE : E) (hk : ∀ n, K n) : SChg env K E (scan env) := by
  unfold Ladder.scan
  have hl : SChg env K E (modCtx fun ctx => { ctx with exec := none }) := by
    intro w a w' h; simp at h; rw [← h]; exact .one (.leave hE)
  exact bind hl fun _ => bind cronPhase fun _ => ite (bind getCtx fun _ =>
    ite (bind fault fun _ => callPanic) (networkLoop hE hk _ _)) (pure _)

end SChg
end Ladder
