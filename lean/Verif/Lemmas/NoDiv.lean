import Verif.Lemmas.ScanChange

/-
Which operations can run out of rounds: none but the loops of the scan.
-/

set_option autoImplicit false

namespace Ladder

open Spec Op

/-- The value is not the "does not terminate" outcome. -/
def Calm {α : Type} (x : Except UB α) : Prop := x ≠ .error .diverges

/-- The operation always terminates. -/
def NoDiv {α : Type} (m : Op α) : Prop := ∀ w, m w ≠ .error .diverges

namespace Calm

variable {α β : Type}

theorem ok (a : α) : Calm (.ok a : Except UB α) := by simp [Calm]
theorem error {e : UB} (h : e ≠ .diverges) : Calm (.error e : Except UB α) := by simpa [Calm] using h

theorem map {x : Except UB α} {f : α → β} (h : Calm x) : Calm (x.map f) := by
  cases x <;> simp_all [Calm, Except.map]

theorem aget (a : Arr α) (i : Nat) : Calm (aget a i) := by
  unfold Ladder.aget Calm; split <;> (try split) <;> simp

theorem agetI (a : Arr α) (i : Int) : Calm (agetI a i) := by
  unfold Ladder.agetI
  split
  · split <;> exact error (by decide)
  · exact aget _ _

theorem boolOf (b : Byte) : Calm (boolOf b) := by
  unfold Ladder.boolOf Calm; split <;> (try split) <;> simp

/-- Passing on an error. -/
theorem of_error {x : Except UB α} {e : UB} (h : Calm x) (he : x = .error e) : Calm (.error e : Except UB β) := by
  rw [he] at h; exact error (by simpa [Calm] using h)

theorem bind {x : Except UB α} {f : α → Except UB β} (h : Calm x) (hf : ∀ a, Calm (f a)) : Calm (x >>= f) := by
  cases x with
  | error e => exact error (by simpa [Calm] using h)
  | ok a => exact hf a

theorem ite {p : Prop} [Decidable p] {a b : Except UB α} (ha : Calm a) (hb : Calm b) : Calm (if p then a else b) := by
  split <;> assumption

end Calm

/-- Known terminating values. -/
syntax "calm_leaf" : tactic
macro_rules | `(tactic| calm_leaf) => `(tactic| with_reducible exact Calm.ok _)
macro_rules | `(tactic| calm_leaf) => `(tactic| with_reducible exact Calm.error (by decide))
macro_rules | `(tactic| calm_leaf) => `(tactic| with_reducible exact Calm.aget _ _)
macro_rules | `(tactic| calm_leaf) => `(tactic| with_reducible exact Calm.agetI _ _)
macro_rules | `(tactic| calm_leaf) => `(tactic| with_reducible exact Calm.boolOf _)
macro_rules | `(tactic| calm_leaf) => `(tactic| with_reducible exact Calm.map (Calm.aget _ _))
macro_rules | `(tactic| calm_leaf) => `(tactic| with_reducible exact Calm.map (Calm.agetI _ _))
macro_rules | `(tactic| calm_leaf) => `(tactic| with_reducible exact Calm.map (Calm.boolOf _))
macro_rules | `(tactic| calm_leaf) => `(tactic| assumption)

/-- Decompose a value. -/
macro "calm" : tactic => `(tactic| repeat' first
  | calm_leaf
  | (rename_i h; exact Calm.of_error (by calm_leaf) h)
  | split)

namespace Calm

theorem boolW {b : Except UB Byte} (h : Calm b) : Calm (boolW b) := by
  cases b with
  | error e => exact of_error h rfl
  | ok x => exact map (boolOf x)
theorem byteW {b : Except UB Byte} (h : Calm b) : Calm (byteW b) := map h

theorem cell (net : Network) (r c : Nat) : Calm (net.cell r c) := by unfold Network.cell; calm
macro_rules | `(tactic| calm_leaf) => `(tactic| with_reducible exact Calm.cell _ _ _)

theorem exnet (ctx : Ctx) : Calm ctx.exnet := by unfold Ctx.exnet; calm
macro_rules | `(tactic| calm_leaf) => `(tactic| with_reducible exact Calm.exnet _)

theorem execCell (ctx : Ctx) (r c : Nat) : Calm (ctx.execCell r c) := by unfold Ctx.execCell; calm
macro_rules | `(tactic| calm_leaf) => `(tactic| with_reducible exact Calm.execCell _ _ _)

theorem execData (ctx : Ctx) (r c i : Nat) : Calm (ctx.execData r c i) := by unfold Ctx.execData; calm
macro_rules | `(tactic| calm_leaf) => `(tactic| with_reducible exact Calm.execData _ _ _ _)

theorem floatToI32 (b : W32) : Calm (floatToI32 b) := by
  unfold Ladder.floatToI32
  exact ite (error (by decide)) (ok _)
macro_rules | `(tactic| calm_leaf) => `(tactic| with_reducible exact Calm.floatToI32 _)
macro_rules | `(tactic| calm_leaf) => `(tactic| with_reducible exact Calm.byteW (Calm.aget _ _))
macro_rules | `(tactic| calm_leaf) => `(tactic| with_reducible exact Calm.byteW (Calm.agetI _ _))
macro_rules | `(tactic| calm_leaf) => `(tactic| with_reducible exact Calm.boolW (Calm.aget _ _))
macro_rules | `(tactic| calm_leaf) => `(tactic| with_reducible exact Calm.boolW (Calm.agetI _ _))

theorem regAt (ctx : Ctx) (t : Reg) (i : Nat) : Calm (regAt ctx t i) := by unfold Ladder.regAt; calm
macro_rules | `(tactic| calm_leaf) => `(tactic| with_reducible exact Calm.regAt _ _ _)

theorem operandAt (ctx : Ctx) (r c i : Nat) : Calm (operandAt ctx r c i) := by unfold Ladder.operandAt; calm
macro_rules | `(tactic| calm_leaf) => `(tactic| with_reducible exact Calm.operandAt _ _ _ _)

theorem prevValue (ctx : Ctx) (v : Value) : Calm (prevValue ctx v) := by unfold Ladder.prevValue; calm
macro_rules | `(tactic| calm_leaf) => `(tactic| with_reducible exact Calm.prevValue _ _)

theorem safeModPort (ctx : Ctx) (t : Reg) (m p : Nat) : Calm (safeModPort ctx t m p) := by
  unfold Ladder.safeModPort
  simp only
  calm
macro_rules | `(tactic| calm_leaf) => `(tactic| with_reducible exact Calm.safeModPort _ _ _ _)

theorem storeReg (ctx : Ctx) (t : Reg) (i : Nat) (x : W32) : Calm (storeReg ctx t i x) := by
  unfold Ladder.storeReg
  simp only
  calm
macro_rules | `(tactic| calm_leaf) => `(tactic| with_reducible exact Calm.storeReg _ _ _ _)

theorem storePort (ctx : Ctx) (t : Reg) (m p : Nat) (x : W32) : Calm (storePort ctx t m p x) := by
  unfold Ladder.storePort
  simp only
  calm
macro_rules | `(tactic| calm_leaf) => `(tactic| with_reducible exact Calm.storePort _ _ _ _ _)

theorem writeValue (ctx : Ctx) (v : Value) (x : W32) : Calm (writeValue ctx v x) := by unfold Ladder.writeValue; calm
macro_rules | `(tactic| calm_leaf) => `(tactic| with_reducible exact Calm.writeValue _ _ _)

theorem basetimeFactor (r : Reg) : Calm (basetimeFactor r) := by
  cases r <;> simp [Ladder.basetimeFactor, Reg.code, Calm]

theorem signed32 (x : Int) : Calm (signed32 x) := ite (ok _) (error (by decide))
theorem cDiv (a b : W32) : Calm (cDiv a b) := ite (error (by decide)) (signed32 _)
theorem cMod (a b : W32) : Calm (cMod a b) := ite (error (by decide)) (ite (ok _) (error (by decide)))
theorem cShl (x : W32) (n : Nat) : Calm (cShl x n) := ite (ok _) (error (by decide))
theorem cShr (x : W32) (n : Nat) : Calm (cShr x n) := ite (ok _) (error (by decide))

theorem tableEntry (ctx : Ctx) (net pos : W32) : Calm (tableEntry ctx net pos) := by
  unfold Ladder.tableEntry
  simp only
  calm
macro_rules | `(tactic| calm_leaf) => `(tactic| with_reducible exact Calm.tableEntry _ _ _)

theorem tableRead (ctx : Ctx) (net : W32) : ∀ (n : Nat) (pos : W32), Calm (tableRead ctx net pos n)
  | 0, _ => ok _
  | n + 1, pos => by
    unfold Ladder.tableRead
    have h2 := tableRead ctx net n (pos + 1)
    calm

theorem tableWrite (net : W32) : ∀ (l : List W32) (pos : W32) (ctx : Ctx), Calm (tableWrite net pos l ctx)
  | [], _, _ => ok _
  | x :: xs, pos, ctx => by
    unfold Ladder.tableWrite
    have h2 := tableWrite net xs
    calm
    exact h2 _ _

theorem sideEffects (code : Ins) : Calm (sideEffects code) := by cases code <;> simp [Ladder.sideEffects, Calm]

theorem groupEnd (net : Network) (col : Nat) : ∀ (n g : Nat), Calm (groupEnd net col n g)
  | 0, _ => ok _
  | n + 1, g => by
    unfold Ladder.groupEnd
    have h2 := groupEnd net col n (g + 1)
    calm

theorem isLower (net : Network) (row : Nat) : ∀ (n c : Nat), Calm (isLower net row c n)
  | 0, _ => ok _
  | n + 1, c => by
    unfold Ladder.isLower
    have h2 := isLower net row n (c + 1)
    calm

theorem cronResetLoop (jobs : Arr CronJob) : ∀ (n k : Nat) (m : Arr Byte), Calm (cronResetLoop jobs k n m)
  | 0, _, _ => ok _
  | n + 1, k, m => by
    unfold Ladder.cronResetLoop
    have h2 := cronResetLoop jobs n
    calm
    all_goals exact h2 _ _

theorem bitIsSet (map : List Byte) (pos : Nat) : Calm (Lwdtc.bitIsSet map pos) := by unfold Lwdtc.bitIsSet; calm
macro_rules | `(tactic| calm_leaf) => `(tactic| with_reducible exact Calm.bitIsSet _ _)

theorem allBits : ∀ l, Calm (Lwdtc.allBits l)
  | [] => ok _
  | (m, p) :: l => by
    unfold Lwdtc.allBits
    have h2 := allBits l
    calm

theorem isValid (tm : Tm) (c : CronExpr) : Calm (Lwdtc.isValid tm c) := allBits _
macro_rules | `(tactic| calm_leaf) => `(tactic| with_reducible exact Calm.isValid _ _)

theorem cronEvalLoop (tm : Tm) (jobs : List CronJob) : ∀ (n k : Nat) (m : Arr Byte), Calm (cronEvalLoop tm jobs k n m)
  | 0, _, _ => ok _
  | n + 1, k, m => by
    unfold Ladder.cronEvalLoop
    have h2 := cronEvalLoop tm jobs n
    calm
    all_goals first
      | exact h2 _ _
      | (rename_i h _; exact of_error (aget _ _) h)
macro_rules | `(tactic| calm_leaf) => `(tactic| with_reducible exact Calm.cronEvalLoop _ _ _ _ _)

end Calm

namespace NoDiv

variable {α β : Type} {env : Env}

theorem pure (a : α) : NoDiv (pure a : Op α) := by intro w; simp
theorem getCtx : NoDiv getCtx := by intro w; simp
theorem modCtx (f : Ctx → Ctx) : NoDiv (modCtx f) := by intro w; simp
theorem emit (e : Event) : NoDiv (emit e) := by intro w; simp

theorem bind {m : Op α} {f : α → Op β} (hm : NoDiv m) (hf : ∀ a, NoDiv (f a)) : NoDiv (m >>= f) := by
  intro w
  rw [bind_apply]
  have := hm w
  cases hmw : m w with
  | error e => rw [hmw] at this; simpa using this
  | ok p => exact hf _ _

theorem ite {p : Prop} [Decidable p] {a b : Op α} (ha : NoDiv a) (hb : NoDiv b) : NoDiv (if p then a else b) := by
  split <;> assumption

theorem lift {x : Except UB α} (h : Calm x) : NoDiv (lift x : Op α) := by
  intro w
  cases x with
  | ok a => simp
  | error e => simpa [Calm] using h

theorem callPanic : NoDiv (callPanic env) := by intro w; unfold Ladder.callPanic; split <;> simp
theorem callMillis : NoDiv (callMillis env) := by intro w; unfold Ladder.callMillis; split <;> simp
theorem callInstruction : NoDiv (callInstruction env) := by intro w; unfold Ladder.callInstruction; split <;> simp
theorem callScanEnd : NoDiv (callScanEnd env) := by intro w; unfold Ladder.callScanEnd; split <;> simp

theorem callForeign (id r c : Nat) : NoDiv (callForeign env id r c) := by
  intro w
  unfold Ladder.callForeign
  have := Calm.aget w.ctx.foreign id
  split
  · rename_i h; rw [h] at this; simpa [Calm] using this
  · simp

theorem getState (r c : Nat) : NoDiv (getState r c) := bind getCtx fun _ => bind (lift (Calm.execCell _ _ _)) fun _ => pure _

theorem setState (r c : Nat) (b : Bool) : NoDiv (setState r c b) :=
  bind getCtx fun _ => bind (lift (Calm.execCell _ _ _)) fun _ => modCtx _

theorem getLeft (r c : Nat) : NoDiv (getLeft r c) := ite (pure _) (getState _ _)

theorem getDataExec (r c i : Nat) : NoDiv (getDataExec r c i) := bind getCtx fun _ => lift (Calm.execData _ _ _ _)

theorem readValue (v : Value) : NoDiv (readValue env v) := by
  refine bind getCtx fun ctx => ?_
  split
  case h_1 => exact pure _
  case h_15 => exact pure _
  case h_16 => exact pure _
  all_goals first
    | (split
       · exact bind (modCtx _) fun _ => by
           split
           · exact bind (modCtx _) fun _ => bind callPanic fun _ => pure _
           · exact pure _
       · exact lift (Calm.regAt _ _ _))
    | exact ite (pure _) (bind (lift (Calm.aget _ _)) fun _ => lift (Calm.aget _ _))
    | exact ite (pure _) (bind (lift (Calm.aget _ _)) fun _ => lift (Calm.byteW (Calm.aget _ _)))

theorem getData (r c i : Nat) : NoDiv (getData env r c i) :=
  bind getCtx fun _ => bind (lift (Calm.operandAt _ _ _ _)) fun o => by
    cases o
    · exact pure _
    · exact readValue _

theorem getPrev (r c i : Nat) : NoDiv (getPrev r c i) :=
  bind getCtx fun _ => bind (lift (Calm.operandAt _ _ _ _)) fun o => by
    cases o
    · exact pure _
    · exact lift (Calm.prevValue _ _)

theorem setData (r c i : Nat) (x : W32) : NoDiv (setData r c i x) :=
  bind (getDataExec _ _ _) fun _ => bind getCtx fun _ => bind (lift (Calm.writeValue _ _ _)) fun _ =>
    bind (modCtx _) fun _ => pure _

theorem getB (a : BArea) (i : Int) : NoDiv (getB a i) :=
  bind getCtx fun _ => bind (lift (Calm.agetI _ _)) fun _ => lift (Calm.boolOf _)
theorem setB (a : BArea) (i : Int) (b : Bool) : NoDiv (setB a i b) :=
  bind getCtx fun _ => bind (lift (Calm.agetI _ _)) fun _ => modCtx _
theorem getTimer (i : Int) : NoDiv (getTimer i) := bind getCtx fun _ => lift (Calm.agetI _ _)
theorem getC (i : Int) : NoDiv (getC i) := bind getCtx fun _ => lift (Calm.agetI _ _)
theorem setAcc (i : Int) (x : W32) : NoDiv (setAcc i x) :=
  bind getCtx fun _ => bind (lift (Calm.agetI _ _)) fun _ => modCtx _
theorem setStamp (i : Int) (x : W64) : NoDiv (setStamp i x) :=
  bind getCtx fun _ => bind (lift (Calm.agetI _ _)) fun _ => modCtx _
theorem setC (i : Int) (x : W32) : NoDiv (setC i x) :=
  bind getCtx fun _ => bind (lift (Calm.agetI _ _)) fun _ => modCtx _

end NoDiv

/-- Decompose a sequence of operations. -/
local macro "ndv" : tactic => `(tactic| repeat' first
  | with_reducible exact NoDiv.pure _
  | with_reducible exact NoDiv.getCtx
  | with_reducible exact NoDiv.modCtx _
  | with_reducible exact NoDiv.lift (Calm.basetimeFactor _)
  | with_reducible exact NoDiv.lift (Calm.signed32 _)
  | with_reducible exact NoDiv.lift (Calm.cDiv _ _)
  | with_reducible exact NoDiv.getState _ _
  | with_reducible exact NoDiv.getLeft _ _
  | with_reducible exact NoDiv.setState _ _ _
  | with_reducible exact NoDiv.getDataExec _ _ _
  | with_reducible exact NoDiv.getData _ _ _
  | with_reducible exact NoDiv.getPrev _ _ _
  | with_reducible exact NoDiv.setData _ _ _ _
  | with_reducible exact NoDiv.getB _ _
  | with_reducible exact NoDiv.setB _ _ _
  | with_reducible exact NoDiv.getTimer _
  | with_reducible exact NoDiv.getC _
  | with_reducible exact NoDiv.setAcc _ _
  | with_reducible exact NoDiv.setStamp _ _
  | with_reducible exact NoDiv.setC _ _
  | with_reducible exact NoDiv.callMillis
  | with_reducible exact NoDiv.callForeign _ _ _
  | with_reducible exact NoDiv.callPanic
  | refine NoDiv.bind ?_ ?_ | refine NoDiv.ite ?_ ?_ | intro _)

namespace NoDiv

variable {env : Env}

theorem timerRun (r c : Nat) (i : Int) : NoDiv (timerRun env r c i) := by unfold Ladder.timerRun; ndv
theorem timerDone (r c : Nat) (i : Int) : NoDiv (timerDone env r c i) := by unfold Ladder.timerDone; ndv
theorem ctReset (r c : Nat) : NoDiv (ctReset r c) := by unfold Ladder.ctReset; ndv
theorem ctDoReset (r c : Nat) (i : Int) (x : W32) : NoDiv (ctDoReset r c i x) := by unfold Ladder.ctDoReset; ndv
theorem ctCount (r c : Nat) (i : Int) (f : W32 → W32) : NoDiv (ctCount r c i f) := by unfold Ladder.ctCount; ndv
theorem moveStore (r c : Nat) (x : W32) : NoDiv (moveStore r c x) := by unfold Ladder.moveStore; ndv
theorem cmpop (p : Int → Int → Bool) (r c : Nat) : NoDiv (cmpop env p r c) := by unfold Ladder.cmpop; ndv

theorem binop {f : W32 → W32 → Except UB W32} (hf : ∀ a b, Calm (f a b)) (r c : Nat) : NoDiv (binop env f r c) := by
  unfold Ladder.binop
  refine bind (getLeft _ _) fun _ => bind (setState _ _ _) fun _ => bind (getLeft _ _) fun _ => ite ?_ (pure _)
  exact bind (getData _ _ _) fun _ => bind (getData _ _ _) fun _ => bind (lift (hf _ _)) fun _ =>
    bind (setData _ _ _ _) fun _ => pure _

theorem shiftop {f : W32 → Nat → Except UB W32} (hf : ∀ a b, Calm (f a b)) (r c : Nat) : NoDiv (shiftop env f r c) := by
  unfold Ladder.shiftop
  exact bind (getData _ _ _) fun _ => bind (getData _ _ _) fun _ => bind (lift (hf _ _)) fun _ =>
    bind (setData _ _ _ _) fun _ => bind (getLeft _ _) fun _ => bind (setState _ _ _) fun _ => pure _

theorem fnTMOVE (r c : Nat) : NoDiv (fnTMOVE env r c) := by
  unfold Ladder.fnTMOVE
  repeat' first
    | with_reducible exact pure _
    | with_reducible exact getCtx
    | with_reducible exact modCtx _
    | with_reducible exact lift (Calm.agetI _ _)
    | with_reducible exact lift (Calm.tableRead _ _ _ _)
    | with_reducible exact lift (Calm.tableWrite _ _ _ _)
    | with_reducible exact getLeft _ _
    | with_reducible exact setState _ _ _
    | with_reducible exact getData _ _ _
    | refine bind ?_ ?_ | refine ite ?_ ?_ | split | intro _

local macro "ndt" : tactic => `(tactic| repeat' first
  | with_reducible exact NoDiv.timerRun _ _ _ | with_reducible exact NoDiv.timerDone _ _ _
  | with_reducible exact NoDiv.ctReset _ _ | with_reducible exact NoDiv.ctDoReset _ _ _ _
  | with_reducible exact NoDiv.ctCount _ _ _ _
  | with_reducible exact NoDiv.pure _ | with_reducible exact NoDiv.getLeft _ _
  | with_reducible exact NoDiv.setState _ _ _ | with_reducible exact NoDiv.getDataExec _ _ _
  | with_reducible exact NoDiv.getPrev _ _ _
  | with_reducible exact NoDiv.getB _ _ | with_reducible exact NoDiv.setB _ _ _ | with_reducible exact NoDiv.setAcc _ _
  | with_reducible exact NoDiv.setStamp _ _ | with_reducible exact NoDiv.callMillis | with_reducible exact NoDiv.getC _
  | refine NoDiv.bind ?_ ?_ | refine NoDiv.ite ?_ ?_ | intro _)

theorem fnTON (r c : Nat) : NoDiv (fnTON env r c) := by unfold Ladder.fnTON; ndt
theorem fnTOF (r c : Nat) : NoDiv (fnTOF env r c) := by unfold Ladder.fnTOF; ndt
theorem fnTP (r c : Nat) : NoDiv (fnTP env r c) := by unfold Ladder.fnTP; ndt
theorem fnCTU (r c : Nat) : NoDiv (fnCTU r c) := by unfold Ladder.fnCTU; ndt
theorem fnCTD (r c : Nat) : NoDiv (fnCTD r c) := by unfold Ladder.fnCTD; ndt

/-- Every instruction terminates. -/
theorem execIns (code : Ins) (r c : Nat) : NoDiv (execIns env code r c) := by
  cases code <;> simp only [Ladder.execIns]
  case TMOVE => exact fnTMOVE r c
  case FOREIGN => unfold fnFOREIGN; ndv
  case MOVE =>
    unfold fnMOVE
    refine bind getCtx fun _ => bind (lift (Calm.execCell _ _ _)) fun _ => ite (pure _) ?_
    refine bind (lift (Calm.aget _ _)) fun _ => bind (lift (Calm.aget _ _)) fun _ => ?_
    split
    all_goals first | exact pure _ | skip
    all_goals first
      | (refine bind (getData _ _ _) fun _ => ite (moveStore _ _ _) (pure _))
      | (refine ite (pure _) (bind (lift (Calm.aget _ _)) fun _ => ite (moveStore _ _ _) (pure _)))
  case TON => exact fnTON _ _
  case TOF => exact fnTOF _ _
  case TP => exact fnTP _ _
  case CTU => exact fnCTU _ _
  case CTD => exact fnCTD _ _
  case NOP => exact pure _
  case CONN => unfold fnCONN; ndv
  case NEG => unfold fnNEG; ndv
  case NO => unfold fnNO; ndv
  case NC => unfold fnNC; ndv
  case RE => unfold fnRE; ndv
  case FE => unfold fnFE; ndv
  case COIL => unfold fnCOIL; ndv
  case COILL => unfold fnCOILL; ndv
  case COILU => unfold fnCOILU; ndv
  case SUB => unfold fnSUB; ndv
  case DIV => unfold fnDIV; ndv
  case NOT => unfold fnNOT; ndv
  case ADD => exact binop (fun _ _ => Calm.signed32 _) _ _
  case MUL => exact binop (fun _ _ => Calm.signed32 _) _ _
  case MOD => exact binop (fun _ _ => Calm.cMod _ _) _ _
  case AND => exact binop (fun _ _ => Calm.ok _) _ _
  case OR => exact binop (fun _ _ => Calm.ok _) _ _
  case XOR => exact binop (fun _ _ => Calm.ok _) _ _
  case SHL => exact shiftop (fun _ _ => Calm.cShl _ _) _ _
  case SHR => exact shiftop (fun _ _ => Calm.cShr _ _) _ _
  case ROL => exact shiftop (fun _ _ => Calm.bind (Calm.cShl _ _) fun _ => Calm.bind (Calm.cShr _ _) fun _ => Calm.ok _) _ _
  case ROR => exact shiftop (fun _ _ => Calm.bind (Calm.cShr _ _) fun _ => Calm.bind (Calm.cShl _ _) fun _ => Calm.ok _) _ _
  case EQ => exact cmpop _ _ _
  case GT => exact cmpop _ _ _
  case GE => exact cmpop _ _ _
  case LT => exact cmpop _ _ _
  case LE => exact cmpop _ _ _
  case NE => exact cmpop _ _ _
  case INV => exact lift (Calm.error (by decide))
  case MULTI => exact lift (Calm.error (by decide))

theorem cronEval : NoDiv (cronEval env) := by
  intro w
  unfold Ladder.cronEval
  split
  · simp
  · split
    · simp
    · rename_i jobs _
      split
      · simp
      · split
        · rename_i h
          have := Calm.of_error (β := Unit) (Calm.cronEvalLoop _ _ _ _ _) h
          simpa [Calm] using this
        · simp

theorem cronPhase : NoDiv (cronPhase env) :=
  bind getCtx fun ctx => by
    split
    · exact pure _
    · exact bind (lift (Calm.cronResetLoop _ _ _ _)) fun _ => bind (modCtx _) fun _ => bind cronEval fun _ =>
        ite (bind (modCtx _) fun _ => pure _) (pure _)

theorem clearColumn (col : Nat) : ∀ n row, NoDiv (clearColumn col row n)
  | 0, _ => pure _
  | n + 1, _ => bind (setState _ _ _) fun _ => clearColumn col n _

theorem clearColumns (rows : Nat) : ∀ n col, NoDiv (clearColumns rows col n)
  | 0, _ => pure _
  | n + 1, _ => bind (clearColumn _ _ _) fun _ => clearColumns rows n _

theorem watch (cnt : Nat) : NoDiv (watch env cnt) := by
  have key : NoDiv (do
      let ctx ← Op.getCtx
      if ctx.scan.maxScanCycles < cnt then do
        Op.modCtx fun ctx => { ctx with state := .error, last := { ctx.last with err := .overflow } }
        Ladder.callPanic env
        Pure.pure true
      else Pure.pure false : Op Bool) :=
    bind getCtx fun _ => ite (bind (modCtx _) fun _ => bind callPanic fun _ => pure _) (pure _)
  exact bind getCtx fun _ => ite (bind callPanic fun _ => key) key

theorem curCell (r c : Nat) : NoDiv (curCell r c) := bind getCtx fun _ => lift (Calm.execCell _ _ _)

theorem curNet : NoDiv curNet := bind getCtx fun ctx => by
  cases ctx.exec
  · exact lift (Calm.error (by decide))
  · exact lift (Calm.aget _ _)

theorem skipLoop (col : Nat) : ∀ n gr cnt, NoDiv (skipLoop env col gr n cnt)
  | 0, _, _ => pure _
  | n + 1, _, _ => bind (watch _) fun _ => ite (pure _) (bind (curCell _ _) fun _ => ite (pure _)
      (bind (lift (Calm.sideEffects _)) fun _ => ite (pure _) (skipLoop col n _ _)))

theorem execLoop (network col : Nat) : ∀ n gr, NoDiv (execLoop env network col gr n)
  | 0, _ => pure _
  | n + 1, _ => bind (curCell _ _) fun _ => bind (modCtx _) fun _ => ite
      (bind (modCtx _) fun _ => bind (emit _) fun _ => pure _) (ite (execLoop network col n _)
      (bind (emit _) fun _ => bind (execIns _ _ _) fun _ => bind (emit _) fun _ => bind (modCtx _) fun _ =>
        ite (pure _) (bind callInstruction fun _ => execLoop network col n _)))

theorem orStates (col : Nat) : ∀ n gr acc, NoDiv (orStates col gr n acc)
  | 0, _, _ => pure _
  | n + 1, _, _ => bind (curCell _ _) fun _ => orStates col n _ _

theorem setStates (col : Nat) (b : Bool) : ∀ n gr, NoDiv (setStates col b gr n)
  | 0, _ => pure _
  | n + 1, _ => bind (setState _ _ _) fun _ => setStates col b n _

theorem scanColumn (network gs : Nat) (power : Bool) (col cnt : Nat) : NoDiv (scanColumn env network gs power col cnt) :=
  bind curNet fun _ => bind (lift (Calm.groupEnd _ _ _ _)) fun _ => bind (skipLoop _ _ _ _) fun o => by
    rcases o with _ | ⟨safe, cnt⟩
    · exact pure _
    · exact ite (pure _) (bind (execLoop _ _ _ _) fun _ => ite (bind (modCtx _) fun _ => pure _)
        (bind (orStates _ _ _ _) fun _ => bind (setStates _ _ _ _) fun _ => pure _))

end NoDiv
end Ladder
