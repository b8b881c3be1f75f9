import Verif.Lemmas.ScanChange
import Verif.Spec.Shade

/-
Operations that commute with hiding the power states of networks not being executed.
-/

set_option autoImplicit false

namespace Ladder

open Spec Op

/-- `shade` on worlds. -/
def World.shade (m : Nat) (w : World) : World := { w with ctx := Spec.shade m w.ctx }

/-- `shade` on outcomes. -/
def shadeRes {α : Type} (m : Nat) (x : Except UB (α × World)) : Except UB (α × World) :=
  match x with
  | .ok (a, w) => .ok (a, w.shade m)
  | .error e => .error e

/-- The operation commutes with `shade m`. -/
def Comm {α : Type} (m : Nat) (op : Op α) : Prop := ∀ w, op (w.shade m) = shadeRes m (op w)

/-! ### The hidden context -/

variable {m : Nat} {ctx : Ctx}

theorem at?_shade (n : Nat) : at? (shade m ctx).network n = (at? ctx.network n).map fun net =>
    if m ≤ n ∧ net.enable = true ∧ ctx.exec ≠ some n then netText net else net := by
  simp only [at?, shade]
  cases ctx.network with
  | none => rfl
  | some l => simp

theorem aget_shade (n : Nat) : aget (shade m ctx).network n = (aget ctx.network n).map fun net =>
    if m ≤ n ∧ net.enable = true ∧ ctx.exec ≠ some n then netText net else net := by
  unfold aget shade
  cases ctx.network with
  | none => rfl
  | some l =>
    simp only [Option.map_some, List.getElem?_mapIdx]
    cases l[n]? <;> rfl

theorem cell_text (net : Network) (r c : Nat) : (netText net).cell r c = (net.cell r c).map cellText := by
  unfold Network.cell netText
  cases net.cells with
  | none => rfl
  | some rows =>
    simp only [Option.map_some, List.getElem?_map]
    cases rows[r]? with
    | none => rfl
    | some row =>
      simp only [Option.map_some, List.getElem?_map]
      cases row[c]? <;> rfl

theorem exnet_shade : (shade m ctx).exnet = ctx.exnet := by
  unfold Ctx.exnet
  show (match ctx.exec with | none => _ | some n => aget (shade m ctx).network n) = _
  cases he : ctx.exec with
  | none => rfl
  | some n =>
    simp only [aget_shade, he]
    cases aget ctx.network n <;> simp [Except.map]

theorem execCell_shade (r c : Nat) : (shade m ctx).execCell r c = ctx.execCell r c := by
  unfold Ctx.execCell; rw [exnet_shade]

theorem execData_shade (r c i : Nat) : (shade m ctx).execData r c i = ctx.execData r c i := by
  unfold Ctx.execData; rw [execCell_shade]

theorem operandAt_shade (r c i : Nat) : operandAt (shade m ctx) r c i = operandAt ctx r c i := by
  unfold operandAt
  show (match ctx.exec with | none => _ | some n => _) = _
  cases he : ctx.exec with
  | none => rfl
  | some n =>
    simp only [aget_shade, he]
    cases aget ctx.network n <;> simp [Except.map]

theorem netText_modify (net : Network) (r c : Nat) {f : Cell → Cell} (hf : ∀ x, f (cellText x) = cellText (f x)) :
    { netText net with cells := (netText net).cells.map fun rows => rows.modify r fun row => row.modify c f } =
    netText { net with cells := net.cells.map fun rows => rows.modify r fun row => row.modify c f } := by
  have h1 : ∀ row : List Cell, (row.map cellText).modify c f = (row.modify c f).map cellText := by
    intro row
    apply List.ext_getElem?
    intro j
    simp only [List.getElem?_modify, List.getElem?_map, Option.map_eq_map]
    cases row[j]? with
    | none => rfl
    | some x => by_cases h : c = j <;> simp [h, hf]
  have h2 : ∀ rows : List (List Cell), (rows.map (·.map cellText)).modify r (·.modify c f) =
      (rows.modify r (·.modify c f)).map (·.map cellText) := by
    intro rows
    apply List.ext_getElem?
    intro j
    simp only [List.getElem?_modify, List.getElem?_map, Option.map_eq_map]
    cases rows[j]? with
    | none => rfl
    | some x => by_cases h : r = j <;> simp [h, h1]
  unfold netText
  cases hc : net.cells with
  | none => rfl
  | some rows =>
    simp only [Option.map_some]
    rw [h2]

theorem modCell_shade (n r c : Nat) (f : Cell → Cell)
    (hf : (∀ x, f (cellText x) = cellText (f x)) ∨ ctx.exec = some n) :
    (shade m ctx).modCell n r c f = shade m (ctx.modCell n r c f) := by
  unfold Ctx.modCell shade
  congr 1
  cases ctx.network with
  | none => rfl
  | some l =>
    simp only [Option.map_some, Option.some.injEq]
    apply List.ext_getElem?
    intro j
    simp only [List.getElem?_modify, List.getElem?_mapIdx, Option.map_eq_map]
    cases l[j]? with
    | none => rfl
    | some net =>
      simp only [Option.map_some, Option.some.injEq]
      by_cases h : n = j
      · subst h
        simp only [if_true]
        by_cases hc : m ≤ n ∧ net.enable = true ∧ ctx.exec ≠ some n
        · rw [if_pos hc, if_pos hc]
          rcases hf with hf | hf
          · exact netText_modify net r c hf
          · exact absurd hf hc.2.2
        · rw [if_neg hc, if_neg hc]
      · simp only [if_neg h]

theorem storeReg_shade (t : Reg) (i : Nat) (x : W32) :
    storeReg (shade m ctx) t i x = (storeReg ctx t i x).map fun p => (p.1, shade m p.2) := by
  unfold storeReg
  simp only [show (shade m ctx).M = ctx.M from rfl, show (shade m ctx).Cd = ctx.Cd from rfl,
    show (shade m ctx).Cr = ctx.Cr from rfl, show (shade m ctx).Td = ctx.Td from rfl,
    show (shade m ctx).Tr = ctx.Tr from rfl, show (shade m ctx).C = ctx.C from rfl,
    show (shade m ctx).D = ctx.D from rfl, show (shade m ctx).R = ctx.R from rfl,
    show (shade m ctx).timers = ctx.timers from rfl]
  cases t
  all_goals first
    | rfl
    | (dsimp only; split
       · rfl
       · split <;> rfl)

theorem modOut_shade (k : Nat) (f : OutMod → OutMod) : (shade m ctx).modOut k f = shade m (ctx.modOut k f) := rfl
theorem modIn_shade (k : Nat) (f : InMod → InMod) : (shade m ctx).modIn k f = shade m (ctx.modIn k f) := rfl

theorem storePort_shade (t : Reg) (k p : Nat) (x : W32) :
    storePort (shade m ctx) t k p x = (storePort ctx t k p x).map fun p => (p.1, shade m p.2) := by
  unfold storePort
  simp only [show (shade m ctx).output = ctx.output from rfl, show (shade m ctx).input = ctx.input from rfl]
  cases t
  all_goals first
    | rfl
    | (dsimp only; split
       · rfl
       · split
         · rfl
         · split <;> rfl)

theorem writeValue_shade (v : Value) (x : W32) :
    writeValue (shade m ctx) v x = (writeValue ctx v x).map fun p => (p.1, shade m p.2) := by
  unfold writeValue
  simp only [storeReg_shade, storePort_shade, show ∀ t i, safeIndex (shade m ctx) t i = safeIndex ctx t i from fun _ _ => rfl,
    show ∀ t a b, safeModPort (shade m ctx) t a b = safeModPort ctx t a b from fun _ _ _ => rfl]
  split
  all_goals first | rfl | (split <;> rfl)

theorem tableEntry_shade (net pos : W32) : tableEntry (shade m ctx) net pos = tableEntry ctx net pos := by
  unfold tableEntry
  rw [aget_shade]
  show (if net.toNat ≥ ctx.qty.networks then _ else _) = _
  split
  · rfl
  · cases aget ctx.network net.toNat with
    | error e => rfl
    | ok nt =>
      simp only [Except.map]
      split
      · rw [cell_text]
        simp only [show (netText nt).size32 = nt.size32 from rfl, show (netText nt).cols = nt.cols from rfl,
          show (netText nt).rows = nt.rows from rfl]
        split
        · rfl
        · split
          · rfl
          · cases nt.cell (pos.toNat / nt.cols) (pos.toNat % nt.cols) <;> rfl
      · rfl

theorem tableRead_shade (net : W32) : ∀ (n : Nat) (pos : W32), tableRead (shade m ctx) net pos n = tableRead ctx net pos n
  | 0, _ => rfl
  | n + 1, pos => by unfold tableRead; rw [tableEntry_shade, tableRead_shade net n]

theorem tableWrite_shade (net : W32) : ∀ (l : List W32) (pos : W32) (ctx : Ctx),
    tableWrite net pos l (shade m ctx) = (tableWrite net pos l ctx).map fun p => (p.1, shade m p.2)
  | [], _, _ => rfl
  | x :: xs, pos, ctx => by
    unfold tableWrite
    rw [tableEntry_shade]
    split
    · rfl
    · rfl
    · rename_i r c v _
      rw [modCell_shade net.toNat r c (fun cell => { cell with data := aset cell.data 0 { v with raw := x } })
        (.inl fun _ => rfl), tableWrite_shade net xs]

/-! ### Operations -/

namespace Comm

variable {α β : Type} {env : Env}

theorem pure (a : α) : Comm m (pure a : Op α) := fun _ => rfl

theorem bind {x : Op α} {f : α → Op β} (hx : Comm m x) (hf : ∀ a, Comm m (f a)) : Comm m (x >>= f) := by
  intro w
  rw [bind_apply, bind_apply, hx w]
  cases x w with
  | error e => rfl
  | ok p => exact hf _ _

theorem ite {p : Prop} [Decidable p] {a b : Op α} (ha : Comm m a) (hb : Comm m b) : Comm m (if p then a else b) := by
  split <;> assumption

theorem lift (x : Except UB α) : Comm m (lift x : Op α) := by intro w; cases x <;> rfl

/-- Reading something that is the same in the hidden context. -/
theorem peek {f : Ctx → Except UB α} (hf : ∀ ctx, f (shade m ctx) = f ctx) : Comm m (getCtx >>= fun ctx => Op.lift (f ctx)) := by
  intro w
  rw [bind_getCtx, bind_getCtx]
  show Op.lift (f (shade m w.ctx)) (w.shade m) = _
  rw [hf]
  exact lift _ _

/-- Reading something that is the same in the hidden context, and going on. -/
theorem look {γ : Type} {f : Ctx → Except UB γ} {g : Ctx → γ → Op α} (hf : ∀ ctx, f (shade m ctx) = f ctx)
    (hg : ∀ ctx a, Comm m (g ctx a)) (hgs : ∀ ctx a, g (shade m ctx) a = g ctx a) :
    Comm m (getCtx >>= fun ctx => Op.lift (f ctx) >>= g ctx) := by
  intro w
  rw [bind_getCtx, bind_getCtx]
  show (Op.lift (f (shade m w.ctx)) >>= g (shade m w.ctx)) (w.shade m) = _
  rw [hf, show g (shade m w.ctx) = g w.ctx from funext fun a => hgs _ a]
  exact bind (lift _) (hg _) _

theorem reading {f : Ctx → Op α} (hs : ∀ ctx, f (shade m ctx) = f ctx) (hf : ∀ ctx, Comm m (f ctx)) :
    Comm m (getCtx >>= f) := by
  intro w
  rw [bind_getCtx, bind_getCtx]
  show f (shade m w.ctx) (w.shade m) = _
  rw [hs]
  exact hf _ _

theorem modCtx {f : Ctx → Ctx} (h : ∀ ctx, f (shade m ctx) = shade m (f ctx)) : Comm m (modCtx f) := by
  intro w
  show Except.ok ((), { (w.shade m) with ctx := f (shade m w.ctx) }) = _
  rw [h]
  rfl

theorem emit (e : Event) : Comm m (emit e) := fun _ => rfl

theorem callPanic (hb : Blind env) : Comm m (callPanic env) := by
  intro w
  unfold Ladder.callPanic
  show (if w.ctx.on.panic then _ else _) = _
  split
  · simp only [external_apply, shadeRes]
    congr 3
    exact hb.panic _ _ _
  · rfl

theorem callInstruction (hb : Blind env) : Comm m (callInstruction env) := by
  intro w
  unfold Ladder.callInstruction
  show (if w.ctx.on.instruction then _ else _) = _
  split
  · simp only [external_apply, shadeRes]
    congr 3
    exact hb.instruction _ _ _
  · rfl

theorem callScanEnd (hb : Blind env) : Comm m (callScanEnd env) := by
  intro w
  unfold Ladder.callScanEnd
  show (if w.ctx.on.scanEnd then _ else _) = _
  split
  · simp only [external_apply, shadeRes]
    congr 3
    exact hb.scanEnd _ _ _
  · rfl

theorem callMillis : Comm m (callMillis env) := by
  intro w
  unfold Ladder.callMillis
  show (if w.ctx.millis then _ else _) = _
  split <;> rfl

theorem callForeign (hb : Blind env) (id r c : Nat) : Comm m (callForeign env id r c) := by
  intro w
  unfold Ladder.callForeign
  show (match aget w.ctx.foreign id with | .error e => _ | .ok _ => _) = _
  cases aget w.ctx.foreign id with
  | error e => rfl
  | ok f =>
    have := hb.foreign m w.tick id c r w.ctx
    show Except.ok ((env.foreign w.tick id c r (shade m w.ctx)).1,
      ({ ctx := (env.foreign w.tick id c r (shade m w.ctx)).2, tick := w.tick + 1,
         trace := w.trace ++ [.foreign id c r] } : World)) = _
    rw [this]
    rfl

theorem getState (r c : Nat) : Comm m (getState r c) :=
  look (fun _ => execCell_shade r c) (fun _ _ => pure _) (fun _ _ => rfl)

theorem setState (r c : Nat) (b : Bool) : Comm m (setState r c b) := by
  refine look (fun _ => execCell_shade r c) (fun _ _ => modCtx fun ctx => ?_) (fun _ _ => rfl)
  show (match ctx.exec with | none => _ | some n => _) = _
  cases he : ctx.exec with
  | none => rfl
  | some n => exact modCell_shade _ _ _ _ (.inr he)

theorem getLeft (r c : Nat) : Comm m (getLeft r c) := ite (pure _) (getState _ _)

theorem getDataExec (r c i : Nat) : Comm m (getDataExec r c i) := peek fun _ => execData_shade r c i

theorem readValue (hb : Blind env) (v : Value) : Comm m (readValue env v) := by
  refine reading (fun ctx => rfl) fun ctx => ?_
  split
  case h_1 => exact pure _
  case h_15 => exact pure _
  case h_16 => exact pure _
  all_goals first
    | (split
       · exact bind (modCtx fun _ => rfl) fun _ => by
           split
           · exact bind (modCtx fun _ => rfl) fun _ => bind (callPanic hb) fun _ => pure _
           · exact pure _
       · exact lift _)
    | exact ite (pure _) (bind (lift _) fun _ => lift _)

theorem getData (hb : Blind env) (r c i : Nat) : Comm m (getData env r c i) :=
  look (fun _ => operandAt_shade r c i) (fun _ o => by
    cases o
    · exact pure _
    · exact readValue hb _) (fun _ _ => rfl)

theorem getPrev (r c i : Nat) : Comm m (getPrev r c i) :=
  look (fun _ => operandAt_shade r c i) (fun _ o => by
    cases o
    · exact pure _
    · exact lift _) (fun _ o => by cases o <;> rfl)

theorem setData (r c i : Nat) (x : W32) : Comm m (setData r c i x) := by
  refine bind (getDataExec _ _ _) fun v => ?_
  intro w
  rw [bind_getCtx, bind_getCtx]
  show (Op.lift (writeValue (shade m w.ctx) v x) >>= _) (w.shade m) = _
  rw [writeValue_shade]
  cases writeValue w.ctx v x with
  | error e => rfl
  | ok p => rfl

theorem getB (a : BArea) (i : Int) : Comm m (getB a i) :=
  look (f := fun ctx => agetI (a.get ctx) i) (fun _ => by cases a <;> rfl) (fun _ _ => lift _) (fun _ _ => rfl)

theorem setB (a : BArea) (i : Int) (b : Bool) : Comm m (setB a i b) :=
  look (f := fun ctx => agetI (a.get ctx) i) (fun _ => by cases a <;> rfl)
    (fun _ _ => modCtx fun _ => by cases a <;> rfl) (fun _ _ => rfl)

theorem getTimer (i : Int) : Comm m (getTimer i) := peek fun _ => rfl
theorem getC (i : Int) : Comm m (getC i) := peek fun _ => rfl
theorem setAcc (i : Int) (x : W32) : Comm m (setAcc i x) :=
  look (fun _ => rfl) (fun _ _ => modCtx fun _ => rfl) (fun _ _ => rfl)
theorem setStamp (i : Int) (x : W64) : Comm m (setStamp i x) :=
  look (fun _ => rfl) (fun _ _ => modCtx fun _ => rfl) (fun _ _ => rfl)
theorem setC (i : Int) (x : W32) : Comm m (setC i x) :=
  look (fun _ => rfl) (fun _ _ => modCtx fun _ => rfl) (fun _ _ => rfl)

/-- Decomposition of an operation into steps that commute. -/
local macro "cmm" : tactic => `(tactic| repeat' first
  | with_reducible exact Comm.pure _
  | with_reducible exact Comm.lift _
  | with_reducible exact Comm.getLeft _ _
  | with_reducible exact Comm.getState _ _
  | with_reducible exact Comm.setState _ _ _
  | with_reducible exact Comm.getDataExec _ _ _
  | with_reducible exact Comm.getData (by assumption) _ _ _
  | with_reducible exact Comm.getPrev _ _ _
  | with_reducible exact Comm.setData _ _ _ _
  | with_reducible exact Comm.getB _ _
  | with_reducible exact Comm.setB _ _ _
  | with_reducible exact Comm.getTimer _
  | with_reducible exact Comm.getC _
  | with_reducible exact Comm.setAcc _ _
  | with_reducible exact Comm.setStamp _ _
  | with_reducible exact Comm.setC _ _
  | with_reducible exact Comm.callMillis
  | with_reducible exact Comm.callPanic (by assumption)
  | with_reducible exact Comm.callForeign (by assumption) _ _ _
  | with_reducible assumption
  | with_reducible refine Comm.bind ?_ fun _ => ?_
  | with_reducible refine Comm.ite ?_ ?_
  | split)

theorem timerRun (r c : Nat) (i : Int) : Comm m (timerRun env r c i) := by unfold Ladder.timerRun; cmm
theorem timerDone (r c : Nat) (i : Int) : Comm m (timerDone env r c i) := by unfold Ladder.timerDone; cmm

theorem ctReset (r c : Nat) : Comm m (ctReset r c) :=
  ite (reading (fun _ => rfl) fun _ => pure _) (getLeft _ _)

theorem ctDoReset (r c : Nat) (i : Int) (x : W32) : Comm m (ctDoReset r c i x) := by unfold Ladder.ctDoReset; cmm
theorem ctCount (r c : Nat) (i : Int) (f : W32 → W32) : Comm m (ctCount r c i f) := by unfold Ladder.ctCount; cmm

theorem moveStore (r c : Nat) (x : W32) : Comm m (moveStore r c x) := by unfold Ladder.moveStore; cmm

theorem fnMOVE (hb : Blind env) (r c : Nat) : Comm m (fnMOVE env r c) := by
  have := fun x => moveStore (m := m) r c x
  refine look (fun _ => execCell_shade r c) (fun ctx cell => ?_) (fun _ _ => rfl)
  refine ite (pure _) (bind (lift _) fun _ => bind (lift _) fun _ => ?_)
  split
  all_goals first
    | exact pure _
    | exact bind (getData hb _ _ _) fun _ => ite (moveStore _ _ _) (pure _)
    | exact ite (pure _) (bind (lift _) fun _ => ite (moveStore _ _ _) (pure _))

theorem fnFOREIGN (hb : Blind env) (r c : Nat) : Comm m (fnFOREIGN env r c) := by
  refine bind (getData hb _ _ _) fun _ => reading (fun _ => rfl) fun _ => ?_
  exact ite (pure _) (bind (getData hb _ _ _) fun _ => callForeign hb _ _ _)

theorem agetI_shade (i : Int) : agetI (shade m ctx).network i = (agetI ctx.network i).map fun net =>
    if m ≤ i.toNat ∧ net.enable = true ∧ ctx.exec ≠ some i.toNat then netText net else net := by
  unfold agetI
  split
  · unfold shade
    cases ctx.network <;> rfl
  · exact aget_shade _

/-- A step that depends on the context it starts in commutes. -/
def Here (m : Nat) (f : Ctx → Op α) : Prop := ∀ w : World, f (shade m w.ctx) (w.shade m) = shadeRes m (f w.ctx w)

theorem here {f : Ctx → Op α} (h : Here m f) : Comm m (Op.getCtx >>= f) := by
  intro w
  rw [bind_getCtx, bind_getCtx]
  exact h w

theorem Here.of {x : Op α} (h : Comm m x) : Here m fun _ => x := fun w => h w

/-- A network as seen by the table instruction. -/
theorem Here.network {f : Ctx → Network → Op α} (i : Int) (hs : ∀ c net, f c (netText net) = f c net)
    (hf : ∀ net, Here m fun c => f c net) : Here m fun c => Op.lift (agetI c.network i) >>= f c := by
  intro w
  simp only
  rw [agetI_shade]
  cases agetI w.ctx.network i with
  | error e => rfl
  | ok net =>
    show f (shade m w.ctx) (if _ then _ else _) _ = shadeRes m (f w.ctx net w)
    rw [← hf net w]
    split
    · rw [hs]
    · rfl

theorem Here.enable {f : Ctx → Bool → Op α} (i : Int) (hf : ∀ b, Here m fun c => f c b) :
    Here m fun c => (Op.lift (agetI c.network i) >>= fun net => Pure.pure net.enable) >>= f c := by
  intro w
  simp only
  rw [agetI_shade]
  cases agetI w.ctx.network i with
  | error e => rfl
  | ok net =>
    show f (shade m w.ctx) (if _ then _ else _ : Network).enable _ = shadeRes m (f w.ctx net.enable w)
    rw [← hf net.enable w]
    split <;> rfl

theorem Here.ite {p : Prop} [Decidable p] {f g : Ctx → Op α} (hf : Here m f) (hg : Here m g) :
    Here m fun c => if p then f c else g c := by
  split <;> assumption

theorem fnTMOVE (hb : Blind env) (r c : Nat) : Comm m (fnTMOVE env r c) := by
  unfold Ladder.fnTMOVE
  refine bind (getData hb _ _ _) fun dnet => bind (getData hb _ _ _) fun dpos => bind (getData hb _ _ _) fun snet =>
    bind (getData hb _ _ _) fun spos => bind (getData hb _ _ _) fun raw => ite ?_ (here ?_)
  · cmm
  have tail : ∀ (dn : Network) (qty : Nat), Here m fun ctx : Ctx => (do
      let sn ← Op.lift (agetI ctx.network snet.toInt)
      if (dpos + BitVec.ofNat 32 qty).toNat > dn.size32 ∨ (spos + BitVec.ofNat 32 qty).toNat > sn.size32 then do
        Ladder.setState r c false
        Pure.pure Err.outOfRange
      else do
      let rd ← Op.lift (tableRead ctx snet spos qty)
      match rd with
      | .error err => do
        Ladder.setState r c false
        Pure.pure err
      | .ok vals => do
        let (err, ctx') ← Op.lift (tableWrite dnet dpos vals ctx)
        Op.modCtx fun _ => ctx'
        if err ≠ .ok then do
          Ladder.setState r c false
          Pure.pure err
        else do
          let l ← Ladder.getLeft r c
          Ladder.setState r c l
          Pure.pure .ok : Op Err) := by
    intro dn qty
    refine Here.network _ (fun _ _ => rfl) fun sn => ?_
    intro w
    simp only
    split
    · exact (show Comm m (do Ladder.setState r c false; Pure.pure Err.outOfRange : Op Err) by cmm) w
    rw [tableRead_shade]
    rename_i hq
    clear hq
    cases tableRead w.ctx snet spos qty with
    | error e => rfl
    | ok rd =>
      cases rd with
      | error err => exact (show Comm m (do Ladder.setState r c false; Pure.pure err : Op Err) by cmm) w
      | ok vals =>
        rw [bind_lift_ok, bind_lift_ok]
        simp only
        rw [tableWrite_shade]
        cases tableWrite dnet dpos vals w.ctx with
        | error e => rfl
        | ok p =>
          obtain ⟨err, ctx'⟩ := p
          have := (show Comm m (if err ≠ .ok then do
              Ladder.setState r c false
              Pure.pure err
            else do
              let l ← Ladder.getLeft r c
              Ladder.setState r c l
              Pure.pure .ok : Op Err) by cmm) { w with ctx := ctx' }
          exact this
  have full : ∀ (dn : Network) (qty : Nat) (en : Bool), Here m _ := fun dn qty en =>
    Here.ite (p := en = true)
      (Here.of (show Comm m (do Ladder.setState r c false; Pure.pure Err.noTable : Op Err) by cmm)) (tail dn qty)
  refine Here.network _ (fun _ _ => rfl) fun dn => ?_
  cases hen : dn.enable with
  | true => exact full dn (if raw.toInt < 0 ∨ raw.toInt > 1024 then 0 else raw.toNat) true
  | false =>
    simp only [Bool.false_eq_true, if_false]
    exact Here.enable _ fun en => full dn (if raw.toInt < 0 ∨ raw.toInt > 1024 then 0 else raw.toNat) en

theorem execIns (hb : Blind env) (code : Ins) (r c : Nat) : Comm m (execIns env code r c) := by
  have h1 := fun i => timerRun (m := m) (env := env) r c i
  have h2 := fun i => timerDone (m := m) (env := env) r c i
  have h3 := ctReset (m := m) r c
  have h4 := fun i x => ctDoReset (m := m) r c i x
  have h5 := fun i f => ctCount (m := m) r c i f
  cases code
  case MOVE => exact fnMOVE hb r c
  case FOREIGN => exact fnFOREIGN hb r c
  case TMOVE => exact fnTMOVE hb r c
  case INV => intro w; rfl
  case MULTI => intro w; rfl
  all_goals
    simp only [Ladder.execIns, fnNOP, fnCONN, fnNEG, fnNO, fnNC, fnRE, fnFE, fnCOIL, fnCOILL, fnCOILU, fnTON, fnTOF,
      fnTP, fnCTU, fnCTD, fnSUB, fnADD, fnMUL, fnDIV, fnMOD, fnSHL, fnSHR, fnROL, fnROR, fnAND, fnOR, fnXOR, fnNOT,
      fnEQ, fnGT, fnGE, fnLT, fnLE, fnNE, binop, shiftop, cmpop]
    repeat' first
      | with_reducible exact h1 _
      | with_reducible exact h2 _
      | with_reducible exact h4 _ _
      | with_reducible exact h5 _ _
      | cmm

/-! ### The scan -/

theorem watch (hb : Blind env) (cnt : Nat) : Comm m (watch env cnt) := by
  have hov : Comm m (Op.modCtx fun ctx => { ctx with state := .error, last := { ctx.last with err := .overflow } }) :=
    modCtx fun _ => rfl
  have key : Comm m (do
      let ctx ← Op.getCtx
      if ctx.scan.maxScanCycles < cnt then do
        Op.modCtx fun ctx => { ctx with state := .error, last := { ctx.last with err := .overflow } }
        Ladder.callPanic env
        Pure.pure true
      else Pure.pure false : Op Bool) :=
    reading (fun _ => rfl) fun _ => ite (bind hov fun _ => bind (callPanic hb) fun _ => pure _) (pure _)
  unfold Ladder.watch
  exact reading (fun _ => rfl) fun _ => ite (bind (callPanic hb) fun _ => key) key

theorem curCell (r c : Nat) : Comm m (curCell r c) := peek fun _ => execCell_shade r c

theorem curNet : Comm m curNet := by
  refine here fun w => ?_
  show (match w.ctx.exec with | none => _ | some n => _ : Op Network) _ = _
  cases he : w.ctx.exec with
  | none => rfl
  | some n =>
    simp only [he, aget_shade]
    cases aget w.ctx.network n with
    | error e => rfl
    | ok net => simp [Except.map, shadeRes]

theorem clearColumn (col : Nat) : ∀ n row, Comm m (clearColumn col row n)
  | 0, _ => pure _
  | n + 1, row => bind (setState _ _ _) fun _ => clearColumn col n (row + 1)

theorem clearColumns (rows : Nat) : ∀ n col, Comm m (clearColumns rows col n)
  | 0, _ => pure _
  | n + 1, col => bind (clearColumn _ _ _) fun _ => clearColumns rows n (col + 1)

theorem skipLoop (hb : Blind env) (col : Nat) : ∀ n gr cnt, Comm m (skipLoop env col gr n cnt)
  | 0, _, _ => pure _
  | n + 1, gr, cnt => by
    unfold Ladder.skipLoop
    exact bind (watch hb _) fun _ => ite (pure _) (bind (curCell _ _) fun _ => ite (pure _)
      (bind (lift _) fun _ => ite (pure _) (skipLoop hb col n _ _)))

theorem execLoop (hb : Blind env) (network col : Nat) : ∀ n gr, Comm m (execLoop env network col gr n)
  | 0, _ => pure _
  | n + 1, gr => by
    unfold Ladder.execLoop
    refine bind (curCell _ _) fun cell => bind (modCtx fun _ => rfl) fun _ => ite ?_ (ite ?_ ?_)
    · exact bind (modCtx fun _ => rfl) fun _ => bind (emit _) fun _ => pure _
    · exact execLoop hb network col n _
    · exact bind (emit _) fun _ => bind (execIns hb _ _ _) fun _ => bind (emit _) fun _ => bind (modCtx fun _ => rfl)
        fun _ => ite (pure _) (bind (callInstruction hb) fun _ => execLoop hb network col n _)

theorem orStates (col : Nat) : ∀ n gr acc, Comm m (orStates col gr n acc)
  | 0, _, _ => pure _
  | n + 1, _, _ => bind (curCell _ _) fun _ => orStates col n _ _

theorem setStates (col : Nat) (b : Bool) : ∀ n gr, Comm m (setStates col b gr n)
  | 0, _ => pure _
  | n + 1, _ => bind (setState _ _ _) fun _ => setStates col b n _

theorem scanColumn (hb : Blind env) (network gs : Nat) (power : Bool) (col cnt : Nat) :
    Comm m (scanColumn env network gs power col cnt) := by
  unfold Ladder.scanColumn
  refine bind curNet fun _ => bind (lift _) fun _ => bind (skipLoop hb _ _ _ _) fun s => ?_
  cases s with
  | none => exact pure _
  | some p =>
    exact ite (pure _) (bind (execLoop hb _ _ _ _) fun _ => ite (bind (modCtx fun _ => rfl) fun _ => pure _)
      (bind (orStates _ _ _ _) fun _ => bind (setStates _ _ _ _) fun _ => pure _))

theorem columnLoop (hb : Blind env) (network gs : Nat) (power : Bool) : ∀ fuel col cnt,
    Comm m (columnLoop env network gs power fuel col cnt)
  | 0, _, _ => lift _
  | fuel + 1, col, cnt => by
    unfold Ladder.columnLoop
    refine bind curNet fun _ => ite (bind (scanColumn hb _ _ _ _ _) fun s => ?_) (pure _)
    cases s with
    | none => exact pure _
    | some cnt => exact columnLoop hb network gs power fuel _ _

theorem scanRow (hb : Blind env) (network row cnt : Nat) : Comm m (scanRow env network row cnt) := by
  unfold Ladder.scanRow
  refine bind (watch hb _) fun _ => ite (pure _) (bind (curCell _ _) fun _ => ite (pure _)
    (bind curNet fun _ => bind (lift _) fun _ => bind (lift _) fun _ => bind (columnLoop hb _ _ _ _ _ _) fun s => ?_))
  cases s with
  | none => exact pure _
  | some cnt => exact bind (callScanEnd hb) fun _ => pure _

theorem rowLoop (hb : Blind env) (network : Nat) : ∀ fuel row cnt, Comm m (rowLoop env network fuel row cnt)
  | 0, _, _ => lift _
  | fuel + 1, row, cnt => by
    unfold Ladder.rowLoop
    refine bind curNet fun _ => ite (bind (scanRow hb _ _ _) fun s => ?_) (pure _)
    cases s with
    | none => exact pure _
    | some p => exact rowLoop hb network fuel _ _

theorem cronEval : Comm m (cronEval env) := by
  intro w
  unfold Ladder.cronEval
  show (match w.ctx.cron with | none => _ | some cr => _ : Except UB (Err × World)) = _
  cases w.ctx.cron with
  | none => rfl
  | some cr =>
    simp only
    cases cr.ctx with
    | none => rfl
    | some jobs =>
      simp only
      split
      · rfl
      · show (match cronEvalLoop (env.localtime w.tick) jobs 0 cr.used w.ctx.M with
          | .error e => _ | .ok m => _ : Except UB (Err × World)) = _
        cases cronEvalLoop (env.localtime w.tick) jobs 0 cr.used w.ctx.M <;> rfl

theorem cronPhase : Comm m (cronPhase env) := by
  unfold Ladder.cronPhase
  refine reading (fun _ => rfl) fun ctx => ?_
  cases ctx.cron with
  | none => exact pure _
  | some cr =>
    exact bind (lift _) fun _ => bind (modCtx fun _ => rfl) fun _ => bind cronEval fun _ =>
      ite (bind (modCtx fun _ => rfl) fun _ => pure _) (pure _)

end Comm
end Ladder
