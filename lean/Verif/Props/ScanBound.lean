import Verif.Props.ScanOrder
import Verif.Lemmas.NoDiv

/-
C29, continued: a scan terminates whatever the callbacks do, and the number of executed instructions is bounded by the
limit times the number of rows, but not by the limit itself.
-/

set_option autoImplicit false

namespace Ladder.Props

open Spec Op

/-- The numbers of networks, rows and columns are `uint32_t` values. -/
structure U32 (ctx : Ctx) : Prop where
  networks : ctx.qty.networks < 2^32
  dims : ∀ n net, at? ctx.network n = some net → net.rows < 2^32 ∧ net.cols < 2^32

theorem U32.same {a b : Ctx} (h : U32 a) (hp : SameProgram a b) (hq : b.qty.networks = a.qty.networks) : U32 b := by
  refine ⟨by rw [hq]; exact h.networks, fun n net hn => ?_⟩
  have e : (at? b.network n).map netFrame = (at? a.network n).map netFrame := by rw [← at?_map, ← at?_map, hp.frames]
  rw [hn, Option.map_some] at e
  obtain ⟨net', hn', e⟩ := Option.map_eq_some_iff.1 e.symm
  have h1 := h.dims n net' hn'
  rw [show net.rows = net'.rows from (congrArg Network.rows e :).symm,
    show net.cols = net'.cols from (congrArg Network.cols e :).symm]
  exact h1

section

variable {env : Env} (hk : Hooks env fun c c' => U32 c → U32 c')

include hk

theorem U32.change {w w' : World} (h : Change env w w') (hu : U32 w.ctx) : U32 w'.ctx := by
  cases h with
  | @store ℓ x => exact hu.same (sameProgram_upd _ _ _) (by cases ℓ <;> rfl)
  | clock => exact hu
  | err => exact hu.same (.of_network rfl) rfl
  | fault => exact hu.same (.of_network rfl) rfl
  | panic => exact hk.panic _ _ hu
  | foreign => exact hk.foreign _ _ _ _ _ hu
  | table x hn en hc hv => exact hu.same (sameProgram_table x hn en hc hv) rfl

theorem U32.star {K : Nat → Prop} {E : Prop} {w w' : World} (h : Star (SChange env K E) w w') : U32 w.ctx → U32 w'.ctx := by
  refine h.inv (P := fun w => U32 w.ctx) ?_
  intro w w' h hu
  cases h with
  | instr h => exact hu.change hk h
  | callback => exact hk.instruction _ _ hu
  | scanEnd => exact hk.scanEnd _ _ hu
  | _ => exact hu.same (.of_network rfl) rfl

theorem U32.of {α : Type} {m : Op α} {a : α} {w w' : World} (hm : SChg env (fun _ => True) True m) (h : m w = .ok (a, w'))
    (hu : U32 w.ctx) : U32 w'.ctx := U32.star hk (hm _ _ _ h) hu

/-- One step of the search for a diverging operation. -/
theorem div_bind {α β : Type} {m : Op α} {f : α → Op β} {w : World} (hu : U32 w.ctx) (hm : m w ≠ .error .diverges)
    (hs : SChg env (fun _ => True) True m) (hf : ∀ a w', m w = .ok (a, w') → U32 w'.ctx → f a w' ≠ .error .diverges) :
    (m >>= f) w ≠ .error .diverges := by
  rw [bind_apply]
  cases h : m w with
  | error e => rw [h] at hm; simpa using hm
  | ok p => exact hf p.1 p.2 h (hu.of hk hs h)

omit hk in
theorem curNet_u32 {w w' : World} {net : Network} (hu : U32 w.ctx) (h : curNet w = .ok (net, w')) :
    net.rows < 2^32 ∧ net.cols < 2^32 := by
  rw [curNet, bind_getCtx] at h
  cases he : w.ctx.exec with
  | none => simp [he] at h
  | some n =>
    simp only [he] at h
    obtain ⟨hn, -⟩ := lift_eq_ok.1 h
    exact hu.dims n net (aget_eq_ok.1 hn)

theorem columnLoop_ends (k gs : Nat) (power : Bool) : ∀ (fuel col cnt : Nat) (w : World), U32 w.ctx → col < 2^32 →
    2^32 ≤ fuel + col → columnLoop env k gs power fuel col cnt w ≠ .error .diverges
  | 0, col, _, _, _, hc, hf => by omega
  | fuel + 1, col, cnt, w, hu, hc, hf => by
    unfold columnLoop
    refine div_bind hk hu (NoDiv.curNet w) SChg.curNet fun net w1 h1 hu1 => ?_
    have hd := curNet_u32 hu h1
    split
    · rename_i hlt
      refine div_bind hk hu1 (NoDiv.scanColumn _ _ _ _ _ _) (SChg.scanColumn _ _ trivial _ _ _) fun o w2 h2 hu2 => ?_
      cases o with
      | none => simp
      | some cnt' => exact columnLoop_ends k gs power fuel (col + 1) cnt' w2 hu2 (by omega) (by omega)
    · simp

omit hk in
theorem groupEnd_range {net : Network} {col : Nat} : ∀ (fuel g : Nat) {ge : Nat}, groupEnd net col fuel g = .ok ge →
    g ≤ ge ∧ (ge = g ∨ ge < net.rows)
  | 0, g, ge, h => by simp only [groupEnd, Except.ok.injEq] at h; omega
  | fuel + 1, g, ge, h => by
    unfold groupEnd at h
    split at h
    · split at h
      · simp at h
      · split at h
        · have := groupEnd_range fuel (g + 1) h
          omega
        · simp only [Except.ok.injEq] at h; omega
    · simp only [Except.ok.injEq] at h; omega

theorem scanRow_ends (k row cnt : Nat) (w : World) (hu : U32 w.ctx) (hr : row + 1 < 2^32) :
    scanRow env k row cnt w ≠ .error .diverges ∧
    ∀ row' cnt' w', scanRow env k row cnt w = .ok (some (row', cnt'), w') → row < row' ∧ row' < 2^32 := by
  constructor
  · unfold scanRow
    refine div_bind hk hu (NoDiv.watch _ _) (SChg.watch _) fun b w1 h1 hu1 => ?_
    split
    · simp
    · refine div_bind hk hu1 (NoDiv.curCell _ _ _) (SChg.curCell _ _) fun cell w2 h2 hu2 => ?_
      split
      · simp
      · refine div_bind hk hu2 (NoDiv.curNet _) SChg.curNet fun net w3 h3 hu3 => ?_
        refine div_bind hk hu3 (NoDiv.lift (Calm.groupEnd _ _ _ _) _) (SChg.lift _) fun ge w4 h4 hu4 => ?_
        refine div_bind hk hu4 (NoDiv.lift (Calm.isLower _ _ _ _) _) (SChg.lift _) fun lower w5 h5 hu5 => ?_
        refine div_bind hk hu5 (columnLoop_ends hk _ _ _ _ _ _ _ hu5 (by omega) (by simp [u32Fuel]))
          (SChg.columnLoop _ _ trivial _ _ _ _) fun o w6 h6 hu6 => ?_
        cases o with
        | none => simp
        | some cnt' =>
          exact div_bind hk hu6 (NoDiv.callScanEnd _) SChg.callScanEnd fun _ _ _ _ => by simp
  · intro row' cnt' w' h
    unfold scanRow at h
    obtain ⟨b, w1, h1, h⟩ := bind_eq_ok.1 h
    have hu1 := hu.of hk (SChg.watch _) h1
    split at h
    · simp at h
    · obtain ⟨cell, w2, h2, h⟩ := bind_eq_ok.1 h
      have hu2 := hu1.of hk (SChg.curCell _ _) h2
      split at h
      · simp only [pure_apply, Except.ok.injEq, Prod.mk.injEq, Option.some.injEq] at h
        omega
      · obtain ⟨net, w3, h3, h⟩ := bind_eq_ok.1 h
        have hd := curNet_u32 hu2 h3
        obtain ⟨ge, hge, h⟩ := bind_lift_eq_ok.1 h
        have hr := groupEnd_range _ _ hge
        obtain ⟨lower, -, h⟩ := bind_lift_eq_ok.1 h
        obtain ⟨o, w4, h4, h⟩ := bind_eq_ok.1 h
        cases o with
        | none => simp at h
        | some cnt2 =>
          obtain ⟨u, w5, h5, h⟩ := bind_eq_ok.1 h
          simp only [pure_apply, Except.ok.injEq, Prod.mk.injEq, Option.some.injEq] at h
          omega

theorem rowLoop_ends (k : Nat) : ∀ (fuel row cnt : Nat) (w : World), U32 w.ctx → row < 2^32 →
    2^32 ≤ fuel + row → rowLoop env k fuel row cnt w ≠ .error .diverges
  | 0, row, _, _, _, hc, hf => by omega
  | fuel + 1, row, cnt, w, hu, hc, hf => by
    unfold rowLoop
    refine div_bind hk hu (NoDiv.curNet w) SChg.curNet fun net w1 h1 hu1 => ?_
    have hd := curNet_u32 hu h1
    split
    · rename_i hlt
      have hs := scanRow_ends hk k row cnt w1 hu1 (by omega)
      refine div_bind hk hu1 hs.1 (SChg.scanRow _ trivial _ _) fun o w2 h2 hu2 => ?_
      rcases o with _ | ⟨row', cnt'⟩
      · simp
      · have := hs.2 _ _ _ h2
        exact rowLoop_ends k fuel row' cnt' w2 hu2 (by omega) (by omega)
    · simp

theorem scanNetwork_ends (n : Nat) (w : World) (hu : U32 w.ctx) : scanNetwork env n w ≠ .error .diverges := by
  unfold scanNetwork
  refine div_bind hk hu (NoDiv.getCtx _) SChg.getCtx fun ctx w1 h1 hu1 => ?_
  refine div_bind hk hu1 (NoDiv.lift (Calm.aget _ _) _) (SChg.lift _) fun net w2 h2 hu2 => ?_
  split
  · exact div_bind hk hu2 (NoDiv.modCtx _ _) SChg.fault fun _ _ _ hu3 =>
      div_bind hk hu3 (NoDiv.callPanic _) SChg.callPanic fun _ _ _ _ => by simp
  · split
    · simp
    · rw [bind_modCtx]
      have hu3 : U32 { w2.ctx with exec := some n } := hu2.same (.of_network rfl) rfl
      refine div_bind hk (w := { w2 with ctx := { w2.ctx with exec := some n } }) hu3 (NoDiv.clearColumns _ _ _ _)
        (SChg.clearColumns _ _ _) fun _ w4 _ hu4 => ?_
      exact rowLoop_ends hk _ _ _ _ _ hu4 (by omega) (by simp [u32Fuel])

theorem networkLoop_ends : ∀ (fuel n : Nat) (w : World), U32 w.ctx → n < 2^32 → 2^32 ≤ fuel + n →
    networkLoop env fuel n w ≠ .error .diverges
  | 0, n, _, _, hc, hf => by omega
  | fuel + 1, n, w, hu, hc, hf => by
    unfold networkLoop
    rw [bind_getCtx]
    split
    · rename_i hlt
      have := hu.networks
      refine div_bind hk hu (scanNetwork_ends hk n w hu) (SChg.scanNetwork trivial _ trivial) fun b w2 h2 hu2 => ?_
      split
      · exact networkLoop_ends fuel (n + 1) w2 hu2 (by omega) (by omega)
      · simp
    · simp

/-- C29.  Every scan of every program terminates, in every state and whatever the callbacks do (they may even resize the
program while it is running, within the range of the `uint32_t` dimensions). -/
theorem C29_terminates {w : World} (hu : U32 w.ctx) : scan env w ≠ .error .diverges := by
  unfold scan
  rw [bind_modCtx]
  have hu1 : U32 { w.ctx with exec := none } := hu.same (.of_network rfl) rfl
  refine div_bind hk (w := { w with ctx := { w.ctx with exec := none } }) hu1 (NoDiv.cronPhase _) SChg.cronPhase
    fun b w2 _ hu2 => ?_
  split
  · rw [bind_getCtx]
    split
    · exact div_bind hk hu2 (NoDiv.modCtx _ _) SChg.fault fun _ _ _ _ => NoDiv.callPanic _
    · exact networkLoop_ends hk _ _ _ hu2 (by omega) (by simp [u32Fuel])
  · simp

end

/-! ### Executed instructions -/

theorem group_length {T : Text} {c r : Nat} (hr : r < T.rows) : 1 ≤ (T.group c r).length ∧ (T.group c r).length ≤ T.rows := by
  unfold Text.group
  rw [List.length_cons]
  have h1 := (List.takeWhile_prefix (l := List.range' (r + 1) (T.rows - (r + 1))) (T.bar · c)).length_le
  rw [List.length_range'] at h1
  omega

theorem column_length {T : Text} {c r : Nat} (hr : r < T.rows) : (T.column r c).length ≤ T.rows * T.columnCost r c := by
  obtain ⟨h1, h2⟩ := group_length (c := c) hr
  have hc : 1 ≤ T.columnCost r c := by unfold Text.columnCost; omega
  have : (T.column r c).length ≤ T.rows := by
    unfold Text.column
    split
    · simp
    · rw [List.length_map]
      exact Nat.le_trans (List.length_filter_le _ _) h2
  exact Nat.le_trans this (Nat.le_mul_of_pos_right _ hc)

theorem flatMap_length {α β : Type} {f : α → List β} {g : α → Nat} {k : Nat} : ∀ {l : List α},
    (∀ a ∈ l, (f a).length ≤ k * g a) → (l.flatMap f).length ≤ k * (l.map g).sum
  | [], _ => by simp
  | a :: l, h => by
    have ih := flatMap_length fun b hb => h b (List.mem_cons_of_mem _ hb)
    have := h a (List.mem_cons_self ..)
    simp only [List.flatMap_cons, List.length_append, List.map_cons, List.sum_cons, Nat.mul_add]
    omega

theorem mem_starts {T : Text} : ∀ (n r : Nat) (b : Bool) {i : Nat}, i ∈ T.starts b r n → i < r + n
  | 0, _, _, i, h => by simp [Text.starts] at h
  | n + 1, r, b, i, h => by
    unfold Text.starts at h
    split at h
    · have := mem_starts n (r + 1) _ h; omega
    · rcases List.mem_cons.1 h with rfl | h
      · omega
      · have := mem_starts n (r + 1) _ h; omega

theorem plan_length (T : Text) : T.plan.length ≤ T.rows * T.work := by
  unfold Text.plan Text.work
  refine flatMap_length fun r hr => ?_
  have hr := mem_starts _ _ _ hr
  unfold Text.rung Text.rungCost
  split
  · simp
  · refine Nat.le_trans (flatMap_length (k := T.rows) (g := T.columnCost r) fun c _ => column_length (by omega)) ?_
    exact Nat.mul_le_mul_left _ (by omega)

/-- The executed cells of one network. -/
def execsOf (n : Nat) (l : List Event) : List (Nat × Nat × Nat × Ins) := (execs l).filter fun e => e.1 == n

theorem filter_netPlan (ctx : Ctx) (n m : Nat) :
    (netPlan ctx m).filter (fun e => e.1 == n) = if m = n then netPlan ctx m else [] := by
  have : ∀ e ∈ netPlan ctx m, e.1 = m := by
    intro e he
    unfold netPlan at he
    split at he
    · split at he
      · obtain ⟨p, -, rfl⟩ := List.mem_map.1 he; rfl
      · simp at he
    · simp at he
  split
  · rename_i h
    exact List.filter_eq_self.2 fun e he => by simp [this e he, h]
  · rename_i h
    exact List.filter_eq_nil_iff.2 fun e he => by simp [this e he, h]

theorem filter_schedule (ctx : Ctx) (n : Nat) : ∀ l : List Nat, l.Nodup → (l.flatMap (netPlan ctx)).filter (fun e => e.1 == n) =
    if n ∈ l then netPlan ctx n else []
  | [], _ => by simp
  | m :: l, h => by
    rw [List.nodup_cons] at h
    rw [List.flatMap_cons, List.filter_append, filter_netPlan, filter_schedule ctx n l h.2]
    by_cases hm : m = n
    · subst hm
      simp [h.1]
    · have : n ∈ m :: l ↔ n ∈ l := by simp [Ne.symm hm]
      simp [hm, this]

/-- C29.  In a scan that ends neither in the invalid nor in the error state, the number of instructions executed in a
network is at most the limit times its number of rows. -/
theorem C29_executed_bound {env : Env} (hk : Hooks env Steady) {w w' : World} (hb : Built w.ctx)
    (h : scan env w = .ok ((), w')) (hi : w'.ctx.state ≠ .inv) (he : w'.ctx.state ≠ .error) {n : Nat} {net : Network}
    (hnet : at? w.ctx.network n = some net) :
    (execsOf n (news w w')).length ≤ net.rows * w.ctx.scan.maxScanCycles := by
  unfold execsOf
  rw [C26_order_fixed hk hb h hi he, schedule, filter_schedule _ _ _ List.nodup_range]
  split
  · rename_i hn
    simp only [netPlan, hnet]
    split
    · rename_i hen
      rw [List.length_map]
      refine Nat.le_trans (plan_length _) ?_
      exact Nat.mul_le_mul_left _ (C29_steps_within_limit hk hb h hi he (List.mem_range.1 hn) hnet hen)
    · simp
  · simp

/-- Three outputs on joined rows: the counting stops at the first one, and all of them are executed. -/
def uncounted : World :=
  let w := Demo.world [Demo.net [[Demo.ins .COIL [Demo.op .M 0]], [Demo.ins .COIL [Demo.op .M 1] false true],
    [Demo.ins .COIL [Demo.op .M 2] false true]]]
  { w with ctx := { w.ctx with scan := { w.ctx.scan with maxScanCycles := 2 } } }

/-- C29 fails in the code as a bound on executed instructions: with a limit of 2 steps this scan completes normally
after executing 3 instructions. -/
theorem C29_refuted : ∃ w', scan Demo.env uncounted = .ok ((), w') ∧ w'.ctx.state = .running ∧
    uncounted.ctx.scan.maxScanCycles < (execsOf 0 (news uncounted w')).length := by
  have : ended (scan Demo.env uncounted) (fun w' => decide (w'.ctx.state = .running ∧
      uncounted.ctx.scan.maxScanCycles < (execsOf 0 (news uncounted w')).length)) = true := by decide +kernel
  obtain ⟨w', h, hp⟩ := of_ended this
  simp only [decide_eq_true_eq] at hp
  exact ⟨w', h, hp⟩

/-- The hypotheses of termination can be met. -/
example : Hooks Demo.env (fun c c' => U32 c → U32 c') ∧ U32 (Demo.ctx orderDemo) := by
  refine ⟨demoHooks _ fun _ => id, by decide, fun n net hn => ?_⟩
  simp only [Demo.ctx, at?, Option.bind_some] at hn
  have := List.mem_of_getElem? hn
  simp only [orderDemo, List.mem_cons, List.not_mem_nil, or_false] at this
  rcases this with rfl | rfl | rfl <;> decide

end Ladder.Props
