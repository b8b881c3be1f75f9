import Verif.Props.Cron
import Verif.Spec.CronJobs
import Verif.Lemmas.Task
import Verif.Spec.Demo

/-
The cron phase of a scan: C56.
-/

set_option autoImplicit false

namespace Ladder.Props

open Spec Lwdtc Op

theorem at?_aset_some {α : Type} {a : Arr α} {i : Nat} (x : α) (h : (at? a i).isSome) (k : Nat) :
    at? (aset a i x) k = if k = i then some x else at? a k := by
  rw [at?_aset]
  by_cases hk : k = i
  · subst hk
    rw [if_pos rfl, if_pos rfl]
    cases hh : at? a k with
    | none => rw [hh] at h; cases h
    | some y => rfl
  · rw [if_neg (fun e => hk e.symm), if_neg hk]

theorem aget_some {α : Type} {a : Arr α} {i : Nat} (h : (at? a i).isSome) : ∃ x, aget a i = .ok x ∧ at? a i = some x := by
  cases hh : at? a i with
  | none => rw [hh] at h; cases h
  | some y => exact ⟨y, aget_eq_ok.2 hh, rfl⟩

theorem resetLoop_ok (pre jobs post : List CronJob) (m : Arr Byte) (hf : ∀ j ∈ jobs, (at? m j.flagReg).isSome) :
    ∃ m', cronResetLoop (some (pre ++ jobs ++ post)) pre.length jobs.length m = .ok m' ∧
      ∀ i, at? m' i = cleared jobs (at? m) i := by
  induction jobs generalizing pre m with
  | nil => exact ⟨m, rfl, fun i => by simp [cleared]⟩
  | cons j rest ih =>
    have hget : aget (some (pre ++ j :: rest ++ post)) pre.length = .ok j := by simp [aget]
    have hassoc : pre ++ j :: rest ++ post = (pre ++ [j]) ++ rest ++ post := by simp
    have hlen : pre.length + 1 = (pre ++ [j]).length := by simp
    rw [List.length_cons]
    unfold cronResetLoop
    rw [hget]
    dsimp only
    by_cases hc : (j.enabled && j.autoReset) = true
    · rw [if_pos hc]
      obtain ⟨x, hx, _⟩ := aget_some (hf j (.head _))
      rw [hx]
      dsimp only
      obtain ⟨m', h1, h2⟩ := ih (pre ++ [j]) (aset m j.flagReg 0) (fun k hk => by
        rw [at?_aset_some _ (hf j (.head _))]
        split
        · rfl
        · exact hf k (.tail _ hk))
      refine ⟨m', by rw [hassoc, hlen]; exact h1, fun i => ?_⟩
      rw [h2 i]
      simp only [Bool.and_eq_true] at hc
      unfold cleared
      by_cases hr : ∃ k ∈ rest, k.enabled = true ∧ k.autoReset = true ∧ k.flagReg = i
      · obtain ⟨k, hk, hh⟩ := hr
        rw [if_pos ⟨k, hk, hh⟩, if_pos ⟨k, .tail _ hk, hh⟩]
      · rw [if_neg hr, at?_aset_some _ (hf j (.head _))]
        by_cases hi : i = j.flagReg
        · rw [if_pos hi, if_pos ⟨j, .head _, hc.1, hc.2, hi.symm⟩]
        · rw [if_neg hi, if_neg]
          rintro ⟨k, hk, hh⟩
          rcases List.mem_cons.1 hk with rfl | hk
          · exact hi hh.2.2.symm
          · exact hr ⟨k, hk, hh⟩
    · rw [if_neg hc]
      obtain ⟨m', h1, h2⟩ := ih (pre ++ [j]) m (fun k hk => hf k (.tail _ hk))
      refine ⟨m', by rw [hassoc, hlen]; exact h1, fun i => ?_⟩
      rw [h2 i]
      unfold cleared
      by_cases hr : ∃ k ∈ rest, k.enabled = true ∧ k.autoReset = true ∧ k.flagReg = i
      · obtain ⟨k, hk, hh⟩ := hr
        rw [if_pos ⟨k, hk, hh⟩, if_pos ⟨k, .tail _ hk, hh⟩]
      · rw [if_neg hr, if_neg]
        rintro ⟨k, hk, hh⟩
        rcases List.mem_cons.1 hk with rfl | hk
        · exact hc (by simp [hh.1, hh.2.1])
        · exact hr ⟨k, hk, hh⟩

theorem evalLoop_ok {tm : Tm} (ht : Calendar tm) (pre jobs post : List CronJob) (m : Arr Byte)
    (hs : ∀ j ∈ jobs, Sized j.cron)
    (hf : ∀ j ∈ jobs, (at? m j.enableReg).isSome ∧ (at? m j.flagReg).isSome) :
    ∃ m', cronEvalLoop tm (pre ++ jobs ++ post) pre.length jobs.length m = .ok m' ∧
      ∀ i, at? m' i = fired tm jobs (at? m) i := by
  induction jobs generalizing pre m with
  | nil => exact ⟨m, rfl, fun i => rfl⟩
  | cons j rest ih =>
    have hget : (pre ++ j :: rest ++ post)[pre.length]? = some j := by simp
    have hassoc : pre ++ j :: rest ++ post = (pre ++ [j]) ++ rest ++ post := by simp
    have hlen : pre.length + 1 = (pre ++ [j]).length := by simp
    rw [List.length_cons]
    unfold cronEvalLoop
    rw [hget]
    dsimp only
    have skip : ∃ m', cronEvalLoop tm (pre ++ j :: rest ++ post) (pre.length + 1) rest.length m = .ok m' ∧
        ∀ i, at? m' i = fired tm rest (at? m) i := by
      obtain ⟨m', h1, h2⟩ := ih (pre ++ [j]) m (fun k hk => hs k (.tail _ hk)) (fun k hk => hf k (.tail _ hk))
      exact ⟨m', by rw [hassoc, hlen]; exact h1, h2⟩
    by_cases he : j.enabled = true
    · rw [if_pos he, isValid_eq (hs j (.head _)) ht]
      by_cases hd : Due j.cron tm
      · rw [decide_eq_true hd]
        obtain ⟨b, hb, hb'⟩ := aget_some (hf j (.head _)).1
        obtain ⟨x, hx, _⟩ := aget_some (hf j (.head _)).2
        rw [hb, hx]
        dsimp only
        have e := at?_aset_some b (hf j (.head _)).2
        obtain ⟨m', h1, h2⟩ := ih (pre ++ [j]) (aset m j.flagReg b) (fun k hk => hs k (.tail _ hk)) (fun k hk => by
          have hk := hf k (.tail _ hk)
          rw [e, e]
          exact ⟨by split; rfl; exact hk.1, by split; rfl; exact hk.2⟩)
        refine ⟨m', by rw [hassoc, hlen]; exact h1, fun i => ?_⟩
        rw [h2 i, fired, if_pos ⟨he, hd⟩]
        congr 1
        funext k
        rw [e, hb']
      · rw [decide_eq_false hd]
        obtain ⟨m', h1, h2⟩ := skip
        exact ⟨m', h1, fun i => by rw [h2 i, fired, if_neg (fun h => hd h.2)]⟩
    · rw [if_neg he]
      obtain ⟨m', h1, h2⟩ := skip
      exact ⟨m', h1, fun i => by rw [h2 i, fired, if_neg (fun h => he h.1)]⟩

theorem cleared_isSome {jobs : List CronJob} {m : Nat → Option Byte} {i : Nat} (h : (m i).isSome) :
    (cleared jobs m i).isSome := by
  unfold cleared
  split
  · rfl
  · exact h

/-- **C56** With at least one registered job, the cron phase of a scan clears the flags of the enabled auto-reset jobs and
then lets, in registration order, every enabled job that is due at the current local time copy its enable flag to its flag.
Nothing else in the context changes, and the scan continues.  Partial: in the years 2000 … 2103, and for at least one job. -/
theorem C56_phase_partial {env : Env} {w : World} {jobs : List CronJob} (hj : Jobs w.ctx jobs) (hn : jobs ≠ [])
    (ht : Calendar (env.localtime w.tick)) :
    ∃ m', cronPhase env w = .ok (true, { w with ctx := { w.ctx with M := m' }, tick := w.tick + 1 }) ∧
      ∀ i, at? m' i = fired (env.localtime w.tick) jobs (cleared jobs (at? w.ctx.M)) i := by
  obtain ⟨⟨cr, all, hc, ha, htake, hu⟩, hs, hf⟩ := hj
  have hall : [] ++ jobs ++ all.drop cr.used = all := by rw [← htake]; exact List.take_append_drop _ _
  obtain ⟨m1, h1, h2⟩ := resetLoop_ok [] jobs (all.drop cr.used) w.ctx.M (fun j hj => (hf j hj).2)
  obtain ⟨m2, h3, h4⟩ := evalLoop_ok ht [] jobs (all.drop cr.used) m1 hs (fun j hj => by
    rw [h2, h2]
    exact ⟨cleared_isSome (hf j hj).1, cleared_isSome (hf j hj).2⟩)
  rw [hall] at h1 h3
  refine ⟨m2, ?_, fun i => by rw [h4 i, show at? m1 = cleared jobs (at? w.ctx.M) from funext h2]⟩
  unfold cronPhase
  rw [bind_getCtx]
  simp only [hc]
  rw [ha]
  refine bind_lift_eq_ok.2 ⟨m1, by rw [hu]; exact h1, ?_⟩
  rw [bind_modCtx]
  refine bind_eq_ok.2 ⟨.ok, _, ?_, rfl⟩
  unfold cronEval
  simp only [hc, ha]
  rw [if_neg (by rw [hu]; exact fun h => hn (List.eq_nil_of_length_eq_zero h)), hu]
  simp only [List.length_nil] at h3
  rw [h3]

/-- **C56** A flag that is not the flag of an enabled job is left alone. -/
theorem C56_other_flags {tm : Tm} {jobs : List CronJob} {m : Nat → Option Byte} {i : Nat}
    (h : ∀ j ∈ jobs, j.enabled = true → j.flagReg ≠ i) : fired tm jobs (cleared jobs m) i = m i := by
  have hcl : cleared jobs m i = m i := by
    unfold cleared
    rw [if_neg]
    rintro ⟨j, hj, he, _, hi⟩
    exact h j hj he hi
  rw [← hcl]
  generalize cleared jobs m = m'
  clear hcl
  induction jobs generalizing m' with
  | nil => rfl
  | cons j rest ih =>
    have hr := fun m' => ih (fun k hk => h k (.tail _ hk)) m'
    unfold fired
    split
    · rename_i hd
      rw [hr, if_neg (fun e => h j (.head _) hd.1 e.symm)]
    · exact hr m'

/-- **C56** A job whose flag is not the flag of any other enabled job: its flag ends up with the value of its enable flag
when due (the enable flag as it was before the phase, if it is not the flag of an enabled job), else with 0 (auto-reset) or
its old value. -/
theorem C56_own_flag {tm : Tm} {pre post : List CronJob} {j : CronJob} {m : Nat → Option Byte} (he : j.enabled = true)
    (ho : ∀ k ∈ pre ++ post, k.enabled = true → k.flagReg ≠ j.flagReg)
    (hen : ∀ k ∈ pre ++ j :: post, k.enabled = true → k.flagReg ≠ j.enableReg) :
    fired tm (pre ++ j :: post) (cleared (pre ++ j :: post) m) j.flagReg =
      if Due j.cron tm then m j.enableReg else if j.autoReset = true then some 0 else m j.flagReg := by
  have keep : ∀ (l : List CronJob) (m : Nat → Option Byte) (i : Nat), (∀ k ∈ l, k.enabled = true → k.flagReg ≠ i) →
      fired tm l m i = m i := by
    intro l
    induction l with
    | nil => intro m i _; rfl
    | cons k rest ih =>
      intro m i h
      unfold fired
      split
      · rename_i hd
        rw [ih _ _ (fun k hk => h k (.tail _ hk)), if_neg (fun e => h k (.head _) hd.1 e.symm)]
      · exact ih _ _ (fun k hk => h k (.tail _ hk))
  have app : ∀ (l r : List CronJob) (m : Nat → Option Byte), fired tm (l ++ r) m = fired tm r (fired tm l m) := by
    intro l
    induction l with
    | nil => intro r m; rfl
    | cons k rest ih =>
      intro r m
      rw [List.cons_append, fired, fired]
      split
      · exact ih _ _
      · exact ih _ _
  rw [app, show j :: post = [j] ++ post from rfl, app, keep post _ _ (fun k hk => ho k (List.mem_append_right _ hk))]
  have e1 : ∀ m, fired tm [j] m j.flagReg = if Due j.cron tm then m j.enableReg else m j.flagReg := by
    intro m
    by_cases hd : Due j.cron tm
    · rw [fired, if_pos ⟨he, hd⟩, fired, if_pos rfl, if_pos hd]
    · rw [fired, if_neg (fun h => hd h.2), fired, if_neg hd]
  rw [e1, keep pre _ _ (fun k hk => ho k (List.mem_append_left _ hk)),
    keep pre _ _ (fun k hk => hen k (List.mem_append_left _ hk))]
  have c1 : cleared (pre ++ [j] ++ post) m j.enableReg = m j.enableReg := by
    unfold cleared
    rw [if_neg]
    rintro ⟨k, hk, h1, _, h2⟩
    exact hen k (by simpa using hk) h1 h2
  have c2 : cleared (pre ++ [j] ++ post) m j.flagReg = if j.autoReset = true then some 0 else m j.flagReg := by
    unfold cleared
    by_cases ha : j.autoReset = true
    · rw [if_pos ⟨j, by simp, he, ha, rfl⟩, if_pos ha]
    · rw [if_neg ha, if_neg]
      rintro ⟨k, hk, h1, h2, h3⟩
      have : k ∈ pre ++ post ∨ k = j := by
        simp only [List.mem_append, List.mem_singleton] at hk ⊢
        rcases hk with (h | h) | h
        · exact .inl (.inl h)
        · exact .inr h
        · exact .inl (.inr h)
      rcases this with hk | rfl
      · exact ho k hk h1 h3
      · exact ha h2
  rw [List.append_assoc] at c1 c2
  simp only [List.singleton_append] at c1 c2 ⊢
  rw [c1, c2]

/-- **C56** A scan is the cron phase followed by the networks, which start from the flags so computed. -/
theorem C56_scan_partial {env : Env} {w w' : World} {jobs : List CronJob} (hj : Jobs w.ctx jobs) (hn : jobs ≠ [])
    (ht : Calendar (env.localtime w.tick)) (hnet : w.ctx.network.isSome) (h : scan env w = .ok ((), w')) :
    ∃ m', (∀ i, at? m' i = fired (env.localtime w.tick) jobs (cleared jobs (at? w.ctx.M)) i) ∧
      networkLoop env u32Fuel 0 { w with ctx := { w.ctx with exec := none, M := m' }, tick := w.tick + 1 } = .ok ((), w') := by
  unfold scan at h
  rw [bind_modCtx] at h
  obtain ⟨m', h1, h2⟩ := C56_phase_partial (env := env) (w := { w with ctx := { w.ctx with exec := none } }) (jobs := jobs)
    ⟨hj.table, hj.sized, hj.flags⟩ hn ht
  refine ⟨m', h2, ?_⟩
  rw [bind_apply, h1] at h
  dsimp only at h
  rw [if_pos rfl, bind_getCtx] at h
  dsimp only at h
  rw [if_neg (by cases hh : w.ctx.network with | none => rw [hh] at hnet; cases hnet | some l => simp)] at h
  exact h

/-! ### Registering jobs -/

theorem bitLoop_length {step last : Nat} : ∀ (fuel bit : Nat) (map map' : List Byte) (b : Nat),
    bitLoop step last fuel bit map = .done map' b → map'.length = map.length := by
  intro fuel
  induction fuel with
  | zero => intro bit map map' b h; cases h
  | succ fuel ih =>
    intro bit map map' b h
    unfold bitLoop at h
    split at h
    · unfold bitSet at h
      by_cases hl : bit >>> 3 < map.length
      · rw [if_pos hl] at h
        rw [ih _ _ _ _ h]
        simp
      · rw [if_neg hl] at h
        cases h
    · cases h
      rfl

theorem applyElem_length {lo hi : Nat} {el : Elem} {map map' : List Byte} (h : applyElem lo hi el map = .ok map') :
    map'.length = map.length := by
  unfold applyElem at h
  split at h
  · cases h
  split at h
  · cases h
  dsimp only at h
  split at h
  · split at h
    · cases h
    · cases h
    · rename_i h1
      split at h
      · cases h
      · cases h
      · rename_i h2
        cases h
        rw [bitLoop_length _ _ _ _ _ h2, bitLoop_length _ _ _ _ _ h1]
  · split at h
    · cases h
    · cases h
    · rename_i h1
      cases h
      exact bitLoop_length _ _ _ _ _ h1

theorem parseElems_length {lo hi : Nat} : ∀ (fuel : Nat) (s : List Char) (map map' : List Byte),
    parseElems lo hi fuel s map = .ok map' → map'.length = map.length := by
  intro fuel
  induction fuel with
  | zero => intro s map map' h; cases h
  | succ fuel ih =>
    intro s map map' h
    unfold parseElems at h
    split at h
    · cases h
    split at h
    · rename_i m1 h1
      split at h
      · cases h
        exact applyElem_length h1
      · split at h
        · rw [ih _ _ _ h, applyElem_length h1]
        · cases h
    · rename_i hne
      exact absurd h (hne _)

theorem parseField_length {lo hi n : Nat} {s r : List Char} {map : List Byte} (h : parseField lo hi n s = .ok (map, r)) :
    map.length = n := by
  unfold parseField at h
  split at h
  · cases h
  split at h
  · rename_i h1
    cases h
    rw [parseElems_length _ _ _ _ h1, List.length_replicate]
  all_goals cases h

theorem out_bind {α β : Type} {x : Out α} {f : α → Out β} {b : β} (h : x.bind f = .ok b) :
    ∃ a, x = .ok a ∧ f a = .ok b := by
  cases x with
  | ok a => exact ⟨a, rfl, h⟩
  | ub e => cases h
  | diverges => cases h
  | fail r => cases h

theorem parse_sized {s : List Char} {c : CronExpr} (h : parse s = .ok c) : Sized c := by
  unfold parse at h
  split at h
  · cases h
  obtain ⟨⟨a1, s1⟩, h1, h⟩ := out_bind h
  obtain ⟨⟨a2, s2⟩, h2, h⟩ := out_bind h
  obtain ⟨⟨a3, s3⟩, h3, h⟩ := out_bind h
  obtain ⟨⟨a4, s4⟩, h4, h⟩ := out_bind h
  obtain ⟨⟨a5, s5⟩, h5, h⟩ := out_bind h
  obtain ⟨⟨a6, s6⟩, h6, h⟩ := out_bind h
  obtain ⟨⟨a7, s7⟩, h7, h⟩ := out_bind h
  cases h
  exact ⟨parseField_length h1, parseField_length h2, parseField_length h3, parseField_length h4, parseField_length h5,
    parseField_length h6, parseField_length h7⟩

/-- A job can be registered only with existing flags; it is then the last of the registered jobs, and nothing else in the
context changes. -/
theorem C56_register {c c' : Ctx} {jobs : List CronJob} {l : List Byte} {ar : Bool} {e f : Nat} {str : List Char}
    (hj : Jobs c jobs) (hm : c.M = some l) (hl : l.length = c.qty.m) (h0 : 0 < c.qty.m) (h32 : c.qty.m < 2^32)
    (h : cronAdd c ar e f str = .done .ok c') :
    e < c.qty.m ∧ f < c.qty.m ∧ c' = { c with cron := c'.cron } ∧
    ∃ x, parse str = .ok x ∧ Jobs c' (jobs ++ [⟨true, ar, e, f, x⟩]) := by
  obtain ⟨⟨cr, all, hc, ha, htake, hu⟩, hs, hf⟩ := hj
  unfold cronAdd at h
  simp only [hc, ha] at h
  have hlim : (BitVec.ofNat 32 c.qty.m - 1).toNat = c.qty.m - 1 := by
    rw [BitVec.toNat_sub, show BitVec.toNat (1 : BitVec 32) = 1 from rfl, BitVec.toNat_ofNat]
    omega
  rw [hlim] at h
  split at h
  · cases h
  rename_i hr
  split at h
  · cases h
  rename_i hcap
  cases hp : parse str with
  | ok x =>
    rw [hp] at h
    cases h
    have he : e < c.qty.m := by omega
    have hff : f < c.qty.m := by omega
    refine ⟨he, hff, rfl, x, rfl, ⟨⟨_, _, rfl, rfl, ?_, ?_⟩, ?_, ?_⟩⟩
    · dsimp only
      rw [← htake, List.take_add_one]
      congr 1
      · rw [List.take_set_of_le (Nat.le_refl _)]
      · rw [List.getElem?_set_self (by omega)]
        rfl
    · dsimp only
      rw [hu]
      simp
    · intro j hj
      rcases List.mem_append.1 hj with hj | hj
      · exact hs j hj
      · rw [List.mem_singleton.1 hj]
        exact parse_sized hp
    · intro j hj
      rcases List.mem_append.1 hj with hj | hj
      · exact hf j hj
      · rw [List.mem_singleton.1 hj]
        simp only [at?, hm, Option.bind_some]
        exact ⟨by simp [hl, he], by simp [hl, hff]⟩
  | ub e => rw [hp] at h; cases h
  | diverges => rw [hp] at h; cases h
  | fail r => rw [hp] at h; cases h

/-- Allocating the table leaves no job registered, and a refused registration (or allocation) changes nothing. -/
theorem C56_init {c c' : Ctx} {n : Nat} (h : cronInit c n = .ok (.ok, c')) : Jobs c' [] ∧ c' = { c with cron := c'.cron } := by
  unfold cronInit at h
  split at h
  · cases h
  split at h
  · cases h
  · cases h
    exact ⟨⟨⟨_, _, rfl, rfl, by simp, rfl⟩, by simp, by simp⟩, rfl⟩

theorem C56_refused {c c' : Ctx} {ar : Bool} {e f : Nat} {str : List Char} {er : Err} (he : er ≠ .ok)
    (h : cronAdd c ar e f str = .done er c') : c' = c := by
  unfold cronAdd at h
  split at h
  · cases h
  split at h
  · cases h; rfl
  dsimp only at h
  split at h
  · cases h; rfl
  split at h
  · cases h
  split at h
  · cases h
  · cases h
  · cases h; rfl
  · cases h; exact absurd rfl he

/-- Two jobs: every minute from M0 to M1 (auto-reset), and every half hour from M2 to M0, at 00:00:00. -/
def demoJobs : Option (Ctx × List CronJob) :=
  let c0 := { Demo.ctx [] with cron := some { ctx := none, qty := 0, used := 0 } }
  match cronInit c0 4 with
  | .ok (.ok, c) =>
    match cronAdd c true 0 1 "0 * * * * * *".toList with
    | .done .ok c => match cronAdd c false 2 0 "0 */30 * * * * *".toList with
      | .done .ok c => some (c, match c.cron with | some cr => (cr.ctx.getD []).take cr.used | none => [])
      | _ => none
    | _ => none
  | _ => none

/-- Non-trivial instance: registering and running the two jobs. -/
theorem demo_jobs : (match demoJobs with
    | some (c, jobs) => decide (jobs.length = 2) && decide (c.M = some [1, 0, 1]) &&
      (match cronPhase Demo.env ⟨c, 0, []⟩ with
        | .ok (b, w) => b && decide (w.ctx.M = some [1, 1, 1])
        | _ => false) &&
      (match cronPhase { Demo.env with localtime := fun _ => ⟨0, 7, 0, 1, 0, 125, 3⟩ } ⟨{ c with M := some [0, 9, 1] }, 0, []⟩ with
        | .ok (b, w) => b && decide (w.ctx.M = some [0, 0, 1])
        | _ => false)
    | none => false) = true := by decide +kernel

theorem cronEval_none {env : Env} {w : World} {cr : Cron} (hc : w.ctx.cron = some cr) (h0 : cr.used = 0) :
    cronEval env w = .ok (.fail, w) := by
  unfold cronEval
  rw [hc]
  dsimp only
  cases cr.ctx with
  | none => rfl
  | some l => dsimp only; rw [if_pos h0]

/-- **C56 is violated** with no job registered: the phase puts the context into the fault state (for every context with a
cron structure, whether or not its table has been allocated). -/
theorem C56_refuted_no_job {env : Env} {w : World} {cr : Cron} (hc : w.ctx.cron = some cr) (h0 : cr.used = 0) :
    cronPhase env w = .ok (false, { w with ctx := { w.ctx with state := .inv } }) := by
  unfold cronPhase
  rw [bind_getCtx]
  simp only [hc, h0]
  refine bind_lift_eq_ok.2 ⟨w.ctx.M, by rfl, ?_⟩
  rw [bind_modCtx]
  refine bind_eq_ok.2 ⟨.fail, w, ?_, ?_⟩
  · exact cronEval_none hc h0
  · rw [if_pos (by decide), bind_modCtx, hc]
    rfl

/-- **C56 is violated** when the context has no flags (`m = 0`, which `ladder_ctx_init` refuses but nothing else checks):
the range check wraps, so that any register is accepted, and the phase then accesses memory that does not exist. -/
theorem C56_refuted_no_flags :
    (let c0 := { Demo.ctx [] with cron := some { ctx := some [CronJob.zero], qty := 1, used := 0 }, M := some [] }
     match cronAdd { c0 with qty := { c0.qty with m := 0 } } true 1000 2000 "0 * * * * * *".toList with
      | .done .ok c => match cronPhase Demo.env ⟨c, 0, []⟩ with
        | .error .oob => true
        | _ => false
      | _ => false) = true := by decide +kernel

end Ladder.Props
