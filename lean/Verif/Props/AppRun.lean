import Verif.Lemmas.Pace
import Verif.Lemmas.Panel
import Verif.Props.App
import Verif.Props.Stop

/-
C89: what the application that comes with the library does.
-/

set_option autoImplicit false

namespace Ladder

namespace Props

open Spec Op Ladder.Demo Demo
open Spec.Logic hiding program

/-! ### The keyboard -/

theorem toggle_exact {ch id : Nat} {c c' : Ctx} (h : Port.toggle ch id c = .ok c') :
    ¬ (47 < ch ∧ ch < 56) ∧ c' = c ∨
    (47 < ch ∧ ch < 56) ∧ ∃ v, load c (.I id (ch - 48)) = some v ∧ c' = upd c (.I id (ch - 48)) (if v = 0 then 1 else 0) := by
  unfold Port.toggle at h
  split at h
  · rename_i hc
    refine .inr ⟨hc, ?_⟩
    simp only [ok_bind, ok_aget, ok_pure] at h
    obtain ⟨m, hm, v, hv, rfl⟩ := h
    refine ⟨v.toNat, ?_, ?_⟩
    · simp only [elem] at hm hv
      simp only [load, at?, hm, Option.bind_some, hv, Option.map_some]
    · unfold elem at hm
      simp only [upd, Ctx.modIn, aset]
      cases hi : c.input with
      | none => simp [hi] at hm
      | some l =>
        simp only [hi, Option.bind] at hm
        simp only [Option.map_some]
        congr 2
        have : (if v.toNat > 0 then 0 else 1 : Byte) = BitVec.ofNat 8 (if v.toNat = 0 then 1 else 0) := by
          by_cases h : v.toNat = 0
          · simp [h]
          · rw [if_pos (by omega), if_neg h]; rfl
        rw [← set_eq_modify l id m _ hm, this]
  · rename_i hc
    cases h
    exact .inl ⟨hc, rfl⟩

theorem key_iff (typed : List Byte) {k : Nat} (hk : k < 8) : (Port.key typed).toNat = k + 48 ↔ typed.getLast? = some (BitVec.ofNat 8 (k + 48)) := by
  unfold Port.key
  have e : (BitVec.ofNat 8 (k + 48)).toNat = k + 48 := by simp; omega
  cases typed.getLast? with
  | none => simp
  | some x =>
    simp only [Option.getD_some, Option.some.injEq]
    exact ⟨fun h => BitVec.eq_of_toNat_eq (h.trans e.symm), fun h => by rw [h, e]⟩

theorem key_quits (typed : List Byte) : ((Port.key typed).toNat = 81 ∨ (Port.key typed).toNat = 113) ↔ quits typed = true := by
  unfold Port.key quits
  rw [decide_eq_true_eq]
  cases hl : typed.getLast? with
  | none => simp
  | some x =>
    simp only [Option.getD_some, Option.some.injEq]
    exact or_congr ⟨fun h => BitVec.eq_of_toNat_eq h, fun h => by rw [h]; rfl⟩ ⟨fun h => BitVec.eq_of_toNat_eq h, fun h => by rw [h]; rfl⟩

/-- `dummy_read`. -/
theorem port_read {B : Ctx} {typed : List Byte} {n : Nat} {c : Ctx} (hI : ∀ k, k < 8 → Owns B (.I n k)) (hm : Mounted B c) :
    ∃ r, Port.read typed n c = .ok r ∧ Alike B r.1 ∧ Flags r.1 ∧ shell r.1 = shell (stopped (quits typed) c) ∧
      ∀ ℓ, load r.1 ℓ = match ℓ with
        | .I k _ | .IW k _ => if k = n then (load c ℓ).map (pressed typed ℓ) else load c ℓ
        | _ => load c ℓ := by
  have hd : ∃ r, Port.read typed n c = .ok r := by
    rw [C81_read_defined]
    have each : ∀ k, k < 8 → ∃ m b, elem c.input n = some m ∧ elem m.I k = some b := by
      intro k hk
      have := hm.alike.has (hI k hk)
      simp only [load, Option.isSome_iff_exists, Option.bind_eq_some_iff] at this
      obtain ⟨b, m, hm, hb⟩ := this
      obtain ⟨b, hb, -⟩ := Option.map_eq_some_iff.1 hb
      exact ⟨m, b, hm, hb⟩
    obtain ⟨m, _, hm, -⟩ := each 0 (by omega)
    refine ⟨m, hm, (holds_iff (by omega)).2 fun k hk => ?_⟩
    obtain ⟨m', b, hm', hb⟩ := each k hk
    rw [hm] at hm'; cases hm'
    exact ⟨b, hb⟩
  obtain ⟨⟨c', shown⟩, h⟩ := hd
  refine ⟨_, h, ?_⟩
  unfold Port.read at h
  simp only [ok_bind, ok_aget, ok_pure] at h
  obtain ⟨c2, h2, _, _, _, _, e⟩ := h
  cases e
  have hc0 : (if (Port.key typed).toNat = 81 ∨ (Port.key typed).toNat = 113 then { c with state := .exitTsk } else c) = stopped (quits typed) c := by
    cases hq : quits typed with
    | true => exact if_pos ((key_quits typed).2 hq)
    | false => exact if_neg fun h => by rw [(key_quits typed).1 h] at hq; cases hq
  rw [hc0] at h2
  have hload := load_stopped (quits typed) c
  have halike := hm.alike.stopped (quits typed)
  have hflags : Flags (stopped (quits typed) c) := fun ℓ x hf hl => hm.flags ℓ x hf ((hload ℓ).symm.trans hl)
  simp only [← hload]
  generalize stopped (quits typed) c = c at h2 halike hflags ⊢
  have same : ∀ ℓ, (∀ k p, ℓ = .I k p → k = n → p < 8 → typed.getLast? ≠ some (BitVec.ofNat 8 (p + 48))) →
      load c ℓ = match ℓ with
        | .I k _ | .IW k _ => if k = n then (load c ℓ).map (pressed typed ℓ) else load c ℓ
        | _ => load c ℓ := by
    intro ℓ h
    have id : ∀ {o : Option Nat} {f : Nat → Nat}, (∀ x, f x = x) → o = o.map f := fun {o f} hf => by
      cases o with
      | none => rfl
      | some x => rw [Option.map_some, hf]
    cases ℓ <;> try rfl
    · rename_i k p
      dsimp only
      split
      · rename_i hk
        refine id fun x => ?_
        unfold pressed
        exact if_neg fun hp => h k p rfl hk hp.1 hp.2
      · rfl
    · rename_i k p
      dsimp only
      split
      · exact id fun x => rfl
      · rfl
  rcases toggle_exact h2 with ⟨hc, rfl⟩ | ⟨hc, v, hv, rfl⟩
  · refine ⟨halike, hflags, rfl, fun ℓ => same ℓ fun k p _ _ hp hl => hc ?_⟩
    rw [(key_iff typed hp).2 hl]
    omega
  · obtain ⟨j, hj⟩ : ∃ j, (Port.key typed).toNat = j + 48 := ⟨(Port.key typed).toNat - 48, by omega⟩
    have hj8 : j < 8 := by omega
    have hl := (key_iff typed hj8).1 hj
    rw [show (Port.key typed).toNat - 48 = j by omega] at hv ⊢
    refine ⟨halike.upd (.I n j) _, hflags.upd fun _ => by split <;> omega, shell_upd _ _ _, fun ℓ => ?_⟩
    by_cases e : ℓ = .I n j
    · subst e
      have hp : pressed typed (.I n j) v = if v = 0 then 1 else 0 := by
        unfold pressed
        exact if_pos ⟨hj8, hl⟩
      simp only [if_true, hv, Option.map_some, hp]
      exact load_upd_self c (.I n j) _ (by rw [hv]; rfl) (by simp only [Loc.size]; split <;> omega)
    · rw [load_upd_ne _ _ _ _ (Ne.symm e)]
      refine same ℓ fun k p h1 h2 h3 h4 => e ?_
      rw [h1, h2]
      congr 1
      rw [hl] at h4
      have := congrArg BitVec.toNat (Option.some.inj h4)
      simp at this
      omega

/-- The shipped port as hardware: the keyboard switches inputs or requests the end, and nothing else happens to the context. -/
theorem port_attended {B : Ctx} (hW : Well B) (hF : Fitted B) (hd : B.delay = true) (wild : Ctx → Ctx) (clock : Nat → W64) {keys : Nat → List Byte}
    {localtime : Nat → Tm} (ht : ∀ t, Calendar (localtime t)) :
    Attended B (Port.env wild clock keys localtime) (fun t => pressed (keys t)) (fun t => quits (keys t)) where
  toStill := ⟨fun _ _ => rfl, fun _ _ => rfl, ht⟩
  before := fun _ _ => rfl
  after := fun _ _ => rfl
  delay := fun _ _ => rfl
  write := fun t n c hn h => by
    obtain ⟨s, hs⟩ := write_defined hW hF hn h.alike h.flags (h.delay.trans hd)
    simp only [Port.env, hs]
  read := fun t n c hn h => by
    obtain ⟨r, hr, h1⟩ := port_read (typed := keys t) (hF.inputs n hn) h
    simp only [Port.env, hr]
    exact h1

/-! ### The shipped program -/

namespace Shipped

open Spec.Flash Ladder.Flash

theorem ready_network : ready.network = some [net0, net1, net2] := rfl

theorem ready_networks : ready.qty.networks = 3 := by decide +kernel

theorem ready_apart : Apart crons := by unfold Apart; decide +kernel

theorem ready_planned : Planned ready crons := by
  obtain ⟨jobs, h⟩ := jobs_ok (c := ready) (by decide +kernel)
  rw [jobs_of h] at h
  refine .inr ⟨h, fun e => ?_⟩
  have := crons_length
  rw [e] at this
  cases this

theorem ready_settled : Settled (load ready) := fun n p =>
  match n with
  | 0 => ⟨over_self _, by have : load ready (.QWh 0 p) = none := rfl; rw [this]; cases load ready (.QW 0 p) <;> rfl⟩
  | _ + 1 => ⟨rfl, rfl⟩

theorem ready_paired : Paired (load ready) := fun n p _ h =>
  match n with
  | 0 => by cases h
  | _ + 1 => by cases h

theorem ready_tables : Tables ready :=
  ⟨fun l h => by rw [ready_reads.2] at h; cases h; rw [ready_reads.1]; decide, fun l h => by rw [ready_writes.2] at h; cases h; rw [ready_writes.1]; decide⟩

theorem ready_complete : ¬ Missing ready := fun h => by
  obtain ⟨b, e, hb⟩ := taskRefuses_iff ready_tables
  rw [ready_accepted] at e
  cases e
  cases hb.2 h

theorem ready_wired : Wired ready := by
  refine ⟨by decide +kernel, fun n h => ?_, fun n h => ?_, fun _ => by decide +kernel, fun _ => by decide +kernel⟩
  · rw [ready_reads.1] at h
    cases Nat.lt_one_iff.1 h
    rw [ready_reads.2]; rfl
  · rw [ready_writes.1] at h
    cases Nat.lt_one_iff.1 h
    rw [ready_writes.2]; rfl

theorem ready_reflects : Reflects {} (load ready) := by
  refine ⟨⟨by decide +kernel, by decide +kernel, by decide +kernel, by decide +kernel, by decide +kernel, by decide +kernel, fun _ h => (by cases h),
    by decide +kernel, by decide +kernel, fun _ h => (by cases h), by decide +kernel, by decide +kernel, by decide +kernel, by decide⟩,
    ⟨by decide +kernel, by decide +kernel, by decide +kernel, by decide +kernel, by decide +kernel, by decide +kernel, fun _ h => (by cases h),
    by decide +kernel, by decide +kernel, fun _ h => (by cases h), by decide +kernel, by decide +kernel, by decide +kernel, by decide⟩,
    by decide +kernel, by decide +kernel, by decide +kernel, ?_, ?_⟩
  · intro i hi
    refine ⟨false, ?_⟩
    revert hi i
    decide +kernel
  · rintro ℓ ⟨n, p, rfl | rfl⟩ -
    · cases n with
      | succ n => rfl
      | zero =>
        show Option.map BitVec.toNat (List.replicate 8 (0 : Byte))[p]? = if p < 8 then _ else none
        rw [List.getElem?_replicate]
        split
        · split <;> rfl
        · rfl
    · cases n with
      | succ n => rfl
      | zero =>
        show Option.map BitVec.toNat (List.replicate 8 (0 : W32))[p]? = if p < 8 then _ else none
        rw [List.getElem?_replicate]
        split <;> rfl

theorem ready_diagrams (env : Env) : ∀ net ∈ [net0, net1, net2], net.enable = true → Diagram net ∧ Room env ready.scan.maxScanCycles (effort net) := by
  have hm : ready.scan.maxScanCycles = 1000000 := by decide +kernel
  intro net hn _
  rw [hm]
  simp only [List.mem_cons, List.not_mem_nil, or_false] at hn
  rcases hn with rfl | rfl | rfl
  · exact ⟨diagram_in rfl (by decide), by decide, .inr (by decide)⟩
  · exact ⟨diagram_in rfl (by decide), by decide, .inr (by decide)⟩
  · exact ⟨diagram_in rfl (by decide), by decide, .inr (by decide)⟩

theorem ready_rail : ∀ n r x, cell? ready n r 0 = some x → x.code ≠ .CTU ∧ x.code ≠ .CTD := by
  intro n r x h
  have all : ∀ net ∈ [net0, net1, net2], ∀ row ∈ net.cells.getD [], ∀ x ∈ row.head?, x.code ≠ .CTU ∧ x.code ≠ .CTD := by decide
  unfold cell? at h
  rw [Shipped.ready_network] at h
  simp only [at?, Option.bind_some, Option.bind_eq_some_iff] at h
  obtain ⟨net, hn, row, ⟨rows, hr, hr'⟩, hx⟩ := h
  exact all net (List.mem_of_getElem? hn) row (by rw [hr]; exact List.mem_of_getElem? hr') x (by rw [List.head?_eq_getElem?]; exact hx)

end Shipped

open Shipped Spec.Flash

/-- An application that starts its task. -/
theorem starts {L : Lib} (hL : Exact L) {H : Host} {old c : Ctx} (h : App.boot L H old = .ok (some c)) : c = ready := by
  match hb : H.beyond with
  | none => rw [C85_refuted hL hb] at h; cases h
  | some (k + 1) => rw [(C85_starts hL hb old).2 (by omega)] at h; cases h
  | some 0 =>
    obtain ⟨f, g, b⟩ := H
    cases hb
    rw [boot_eq hL f g old] at h
    cases h
    rfl

/-- **C89**: what the application that comes with the library does.  When it starts its task (see C85), whatever the context
held before and whatever an unexpected call would do, for fewer than 2³² iterations: the task performs its cycles up to the
first one in which q or Q is typed, and then ends; each cycle, this one included, reads the clock for its four timers, and the outputs sent in cycle
`k` are those of the panel (two lamps that flash five times one after the other, two outputs that follow key 7) after `k` + 1 steps with the
characters typed and the readings of the clock. -/
theorem C89_run {L : Lib} (hL : Exact L) {H : Host} {old c : Ctx} (hb : App.boot L H old = .ok (some c)) (wild : Ctx → Ctx) (clock : Nat → W64)
    (keys : Nat → List Byte) {localtime : Nat → Tm} (ht : ∀ t, Calendar (localtime t)) (n : Nat) (hn : n < 2^32) :
    ∃ r w' as, task (Port.env wild clock keys localtime) n ⟨c, 0, []⟩ = .ok (r, w') ∧ Halts (fun e => quits (keys e.1)) n r as ∧
      Timely (Port.env wild clock keys localtime) 1 0 as w'.tick ∧ (∀ e ∈ as, e.2.length = 4) ∧
      commands w'.trace = (List.range as.length).map fun k => (0, (after ((as.map fun e => (keys e.1, e.2)).take (k + 1))).outputs) := by
  obtain rfl := starts hL hb
  have h0 : ready.scan.scanCount.toNat = 0 := by decide +kernel
  have hp := port_attended ready_well ready_fitted (by decide +kernel) wild clock (keys := keys) ht
  obtain ⟨r, w1, w', as, h1, h2, h3, -, -, h4⟩ := C90_stop_partial (w := ⟨ready, 0, []⟩) ready_well ready_alike.fits ready_paired hp ready_planned
    Shipped.ready_network (ready_diagrams _) (fun _ _ => ready_rail) ⟨ready_alike, ready_flags, rfl, rfl, rfl⟩ (fun _ _ _ _ h => by cases h) ready_wired
    ready_tables ready_complete (by rw [ready_reads.1, ready_writes.1]; decide) (by decide +kernel) (by decide +kernel) ready_settled n (by simp only [h0]; omega)
  simp only [ready_reads.1, ready_writes.1, ready_networks] at h2 h3 h4
  have ha : (fun e : Nat × List Reading => asked (fun t => quits (keys t)) e.1 1) = fun e => quits (keys e.1) := by funext e; simp [asked]
  rw [ha] at h2
  obtain ⟨h5, h6⟩ := Flash.Reflects.run ready_apart keys localtime as (m := fun _ => load ready) (fun _ => ready_reflects) fun rest => (h4 rest).2.2
  refine ⟨r, w', as, h1, h2, h3, h5, ?_⟩
  have h7 := (h4 fun _ => ⟨0, 0, 0⟩).2.1
  have h8 := h6 fun _ => ⟨0, 0, 0⟩
  have e : ∀ l : List Image, (l.flatMap fun m => (List.range 1).map fun j => (j, orders m)) = (l.map orders).map fun o => (0, o) := fun l => by
    induction l with
    | nil => rfl
    | cons m l ih => rw [List.flatMap_cons, ih]; rfl
  have h9 : news ⟨ready, 0, []⟩ w' = w'.trace := List.drop_zero
  rw [h9, e] at h7
  rw [h7]
  exact (congrArg (List.map fun o => (0, o)) h8).trans (by rw [List.map_map]; rfl)

/-- **C89** (what is seen), in terms of the commands sent to the output module: one command per cycle, up to and including the first one in which q
or Q is typed; port 0 flashes at most five times, and port 1 does so too, but not before the fifth flash of port 0 has begun; ports 3 and 4 are
on exactly when an odd number of the samples up to then ended in the character 7; the other ports are off.  On a clock that does not run
backwards, each flash but the fifth and each pause lasts five seconds, up to the length of the cycles at its ends. -/
theorem C89_lamps {L : Lib} (hL : Exact L) {H : Host} {old c : Ctx} (hb : App.boot L H old = .ok (some c)) (wild : Ctx → Ctx) (clock : Nat → W64)
    (keys : Nat → List Byte) {localtime : Nat → Tm} (ht : ∀ t, Calendar (localtime t)) (N : Nat) (hn : N < 2^32) :
    ∃ r w' as, task (Port.env wild clock keys localtime) N ⟨c, 0, []⟩ = .ok (r, w') ∧ Halts (fun e => quits (keys e.1)) N r as ∧
      Timely (Port.env wild clock keys localtime) 1 0 as w'.tick ∧ (commands w'.trace).length = as.length ∧
      let n := as.length
      let lit := glows (commands w'.trace)
      let ready := fun k => decide (onsets (lit 0) (k + 1) = 5)
      Fivefold n (fun _ => true) (lit 0) ∧ Fivefold n ready (lit 1) ∧
      (∀ k, k < n → (lit 3 k = decide ((as.take (k + 1)).countP (fun e => decide ((keys e.1).getLast? = some 55)) % 2 = 1)) ∧ lit 4 k = lit 3 k ∧
        ∀ p, p ∉ [0, 1, 3, 4] → lit p k = false) ∧
      ((∀ t t', t ≤ t' → (clock t).toNat ≤ (clock t').toNat) → let time := fun k => (clock (begins as w'.tick k)).toNat
        Paced n (fun _ => true) (lit 0) time ∧ Paced n ready (lit 1) time) := by
  obtain ⟨r, w', as, h2, h3', h5, h4, h6⟩ := C89_run hL hb wild clock keys ht N hn
  refine ⟨r, w', as, h2, h3', h5, by rw [h6]; simp, ?_⟩
  generalize h3 : as.length = n at h6 ⊢
  dsimp only
  generalize hes : (as.map fun e => (keys e.1, e.2)) = es at h6
  have hlen : es.length = n := by rw [← hes, List.length_map, h3]
  have he4 : ∀ e ∈ es, e.2.length = 4 := fun e he => by
    rw [← hes] at he
    obtain ⟨x, hx, rfl⟩ := List.mem_map.1 he
    exact h4 x hx
  have bit : ∀ b : Bool, decide (some b.toNat = some 1) = b := fun b => by cases b <;> rfl
  have hout : ∀ k, k < n → ∀ p, glows (commands w'.trace) p k = decide ((after (es.take (k + 1))).outputs (.Q 0 p) = some 1) := fun k hk p => by
    have : (commands w'.trace)[k]? = some (0, (after (es.take (k + 1))).outputs) := by rw [h6]; simp [hk]
    unfold glows
    rw [this]
    rfl
  have hl0 : ∀ k, k < n → glows (commands w'.trace) 0 k = (after (es.take (k + 1))).first.lit := fun k hk => (hout k hk 0).trans (bit _)
  have hl1 : ∀ k, k < n → glows (commands w'.trace) 1 k = (after (es.take (k + 1))).second.lit := fun k hk => (hout k hk 1).trans (bit _)
  have g1 := Flash.after_first he4
  have g2 := Flash.after_second he4
  rw [hlen] at g1 g2
  have hr : ∀ k, k < n → decide (onsets (glows (commands w'.trace) 0) (k + 1) = 5) = decide ((after (es.take (k + 1))).first.flashes = 5) := fun k hk => by
    rw [g1.onsets hl0 (by omega)]
  have g2' : Flash.Going n (fun k => (after (es.take k)).second) (fun k => decide (onsets (glows (commands w'.trace) 0) (k + 1) = 5))
      (Flash.reading es 2) (Flash.reading es 3) := ⟨g2.start, fun k hk => by rw [hr k hk]; exact g2.step k hk⟩
  refine ⟨g1.fivefold hl0, g2'.fivefold hl1, fun k hk => ⟨?_, ?_, fun p hp => ?_⟩, fun hm => ?_⟩
  · rw [hout k hk 3]
    refine (bit _).trans ((Flash.after_key he4 (by omega)).trans ?_)
    rw [← hes, ← List.map_take, List.countP_map]
    rfl
  · rw [hout k hk 3, hout k hk 4]; rfl
  · rw [hout k hk p]
    refine decide_eq_false fun h => ?_
    simp only [List.mem_cons, List.not_mem_nil, or_false, not_or] at hp
    change (if p < 8 then some _ else none) = some 1 at h
    split at h
    · have h := Option.some.inj h
      split at h <;> first | omega | cases h
    · cases h
  · have hc : ∀ k, k < n → ∃ q1 q2 q3 q4, (es.getD k ([], [])).2 = [q1, q2, q3, q4] ∧ _ := fun k hk => by
      obtain ⟨b, hb, hb'⟩ := Flash.within h5 (k := k) (by omega)
      have hk' : k < as.length := by omega
      have he : (es.getD k ([], [])).2 = as[k].2 := by
        have : (as.map fun e => (keys e.1, e.2)).getD k ([], []) = (keys as[k].1, as[k].2) := by
          rw [List.getD_eq_getElem?_getD, List.getElem?_map, List.getElem?_eq_getElem hk']
          rfl
        rw [hes] at this
        rw [this]
      rw [he]
      exact Flash.readings hb (h4 _ (List.getElem_mem _)) hm (Nat.le_succ _) hb'
    have r : ∀ {k i : Nat} {us : List Reading}, (es.getD k ([], [])).2 = us → Flash.reading es i k = us.getD i ⟨0, 0, 0⟩ := fun h => by
      unfold Flash.reading; rw [h]
    refine ⟨g1.paced hl0 (fun k hk => ?_) fun _ _ _ => rfl, g2'.paced hl1 (fun k hk => ?_) fun k hk ho => ?_⟩
    · obtain ⟨q1, q2, q3, q4, e, a1, a2, a3, a4, a5, a6, a7, a8, a9⟩ := hc k hk
      rw [r (i := 0) e, r (i := 1) e]
      exact ⟨a1, a2, a3, a4, Nat.le_trans a5 (Nat.le_trans a6 (Nat.le_trans a7 (Nat.le_trans a8 a9)))⟩
    · obtain ⟨q1, q2, q3, q4, e, a1, a2, a3, a4, a5, a6, a7, a8, a9⟩ := hc k hk
      rw [r (i := 2) e, r (i := 3) e]
      exact ⟨Nat.le_trans a1 (Nat.le_trans a2 (Nat.le_trans a3 (Nat.le_trans a4 a5))), a6, a7, a8, a9⟩
    · rw [hr k (by omega), decide_eq_true_eq] at ho
      rw [hr (k + 1) hk, decide_eq_true_eq]
      have h7 := g1.few (k := k + 1 + 1) (by omega)
      have h8 := Flash.step_flashes (on := true) (p := Flash.reading es 0 (k + 1)) (f := Flash.reading es 1 (k + 1)) (l := (after (es.take (k + 1))).first)
      rw [← g1.step (k + 1) hk] at h8
      omega

/-- The hypotheses can be met: a clock that advances by three seconds at each external call, 7 typed now and then, and q in the end. -/
example := C89_lamps exact_plain (H := ⟨fun _ => 0, fun _ => "", some 0⟩) (boot_eq exact_plain _ _ ready) id (fun t => BitVec.ofNat 64 (3000 * t))
  (keys := fun t => if t % 5 = 0 then [49, 55] else if t = 7777 then [113] else []) (localtime := fun _ => ⟨0, 0, 0, 1, 0, 126, 0⟩)
  (fun _ => by constructor <;> simp) 1000000 (by decide)

/-- The readings of a cycle that begins at time `t` and takes `d` for each of its timers. -/
def paceOf (t d : Nat) : List Reading :=
  (List.range 4).map fun k => ⟨BitVec.ofNat 64 (t + k * d), BitVec.ofNat 64 (t + k * d), BitVec.ofNat 64 (t + k * d + d)⟩

/-- Lamps do flash: cycles of one second, key 7 typed in the third one; the lamp is out for six cycles, lit for five, and out for five. -/
example : ((List.range 18).map fun n => (after ((List.range n).map fun k => (if k = 2 then [55] else [], paceOf (1000 * k) 250))).first.lit) =
      [false, false, false, false, false, false, true, true, true, true, true, true, false, false, false, false, false, false] ∧
    ((List.range 5).map fun n => (after ((List.range n).map fun k => (if k = 2 then [55] else [], paceOf (1000 * k) 250))).key) =
      [false, false, false, true, true] := by decide +kernel

end Props

end Ladder
