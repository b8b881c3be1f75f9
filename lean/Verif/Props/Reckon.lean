import Verif.Props.Forever
import Verif.Props.Arith

/-
C95: controllers whose diagrams calculate with registers.
-/

set_option autoImplicit false

namespace Ladder

open Spec Op Logic

namespace Props

/-- **C95**: controllers that calculate.  As C73, for programs that also add, multiply, divide and rotate by the contents of registers.  The task
performs its cycles as the diagram says -- registers, commands to the output modules, readings of the clock -- as long as all
arithmetic of the diagram has a result; in the first cycle in which some has none its behaviour is undefined, by signed overflow, division
by zero or a shift out of range, and nothing else ever makes it undefined (for fewer than 2³² cycles, see C94). -/
theorem C95_outcome {B : Ctx} {env : Env} {field : Nat → Field} {jobs : List CronJob} {nets : List Network} {w : World} (hB : Formed B)
    (hF : Fits B) (hp : Paired (load B)) (hk : Plugged B env field) (hj : Planned B jobs) (hnets : B.network = some nets)
    (hd : ∀ net ∈ nets, net.enable = true → Diagram net ∧ Room env w.ctx.scan.maxScanCycles (effort net))
    (ha : Mounted B w.ctx) (hc : Clean w.trace) (hw : Wired w.ctx) (ht : Tables w.ctx) (hn : ¬ Missing w.ctx)
    (hq : w.ctx.fnReadQty < 2^32 ∧ w.ctx.fnWriteQty < 2^32) (hst : w.ctx.state = .running) (hwd : w.ctx.qty.watchdogMs = 0)
    (hs : Settled (load w.ctx)) (n : Nat) (hcnt : w.ctx.scan.scanCount.toNat + n < 2^32) :
    ∃ w' as, as.length ≤ n ∧ task env as.length w = .ok (.running, w') ∧ w'.ctx.state = .running ∧ Timely env w.ctx.fnReadQty w.tick as w'.tick ∧
      (∀ rest, let f := turn w.ctx.fnReadQty field env.localtime jobs (nets.take B.qty.networks) rest
        (∀ ℓ, register ℓ = true → load w'.ctx ℓ = as.foldl f (load w.ctx) ℓ) ∧
        commands (news w w') = ((successive f (load w.ctx) as).flatMap fun m => (List.range w.ctx.fnWriteQty).map fun j => (j, orders m)) ∧
        Exhausts (computed w.ctx.fnReadQty field env.localtime jobs (nets.take B.qty.networks) rest) rest (load w.ctx) as) ∧
      (as.length < n → ∃ e a us hi, (∀ j, as.length < j → task env j w = .error e) ∧ (e = .signedOverflow ∨ e = .divZero ∨ e = .shiftRange) ∧
        w'.tick < a ∧ Told env (a + w.ctx.fnReadQty) hi us ∧
        ∀ rest, (computed w.ctx.fnReadQty field env.localtime jobs (nets.take B.qty.networks) rest
          (as.foldl (turn w.ctx.fnReadQty field env.localtime jobs (nets.take B.qty.networks) rest) (load w.ctx)) (a, us)).sure = false) := by
  have hR : Steady.Rig B w.ctx.scan.maxScanCycles env field (fun _ => false) jobs nets (plain w.ctx) :=
    ⟨hB, hF, hp, ⟨hk.toStill, hk.before, hk.after, hk.delay, hk.write, hk.read⟩, hj, hnets, hd, hw.millis, .inl hwd, hw.read, hw.write, hq.1, hq.2, hst,
      ⟨ha.reads, ha.writes, ha.delay⟩, fun _ h => by cases h⟩
  obtain ⟨w1, cs, m', ms, h2, hr, hall, h3, new, h4, h5⟩ := Steady.taskLoop hR n w.ctx.scan.scanCount.toNat (fun _ => True) (load w.ctx) w hcnt hs
    ⟨⟨ha.alike, ha.flags, hc, by simp, by simp⟩, rfl, fun _ _ => rfl, rfl, rfl, trivial⟩
  have hna : ∀ c : Lap, asked (fun _ => false) c.sample w.ctx.fnReadQty = false := fun c => by simp [asked]
  have hno : ∀ c : Lap, c.overdue env w.ctx.qty.watchdogMs = false := fun c => by simp [Lap.overdue, hwd]
  rw [show (plain w.ctx).fnReadQty = w.ctx.fnReadQty from rfl, show (plain w.ctx).qty.watchdogMs = w.ctx.qty.watchdogMs from rfl] at *
  simp only [hna, hno, Bool.or_self] at hr h3
  rw [show (cs.any fun _ => false) = false by simp] at h3
  have hstart : ∀ j, task env j w = taskLoop env j w := fun j => by
    obtain ⟨b, eb, hb⟩ := taskRefuses_iff ht
    unfold task
    rw [bind_getCtx, eb, bind_lift_ok]
    cases b with
    | true => exact absurd (hb.1 rfl) hn
    | false => rfl
  have hrun : taskLoop env cs.length w = .ok (.running, w1) := by
    rcases hr with ⟨e, hh⟩ | ⟨-, -, e, -⟩
    · have hlen : cs.length = n := by
        rcases Nat.lt_or_ge cs.length n with h | h
        · obtain ⟨_, -, h⟩ := hh.ended h; cases h
        · exact Nat.le_antisymm hh.length h
      rw [hlen]
      exact e (.running, w1) (by rw [hlen, Nat.sub_self]; rfl)
    · exact e
  refine ⟨w1, cs.map Lap.entry, ?_, ?_, (h3.setup Ctx.state fun _ => rfl).trans hst, h2.timely, fun rest => ?_, fun hlt => ?_⟩
  · rw [List.length_map]
    rcases hr with ⟨-, hh⟩ | ⟨h, -⟩
    · exact hh.length
    · exact Nat.le_of_lt h
  · rw [List.length_map, hstart]
    exact hrun
  · have : news w w1 = new := by unfold news; rw [h4]; simp
    obtain ⟨h6, h7, h8⟩ := hall rest
    refine ⟨fun ℓ hl => (h3.image ℓ hl).trans (congrFun h6.symm ℓ), ?_, h8⟩
    rw [this, h5, ← h7]
    rfl
  · rw [List.length_map] at hlt ⊢
    rcases hr with ⟨-, hh⟩ | ⟨-, -, -, e, e2, hf, a, us, hi, h6, h7, h8⟩
    · obtain ⟨_, -, h⟩ := hh.ended hlt; cases h
    · refine ⟨e, a, us, hi, fun j hj => ?_, ?_, h6, h7, fun rest => ?_⟩
      · obtain ⟨i, rfl⟩ : ∃ i, j = cs.length + (i + 1) := ⟨j - cs.length - 1, by omega⟩
        rw [hstart, taskLoop_add _ _ hrun, e2]
      · cases e <;> simp [arithmetic] at hf ⊢
      · rw [(hall rest).1]
        exact h8 rest

/-- C95, safety: if a property of the registers holds at the start, is kept by every cycle of the diagram, and whenever it holds the arithmetic of
the diagram has results, then the task runs, and the property always holds. -/
theorem C95_safe {B : Ctx} {env : Env} {field : Nat → Field} {jobs : List CronJob} {nets : List Network} {w : World} (hB : Formed B)
    (hF : Fits B) (hp : Paired (load B)) (hk : Plugged B env field) (hj : Planned B jobs) (hnets : B.network = some nets)
    (hd : ∀ net ∈ nets, net.enable = true → Diagram net ∧ Room env w.ctx.scan.maxScanCycles (effort net))
    (ha : Mounted B w.ctx) (hc : Clean w.trace) (hw : Wired w.ctx) (ht : Tables w.ctx) (hn : ¬ Missing w.ctx)
    (hq : w.ctx.fnReadQty < 2^32 ∧ w.ctx.fnWriteQty < 2^32) (hst : w.ctx.state = .running) (hwd : w.ctx.qty.watchdogMs = 0)
    (hs : Settled (load w.ctx)) (n : Nat) (hcnt : w.ctx.scan.scanCount.toNat + n < 2^32) (I : Image → Prop) (h0 : I (load w.ctx))
    (hI : ∀ m e rest, I m → (computed w.ctx.fnReadQty field env.localtime jobs (nets.take B.qty.networks) rest m e).sure = true ∧
      I (turn w.ctx.fnReadQty field env.localtime jobs (nets.take B.qty.networks) rest m e)) :
    ∃ w' m, task env n w = .ok (.running, w') ∧ I m ∧ ∀ ℓ, register ℓ = true → load w'.ctx ℓ = m ℓ := by
  obtain ⟨w', as, h1, h2, -, -, h3, h4⟩ := C95_outcome hB hF hp hk hj hnets hd ha hc hw ht hn hq hst hwd hs n hcnt
  have key : ∀ rest, I (as.foldl (turn w.ctx.fnReadQty field env.localtime jobs (nets.take B.qty.networks) rest) (load w.ctx)) := by
    intro rest
    clear h1 h2 h3 h4 hcnt
    generalize load w.ctx = m at h0
    induction as generalizing m with
    | nil => exact h0
    | cons e as ih => exact ih _ (hI m e rest h0).2
  rcases Nat.lt_or_ge as.length n with h | h
  · obtain ⟨e, a, us, hi, -, -, -, -, h5⟩ := h4 h
    have := (hI _ (a, us) (fun _ => ⟨0, 0, 0⟩) (key fun _ => ⟨0, 0, 0⟩)).1
    rw [h5] at this
    cases this
  · rw [Nat.le_antisymm h1 h] at h2
    exact ⟨w', _, h2, key fun _ => ⟨0, 0, 0⟩, (h3 fun _ => ⟨0, 0, 0⟩).1⟩

/-- C94 for diagrams that calculate: if a property of the registers that excludes arithmetic without a result is kept by every cycle of the
diagram, the behaviour of the task over `n` iterations is defined exactly if its scan counter can count them. -/
theorem C94_safe {B : Ctx} {env : Env} {field : Nat → Field} {jobs : List CronJob} {nets : List Network} {w : World} (hB : Formed B)
    (hF : Fits B) (hp : Paired (load B)) (hk : Plugged B env field) (hj : Planned B jobs) (hnets : B.network = some nets)
    (hd : ∀ net ∈ nets, net.enable = true → Diagram net ∧ Room env w.ctx.scan.maxScanCycles (effort net))
    (ha : Mounted B w.ctx) (hc : Clean w.trace) (hw : Wired w.ctx) (ht : Tables w.ctx) (hn : ¬ Missing w.ctx)
    (hq : w.ctx.fnReadQty < 2^32 ∧ w.ctx.fnWriteQty < 2^32) (hst : w.ctx.state = .running) (hwd : w.ctx.qty.watchdogMs = 0)
    (hs : Settled (load w.ctx)) (n : Nat) (I : Image → Prop) (h0 : I (load w.ctx))
    (hI : ∀ m e rest, I m → (computed w.ctx.fnReadQty field env.localtime jobs (nets.take B.qty.networks) rest m e).sure = true ∧
      I (turn w.ctx.fnReadQty field env.localtime jobs (nets.take B.qty.networks) rest m e)) :
    (w.ctx.scan.scanCount.toNat + n < 2^32 → ∃ w', task env n w = .ok (.running, w')) ∧
    (2^32 ≤ w.ctx.scan.scanCount.toNat + n → task env n w = .error .divZero) := by
  refine ⟨fun hcnt => ?_, fun hcnt => ?_⟩
  · obtain ⟨w', m, h, -⟩ := C95_safe hB hF hp hk hj hnets hd ha hc hw ht hn hq hst hwd hs n hcnt I h0 hI
    exact ⟨w', h⟩
  obtain ⟨as, e, h, rfl | ⟨t, -, a, us, hi, -, -, hf⟩⟩ := last_count hB hF hp hk hj hnets hd ha hc hw ht hn hq hst hwd hs n hcnt
  · exact h
  have key : I (as.foldl (turn w.ctx.fnReadQty field env.localtime jobs (nets.take B.qty.networks) fun _ => ⟨0, 0, 0⟩) (load w.ctx)) := by
    clear h hf hcnt
    generalize load w.ctx = m at h0
    induction as generalizing m with
    | nil => exact h0
    | cons e as ih => exact ih _ (hI m e _ h0).2
  have := (hI _ (a, us) (fun _ => ⟨0, 0, 0⟩) key).1
  rw [hf] at this
  cases this

/-! ### Controllers that calculate -/

open _root_.Ladder.Demo

/-- `D0 + 1 to D0`, in every cycle. -/
def counting : Network := net [[ins .ADD [op .D 0, op .NONE 1, op .D 0]], [ins .MULTI []], [ins .MULTI []]]

theorem counting_formed : Formed (ctx [counting]) where
  count := by decide
  nets := by
    intro n hn
    have hn : n < 1 := hn
    match n, hn with
    | 0, _ => exact ⟨_, rfl, rfl, fun _ => ⟨rfl, by decide, by decide, by decide, fun r c hr hc => by
        have hr : r < 3 := hr
        have hc : c < 1 := hc
        match r, c, hr, hc with
        | 0, 0, _, _ => exact ⟨_, rfl, ⟨_, rfl, by decide, .inr (.inr (.inr ⟨_, rfl, rfl⟩))⟩, ⟨_, rfl, by decide, .inl rfl⟩, _, rfl, rfl⟩
        | 1, 0, _, _ | 2, 0, _, _ => exact ⟨_, rfl, trivial⟩⟩⟩

theorem counting_settled : Settled (load (ctx [counting])) := fun n _ =>
  match n with
  | 0 => ⟨over_self _, over_self _⟩
  | _ + 1 => ⟨rfl, rfl⟩

theorem counting_paired : Paired (load (ctx [counting])) := fun n _ h _ =>
  match n with
  | 0 => ⟨0, rfl, rfl⟩
  | _ + 1 => by cases h

/-- A cycle of the diagram. -/
theorem counting_cycle {k x : Nat} {field : Nat → Field} {zone : Nat → Tm} {rest : Nat → Reading} {m : Image} {e : Nat × List Reading}
    (h : m (.D 0) = some x) :
    (computed k field zone [] [counting] rest m e).sure = narrow ((BitVec.ofNat 32 x).toInt + 1) ∧
    turn k field zone [] [counting] rest m e (.D 0) = some (BitVec.ofInt 32 ((BitVec.ofNat 32 x).toInt + 1)).toNat := by
  have e1 : ∀ s : State, Logic.program [counting] s = ⟨(simple s.reg true (ins .ADD [op .D 0, op .NONE 1, op .D 0])).1, s.time,
      s.sure && defined s.reg true (ins .ADD [op .D 0, op .NONE 1, op .D 0])⟩ := fun _ => rfl
  have e2 : ∀ m : Image, m (.D 0) = some x → now m (op .D 0) = BitVec.ofNat 32 x := fun m h => by
    show ((m (.D 0)).bind fun x => some (BitVec.ofNat 32 x)).getD 0 = _
    rw [h]
    rfl
  have e3 : ∀ (m : Image) (v : W32), m (.D 0) = some x → put m (op .D 0) v (.D 0) = some v.toNat := fun m v h => by
    unfold put
    rw [if_pos ⟨rfl, rfl, by rw [h]; rfl⟩]
    rfl
  unfold turn computed
  rw [e1]
  have h' : calendar (zone (e.1 + k)) [] (acquire k (fun n => field (e.1 + n)) (recall sampled m)) (.D 0) = some x := h
  generalize calendar (zone (e.1 + k)) [] (acquire k (fun n => field (e.1 + n)) (recall sampled m)) = m' at h'
  have e4 := e2 m' h'
  constructor
  · show narrow ((now m' (op .D 0)).toInt + 1) = _
    rw [e4]
  · show put m' (op .D 0) (.ofInt 32 ((now m' (op .D 0)).toInt + 1)) (.D 0) = _
    rw [e3 m' _ h', e4]

/-- Adding one to a register. -/
theorem successor {x : Nat} (h : x < 2^31) : narrow ((BitVec.ofNat 32 x).toInt + 1) = decide (x + 1 < 2^31) ∧
    (x + 1 < 2^31 → (BitVec.ofInt 32 ((BitVec.ofNat 32 x).toInt + 1)).toNat = x + 1) := by
  have e : (BitVec.ofNat 32 x).toInt = x := by
    rw [BitVec.toInt_eq_toNat_of_lt (by rw [BitVec.toNat_ofNat]; omega), BitVec.toNat_ofNat]
    omega
  rw [e]
  constructor
  · unfold narrow
    rw [← Bool.decide_and]
    exact decide_eq_decide.2 (by omega)
  · intro h'
    rw [BitVec.toNat_ofInt]
    omega

theorem counting_cycles {k : Nat} {field : Nat → Field} {zone : Nat → Tm} {rest : Nat → Reading} : ∀ (as : List (Nat × List Reading)) {x : Nat} {m : Image},
    m (.D 0) = some x → x < 2^31 → Exhausts (computed k field zone [] [counting] rest) rest m as →
    as.foldl (turn k field zone [] [counting] rest) m (.D 0) = some (x + as.length) ∧ x + as.length < 2^31
  | [], _, _, h, hx, _ => ⟨h, hx⟩
  | e :: as, x, m, h, hx, ⟨_, hs, hr⟩ => by
    obtain ⟨h1, h2⟩ := counting_cycle (k := k) (field := field) (zone := zone) (rest := rest) (e := e) h
    obtain ⟨h3, h4⟩ := successor hx
    rw [hs, h3] at h1
    have hlt := of_decide_eq_true h1.symm
    rw [h4 hlt] at h2
    obtain ⟨h5, h6⟩ := counting_cycles as h2 hlt hr
    rw [List.foldl_cons, h5, List.length_cons]
    exact ⟨by congr 1; omega, by omega⟩

/-- **C95**, an example: this controller, begun with 7 in D0, is defined for 2³¹ - 8 cycles, during which D0 counts them, and overflows in the
next one. -/
theorem C95_counting (n : Nat) :
    (n ≤ 2^31 - 8 → ∃ w', task wiredUp n ⟨ctx [counting], 0, []⟩ = .ok (.running, w') ∧ load w'.ctx (.D 0) = some (7 + n)) ∧
    (2^31 - 8 < n → ∃ e, (e = .signedOverflow ∨ e = .divZero ∨ e = .shiftRange) ∧ task wiredUp n ⟨ctx [counting], 0, []⟩ = .error e) := by
  have ha : Alike (ctx [counting]) (ctx [counting]) := ⟨fits_of rfl, rfl, fun _ => rfl, rfl, rfl, rfl, rfl, rfl⟩
  have key := C95_outcome (w := ⟨ctx [counting], 0, []⟩) counting_formed ha.fits counting_paired wired_plugged (.inl ⟨rfl, rfl⟩) rfl
    (fun net hn _ => by
      rw [List.mem_singleton.1 hn]
      exact ⟨diagram_of (by decide), by decide, .inl fun _ _ => rfl⟩) ⟨ha, flags_demo [counting], rfl, rfl, rfl⟩ (fun _ _ _ _ h => by cases h)
    ⟨rfl, fun n hn => by cases Nat.lt_one_iff.1 hn; rfl, fun n hn => by cases Nat.lt_one_iff.1 hn; rfl, fun _ => rfl, fun _ => rfl⟩ ⟨fun l h => by cases h; decide, fun l h => by cases h; decide⟩
    (fun h => by have := h.one; simp [ctx, at?] at this) ⟨by decide, by decide⟩ rfl rfl counting_settled
  have h0 : load (ctx [counting]) (.D 0) = some 7 := rfl
  constructor
  · intro hn
    obtain ⟨w', as, h1, h2, -, -, h3, h4⟩ := key n (by show 0 + n < 2^32; omega)
    obtain ⟨h5, -, h6⟩ := h3 fun _ => ⟨0, 0, 0⟩
    obtain ⟨h7, h8⟩ := counting_cycles as h0 (by omega) h6
    rcases Nat.lt_or_ge as.length n with h | h
    · obtain ⟨e, a, us, hi, -, -, -, -, h9⟩ := h4 h
      have h10 := (counting_cycle (e := (a, us)) (k := 1) (field := supply) (zone := wiredUp.localtime) (rest := fun _ => ⟨0, 0, 0⟩) h7).1
      rw [(successor h8).1] at h10
      have h11 := h10.symm.trans (h9 _)
      exact absurd h11 (by rw [decide_eq_true (by omega)]; decide)
    · have hl := Nat.le_antisymm h1 h
      rw [hl] at h2 h7
      exact ⟨w', h2, (h5 _ rfl).trans h7⟩
  · intro hn
    obtain ⟨w', as, h1, h2, -, -, h3, h4⟩ := key (2^31 - 7) (by decide)
    obtain ⟨h5, -, h6⟩ := h3 fun _ => ⟨0, 0, 0⟩
    obtain ⟨h7, h8⟩ := counting_cycles as h0 (by omega) h6
    obtain ⟨e, a, us, hi, h9, h10, -⟩ := h4 (by omega)
    exact ⟨e, h10, h9 n (by omega)⟩

/-- C95, the same controller with a watchdog, on hardware whose clock once, at instant 5000, advances by an hour: no sum overflows in a million
iterations, so that the task is given up after the first overdue cycle (if there is one), when D0 has counted the cycles. -/
theorem C95_counting_guarded : ∃ (w1 : World) (cs : List Lap),
    task jolted 1000000 ⟨{ ctx [counting] with qty := { (ctx [counting]).qty with watchdogMs := 100 } }, 0, []⟩ =
      .ok (parted jolted (cs.any fun c => c.overdue jolted 100) (1000000 - cs.length) w1) ∧
    Halted (fun c => c.overdue jolted 100) 1000000 cs ∧ load w1.ctx (.D 0) = some (7 + cs.length) := by
  have ha : Alike (ctx [counting]) { ctx [counting] with qty := { (ctx [counting]).qty with watchdogMs := 100 } } :=
    ⟨fits_of rfl, rfl, fun ℓ => by cases ℓ <;> rfl, rfl, rfl, rfl, rfl, rfl⟩
  have hpl := wired_plugged (B := ctx [counting])
  obtain ⟨w1, cs, -, -, -, -, h5, h6⟩ := C95_guarded (stop := fun _ => false)
    (w := ⟨{ ctx [counting] with qty := { (ctx [counting]).qty with watchdogMs := 100 } }, 0, []⟩) counting_formed (fits_of rfl) counting_paired
    (env := jolted) (field := supply)
    ⟨⟨hpl.instruction, hpl.scanEnd, hpl.localtime⟩, fun _ _ => rfl, fun _ _ => rfl, fun _ _ => rfl, fun _ _ _ _ _ => rfl, hpl.read⟩
    (.inl ⟨rfl, rfl⟩) rfl
    (fun net hn _ => by
      rw [List.mem_singleton.1 hn]
      exact ⟨diagram_of (by decide), by decide, .inl fun _ _ => rfl⟩) (fun _ h => by cases h)
    ⟨ha, fun ℓ x hf hl => flags_demo [counting] ℓ x hf (by rw [← hl]; cases ℓ <;> rfl), rfl, rfl, rfl⟩ (fun _ _ _ _ h => by cases h)
    ⟨rfl, fun n hn => by cases Nat.lt_one_iff.1 hn; rfl, fun n hn => by cases Nat.lt_one_iff.1 hn; rfl, fun _ => rfl, fun _ => rfl⟩ ⟨fun l h => by cases h; decide, fun l h => by cases h; decide⟩
    (fun h => by have := h.one; simp [ctx, at?] at this) ⟨by decide, by decide⟩ rfl (.inr fun _ _ => rfl) counting_settled 1000000 (by decide)
  obtain ⟨h7, -, h8⟩ := h5 fun _ => ⟨0, 0, 0⟩
  obtain ⟨h9, h10⟩ := counting_cycles (x := 7) (cs.map Lap.entry) rfl (by decide) h8
  rw [List.length_map] at h9 h10
  rcases h6 with ⟨h11, h12, -⟩ | ⟨hlt, -, -, e, a, us, hi, -, -, -, -, h13⟩
  · refine ⟨w1, cs, h11, ?_, (h7 _ rfl).trans h9⟩
    have hna : ∀ c : Lap, asked (fun _ => false) c.sample 1 = false := fun c => by simp [asked]
    have : (fun c : Lap => c.overdue jolted 100 || asked (fun _ => false) c.sample 1) = fun c => c.overdue jolted 100 := funext fun c => by rw [hna, Bool.or_false]
    rw [← this]
    exact h12
  · have h14 := (counting_cycle (e := (a, us)) (k := 1) (field := supply) (zone := jolted.localtime) (rest := fun _ => ⟨0, 0, 0⟩) h9).1
    rw [(successor h10).1] at h14
    exact absurd (h14.symm.trans (h13 _)) (by rw [decide_eq_true (by omega)]; decide)

/-- `D0 + 1 to D1`. -/
def offset : Network := net [[ins .ADD [op .D 0, op .NONE 1, op .D 1]], [ins .MULTI []], [ins .MULTI []]]

theorem offset_formed : Formed (ctx [offset]) where
  count := by decide
  nets := by
    intro n hn
    have hn : n < 1 := hn
    match n, hn with
    | 0, _ => exact ⟨_, rfl, rfl, fun _ => ⟨rfl, by decide, by decide, by decide, fun r c hr hc => by
        have hr : r < 3 := hr
        have hc : c < 1 := hc
        match r, c, hr, hc with
        | 0, 0, _, _ => exact ⟨_, rfl, ⟨_, rfl, by decide, .inr (.inr (.inr ⟨_, rfl, rfl⟩))⟩, ⟨_, rfl, by decide, .inl rfl⟩, _, rfl, rfl⟩
        | 1, 0, _, _ | 2, 0, _, _ => exact ⟨_, rfl, trivial⟩⟩⟩

theorem offset_kept (m : Image) (e : Nat × List Reading) (rest : Nat → Reading) (h : m (.D 0) = some 7) :
    (computed 1 supply wiredUp.localtime [] [offset] rest m e).sure = true ∧ turn 1 supply wiredUp.localtime [] [offset] rest m e (.D 0) = some 7 := by
  have e1 : ∀ s : State, Logic.program [offset] s = ⟨(simple s.reg true (ins .ADD [op .D 0, op .NONE 1, op .D 1])).1, s.time,
      s.sure && defined s.reg true (ins .ADD [op .D 0, op .NONE 1, op .D 1])⟩ := fun _ => rfl
  unfold turn computed
  rw [e1]
  have h' : calendar (wiredUp.localtime (e.1 + 1)) [] (acquire 1 (fun n => supply (e.1 + n)) (recall sampled m)) (.D 0) = some 7 := h
  generalize calendar (wiredUp.localtime (e.1 + 1)) [] (acquire 1 (fun n => supply (e.1 + n)) (recall sampled m)) = m' at h'
  constructor
  · show narrow ((((m' (.D 0)).bind fun x => some (BitVec.ofNat 32 x)).getD 0).toInt + 1) = true
    rw [h']
    decide
  · show put m' (op .D 1) (.ofInt 32 ((now m' (op .D 0)).toInt + 1)) (.D 0) = _
    unfold put
    rw [if_neg fun hh => by cases hh.2.1]
    exact h'

/-- The hypotheses of `C95_safe` can be met: D0 keeps its content, so that the sum never overflows. -/
example : ∃ w', task wiredUp 1000000 ⟨ctx [offset], 0, []⟩ = .ok (.running, w') ∧ load w'.ctx (.D 0) = some 7 := by
  have ha : Alike (ctx [offset]) (ctx [offset]) := ⟨fits_of rfl, rfl, fun _ => rfl, rfl, rfl, rfl, rfl, rfl⟩
  obtain ⟨w', m, h1, h2, h3⟩ := C95_safe (w := ⟨ctx [offset], 0, []⟩) offset_formed ha.fits
    (fun n _ h _ => match n with | 0 => ⟨0, rfl, rfl⟩ | _ + 1 => by cases h) (field := supply) wired_plugged (jobs := []) (.inl ⟨rfl, rfl⟩) rfl
    (fun net hn _ => by
      rw [List.mem_singleton.1 hn]
      exact ⟨diagram_of (by decide), by decide, .inl fun _ _ => rfl⟩) ⟨ha, flags_demo [offset], rfl, rfl, rfl⟩ (fun _ _ _ _ h => by cases h)
    ⟨rfl, fun n hn => by cases Nat.lt_one_iff.1 hn; rfl, fun n hn => by cases Nat.lt_one_iff.1 hn; rfl, fun _ => rfl, fun _ => rfl⟩ ⟨fun l h => by cases h; decide, fun l h => by cases h; decide⟩
    (fun h => by have := h.one; simp [ctx, at?] at this) ⟨by decide, by decide⟩ rfl rfl
    (fun n _ => match n with | 0 => ⟨over_self _, over_self _⟩ | _ + 1 => ⟨rfl, rfl⟩) 1000000 (by decide) (fun m => m (.D 0) = some 7) rfl offset_kept
  exact ⟨w', h1, (h3 _ rfl).trans h2⟩

/-- The hypotheses of `C94_safe` and `C94_doomed` can be met: the same controller is defined for 2³² - 1 cycles and divides by zero in the next. -/
example (n : Nat) : (n < 2^32 → ∃ w', task wiredUp n ⟨ctx [offset], 0, []⟩ = .ok (.running, w')) ∧
    (2^32 ≤ n → task wiredUp n ⟨ctx [offset], 0, []⟩ = .error .divZero) := by
  have ha : Alike (ctx [offset]) (ctx [offset]) := ⟨fits_of rfl, rfl, fun _ => rfl, rfl, rfl, rfl, rfl, rfl⟩
  have key := C94_safe (w := ⟨ctx [offset], 0, []⟩) offset_formed ha.fits
    (fun n _ h _ => match n with | 0 => ⟨0, rfl, rfl⟩ | _ + 1 => by cases h) (field := supply) wired_plugged (jobs := []) (.inl ⟨rfl, rfl⟩) rfl
    (fun net hn _ => by
      rw [List.mem_singleton.1 hn]
      exact ⟨diagram_of (by decide), by decide, .inl fun _ _ => rfl⟩) ⟨ha, flags_demo [offset], rfl, rfl, rfl⟩ (fun _ _ _ _ h => by cases h)
    ⟨rfl, fun n hn => by cases Nat.lt_one_iff.1 hn; rfl, fun n hn => by cases Nat.lt_one_iff.1 hn; rfl, fun _ => rfl, fun _ => rfl⟩ ⟨fun l h => by cases h; decide, fun l h => by cases h; decide⟩
    (fun h => by have := h.one; simp [ctx, at?] at this) ⟨by decide, by decide⟩ rfl rfl
    (fun n _ => match n with | 0 => ⟨over_self _, over_self _⟩ | _ + 1 => ⟨rfl, rfl⟩) n (fun m => m (.D 0) = some 7) rfl offset_kept
  rw [show (ctx [offset]).scan.scanCount.toNat = 0 from rfl, Nat.zero_add] at key
  exact key

end Props

end Ladder
