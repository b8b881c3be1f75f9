import Verif.Lemmas.HeapSelfTest
import Verif.Props.Teardown

/-
C97: the test of the instructions and the heap.
-/

set_option autoImplicit false

namespace Ladder.Props

open Ladder.Heap

theorem fits_sound {h : Store} {B : Bag} (f : Fits h B) : h.Sound := by
  refine ⟨List.nodup_iff_count.2 fun a => ?_, fun a ha => ?_⟩
  · rw [f.live]; exact f.once a
  · by_cases hlt : a < h.next
    · exact hlt
    · have h0 := f.fresh a (by omega)
      have h1 := f.live a
      have := List.count_pos_iff.2 ha
      omega

/-- The body of a test of the suite. -/
def Fine (steps : List Heap.SelfTest.Step) : Prop :=
  ∀ (p : Policy) (x : Heap.Ctx) (h : Store) (R : Bag), CtxOk x True → Heap.SelfTest.Tab x 1 none → Heap.SelfTest.Tab x 2 none →
    Fits h (fun a => ctxBag x a + R a) → Runs (Heap.SelfTest.body p steps x) h fun _ h' => Fits h' R

theorem fine_tests : ∀ t ∈ Heap.SelfTest.tests, Fine t := by
  intro t ht
  unfold Heap.SelfTest.tests at ht
  rcases List.mem_append.1 ht with ht | ht
  · obtain ⟨l, -, rfl⟩ := List.mem_map.1 ht
    intro p x h R ok _ _ f
    refine Heap.SelfTest.body_runs p _ x h R (fun s hs => ?_) ok f
    obtain ⟨s', -, e⟩ := List.mem_filterMap.1 hs
    cases s' <;> simp only [Heap.SelfTest.ofStep, Option.some.injEq, reduceCtorEq] at e <;> subst e <;> trivial
  · have : t = Heap.SelfTest.testTMOVE := by simpa using ht
    subst this
    intro p x h R ok t1 t2 f
    exact Heap.SelfTest.tmove_runs p ok t1 t2 f

theorem test_runs {p : Policy} (hs : ∀ k, p.shrink k = true) {steps : List Heap.SelfTest.Step} (fine : Fine steps) {h : Store} {R : Bag}
    (f : Fits h R) :
    Runs (Heap.SelfTest.test p steps) h fun ok h' =>
      (∃ L : Bag, Fits h' fun a => L a + R a) ∧
      (ok = true → ∃ x h1 b, Heap.ctxInit p {} Heap.SelfTest.args h = .ok ((true, x), h1) ∧ x.slot .cron = some b ∧
        Fits h' fun a => one b a + R a) ∧
      ((∀ k, p.grow k = true) → ok = true) := by
  unfold Heap.SelfTest.test
  obtain ⟨⟨ok, x⟩, h1, e1, ⟨⟨hi, hb⟩, hj⟩, hg⟩ := (((ctxInit_runs p {} (a := Heap.SelfTest.args) (by decide) f).post
    (ctxInit_blank p {} (a := Heap.SelfTest.args) rfl)).post (ctxInit_jobs p {} Heap.SelfTest.args)).post
    (Q := _) (P := fun r => (∀ k, p.grow k = true) → r.1 = true) (fun h r h' e hp => ctxInit_granted hp {} (by decide) h r h' e)
  refine Runs.bind (Q := fun r h' => r = (ok, x) ∧ h' = h1) ⟨_, _, e1, rfl, rfl⟩ ?_
  rintro ⟨_, _⟩ h' ⟨e, rfl⟩
  cases e
  rcases hi with ⟨e, okx, -, -, -, -, -, -, fx⟩ | ⟨e, -, -, -, -, lost0, lost1, -⟩
  · have e : ok = true := e
    subst e
    have okx := okx rfl
    obtain ⟨hj, hr0, hw0⟩ := hj rfl
    have hb := hb rfl
    simp only [Bool.not_true, Bool.false_eq_true, if_false]
    obtain ⟨b, hcron⟩ := Option.isSome_iff_exists.1 okx.cronSome
    refine ((clearProgram_runs okx.nets (R := fun a => slotBag x.slot a + (ptrBag x.jobs a + R a))
      (fx.congr fun a => by simp only [ctxBag]; omega)).post (clearProgram_blank x)).bind ?_
    rintro y h2 ⟨⟨⟨nets, rfl, hp, hn⟩, f2⟩, hblank⟩
    have oky : CtxOk { x with nets := nets } := by
      refine ⟨?_, okx.pos, hn, okx.m, okx.c, okx.t, okx.foreign, okx.reads, okx.writes, okx.cron⟩
      have := okx.present
      obtain ⟨bx, hbx⟩ := Option.isSome_iff_exists.1 this
      rw [hbx] at hp
      show nets.isSome
      cases nets with
      | none => simp [ptrOf] at hp
      | some _ => rfl
    have f2 : Fits h2 fun a => ctxBag { x with nets := nets } a + R a := f2.congr fun a => by simp only [ctxBag]; omega
    have tb : ∀ n, n < 3 → ({ x with nets := nets } : Heap.Ctx).cell n 0 0 = some {} :=
      fun n hn => hblank n 0 0 (hb n 0 0 hn (by decide) (by decide))
    refine ((((addRead_runs p hs true oky f2).post (addRead_kept p true _)).post
      (P := fun r => (∀ k, p.grow k = true) → r.1 = true) (fun h r h' e hp => addRead_granted (x := { x with nets := nets }) hp hr0 h r h' e))).bind ?_
    rintro ⟨o, y⟩ h3 ⟨⟨⟨oky, f3⟩, ⟨⟨k1, k2, k3⟩, k4⟩⟩, kg⟩
    cases o with
    | false => exact .pure ⟨⟨_, f3⟩, fun h => (by cases h), kg⟩
    | true =>
    simp only [Bool.not_true, Bool.false_eq_true, if_false]
    refine ((((addWrite_runs p hs true oky f3).post (addWrite_kept p true _)).post
      (P := fun r => (∀ k, p.grow k = true) → r.1 = true)
      (fun h r h' e hp => addWrite_granted hp (k4.trans hw0) h r h' e))).bind ?_
    rintro ⟨o, z⟩ h4 ⟨⟨⟨okz, f4⟩, ⟨l1, l2, l3⟩⟩, lg⟩
    cases o with
    | false => exact .pure ⟨⟨_, f4⟩, fun h => (by cases h), lg⟩
    | true =>
    simp only [Bool.not_true, Bool.false_eq_true, if_false] at l1 l2 l3 k1 k2 k3 ⊢
    have zc : z.slot .cron = some b := by rw [l1, k1]; exact hcron
    have zj : z.jobs = none := by rw [l2, k2]; exact hj
    have zn : z.nets = nets := by rw [l3, k3]
    have okn : CtxOk (z.set .cron none) True :=
      ⟨okz.present, okz.pos, okz.nets, okz.m, okz.c, okz.t, okz.foreign, okz.reads, okz.writes, .inr ⟨trivial, zj⟩⟩
    have tz : ∀ n, n < 3 → Heap.SelfTest.Tab (z.set .cron none) n none := by
      intro n hn
      refine ⟨{}, ?_, rfl⟩
      have := tb n hn
      simp only [Heap.Ctx.cell, Heap.Ctx.set, zn] at this ⊢
      exact this
    have f5 : Fits h4 fun a => ctxBag (z.set .cron none) a + (one b a + R a) := f4.congr fun a => by
      have := ctxBag_out z .cron a
      rw [zc] at this
      simp only [ptrBag] at this
      show ctxBag z a + R a = _
      omega
    refine (fine p _ h4 _ okn (tz 1 (by decide)) (tz 2 (by decide)) f5).bind ?_
    rintro _ h5 f6
    exact .pure ⟨⟨_, f6⟩, fun _ => ⟨_, _, b, e1, hcron, f6⟩, fun _ => rfl⟩
  · have e : ok = false := e
    subst e
    refine .pure ⟨?_, fun h => (by cases h), hg⟩
    by_cases g1 : p.grow h.tries = true
    · by_cases g2 : p.grow (h.tries + 1) = true
      · obtain ⟨L, -, -, fl⟩ := lost1 rfl g1 g2
        exact ⟨L, fl⟩
      · exact ⟨fun _ => 0, (lost0 (.inr (.inr (by simpa using g2)))).congr fun a => by simp⟩
    · exact ⟨fun _ => 0, (lost0 (.inr (.inl (by simpa using g1)))).congr fun a => by simp⟩

theorem suite_runs {p : Policy} (hs : ∀ k, p.shrink k = true) : ∀ (ts : List (List Heap.SelfTest.Step)), (∀ t ∈ ts, Fine t) →
    ∀ (h : Store) (R : Bag), Fits h R → Runs (Heap.SelfTest.suite p ts) h fun n h' =>
      (∃ L : Bag, Fits h' fun a => L a + R a) ∧
      ((∀ k, p.grow k = true) → n = ts.length ∧ ∃ bs : List Nat, bs.length = ts.length ∧ Fits h' fun a => bs.count a + R a)
  | [], _, h, R, f => .pure ⟨⟨fun _ => 0, f.congr fun a => by simp⟩, fun _ => ⟨rfl, [], rfl, f.congr fun a => by simp⟩⟩
  | t :: ts, ht, h, R, f => by
    unfold Heap.SelfTest.suite
    refine (test_runs hs (ht t (by simp)) f).bind ?_
    rintro o h1 ⟨⟨L, fl⟩, one1, all1⟩
    cases o with
    | false =>
      refine (suite_runs hs ts (fun t' h' => ht t' (by simp [h'])) h1 _ fl).bind ?_
      rintro n h2 ⟨⟨L', fl'⟩, -⟩
      refine .pure ⟨⟨fun a => L' a + L a, fl'.congr fun a => by simp only; omega⟩, fun hp => ?_⟩
      cases all1 hp
    | true =>
      obtain ⟨x, h', b, -, -, fb⟩ := one1 rfl
      refine (suite_runs hs ts (fun t' h' => ht t' (by simp [h'])) h1 _ fb).bind ?_
      rintro n h2 ⟨⟨L', fl'⟩, all2⟩
      refine .pure ⟨⟨fun a => L' a + one b a, fl'.congr fun a => by simp only; omega⟩, fun hp => ?_⟩
      obtain ⟨e, bs, hbs, fbs⟩ := all2 hp
      refine ⟨by simp [e], b :: bs, by simp [hbs], fbs.congr fun a => ?_⟩
      rw [List.count_cons]
      simp only [one, beq_iff_eq]
      by_cases hab : b = a
      · subst hab; simp; omega
      · simp [hab, Ne.symm hab]

theorem perm_of_count {h' : Store} {bs l : List Nat} (f : Fits h' fun a => bs.count a + l.count a) : h'.live.Perm (bs ++ l) :=
  List.perm_iff_count.2 fun a => by rw [f.live, List.count_append]

/-- **C97 (no misuse), the part of the claim that holds.**  Whatever requests are refused (a block may always be made smaller), the test of the instructions never
dereferences NULL, never uses or frees a block that is not live, and releases no block that was live before. -/
theorem C97_no_misuse_partial {p : Policy} (hs : ∀ k, p.shrink k = true) {h : Store} (s : h.Sound) :
    ∃ n h', Heap.SelfTest.suite p Heap.SelfTest.tests h = .ok (n, h') ∧ h'.Sound ∧ ∀ b ∈ h.live, b ∈ h'.live := by
  obtain ⟨n, h', e, ⟨L, f⟩, -⟩ := suite_runs hs _ fine_tests h _ (sound_fits s)
  refine ⟨n, h', e, fits_sound f, fun b hb => ?_⟩
  have h1 := f.live b
  have h2 := List.count_pos_iff.2 hb
  exact List.count_pos_iff.1 (by omega)

/-- **C97 (one test).**  A test of the suite whose `test_init` succeeds ends with all that was live before and one more block, the
one that `ladder_ctx_init` allocated for the scheduled jobs - also if requests are refused later in the test. -/
theorem C97_test {p : Policy} (hs : ∀ k, p.shrink k = true) {t : List Heap.SelfTest.Step} (ht : t ∈ Heap.SelfTest.tests) {h h' : Store}
    (s : h.Sound) (e : Heap.SelfTest.test p t h = .ok (true, h')) :
    ∃ x h1 b, Heap.ctxInit p {} Heap.SelfTest.args h = .ok ((true, x), h1) ∧ x.slot .cron = some b ∧ b ∉ h.live ∧
      h'.live.Perm (b :: h.live) := by
  obtain ⟨ok, h2, e2, -, one1, -⟩ := test_runs hs (fine_tests t ht) (sound_fits s)
  rw [e] at e2
  cases e2
  obtain ⟨x, h1, b, e1, hc, f⟩ := one1 rfl
  refine ⟨x, h1, b, e1, hc, fun hb => ?_, ?_⟩
  · have h1 := f.once b
    have h2 := List.count_pos_iff.2 hb
    have h3 := one_self b
    omega
  · refine perm_of_count (bs := [b]) (f.congr fun a => ?_)
    simp only [one, List.count_cons, List.count_nil, beq_iff_eq]
    by_cases hab : b = a
    · subst hab; simp
    · simp [hab, Ne.symm hab]

/-- **C97 (the suite).**  With every request granted, the 37 tests leave exactly 37 blocks behind. -/
theorem C97_suite {p : Policy} (hp : ∀ k, p.grow k = true) (hs : ∀ k, p.shrink k = true) {h : Store} (s : h.Sound) :
    ∃ h' bs, Heap.SelfTest.suite p Heap.SelfTest.tests h = .ok (37, h') ∧ bs.length = 37 ∧ bs.Nodup ∧ (∀ b ∈ bs, b ∉ h.live) ∧
      h'.live.Perm (bs ++ h.live) := by
  obtain ⟨n, h', e, -, all⟩ := suite_runs hs _ fine_tests h _ (sound_fits s)
  obtain ⟨en, bs, hl, f⟩ := all hp
  have len : Heap.SelfTest.tests.length = 37 := rfl
  rw [len] at en hl
  subst en
  refine ⟨h', bs, e, hl, List.nodup_iff_count.2 fun a => ?_, fun b hb hb' => ?_, perm_of_count f⟩
  · have := f.once a; omega
  · have h1 := f.once b
    have h2 := List.count_pos_iff.2 hb
    have h3 := List.count_pos_iff.2 hb'
    omega

/-- The claim: with every request granted, the test of the instructions ends with the blocks it began with. -/
def GivesBack : Prop :=
  ∀ (p : Policy), (∀ k, p.grow k = true) → (∀ k, p.shrink k = true) → ∀ (h h' : Store) (n : Nat), h.Sound →
    Heap.SelfTest.suite p Heap.SelfTest.tests h = .ok (n, h') → h'.live.Perm h.live

/-- **C97 (refuted).**  The test of the instructions does not give back all it allocates. -/
theorem C97_refuted : ¬ GivesBack := by
  intro c
  have s : ({ live := [], next := 0, tries := 0 } : Store).Sound := ⟨by simp, by simp⟩
  obtain ⟨h', bs, e, hl, -, -, hp⟩ := C97_suite (p := ⟨fun _ => true, fun _ => true⟩) (fun _ => rfl) (fun _ => rfl) s
  have h1 := (c _ (fun _ => rfl) (fun _ => rfl) _ _ _ s e).length_eq
  have h2 := hp.length_eq
  rw [List.length_append, h1, hl] at h2
  simp at h2

/-- The theorem about one test at work: the test of TMOVE, with its second table (the 42nd request) refused, and with everything granted. -/
def leftBy (k : Nat) : Option (Bool × Nat) :=
  match Heap.SelfTest.test ⟨fun i => i ≠ k, fun _ => true⟩ Heap.SelfTest.testTMOVE {} with
  | .ok (ok, h) => some (ok, h.live.length)
  | .error _ => none

example : leftBy 41 = some (true, 1) := by decide +kernel
example : leftBy 1000 = some (true, 1) := by decide +kernel
/-- If the table of output modules cannot be allocated, the whole context stays behind. -/
example : leftBy 39 = some (false, 37) := by decide +kernel

end Ladder.Props
