import Verif.Lemmas.HeapPlain
import Verif.Lemmas.JsonDoc
import Verif.Model.HeapMain
import Verif.Model.App
import Verif.Props.HeapSelfTest

/-
C99: the application that comes with the library and the heap.
-/

set_option autoImplicit false

namespace Ladder.Props

open Ladder.Heap

/-! ### What the steps of the setup leave alone -/

theorem ctxInit_foreigns (p : Policy) (old : Heap.Ctx) (a : Heap.InitArgs) :
    Post (Heap.ctxInit p old a) fun r => r.1 = true → r.2.foreigns = 0 := by
  unfold Heap.ctxInit
  split
  · exact .pure fun h => by cases h
  · refine Post.bind (Q := fun r => r.2.foreigns = 0) ?_ ?_
    · unfold initNets
      split
      · refine .skip fun q => ?_
        cases q with
        | none => exact .pure rfl
        | some b => exact .skip fun r => .pure rfl
      · exact .pure rfl
    · rintro ⟨ok, x⟩ hx
      have no : ∀ y : Heap.Ctx, Post (cleanup y) fun r => r.1 = true → r.2.foreigns = 0 :=
        fun y => .skip fun _ => .pure fun h => by cases h
      cases ok with
      | false => exact no x
      | true =>
        simp only [Bool.not_true, Bool.false_eq_true, if_false]
        refine (newSlots_jobs p initSlots x).bind fun r hr => ?_
        obtain ⟨ok, y⟩ := r
        cases ok with
        | false => exact no y
        | true =>
          obtain ⟨g, e⟩ := hr
          dsimp only at e
          subst e
          exact .pure fun _ => hx

theorem addModule_foreigns (p : Policy) (tb : Table) (n : Nat) (hook : Bool) (x : Heap.Ctx) :
    Post (addModule p tb n hook x) fun r => r.2.foreigns = x.foreigns := by
  unfold addModule
  refine .skip fun q => ?_
  cases q with
  | none => exact .pure rfl
  | some b =>
    refine .skip fun q => ?_
    cases q with
    | none => exact .skip fun _ => .pure rfl
    | some b =>
      refine .skip fun q => ?_
      cases q with
      | none => exact .skip fun _ => .skip fun _ => .pure rfl
      | some b =>
        refine .skip fun _ => .skip fun _ => .skip fun _ => ?_
        cases hook with
        | true => exact .pure rfl
        | false => exact .skip fun _ => .skip fun _ => .skip fun _ => .pure rfl

theorem addRead_foreigns (p : Policy) (hook : Bool) (x : Heap.Ctx) : Post (Heap.addRead p hook x) fun r => r.2.foreigns = x.foreigns := by
  unfold Heap.addRead
  split
  · exact .pure rfl
  · refine (addModule_foreigns p readTable x.reads hook x).bind fun r hr => ?_
    obtain ⟨ok, y⟩ := r
    cases ok <;> exact .pure hr

theorem addWrite_foreigns (p : Policy) (hook : Bool) (x : Heap.Ctx) : Post (Heap.addWrite p hook x) fun r => r.2.foreigns = x.foreigns := by
  unfold Heap.addWrite
  split
  · exact .pure rfl
  · refine (addModule_foreigns p writeTable x.writes hook x).bind fun r hr => ?_
    obtain ⟨ok, y⟩ := r
    cases ok <;> exact .pure hr

theorem cronInit_kept (p : Policy) (qty : Nat) {x : Heap.Ctx} (hj : x.jobs = none) :
    Post (Heap.cronInit p qty x) fun r => r.1 = true ∧ r.2.nets = x.nets ∧ r.2.foreigns = x.foreigns := by
  unfold Heap.cronInit
  refine .skip fun _ => ?_
  rw [hj]
  refine .skip fun q => ?_
  split
  · exact .skip fun _ => .pure ⟨rfl, rfl, rfl⟩
  · exact .pure ⟨rfl, rfl, rfl⟩

theorem addForeign_nets (p : Policy) (qty : Nat) (x : Heap.Ctx) : Post (Heap.addForeign p qty true x) fun r => r.2.nets = x.nets := by
  have fin : ∀ q : Ptr, Post (match q with
      | none => pure (false, x)
      | some b => do
        touch (some b)
        pure (true, { x.set .foreign (some b) with foreigns := x.foreigns + 1 }) : H (Bool × Heap.Ctx)) fun r => r.2.nets = x.nets := by
    intro q
    cases q with
    | none => exact .pure rfl
    | some b => exact .skip fun _ => .pure rfl
  unfold Heap.addForeign
  split
  · exact .pure rfl
  · split
    · exact .pure rfl
    · split
      · exact .skip fun q => fin q
      · exact .skip fun q => fin q

theorem addForeign_granted {p : Policy} (hp : ∀ k, p.grow k = true) {x : Heap.Ctx} (hx : x.foreigns = 0) :
    Post (Heap.addForeign p 5 true x) fun r => r.1 = true := by
  unfold Heap.addForeign
  rw [if_neg (by omega)]
  simp only [Bool.not_true, Bool.false_eq_true, if_false]
  rw [if_pos hx]
  refine (alloc_post hp).bind fun q hq => ?_
  cases q with
  | none => cases hq
  | some b => exact .skip fun _ => .pure rfl

/-- Everything about the setup. -/
theorem setUp_runs {s : Heap.App.Setting} (hs : ∀ k, s.others.shrink k = true) (hc : ∀ k, s.jobs.grow k = true) {h : Store} {R : Bag}
    (f : Fits h R) :
    Runs (Heap.App.setUp s) h fun r h' =>
      (∃ L : Bag, Fits h' fun a => L a + R a) ∧
      (r.1 = true → CtxOk r.2 ∧ WholeCtx r.2 ∧ PlainCtx r.2 ∧ Fits h' fun a => ctxBag r.2 a + R a) ∧
      ((∀ k, s.others.grow k = true) → r.1 = true) := by
  unfold Heap.App.setUp
  refine (((((ctxInit_runs s.others {} (a := Heap.App.args) (by decide) f).post (ctxInit_whole s.others {} Heap.App.args)).post
    (ctxInit_plain s.others {} Heap.App.args)).post ((ctxInit_jobs s.others {} Heap.App.args).both (ctxInit_foreigns s.others {} Heap.App.args))).post
    (P := fun r => (∀ k, s.others.grow k = true) → r.1 = true)
    (fun h r h' e hp => ctxInit_granted hp {} (a := Heap.App.args) (by decide) h r h' e)).bind ?_
  rintro ⟨ok, x⟩ h1 ⟨⟨⟨⟨hi, hw⟩, hpl⟩, ⟨hj, hf⟩⟩, hg⟩
  rcases hi with ⟨e, okx, -, -, -, -, -, -, fx⟩ | ⟨e, -, -, -, -, lost0, lost1, -⟩
  · have e : ok = true := e
    subst e
    have okx := okx rfl
    have hw := hw rfl
    have hpl : PlainCtx x := hpl rfl
    obtain ⟨hj, hr0, hw0⟩ := hj rfl
    have hf : x.foreigns = 0 := hf rfl
    simp only [Bool.not_true, Bool.false_eq_true, if_false]
    refine (((((addRead_runs s.others hs true okx fx).post (addRead_kept s.others true _)).post (addRead_whole s.others true hw)).post
      (addRead_foreigns s.others true x)).post
      (P := fun r => (∀ k, s.others.grow k = true) → r.1 = true) (fun h r h' e hp => addRead_granted (x := x) hp hr0 h r h' e)).bind ?_
    rintro ⟨o, y⟩ h2 ⟨⟨⟨⟨⟨oky, fy⟩, ⟨⟨-, k2, k3⟩, k4⟩⟩, hwy⟩, hfy⟩, hgy⟩
    cases o with
    | false => exact .pure ⟨⟨_, fy⟩, fun h => (by cases h), hgy⟩
    | true =>
    simp only [Bool.not_true, Bool.false_eq_true, if_false] at oky fy k2 k3 k4 hwy hfy ⊢
    refine (((((addWrite_runs s.others hs true oky fy).post (addWrite_kept s.others true _)).post (addWrite_whole s.others true hwy)).post
      (addWrite_foreigns s.others true y)).post
      (P := fun r => (∀ k, s.others.grow k = true) → r.1 = true)
      (fun h r h' e hp => addWrite_granted (x := y) hp (k4.trans hw0) h r h' e)).bind ?_
    rintro ⟨o, z⟩ h3 ⟨⟨⟨⟨⟨okz, fz⟩, ⟨-, l2, l3⟩⟩, hwz⟩, hfz⟩, hgz⟩
    cases o with
    | false => exact .pure ⟨⟨_, fz⟩, fun h => (by cases h), hgz⟩
    | true =>
    simp only [Bool.not_true, Bool.false_eq_true, if_false] at okz fz l2 l3 hwz hfz ⊢
    have zj : z.jobs = none := by rw [l2, k2]; exact hj
    refine (((cronInit_runs s.jobs 3 okz fz fun _ _ => hc _).post (cronInit_kept s.jobs 3 zj)).post
      (cronInit_whole s.jobs 3 hwz)).bind ?_
    rintro ⟨o, v⟩ h4 ⟨⟨⟨okv, fv⟩, ⟨ov, m1, m2⟩⟩, hwv⟩
    have ov : o = true := ov
    subst ov
    simp only [Bool.not_true, Bool.false_eq_true, if_false] at okv fv m1 m2 hwv ⊢
    obtain ⟨⟨o, u⟩, h5, e5, ⟨⟨⟨oku, fu⟩, hnu⟩, hwu⟩, hgu⟩ :=
      ((((addForeign_runs s.others 5 true okv fv).post (addForeign_nets s.others 5 v)).post (addForeign_whole s.others 5 true hwv)).post
      (P := fun r => (∀ k, s.others.grow k = true) → r.1 = true)
      (fun h r h' e hp => addForeign_granted (x := v) hp (by rw [m2, hfz, hfy]; exact hf) h r h' e))
    refine ⟨_, _, e5, ⟨_, fu⟩, fun _ => ⟨oku, hwu, ?_, fu⟩, hgu⟩
    have hnu : u.nets = v.nets := hnu
    show Holds PlainNet u.nets
    rw [hnu, m1, l3, k3]
    exact hpl
  · have e : ok = false := e
    subst e
    refine .pure ⟨?_, fun h => (by cases h), hg⟩
    by_cases g1 : s.others.grow h.tries = true
    · by_cases g2 : s.others.grow (h.tries + 1) = true
      · obtain ⟨L, -, -, fl⟩ := lost1 rfl g1 g2
        exact ⟨L, fl⟩
      · exact ⟨fun _ => 0, (lost0 (.inr (.inr (by simpa using g2)))).congr fun a => by simp⟩
    · exact ⟨fun _ => 0, (lost0 (.inr (.inl (by simpa using g1)))).congr fun a => by simp⟩

/-- What is asked of the allocator and of the program file: a block may always be made smaller, the table of scheduled jobs and the tables of rows are
granted, the file has the rows it announces and no texts. -/
structure Mild (s : Heap.App.Setting) : Prop where
  shrink : ∀ k, s.others.shrink k = true
  jobs : ∀ k, s.jobs.grow k = true
  rows : ∀ k, s.rows.grow k = true
  firm : FirmFile s.host s.file
  wordless : wordlessFile s.file = true

theorem pure_does {α : Type} (P : α → Prop) (B : α → Bag) : Does (fun x : α => (pure x : H α)) P B (fun _ => P) B :=
  fun _ hx _ _ hh => .pure ⟨hx, hh⟩

theorem drawNet_does (p : Policy) : Does (Heap.App.drawNet p) NetOk netBag (fun _ => NetOk) netBag := by
  intro x hx h R hh
  unfold Heap.App.drawNet
  split
  · exact .pure ⟨hx, hh⟩
  · refine (alloc_runs p hh).bind ?_
    rintro q h1 ⟨f1, -, -⟩
    cases q with
    | none => exact .pure ⟨hx, f1.congr fun a => by simp [ptrBag]⟩
    | some b =>
      refine Runs.keep (touch_runs f1 (b := b) (by have := one_self b; simp only [ptrBag]; omega)) ?_
      refine Runs.bind (Q := fun cells h' => ArrOk x.rows (RowOk x.cols) cells ∧
        Fits h' fun a => arrBag rowBag cells a + (one b a + R a)) ?_ ?_
      · unfold Heap.App.readCells
        split
        · exact .pure ⟨hx, f1.congr fun a => by simp only [ptrBag, netBag]; omega⟩
        · have hr : Does (fun row => each pure x.cols row) (RowOk x.cols) rowBag (fun _ => RowOk x.cols) rowBag := by
            intro row hrow h R hh
            exact (each_does (pure_does CellOk cellBag) x.cols row hrow h R hh).mono fun y h' hy => ⟨hy.1.1, hy.2⟩
          exact (each_does hr x.rows x.cells hx h1 (fun a => one b a + R a)
            (f1.congr fun a => by simp only [ptrBag, netBag]; omega)).mono fun y h' hy => ⟨hy.1.1, hy.2⟩
      · rintro cells h2 ⟨ok2, f2⟩
        refine (free_runs (q := some b) (R := fun a => arrBag rowBag cells a + R a)
          (f2.congr fun a => by simp only [ptrBag]; omega)).bind fun _ h3 f3 => ?_
        exact .pure ⟨ok2, f3⟩

/-- `ladder_print` leaves the context in order and gives back its buffers. -/
theorem draw_runs (p : Policy) {x : Heap.Ctx} (ok : CtxOk x) {h : Store} {R : Bag} (f : Fits h fun a => ctxBag x a + R a) :
    Runs (Heap.App.draw p x) h fun y h' => CtxOk y ∧ Fits h' fun a => ctxBag y a + R a := by
  unfold Heap.App.draw
  refine (each_does (drawNet_does p) x.networks x.nets ok.nets h (fun a => slotBag x.slot a + (ptrBag x.jobs a + R a))
    (f.congr fun a => by simp only [ctxBag]; omega)).bind ?_
  rintro nets h1 ⟨⟨hn, hp⟩, f1⟩
  refine .pure ⟨⟨?_, ok.pos, hn, ok.m, ok.c, ok.t, ok.foreign, ok.reads, ok.writes, ok.cron⟩, f1.congr fun a => by simp only [ctxBag]; omega⟩
  obtain ⟨bx, hbx⟩ := Option.isSome_iff_exists.1 ok.present
  rw [hbx] at hp
  show nets.isSome
  cases nets with
  | none => simp [ptrOf] at hp
  | some _ => rfl

theorem work_runs {s : Heap.App.Setting} (m : Mild s) {x : Heap.Ctx} (ok : CtxOk x) (hw : WholeCtx x) (hp : PlainCtx x) {h : Store} {R : Bag}
    (f : Fits h fun a => ctxBag x a + R a) :
    Runs (Heap.App.work s x) h fun y h' => CtxOk y ∧ Leaves (∀ k, s.names.grow k = true) h' fun a => ctxBag y a + R a := by
  unfold Heap.App.work
  refine (validateFile_runs s.others s.verdict s.file s.schema f).bind fun o h1 f1 => ?_
  cases o with
  | false => exact .pure ⟨ok, f1.leaves⟩
  | true =>
  simp only [Bool.not_true, Bool.false_eq_true, if_false]
  refine (((loadFile_runs s.others m.rows m.firm ok f1).post (loadFile_whole s.others s.rows s.host s.file hw)).post
    (loadFile_plain s.others s.rows s.host s.file m.wordless hp)).bind ?_
  rintro ⟨o, y⟩ h2 ⟨⟨⟨⟨oky, -⟩, f2⟩, hwy⟩, hpy⟩
  cases o with
  | false => exact .pure ⟨oky, f2.leaves⟩
  | true =>
  simp only [Bool.not_true, Bool.false_eq_true, if_false] at oky f2 hwy hpy ⊢
  refine (saveFile_runs s.others s.names s.canSave (savable oky hwy hpy.textless) f2).bind ?_
  rintro o h3 ⟨⟨L, hL, f3⟩, -⟩
  cases o with
  | false => exact .pure ⟨oky, L, hL, f3⟩
  | true =>
  simp only [Bool.not_true, Bool.false_eq_true, if_false]
  refine (compactFile_runs s.others s.canCompact s.saved f3).bind fun o h4 f4 => ?_
  cases o with
  | false => exact .pure ⟨oky, L, hL, f4⟩
  | true =>
  simp only [Bool.not_true, Bool.false_eq_true, if_false]
  cases s.valid with
  | false => exact .pure ⟨oky, L, hL, f4⟩
  | true =>
  simp only [Bool.not_true, Bool.false_eq_true, if_false]
  exact (draw_runs s.others oky (R := fun a => L a + R a) (f4.congr fun a => by dsimp only; omega)).mono fun z h5 hz =>
    ⟨hz.1, L, hL, hz.2.congr fun a => by dsimp only; omega⟩

/-- Everything about `main`. -/
theorem main_runs {s : Heap.App.Setting} (m : Mild s) {h : Store} (sd : h.Sound) :
    Runs (Heap.App.main s) h fun st h' => ∃ n h1, Heap.SelfTest.suite s.others Heap.SelfTest.tests h = .ok (n, h1) ∧ h1.Sound ∧
      (∀ b ∈ h.live, b ∈ h1.live) ∧ (∃ L : Bag, Fits h' fun a => L a + h1.live.count a) ∧
      (s.pass = false → st = .failed ∧ h' = h1) ∧
      (st = .released → (∀ k, s.names.grow k = true) → Fits h' fun a => h1.live.count a) ∧
      (s.pass = true → (∀ k, s.others.grow k = true) → st = .released) := by
  unfold Heap.App.main
  obtain ⟨n, h1, e1, s1, k1⟩ := C97_no_misuse_partial m.shrink sd
  refine Runs.bind (Q := fun r h' => r = n ∧ h' = h1) ⟨_, _, e1, rfl, rfl⟩ ?_
  rintro n h1 ⟨rfl, rfl⟩
  have f1 := sound_fits s1
  cases hpass : s.pass with
  | false =>
    exact .pure ⟨_, _, e1, s1, k1, ⟨fun _ => 0, f1.congr fun a => by simp⟩, fun _ => ⟨rfl, rfl⟩, fun e => (by cases e), fun e => (by cases e)⟩
  | true =>
  simp only [Bool.not_true, Bool.false_eq_true, if_false]
  refine (setUp_runs m.shrink m.jobs f1).bind ?_
  rintro ⟨o, x⟩ h2 ⟨lost, up, hg⟩
  cases o with
  | false => exact .pure ⟨_, _, e1, s1, k1, lost, fun e => (by cases e), fun e => (by cases e), fun _ hp => (by cases hg hp)⟩
  | true =>
  simp only [Bool.not_true, Bool.false_eq_true, if_false]
  obtain ⟨okx, hw, hpl, fx⟩ := up rfl
  refine (work_runs m okx hw hpl fx).bind ?_
  rintro y h3 ⟨oky, L, hL, f3⟩
  refine (deinit_runs oky (R := fun a => L a + (h1.live.count a)) (f3.congr fun a => by dsimp only; omega)).bind ?_
  rintro z h4 ⟨-, -, -, -, f4⟩
  exact .pure ⟨_, _, e1, s1, k1, ⟨L, f4⟩, fun e => (by cases e), fun _ hk => f4.congr fun a => by simp [hL hk a], fun _ _ => rfl⟩

/-- **C99 (no misuse), the part of the claim that holds.**  Whatever other requests are refused, whatever the files contain besides and whichever of them can
be written, the application never dereferences NULL, never uses or frees a block that is not live, and releases no block that was live before. -/
theorem C99_no_misuse_partial {s : Heap.App.Setting} (m : Mild s) {h : Store} (sd : h.Sound) :
    ∃ st h', Heap.App.main s h = .ok (st, h') ∧ h'.Sound ∧ ∀ b ∈ h.live, b ∈ h'.live := by
  obtain ⟨st, h', e, n, h1, -, -, k, ⟨L, f⟩, -⟩ := main_runs m sd
  refine ⟨st, h', e, fits_sound f, fun b hb => ?_⟩
  have h1 := f.live b
  have h2 := List.count_pos_iff.2 (k b hb)
  exact List.count_pos_iff.1 (by omega)

/-- **C99 (released).**  If the application comes to its last call and the names of the saved file were granted, exactly those blocks are live that
the test of the instructions has left. -/
theorem C99_released {s : Heap.App.Setting} (m : Mild s) (hk : ∀ k, s.names.grow k = true) {h h' : Store} (sd : h.Sound)
    (e : Heap.App.main s h = .ok (.released, h')) :
    ∃ n h1, Heap.SelfTest.suite s.others Heap.SelfTest.tests h = .ok (n, h1) ∧ h'.live.Perm h1.live := by
  obtain ⟨st, h2, e2, n, h1, e1, -, -, -, -, rel, -⟩ := main_runs m sd
  rw [e] at e2
  cases e2
  have f := rel rfl hk
  exact ⟨n, h1, e1, List.perm_iff_count.2 fun a => f.live a⟩

/-- **C99 (abandoned).**  If `main` gives up after a passed self-test, the heap is left just as the failed step of the setup has left it: nothing is released. -/
theorem C99_abandoned {s : Heap.App.Setting} {h h' : Store} (e : Heap.App.main s h = .ok (.abandoned, h')) :
    ∃ n h1 x, Heap.SelfTest.suite s.others Heap.SelfTest.tests h = .ok (n, h1) ∧ Heap.App.setUp s h1 = .ok ((false, x), h') := by
  unfold Heap.App.main at e
  change H.bind _ _ h = _ at e
  unfold H.bind at e
  cases e1 : Heap.SelfTest.suite s.others Heap.SelfTest.tests h with
  | error u => rw [e1] at e; cases e
  | ok r =>
    obtain ⟨n, h1⟩ := r
    rw [e1] at e
    dsimp only at e
    cases hp : s.pass with
    | false => rw [hp] at e; cases e
    | true =>
      rw [hp] at e
      simp only [Bool.not_true, Bool.false_eq_true, if_false] at e
      change H.bind _ _ h1 = _ at e
      unfold H.bind at e
      cases e2 : Heap.App.setUp s h1 with
      | error u => rw [e2] at e; cases e
      | ok r =>
        obtain ⟨⟨ok, x⟩, h2⟩ := r
        rw [e2] at e
        dsimp only at e
        cases ok with
        | false => cases e; exact ⟨n, h1, x, rfl, e2⟩
        | true =>
          simp only [Bool.not_true, Bool.false_eq_true, if_false] at e
          change H.bind _ _ h2 = _ at e
          unfold H.bind at e
          cases e3 : Heap.App.work s x h2 with
          | error u => rw [e3] at e; cases e
          | ok r =>
            rw [e3] at e
            dsimp only at e
            change H.bind _ _ _ = _ at e
            unfold H.bind at e
            cases e4 : Heap.deinit r.1 r.2 with
            | error u => rw [e4] at e; cases e
            | ok r => rw [e4] at e; cases e

/-- **C99 (all granted).**  With every request granted, whether the test of the instructions passes or not, and however far the application comes with its files,
it ends with exactly 37 blocks more than it began with. -/
theorem C99_all {s : Heap.App.Setting} (m : Mild s) (hp : ∀ k, s.others.grow k = true) (hk : ∀ k, s.names.grow k = true) {h : Store}
    (sd : h.Sound) :
    ∃ h' bs, Heap.App.main s h = .ok (if s.pass then .released else .failed, h') ∧ bs.length = 37 ∧ bs.Nodup ∧ (∀ b ∈ bs, b ∉ h.live) ∧
      h'.live.Perm (bs ++ h.live) := by
  obtain ⟨st, h', e, n, h1, e1, -, -, -, fl, rel, up⟩ := main_runs m sd
  obtain ⟨h2, bs, e2, hl, hn, hd, hperm⟩ := C97_suite hp m.shrink sd
  rw [e1] at e2
  cases e2
  cases hpass : s.pass with
  | true =>
    have := up hpass hp
    subst this
    exact ⟨h', bs, e, hl, hn, hd, (List.perm_iff_count.2 fun a => (rel rfl hk).live a).trans hperm⟩
  | false =>
    obtain ⟨rfl, rfl⟩ := fl hpass
    exact ⟨_, bs, e, hl, hn, hd, hperm⟩

/-! ### The program that comes with the application -/

theorem trunc_nat (n : Nat) : (Num.fin (n : Rat)).trunc = some (n : Int) := by
  show some ((n : Rat).num.tdiv ((n : Rat).den : Int)) = _
  rw [Rat.num_natCast, Rat.den_natCast]
  simp

open Ladder.Spec in
/-- A description of a network in the form of the file that comes with the application has the rows it announces. -/
theorem firm_netOf {host : Host} (hb : host.beyond ≠ none) {id rows cols : Nat} {data : List (List Json)} (h1 : id < 2 ^ 32)
    (h2 : rows < 2 ^ 32) (h3 : cols < 2 ^ 32) (hl : data.length = rows) : Firm host (Ladder.App.netOf id rows cols data) := by
  intro ms e
  cases e
  have num : ∀ {k : String} {n : Nat} {x : Num}, member [("id", .num (.fin id)), ("rows", .num (.fin rows)), ("cols", .num (.fin cols)),
      ("networkData", .arr (data.map .arr))] k = some (.num (.fin n)) → Member k (.num x) [("id", .num (.fin id)), ("rows", .num (.fin rows)),
      ("cols", .num (.fin cols)), ("networkData", .arr (data.map .arr))] → x = .fin n := by
    intro k n x a b
    have := a.symm.trans (has_member.1 b)
    cases this
    rfl
  have in_ : ∀ {k : String} {n : Nat}, n < 2 ^ 32 → member [("id", .num (.fin id)), ("rows", .num (.fin rows)), ("cols", .num (.fin cols)),
      ("networkData", .arr (data.map .arr))] k = some (.num (.fin n)) → Ranged k [("id", .num (.fin id)), ("rows", .num (.fin rows)),
      ("cols", .num (.fin cols)), ("networkData", .arr (data.map .arr))] := by
    intro k n hn a x hx
    rw [num a hx]
    exact ⟨n, trunc_nat n, by omega, by omega⟩
  refine ⟨in_ h1 rfl, in_ h2 rfl, in_ h3 rfl, ?_, fun _ _ _ _ _ _ _ _ _ _ _ => hb⟩
  rintro r ⟨x, hx, hr⟩ -
  rw [num (n := rows) rfl hx, trunc_nat] at hr
  cases hr
  exact ⟨⟨cols, _, has_member.2 rfl, trunc_nat cols⟩, _, has_member.2 rfl, by simp [hl]⟩

/-- The application with its own program file; everything is granted. -/
def atHome : Heap.App.Setting where
  others := ⟨fun _ => true, fun _ => true⟩
  rows := ⟨fun _ => true, fun _ => true⟩
  names := ⟨fun _ => true, fun _ => true⟩
  jobs := ⟨fun _ => true, fun _ => true⟩
  pass := true
  host := { beyond := some 0, strtof := fun _ => 0, fmtReal := fun _ => "" }
  file := .tree Ladder.App.doc
  schema := .tree (.obj [])
  verdict := fun _ _ => true
  saved := .tree Ladder.App.doc
  canSave := true
  canCompact := true
  valid := true

theorem mild_atHome : Mild atHome where
  shrink := fun _ => rfl
  jobs := fun _ => rfl
  rows := fun _ => rfl
  firm := by
    intro l e j hj
    cases e
    simp only [List.mem_cons, List.not_mem_nil, or_false] at hj
    rcases hj with rfl | rfl | rfl
    all_goals exact firm_netOf (by simp [atHome]) (by decide) (by decide) (by decide) rfl
  wordless := by decide +kernel

/-- The claim: the application never misuses the heap, and ends with the blocks it began with. -/
def AppGivesBack : Prop :=
  ∀ (s : Heap.App.Setting) (h : Store), h.Sound → ∃ st h', Heap.App.main s h = .ok (st, h') ∧ h'.live.Perm h.live

/-- **C99 (refuted).**  The application does not give back all it allocates, even with its own program file and every request granted. -/
theorem C99_refuted : ∃ (s : Heap.App.Setting) (h' : Store), Mild s ∧ (∀ k, s.others.grow k = true) ∧ (∀ k, s.names.grow k = true) ∧
    Heap.App.main s {} = .ok (.released, h') ∧ h'.live.length = 37 := by
  obtain ⟨h', bs, e, hl, -, -, hp⟩ := C99_all mild_atHome (fun _ => rfl) (fun _ => rfl) sound_empty
  refine ⟨atHome, h', mild_atHome, fun _ => rfl, fun _ => rfl, e, ?_⟩
  rw [hp.length_eq, List.length_append, hl]
  rfl

/-- **C99 (refuted, as claimed).** -/
theorem C99_refuted_claim : ¬ AppGivesBack := by
  intro c
  obtain ⟨s, h', -, -, -, e, hl⟩ := C99_refuted
  obtain ⟨st, h2, e2, hp⟩ := c s {} sound_empty
  rw [e] at e2
  cases e2
  rw [hp.length_eq] at hl
  cases hl

/-- Whether the setup, begun with an empty heap, fails with a number of live blocks. -/
def strands (s : Heap.App.Setting) (n : Nat) : Bool :=
  match Heap.App.setUp s {} with
  | .ok ((ok, _), h) => !ok && decide (h.live.length = n)
  | .error _ => false

theorem strands_iff {s : Heap.App.Setting} {n : Nat} (h : strands s n = true) :
    ∃ x h', Heap.App.setUp s {} = .ok ((false, x), h') ∧ h'.live.length = n := by
  unfold strands at h
  split at h
  · rename_i ok x h' e
    simp only [Bool.and_eq_true, Bool.not_eq_true', decide_eq_true_eq] at h
    obtain ⟨rfl, hl⟩ := h
    exact ⟨x, h', e, hl⟩
  · cases h

/-- **C99 (refuted, abandoned).**  If the very last request of the setup (that for the foreign functions) is refused, `main` ends without releasing the
context: 47 blocks remain. -/
theorem C99_refuted_abandoned : ∃ x h', Heap.App.setUp { atHome with others := ⟨fun i => i ≠ 47, fun _ => true⟩ } {} = .ok ((false, x), h') ∧
    h'.live.length = 47 :=
  strands_iff (by decide +kernel)

/-- `main` after a passed self-test whose setup succeeds. -/
def afterTest (s : Heap.App.Setting) : H Unit := do
  let (_, x) ← Heap.App.setUp s
  let x ← Heap.App.work s x
  let _ ← Heap.deinit x
  pure ()

/-- Whether that ends with a misuse, begun with an empty heap. -/
def missteps (s : Heap.App.Setting) (u : Misuse) : Bool :=
  match afterTest s {} with
  | .error u' => decide (u' = u)
  | .ok _ => false

theorem missteps_iff {s : Heap.App.Setting} {u : Misuse} (h : missteps s u = true) : afterTest s {} = .error u := by
  unfold missteps at h
  split at h
  · rename_i u' e
    rw [e, of_decide_eq_true h]
  · cases h

/-- A program of one coil, whose operand is of the given type. -/
def oneCoil (type value : String) : Json :=
  .arr [Ladder.App.netOf 0 1 1 [[Ladder.App.cellOf "COIL" false [Ladder.App.item "value" type value]]]]

/-- **C99 (refuted, texts).**  If the program file has an operand that is a text, saving it is undefined behaviour. -/
theorem C99_refuted_text : afterTest { atHome with file := .tree (oneCoil "CSTR" "x") } {} = .error .undefined :=
  missteps_iff (by decide +kernel)

/-- **C99 (refuted, rows).**  If the request for the table of rows of a network of the program file is refused, NULL is dereferenced. -/
theorem C99_refuted_rows : afterTest { atHome with file := .tree (oneCoil "M" "1"), rows := ⟨fun _ => false, fun _ => true⟩ } {} =
    .error .nullDeref :=
  missteps_iff (by decide +kernel)

/-- The same program with everything granted: no misuse. -/
example : missteps { atHome with file := .tree (oneCoil "M" "1") } .undefined = false ∧
    missteps { atHome with file := .tree (oneCoil "M" "1") } .nullDeref = false := by decide +kernel

/-- Whether that ends with a number of live blocks. -/
def remains (s : Heap.App.Setting) (n : Nat) : Bool :=
  match afterTest s {} with
  | .ok (_, h) => decide (h.live.length = n)
  | .error _ => false

theorem remains_iff {s : Heap.App.Setting} {n : Nat} (h : remains s n = true) : ∃ h', afterTest s {} = .ok ((), h') ∧ h'.live.length = n := by
  unfold remains at h
  split at h
  · rename_i u h' e
    exact ⟨h', e, of_decide_eq_true h⟩
  · cases h

/-- **C99 (refuted, names).**  If the requests for the names of the arrays of the saved file are refused, `main` releases its context and yet 626 blocks remain, with a
program of one coil. -/
theorem C99_refuted_names : ∃ h', afterTest { atHome with file := .tree (oneCoil "M" "1"), names := ⟨fun _ => false, fun _ => true⟩ } {} = .ok ((), h') ∧
    h'.live.length = 626 :=
  remains_iff (by decide +kernel)

/-- The same with everything granted: no block remains. -/
example : ∃ h', afterTest { atHome with file := .tree (oneCoil "M" "1") } {} = .ok ((), h') ∧ h'.live.length = 0 :=
  remains_iff (by decide +kernel)

theorem bind_fault {α β : Type} {m : H α} {f : α → H β} {h : Store} {Q : α → Store → Prop} {e : Misuse} (r : Runs m h Q)
    (k : ∀ a h', Q a h' → f a h' = .error e) : (m >>= f) h = .error e := by
  obtain ⟨a, h', e1, q⟩ := r
  show H.bind m f h = _
  unfold H.bind
  rw [e1]
  exact k a h' q

/-- **C99 (refuted, jobs).**  If the request for the table of scheduled jobs is refused while all others are granted and the test of the instructions
passes, the application dereferences NULL - whatever its files. -/
theorem C99_refuted_jobs {s : Heap.App.Setting} (hs : ∀ k, s.others.shrink k = true) (hp : ∀ k, s.others.grow k = true) (ht : s.pass = true)
    (hj : ∀ k, s.jobs.grow k = false) {h : Store} (sd : h.Sound) : Heap.App.main s h = .error .nullDeref := by
  obtain ⟨n, h1, e1, s1, -⟩ := C97_no_misuse_partial hs sd
  unfold Heap.App.main
  refine bind_fault (Q := fun r h' => r = n ∧ h' = h1) ⟨_, _, e1, rfl, rfl⟩ ?_
  rintro n h1 ⟨rfl, rfl⟩
  rw [ht]
  simp only [Bool.not_true, Bool.false_eq_true, if_false]
  have fail : Heap.App.setUp s h1 = .error .nullDeref := by
    unfold Heap.App.setUp
    refine bind_fault (((ctxInit_runs s.others {} (a := Heap.App.args) (by decide) (sound_fits s1)).post
      (ctxInit_jobs s.others {} Heap.App.args)).post (ctxInit_granted hp {} (a := Heap.App.args) (by decide))) ?_
    rintro ⟨ok, x⟩ h2 ⟨⟨hi, hx⟩, hg⟩
    have hg : ok = true := hg
    subst hg
    obtain ⟨xj, hr0, hw0⟩ := hx rfl
    rcases hi with ⟨-, okx, -, -, -, -, -, -, fx⟩ | ⟨e, -⟩
    · have okx := okx rfl
      simp only [Bool.not_true, Bool.false_eq_true, if_false]
      refine bind_fault (((addRead_runs s.others hs true okx fx).post (addRead_kept s.others true _)).post (addRead_granted hp hr0)) ?_
      rintro ⟨o, y⟩ h3 ⟨⟨⟨oky, fy⟩, ⟨⟨-, k2, -⟩, k4⟩⟩, hg⟩
      have hg : o = true := hg
      subst hg
      simp only [Bool.not_true, Bool.false_eq_true, if_false] at oky fy k2 k4 ⊢
      refine bind_fault (((addWrite_runs s.others hs true oky fy).post (addWrite_kept s.others true _)).post
        (addWrite_granted hp (k4.trans hw0))) ?_
      rintro ⟨o, z⟩ h4 ⟨⟨⟨okz, fz⟩, ⟨-, l2, -⟩⟩, hg⟩
      have hg : o = true := hg
      subst hg
      simp only [Bool.not_true, Bool.false_eq_true, if_false] at okz fz l2 ⊢
      have zj : z.jobs = none := by rw [l2, k2]; exact xj
      have stop : Heap.cronInit s.jobs 3 z h4 = .error .nullDeref := by
        unfold Heap.cronInit
        refine bind_fault (touch_ctx okz.cronSome fz) ?_
        rintro _ _ rfl
        rw [zj]
        refine bind_fault (alloc_runs s.jobs fz) ?_
        rintro q h5 ⟨-, hq, -⟩
        rw [hj] at hq
        cases q with
        | some b => cases hq
        | none => rfl
      show H.bind _ _ h4 = _
      unfold H.bind
      rw [stop]
    · cases e
  show H.bind _ _ h1 = _
  unfold H.bind
  rw [fail]

/-- The theorem at work: the application at home. -/
example : Heap.App.main { atHome with jobs := ⟨fun _ => false, fun _ => true⟩ } {} = .error .nullDeref :=
  C99_refuted_jobs (fun _ => rfl) (fun _ => rfl) rfl (fun _ => rfl) sound_empty

/-- The theorem about misuse at work: the application at home with every tenth request refused. -/
example : ∃ st h', Heap.App.main { atHome with others := ⟨fun k => k % 10 ≠ 9, fun _ => true⟩ } {} = .ok (st, h') ∧ h'.Sound := by
  obtain ⟨st, h', e, sd, -⟩ := C99_no_misuse_partial (s := { atHome with others := ⟨fun k => k % 10 ≠ 9, fun _ => true⟩ })
    ⟨fun _ => rfl, fun _ => rfl, fun _ => rfl, mild_atHome.firm, mild_atHome.wordless⟩ sound_empty
  exact ⟨st, h', e, sd⟩

end Ladder.Props
