import Verif.Lemmas.HeapWhole

/-
C60: every block the library allocates is freed exactly once.  `free` and the uses of a block are checked operations in
the heap model: freeing or using a block that is not in use is a misuse, so "no misuse" means that no block is freed
twice, and "the heap is as before" means that every block has been freed.
-/

namespace Ladder.Props

open Ladder.Heap

theorem sound_fits {h : Store} (s : h.Sound) : Fits h fun a => h.live.count a := by
  refine ⟨fun a => rfl, fun a => List.nodup_iff_count.1 s.nodup a, fun a ha => ?_⟩
  refine List.count_eq_zero.2 fun hm => ?_
  have := s.below a hm
  omega

theorem valid_of_true {p : Policy} {old x : Heap.Ctx} {a : Heap.InitArgs} {h0 h : Store}
    (e : Heap.ctxInit p old a h0 = .ok ((true, x), h)) : a.valid = true := by
  cases hv : a.valid with
  | true => rfl
  | false =>
    unfold Heap.ctxInit at e
    rw [hv] at e
    cases e

/-- Every call keeps the ownership of the blocks in order. -/
theorem act_runs {p : Policy} (hs : ∀ k, p.shrink k = true) {x : Heap.Ctx} {h : Store} {R : Bag} (ok : CtxOk x)
    (hw : WholeCtx x) (f : Fits h fun a => ctxBag x a + R a) (act : Act) (ha : act.allowed p x h) :
    Runs (act.run p x) h fun r h' => CtxOk r.2 ∧ Fits h' fun a => ctxBag r.2 a + R a := by
  cases act with
  | addRead hook => exact addRead_runs p hs hook ok f
  | addWrite hook => exact addWrite_runs p hs hook ok f
  | addForeign qty hook => exact addForeign_runs p qty hook ok f
  | fnCell d code fid n r c => exact fnCell_runs p ha code fid n r c ok f
  | setText n r c i =>
    obtain ⟨cell, b, ts, h1, h2, h3⟩ := ha
    exact setText_runs p ok h1 h2 h3 f
  | clear =>
    refine (clearProgram_runs ok.nets (R := fun a => slotBag x.slot a + ptrBag x.jobs a + R a)
      (f.congr fun a => by simp only [ctxBag]; omega)).bind ?_
    rintro y h1 ⟨⟨nets, rfl, hp, hn⟩, f1⟩
    refine .pure ⟨⟨?_, ok.pos, hn, ok.m, ok.c, ok.t, ok.foreign, ok.reads, ok.writes, ok.cron⟩, f1.congr fun a => ?_⟩
    · have := ok.present
      cases nets with
      | some _ => rfl
      | none =>
        cases e : x.nets with
        | none => rw [e] at this; cases this
        | some bx => rw [e] at hp; cases hp
    · simp only [ctxBag]; omega
  | cronInit qty => exact cronInit_runs p qty ok f ha
  | load t host file => exact (loadFile_runs p ha.1 ha.2 ok f).mono fun _ _ h => ⟨h.1.1, h.2⟩
  | save k w => exact (saveFile_runs p k w (savable ok hw ha.2) f).bind fun b h' hb => .pure ⟨ok, hb.1.fits ha.1⟩

theorem built_ok {p : Policy} (hs : ∀ k, p.shrink k = true) {a : Heap.InitArgs} (hn : a.initNetwork = true) {h0 : Store}
    (s0 : h0.Sound) {x : Heap.Ctx} {h : Store} (b : Built p a h0 x h) :
    CtxOk x ∧ Fits h fun b => ctxBag x b + h0.live.count b := by
  induction b with
  | init e =>
    obtain ⟨r, h', e', hr⟩ := ctxInit_runs p _ (valid_of_true e) (sound_fits s0)
    rw [e] at e'
    cases e'
    rcases hr with ⟨-, ok, -, -, -, -, -, -, f⟩ | ⟨hf, -⟩
    · exact ⟨ok hn, f⟩
    · cases hf
  | step act hb ha e ih =>
    obtain ⟨r, h', e', hr⟩ := act_runs hs ih.1 (built_whole hb) ih.2 act ha
    rw [e] at e'
    cases e'
    exact hr

/-- C60: initialisation never misuses the heap, whichever requests are refused. -/
theorem C60_init_no_misuse (p : Policy) (old : Heap.Ctx) (a : Heap.InitArgs) {h0 : Store} (s0 : h0.Sound) :
    ∃ r h', Heap.ctxInit p old a h0 = .ok (r, h') := by
  cases hv : a.valid with
  | false => exact ⟨(false, old), h0, by unfold Heap.ctxInit; rw [hv]; rfl⟩
  | true =>
    obtain ⟨r, h', e, -⟩ := ctxInit_runs p old hv (sound_fits s0)
    exact ⟨r, h', e⟩

/-- C60: after a successful initialisation with networks, no call misuses the heap, whatever calls came before it and
whichever of their requests were refused. -/
theorem C60_calls_no_misuse_partial {p : Policy} (hs : ∀ k, p.shrink k = true) {a : Heap.InitArgs}
    (hn : a.initNetwork = true) {h0 : Store} (s0 : h0.Sound) {x : Heap.Ctx} {h : Store} (b : Built p a h0 x h) (act : Act)
    (ha : act.allowed p x h) : ∃ r h', act.run p x h = .ok (r, h') := by
  obtain ⟨ok, f⟩ := built_ok hs hn s0 b
  obtain ⟨r, h', e, -⟩ := act_runs hs ok (built_whole b) f act ha
  exact ⟨r, h', e⟩

/-- C60: teardown after any such history does not misuse the heap and frees every block allocated since before the
initialisation, and no other. -/
theorem C60_teardown_partial {p : Policy} (hs : ∀ k, p.shrink k = true) {a : Heap.InitArgs} (hn : a.initNetwork = true)
    {h0 : Store} (s0 : h0.Sound) {x : Heap.Ctx} {h : Store} (b : Built p a h0 x h) :
    ∃ y h', Heap.deinit x h = .ok (y, h') ∧ h'.live.Perm h0.live := by
  obtain ⟨ok, f⟩ := built_ok hs hn s0 b
  obtain ⟨y, h', e, -, -, -, -, f'⟩ := deinit_runs ok f
  exact ⟨y, h', e, List.perm_iff_count.2 f'.live⟩

/-- C60: a failed initialisation frees everything it allocated if it was asked for no networks, or if it failed at one of
the first two requests. -/
theorem C60_failed_init_partial {p : Policy} {old : Heap.Ctx} {a : Heap.InitArgs} {h0 : Store} (s0 : h0.Sound)
    (hc : a.initNetwork = false ∨ p.grow h0.tries = false ∨ p.grow (h0.tries + 1) = false) {x : Heap.Ctx} {h : Store}
    (e : Heap.ctxInit p old a h0 = .ok ((false, x), h)) : h.live.Perm h0.live := by
  cases hv : a.valid with
  | false =>
    unfold Heap.ctxInit at e
    rw [hv] at e
    cases e
    exact .refl _
  | true =>
    obtain ⟨r, h', e', hr⟩ := ctxInit_runs p old hv (sound_fits s0)
    rw [e] at e'
    cases e'
    rcases hr with ⟨hf, -⟩ | ⟨-, -, -, -, -, hf, -⟩
    · cases hf
    · exact List.perm_iff_count.2 (hf hc).live

/-- C60 fails otherwise: an initialisation that fails after the second request leaves blocks behind that nothing points
to any more. -/
theorem C60_refuted_failed_init {p : Policy} {old : Heap.Ctx} {a : Heap.InitArgs} (hv : a.valid = true)
    (hn : a.initNetwork = true) {h0 : Store} (s0 : h0.Sound) (g0 : p.grow h0.tries = true)
    (g1 : p.grow (h0.tries + 1) = true) {x : Heap.Ctx} {h : Store} (e : Heap.ctxInit p old a h0 = .ok ((false, x), h)) :
    ∃ b, h0.live.count b < h.live.count b := by
  obtain ⟨r, h', e', hr⟩ := ctxInit_runs p old hv (sound_fits s0)
  rw [e] at e'
  cases e'
  rcases hr with ⟨hf, -⟩ | ⟨-, -, -, -, -, -, hf, -⟩
  · cases hf
  · obtain ⟨L, b, hb, f⟩ := hf hn g0 g1
    refine ⟨b, ?_⟩
    rw [f.live]
    omega

/-- C60 fails when the caller tears down a context whose initialisation failed: the network array is freed twice. -/
theorem C60_refuted_failed_init_teardown {p : Policy} {old : Heap.Ctx} {a : Heap.InitArgs} (hv : a.valid = true)
    (hn : a.initNetwork = true) {h0 : Store} (s0 : h0.Sound) (g0 : p.grow h0.tries = true) {x : Heap.Ctx} {h : Store}
    (e : Heap.ctxInit p old a h0 = .ok ((false, x), h)) : Heap.deinit x h = .error .doubleFree := by
  obtain ⟨r, h', e', hr⟩ := ctxInit_runs p old hv (sound_fits s0)
  rw [e] at e'
  cases e'
  rcases hr with ⟨hf, -⟩ | ⟨-, h1, h2, h3, h4, -, -, hf⟩
  · cases hf
  · simp only at h1 h2 h3 h4 hf
    obtain ⟨b, hb, hz⟩ := hf hn g0
    cases hx : x.nets with
    | none => rw [hx] at hb; cases hb
    | some bx =>
      obtain ⟨b', ns⟩ := bx
      rw [hx] at hb
      cases hb
      have hm : Heap.clearMemory x h = .ok ((), h) := by simp only [Heap.clearMemory, h2, h3, h4]; rfl
      have hp : Heap.clearProgram x h = .ok (x, h) := by
        have he : each clearNet x.networks x.nets = pure x.nets := by rw [h1]; rfl
        unfold Heap.clearProgram
        rw [he]
        rfl
      have hb' : b' ∉ h.live := List.count_eq_zero.1 hz
      have hfn : freeNets x h = .error .doubleFree := by
        have he : each freeNet x.networks x.nets = pure x.nets := by rw [h1]; rfl
        unfold freeNets
        rw [he, hx]
        show H.bind (free (some b')) _ h = _
        unfold H.bind
        simp only [free, if_neg hb']
      unfold Heap.deinit
      show H.bind (Heap.clearMemory x) _ h = _
      unfold H.bind
      rw [hm]
      show H.bind (Heap.clearProgram x) _ h = _
      unfold H.bind
      rw [hp]
      show H.bind (freeNets x) _ h = _
      unfold H.bind
      rw [hfn]

/-- C60 fails for a context initialised without networks: its teardown dereferences NULL, always. -/
theorem C60_refuted_no_networks {p : Policy} {old : Heap.Ctx} {a : Heap.InitArgs} (hn : a.initNetwork = false) {h0 : Store}
    (s0 : h0.Sound) {x : Heap.Ctx} {h : Store} (e : Heap.ctxInit p old a h0 = .ok ((true, x), h)) :
    Heap.deinit x h = .error .nullDeref := by
  have hv := valid_of_true e
  obtain ⟨r, h', e', hr⟩ := ctxInit_runs p old hv (sound_fits s0)
  rw [e] at e'
  cases e'
  rcases hr with ⟨-, -, hx, hsl, h1, h2, h3, h4, f⟩ | ⟨hf, -⟩
  · simp only at hx hsl h1 h2 h3 h4 f
    have hx := hx hn
    have hnet : x.networks ≠ 0 := by
      simp only [Heap.InitArgs.valid, decide_eq_true_eq] at hv
      omega
    have fs : Fits h fun b => slotBag x.slot b + (ptrBag x.jobs b + arrBag netBag x.nets b + h0.live.count b) :=
      f.congr fun b => by simp only [ctxBag]; omega
    have hm : Runs (Heap.clearMemory x) h fun _ h' => h' = h := by
      refine (touchSlots_runs fs _ ?_).keep ((touchSlots_runs fs _ ?_).keep (touchSlots_runs fs _ ?_))
      all_goals
        intro s hs
        rw [hsl]
        revert hs
        split
        · cases s <;> decide
        · simp
    obtain ⟨_, h', hm, rfl⟩ := hm
    unfold Heap.deinit
    show H.bind (Heap.clearMemory x) _ h' = _
    unfold H.bind
    rw [hm]
    show H.bind (Heap.clearProgram x) _ h' = _
    have hp : Heap.clearProgram x h' = .error .nullDeref := by
      unfold Heap.clearProgram each
      rw [if_neg hnet, hx]
      rfl
    unfold H.bind
    rw [hp]
  · cases hf

/-- C60 fails for a second teardown: it dereferences NULL, always. -/
theorem C60_refuted_twice {p : Policy} (hs : ∀ k, p.shrink k = true) {a : Heap.InitArgs} (hn : a.initNetwork = true)
    {h0 : Store} (s0 : h0.Sound) {x y : Heap.Ctx} {h h' : Store} (b : Built p a h0 x h)
    (e : Heap.deinit x h = .ok (y, h')) : Heap.deinit y h' = .error .nullDeref := by
  obtain ⟨ok, f⟩ := built_ok hs hn s0 b
  obtain ⟨y', h'', e', hsl, hm, -, -, -⟩ := deinit_runs ok f
  rw [e] at e'
  cases e'
  have hpos : y.m > 0 := by have := ok.pos; omega
  have hc : Heap.clearMemory y h' = .error .nullDeref := by
    unfold Heap.clearMemory
    rw [if_pos hpos]
    show H.bind (touchSlots _ y) _ h' = _
    have : touchSlots [.Mh, .M] y h' = .error .nullDeref := by
      show H.bind (touch (y.slot .Mh)) _ h' = _
      rw [hsl]
      rfl
    unfold H.bind
    rw [this]
  unfold Heap.deinit
  show H.bind (Heap.clearMemory y) _ h' = _
  unfold H.bind
  rw [hc]

/-- C60 fails when the request for the cron table is refused: the result of `calloc` is used without a test. -/
theorem C60_refuted_cron {p : Policy} (hs : ∀ k, p.shrink k = true) {a : Heap.InitArgs} (hn : a.initNetwork = true)
    {h0 : Store} (s0 : h0.Sound) {x : Heap.Ctx} {h : Store} (b : Built p a h0 x h) {qty : Nat} (hq : qty > 0)
    (hj : x.jobs = none) (hg : p.grow h.tries = false) : (Act.cronInit qty).run p x h = .error .nullDeref := by
  obtain ⟨ok, f⟩ := built_ok hs hn s0 b
  obtain ⟨_, h', e, rfl⟩ := touch_ctx ok.cronSome f
  show H.bind (touch (x.slot .cron)) _ h' = _
  unfold H.bind
  rw [e]
  simp only [hj, Option.isSome_none, Bool.false_eq_true, if_false]
  show H.bind (alloc p) _ h' = _
  unfold H.bind alloc
  rw [if_neg (by rw [hg]; simp)]
  simp only [hq, if_true]
  rfl

/-- An allocator that grants everything. -/
def granting : Policy := ⟨fun _ => true, fun _ => true⟩

/-- An allocator that refuses request `k` only. -/
def refusing (k : Nat) : Policy := ⟨fun i => i ≠ k, fun _ => true⟩

/-- One network of three rows and two columns, one register of each kind. -/
def smallInit : Heap.InitArgs := ⟨2, 3, 1, 1, 1, 1, 1, 1, true⟩

/-- Blocks in use at the end of a run, or the misuse. -/
def outcome {α : Type} (m : H α) : Except Misuse (List Nat) :=
  match m {} with
  | .ok (_, h) => .ok h.live
  | .error e => .error e

def isOk (l : List Nat) : Except Misuse (List Nat) → Bool
  | .ok m => l == m
  | .error _ => false

/-- An instruction of two cells with two operands. -/
def twoCells : Ladder.Iocd := ⟨1, 1, 2, 2⟩

theorem sound_empty : ({} : Store).Sound := ⟨.nil, by simp⟩

/-- Test for `Act.allowed`. -/
def actTest (p : Policy) (x : Heap.Ctx) (h : Store) : Act → Bool
  | .fnCell d _ _ _ _ _ => 1 ≤ d.cells
  | .setText n r c i => ((x.cell n r c).bind fun cell => cell.data).any fun d => i < d.2.length
  | .cronInit _ => p.grow h.tries
  | .load _ _ _ => false
  | .save _ _ => false
  | _ => true

theorem actTest_allowed {p : Policy} {x : Heap.Ctx} {h : Store} {act : Act} (t : actTest p x h act = true) :
    act.allowed p x h := by
  cases act with
  | fnCell d =>
    show 1 ≤ d.cells
    exact of_decide_eq_true t
  | setText n r c i =>
    obtain ⟨⟨b, ts⟩, h1, h2⟩ := (Option.any_eq_true _ _).1 t
    obtain ⟨cell, h3, h4⟩ := Option.bind_eq_some_iff.1 h1
    exact ⟨cell, b, ts, h3, h4, of_decide_eq_true h2⟩
  | cronInit qty => exact fun _ _ => t
  | load => cases t
  | save => cases t
  | _ => trivial

/-- Runs a list of calls. -/
def play (p : Policy) : List Act → Heap.Ctx → Store → Option (Heap.Ctx × Store)
  | [], x, h => some (x, h)
  | act :: acts, x, h =>
    if actTest p x h act then
      match act.run p x h with
      | .ok ((_, y), h') => play p acts y h'
      | .error _ => none
    else none

/-- Initialisation and a list of calls. -/
def playFrom (p : Policy) (a : Heap.InitArgs) (acts : List Act) : Option (Heap.Ctx × Store) :=
  match Heap.ctxInit p {} a {} with
  | .ok ((true, x), h) => play p acts x h
  | _ => none

theorem play_built {p : Policy} {a : Heap.InitArgs} {h0 : Store} : ∀ (acts : List Act) {x y : Heap.Ctx} {h h' : Store},
    Built p a h0 x h → play p acts x h = some (y, h') → Built p a h0 y h'
  | [], x, y, h, h', b, e => by
    cases e
    exact b
  | act :: acts, x, y, h, h', b, e => by
    unfold play at e
    split at e
    · rename_i ht
      split at e
      · rename_i r z h1 e1
        exact play_built acts (.step act b (actTest_allowed ht) e1) e
      · cases e
    · cases e

theorem playFrom_built {p : Policy} {a : Heap.InitArgs} {acts : List Act} {y : Heap.Ctx} {h' : Store}
    (e : playFrom p a acts = some (y, h')) : Built p a {} y h' := by
  unfold playFrom at e
  split at e
  · rename_i x h e1
    exact play_built acts (.init e1) e
  · cases e

/-- A history: a module whose hook fails, a module, an instruction, a text in its second operand, a cron table. -/
def someActs : List Act :=
  [.addRead false, .addRead true, .fnCell twoCells .MOVE 0 0 1 0, .setText 0 1 0 1, .cronInit 3]

/-- 26 blocks are in use after this history. -/
example : ∃ x h, Built granting smallInit {} x h ∧ h.live.length = 26 := by
  have t : (playFrom granting smallInit someActs).any (fun r => r.2.live.length == 26) = true := by decide +kernel
  obtain ⟨⟨x, h⟩, e, hl⟩ := (Option.any_eq_true _ _).1 t
  exact ⟨x, h, playFrom_built e, by simpa using hl⟩

/-- The same history with request 24 refused. -/
example : ∃ x h, Built (refusing 24) smallInit {} x h ∧ h.live.length = 21 := by
  have t : (playFrom (refusing 24) smallInit (someActs.take 3)).any (fun r => r.2.live.length == 21) = true := by
    decide +kernel
  obtain ⟨⟨x, h⟩, e, hl⟩ := (Option.any_eq_true _ _).1 t
  exact ⟨x, h, playFrom_built e, by simpa using hl⟩

/-- Failed initialisations with and without blocks left behind. -/
example : isOk [2, 1] (outcome (Heap.ctxInit (refusing 3) {} smallInit)) = true := by decide +kernel
example : isOk [] (outcome (Heap.ctxInit (refusing 1) {} smallInit)) = true := by decide +kernel
example : isOk [] (outcome (Heap.ctxInit (refusing 9) {} { smallInit with initNetwork := false })) = true := by decide +kernel
example : (match Heap.ctxInit granting {} { smallInit with initNetwork := false } {} with
    | .ok ((ok, _), _) => ok | .error _ => false) = true := by decide +kernel

/-- An allocator that refuses request 24 (the second array of the second module) and every request to make a block
smaller. -/
def stubborn : Policy := ⟨fun i => i ≠ 24, fun _ => false⟩

/-- C60 fails when a request to make a block smaller is refused: the only pointer to the table of read functions is
overwritten with NULL, and teardown leaves the block behind. -/
theorem C60_refuted_shrink :
    (match (do
      let (_, x) ← Heap.ctxInit stubborn {} smallInit
      let (a, x) ← (Act.addRead true).run stubborn x
      let (b, x) ← (Act.addRead true).run stubborn x
      let _ ← Heap.deinit x
      pure (a, b) : H (Bool × Bool)) {} with
    | .ok ((a, b), h) => a == true && b == false && h.live.length == 1
    | .error _ => false) = true := by decide +kernel

/-- C60 fails for a foreign function that claims no cell: placed on a cell that has operands, it overwrites the only
pointer to them. -/
theorem C60_refuted_no_cell :
    (match (do
      let (_, x) ← Heap.ctxInit granting {} smallInit
      let (_, x) ← (Act.addForeign 1 true).run granting x
      let (a, x) ← (Act.fnCell twoCells .MOVE 0 0 1 0).run granting x
      let (b, x) ← (Act.fnCell ⟨0, 0, 0, 1⟩ .FOREIGN 0 0 1 0).run granting x
      let _ ← Heap.deinit x
      pure (a, b) : H (Bool × Bool)) {} with
    | .ok ((a, b), h) => a == true && b == true && h.live.length == 1
    | .error _ => false) = true := by decide +kernel

end Ladder.Props
