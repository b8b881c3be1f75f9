import Verif.Lemmas.HeapInit

/-
Ownership accounting for the registration of modules and foreign functions and for the cron table.
-/

namespace Ladder.Heap

theorem ptrBag_none (a : Nat) : ptrBag none a = 0 := rfl

theorem ctxBag_out (x : Ctx) (s : Slot) (a : Nat) :
    ctxBag x a = ptrBag (x.slot s) a + ctxBag (x.set s none) a := by
  have := ctxBag_set x s none a
  rw [ptrBag_none] at this
  omega

theorem ctxBag_in (x : Ctx) (s : Slot) (q : Ptr) (a : Nat) :
    ctxBag (x.set s q) a = ptrBag q a + ctxBag (x.set s none) a := by
  have h1 := ctxBag_set x s none a
  have h2 := ctxBag_set x s q a
  rw [ptrBag_none] at h1
  omega

theorem enlarge_slot (p : Policy) {x : Ctx} (s : Slot) {h : Store} {R : Bag} (f : Fits h fun a => ctxBag x a + R a) :
    Runs (enlarge p (x.slot s)) h fun q h' =>
      (q = none ∧ Fits h' fun a => ctxBag x a + R a) ∨
      (∃ b, q = some b ∧ Fits h' fun a => ctxBag (x.set s (some b)) a + R a) := by
  refine (enlarge_runs p (q := x.slot s) (R := fun a => ctxBag (x.set s none) a + R a)
    (f.congr fun a => by rw [ctxBag_out x s]; omega)).mono ?_
  rintro q h' (⟨e, f'⟩ | ⟨b, e, f'⟩)
  · exact .inl ⟨e, f'.congr fun a => by rw [ctxBag_out x s]; omega⟩
  · exact .inr ⟨b, e, f'.congr fun a => by rw [ctxBag_in x s (some b)]; simp only [ptrBag]; omega⟩

theorem reduce_slot (p : Policy) (hs : ∀ k, p.shrink k = true) (n : Nat) {x : Ctx} {s : Slot} {b : Nat}
    (hb : x.slot s = some b) {h : Store} {R : Bag} (f : Fits h fun a => ctxBag x a + R a) :
    Runs (reduce p n (x.slot s)) h fun q h' => (n ≠ 0 → q.isSome) ∧ Fits h' fun a => ctxBag (x.set s q) a + R a := by
  rw [hb]
  refine (reduce_runs p hs n (b := b) (R := fun a => ctxBag (x.set s none) a + R a)
    (f.congr fun a => by rw [ctxBag_out x s, hb]; simp only [ptrBag]; omega)).mono ?_
  rintro q h' ⟨f', hq⟩
  exact ⟨hq, f'.congr fun a => by rw [ctxBag_in x s q]; omega⟩

/-- Contexts that differ only in the members `ss`. -/
def Same (ss : List Slot) (x y : Ctx) : Prop := y = { x with slot := y.slot } ∧ ∀ s, s ∉ ss → y.slot s = x.slot s

theorem Same.refl (ss : List Slot) (x : Ctx) : Same ss x x := ⟨rfl, fun _ _ => rfl⟩

theorem Same.set {ss : List Slot} {x y : Ctx} (h : Same ss x y) {s : Slot} (hs : s ∈ ss) (q : Ptr) :
    Same ss x (y.set s q) := by
  obtain ⟨e, k⟩ := h
  refine ⟨?_, fun t ht => ?_⟩
  · rw [e]; rfl
  · rw [set_slot_ne _ _ (show t ≠ s from fun e => ht (e ▸ hs)), k t ht]

/-- The slots of a table are distinct. -/
def Table.slots (tb : Table) : List Slot := [tb.fn, tb.init, tb.vals]

theorem touch_ctx {x : Ctx} {s : Slot} (hs : (x.slot s).isSome) {h : Store} {R : Bag}
    (f : Fits h fun a => ctxBag x a + R a) : Runs (touch (x.slot s)) h fun _ h' => h' = h :=
  slot_touch (R := fun a => ptrBag x.jobs a + arrBag netBag x.nets a + R a)
    (f.congr fun a => by simp only [ctxBag]; omega) hs

theorem addModule_runs (p : Policy) (hs : ∀ k, p.shrink k = true) {tb : Table} (hd : tb.slots.Nodup) (n : Nat)
    (hook : Bool) {x : Ctx} (hx : n ≠ 0 → ∀ s ∈ tb.slots, (x.slot s).isSome) {h : Store} {R : Bag}
    (f : Fits h fun a => ctxBag x a + R a) :
    Runs (addModule p tb n hook x) h fun r h' => Same tb.slots x r.2 ∧
      (n ≠ 0 ∨ r.1 = true → ∀ s ∈ tb.slots, (r.2.slot s).isSome) ∧ Fits h' fun a => ctxBag r.2 a + R a := by
  have d : tb.fn ≠ tb.init ∧ tb.fn ≠ tb.vals ∧ tb.init ≠ tb.vals := by
    simp only [Table.slots, List.nodup_cons, List.mem_cons, not_or, List.not_mem_nil] at hd
    exact ⟨hd.1.1, hd.1.2.1, hd.2.1.1⟩
  obtain ⟨d1, d2, d3⟩ := d
  have m1 : tb.fn ∈ tb.slots := by simp [Table.slots]
  have m2 : tb.init ∈ tb.slots := by simp [Table.slots]
  have m3 : tb.vals ∈ tb.slots := by simp [Table.slots]
  have three : ∀ y : Ctx, (y.slot tb.fn).isSome → (y.slot tb.init).isSome → (y.slot tb.vals).isSome →
      ∀ s ∈ tb.slots, (y.slot s).isSome := by
    intro y a b c s hs
    simp only [Table.slots, List.mem_cons, List.not_mem_nil, or_false] at hs
    rcases hs with rfl | rfl | rfl <;> assumption
  unfold addModule
  refine (enlarge_slot p tb.fn f).bind ?_
  rintro q h1 (⟨rfl, f1⟩ | ⟨b1, rfl, f1⟩)
  · refine .pure ⟨Same.refl _ _, ?_, f1⟩
    rintro (hn | hn)
    · exact hx hn
    · cases hn
  generalize hx1 : x.set tb.fn (some b1) = x1 at f1
  have s1 : Same tb.slots x x1 := hx1 ▸ (Same.refl _ x).set m1 _
  have v1 : x1.slot tb.fn = some b1 := hx1 ▸ set_slot_self _ _ _
  simp only [hx1]
  refine (enlarge_slot p tb.init f1).bind ?_
  rintro q h2 (⟨rfl, f2⟩ | ⟨b2, rfl, f2⟩)
  · refine (reduce_slot p hs n v1 f2).bind ?_
    rintro q h3 ⟨hq, f3⟩
    refine .pure ⟨s1.set m1 _, ?_, f3⟩
    rintro (hn | hn)
    · refine three _ ?_ ?_ ?_
      · rw [set_slot_self]; exact hq hn
      · rw [set_slot_ne _ _ d1.symm, ← hx1, set_slot_ne _ _ d1.symm]; exact hx hn _ m2
      · rw [set_slot_ne _ _ d2.symm, ← hx1, set_slot_ne _ _ d2.symm]; exact hx hn _ m3
    · cases hn
  generalize hx2 : x1.set tb.init (some b2) = x2 at f2
  have s2 : Same tb.slots x x2 := hx2 ▸ s1.set m2 _
  have v21 : x2.slot tb.fn = some b1 := by rw [← hx2, set_slot_ne _ _ d1, v1]
  have v22 : x2.slot tb.init = some b2 := hx2 ▸ set_slot_self _ _ _
  simp only [hx2]
  have w3 : n ≠ 0 → (x2.slot tb.vals).isSome := by
    intro hn
    rw [← hx2, set_slot_ne _ _ d3.symm, ← hx1, set_slot_ne _ _ d2.symm]
    exact hx hn _ m3
  refine (enlarge_slot p tb.vals f2).bind ?_
  rintro q h3 (⟨rfl, f3⟩ | ⟨b3, rfl, f3⟩)
  · refine (reduce_slot p hs n v21 f3).bind ?_
    rintro q h4 ⟨hq, f4⟩
    refine (reduce_slot p hs n (s := tb.init) (b := b2) (by rw [set_slot_ne _ _ d1.symm, v22]) f4).bind ?_
    rintro q' h5 ⟨hq', f5⟩
    refine .pure ⟨(s2.set m1 _).set m2 _, ?_, f5⟩
    rintro (hn | hn)
    · refine three _ ?_ ?_ ?_
      · rw [set_slot_ne _ _ d1, set_slot_self]; exact hq hn
      · rw [set_slot_self]; exact hq' hn
      · rw [set_slot_ne _ _ d3.symm, set_slot_ne _ _ d2.symm]; exact w3 hn
    · cases hn
  generalize hx3 : x2.set tb.vals (some b3) = x3 at f3
  have s3 : Same tb.slots x x3 := hx3 ▸ s2.set m3 _
  have v31 : x3.slot tb.fn = some b1 := by rw [← hx3, set_slot_ne _ _ d2, v21]
  have v32 : x3.slot tb.init = some b2 := by rw [← hx3, set_slot_ne _ _ d3, v22]
  have v33 : x3.slot tb.vals = some b3 := hx3 ▸ set_slot_self _ _ _
  simp only [hx3]
  refine Runs.keep (touch_ctx (by rw [v31]; rfl) f3) ?_
  refine Runs.keep (touch_ctx (by rw [v32]; rfl) f3) ?_
  refine Runs.keep (touch_ctx (by rw [v33]; rfl) f3) ?_
  cases hook with
  | true =>
    refine .pure ⟨s3, fun _ => three _ ?_ ?_ ?_, f3⟩
    · rw [v31]; rfl
    · rw [v32]; rfl
    · rw [v33]; rfl
  | false =>
    simp only [Bool.false_eq_true, if_false]
    refine (reduce_slot p hs n v31 f3).bind ?_
    rintro q h4 ⟨hq, f4⟩
    refine (reduce_slot p hs n (s := tb.init) (b := b2) (by rw [set_slot_ne _ _ d1.symm, v32]) f4).bind ?_
    rintro q' h5 ⟨hq', f5⟩
    refine (reduce_slot p hs n (s := tb.vals) (b := b3)
      (by rw [set_slot_ne _ _ d3.symm, set_slot_ne _ _ d2.symm, v33]) f5).bind ?_
    rintro q'' h6 ⟨hq'', f6⟩
    refine .pure ⟨((s3.set m1 _).set m2 _).set m3 _, ?_, f6⟩
    rintro (hn | hn)
    · refine three _ ?_ ?_ ?_
      · rw [set_slot_ne _ _ d2, set_slot_ne _ _ d1, set_slot_self]; exact hq hn
      · rw [set_slot_ne _ _ d3, set_slot_self]; exact hq' hn
      · rw [set_slot_self]; exact hq'' hn
    · cases hn

/-- A change of table slots keeps what the rest of the invariant says. -/
theorem CtxOk.same {ss : List Slot} {x y : Ctx} (ok : CtxOk x) (h : Same ss x y)
    (hm : ∀ s ∈ memSlots, s ∉ ss) (hf : Slot.foreign ∉ ss) (hc : Slot.cron ∉ ss)
    (hr : x.reads > 0 → (y.slot .read).isSome ∧ (y.slot .initRead).isSome ∧ (y.slot .input).isSome)
    (hw : x.writes > 0 → (y.slot .write).isSome ∧ (y.slot .initWrite).isSome ∧ (y.slot .output).isSome) : CtxOk y := by
  obtain ⟨e, k⟩ := h
  have km : ∀ s ∈ memSlots, y.slot s = x.slot s := fun s hs => k s (hm s hs)
  rw [e]
  refine ⟨ok.present, ok.pos, ok.nets, ?_, ?_, ?_, ?_, hr, hw, ?_⟩
  · intro h; simp only [km .Mh (by decide), km .M (by decide)]; exact ok.m h
  · intro h
    simp only [km .Cdh (by decide), km .Cd (by decide), km .Crh (by decide), km .Cr (by decide)]; exact ok.c h
  · intro h
    simp only [km .Tdh (by decide), km .Td (by decide), km .Trh (by decide), km .Tr (by decide)]; exact ok.t h
  · simp only [k _ hf]; exact ok.foreign
  · simp only [k _ hc]; exact ok.cron

theorem addRead_runs (p : Policy) (hs : ∀ k, p.shrink k = true) (hook : Bool) {x : Ctx} (ok : CtxOk x) {h : Store}
    {R : Bag} (f : Fits h fun a => ctxBag x a + R a) :
    Runs (addRead p hook x) h fun r h' => CtxOk r.2 ∧ Fits h' fun a => ctxBag r.2 a + R a := by
  unfold addRead
  split
  · exact .pure ⟨ok, f⟩
  · refine (addModule_runs p hs (tb := readTable) (by decide) x.reads hook ?_ f).bind ?_
    · intro hn s hs
      have := ok.reads (by omega)
      simp only [readTable, Table.slots, List.mem_cons, List.not_mem_nil, or_false] at hs
      rcases hs with rfl | rfl | rfl
      · exact this.1
      · exact this.2.1
      · exact this.2.2
    · rintro ⟨r, y⟩ h' ⟨hsame, hall, f'⟩
      simp only at hsame hall f'
      have hw : x.writes > 0 → (y.slot .write).isSome ∧ (y.slot .initWrite).isSome ∧ (y.slot .output).isSome := by
        rw [hsame.2 .write (by decide), hsame.2 .initWrite (by decide), hsame.2 .output (by decide)]
        exact ok.writes
      have hr : x.reads ≠ 0 ∨ r = true → (y.slot .read).isSome ∧ (y.slot .initRead).isSome ∧ (y.slot .input).isSome :=
        fun h => ⟨hall h .read (by decide), hall h .initRead (by decide), hall h .input (by decide)⟩
      have ok' : CtxOk y := ok.same hsame (by decide) (by decide) (by decide) (fun h => hr (.inl (by omega))) hw
      cases r with
      | false => exact .pure ⟨ok', f'⟩
      | true =>
        exact .pure ⟨⟨ok'.present, ok'.pos, ok'.nets, ok'.m, ok'.c, ok'.t, ok'.foreign, fun _ => hr (.inr rfl), ok'.writes, ok'.cron⟩, f'⟩

theorem addWrite_runs (p : Policy) (hs : ∀ k, p.shrink k = true) (hook : Bool) {x : Ctx} (ok : CtxOk x) {h : Store}
    {R : Bag} (f : Fits h fun a => ctxBag x a + R a) :
    Runs (addWrite p hook x) h fun r h' => CtxOk r.2 ∧ Fits h' fun a => ctxBag r.2 a + R a := by
  unfold addWrite
  split
  · exact .pure ⟨ok, f⟩
  · refine (addModule_runs p hs (tb := writeTable) (by decide) x.writes hook ?_ f).bind ?_
    · intro hn s hs
      have := ok.writes (by omega)
      simp only [writeTable, Table.slots, List.mem_cons, List.not_mem_nil, or_false] at hs
      rcases hs with rfl | rfl | rfl
      · exact this.1
      · exact this.2.1
      · exact this.2.2
    · rintro ⟨r, y⟩ h' ⟨hsame, hall, f'⟩
      simp only at hsame hall f'
      have hw : x.reads > 0 → (y.slot .read).isSome ∧ (y.slot .initRead).isSome ∧ (y.slot .input).isSome := by
        rw [hsame.2 .read (by decide), hsame.2 .initRead (by decide), hsame.2 .input (by decide)]
        exact ok.reads
      have hr : x.writes ≠ 0 ∨ r = true →
          (y.slot .write).isSome ∧ (y.slot .initWrite).isSome ∧ (y.slot .output).isSome :=
        fun h => ⟨hall h .write (by decide), hall h .initWrite (by decide), hall h .output (by decide)⟩
      have ok' : CtxOk y := ok.same hsame (by decide) (by decide) (by decide) hw (fun h => hr (.inl (by omega)))
      cases r with
      | false => exact .pure ⟨ok', f'⟩
      | true =>
        exact .pure ⟨⟨ok'.present, ok'.pos, ok'.nets, ok'.m, ok'.c, ok'.t, ok'.foreign, ok'.reads, fun _ => hr (.inr rfl), ok'.cron⟩, f'⟩

theorem addForeign_runs {C : Prop} (p : Policy) (qty : Nat) (hook : Bool) {x : Ctx} (ok : CtxOk x C) {h : Store}
    {R : Bag} (f : Fits h fun a => ctxBag x a + R a) :
    Runs (addForeign p qty hook x) h fun r h' => CtxOk r.2 C ∧ Fits h' fun a => ctxBag r.2 a + R a := by
  unfold addForeign
  split
  · exact .pure ⟨ok, f⟩
  split
  · exact .pure ⟨ok, f⟩
  have fin : ∀ b h1, (Fits h1 fun a => ctxBag (x.set .foreign (some b)) a + R a) →
      Runs (do touch (some b); pure (true, { x.set .foreign (some b) with foreigns := x.foreigns + 1 }) : H (Bool × Ctx))
        h1 fun r h' => CtxOk r.2 C ∧ Fits h' fun a => ctxBag r.2 a + R a := by
    intro b h1 f1
    refine Runs.keep (touch_ctx (x := x.set .foreign (some b)) (s := .foreign) rfl f1) ?_
    refine .pure ⟨⟨ok.present, ok.pos, ok.nets, ok.m, ok.c, ok.t, ?_, ok.reads, ok.writes, ok.cron⟩, f1⟩
    exact ⟨fun _ => rfl, fun _ => Nat.succ_pos _⟩
  by_cases h0 : x.foreigns = 0
  · have hn : x.slot .foreign = none := by
      cases e : x.slot .foreign with
      | none => rfl
      | some b =>
        have := ok.foreign.2 (by rw [e]; rfl)
        omega
    rw [if_pos h0]
    refine (alloc_runs p f).bind ?_
    rintro q h1 ⟨f1, -, -⟩
    cases q with
    | none => exact .pure ⟨ok, f1.congr fun a => by simp [ptrBag]⟩
    | some b =>
      refine fin b h1 (f1.congr fun a => ?_)
      have := ctxBag_out x .foreign a
      rw [hn] at this
      rw [ctxBag_in x .foreign (some b)]
      simp only [ptrBag] at this ⊢
      omega
  · rw [if_neg h0]
    refine (enlarge_slot p .foreign f).bind ?_
    rintro q h1 (⟨rfl, f1⟩ | ⟨b, rfl, f1⟩)
    · exact .pure ⟨ok, f1⟩
    · exact fin b h1 f1

theorem cronInit_runs (p : Policy) (qty : Nat) {x : Ctx} (ok : CtxOk x) {h : Store} {R : Bag}
    (f : Fits h fun a => ctxBag x a + R a) (hg : qty > 0 → x.jobs = none → p.grow h.tries = true) :
    Runs (cronInit p qty x) h fun r h' => CtxOk r.2 ∧ Fits h' fun a => ctxBag r.2 a + R a := by
  unfold cronInit
  refine Runs.keep (touch_ctx ok.cronSome f) ?_
  cases hj : x.jobs with
  | some b => exact .pure ⟨ok, f⟩
  | none =>
    refine (alloc_runs p f).bind ?_
    rintro q h1 ⟨f1, hq, -⟩
    have fin : Runs (pure (true, { x with jobs := q }) : H (Bool × Ctx)) h1
        fun r h' => CtxOk r.2 ∧ Fits h' fun a => ctxBag r.2 a + R a := by
      refine .pure ⟨⟨ok.present, ok.pos, ok.nets, ok.m, ok.c, ok.t, ok.foreign, ok.reads, ok.writes, .inl ok.cronSome⟩, f1.congr fun a => ?_⟩
      simp only [ctxBag, hj, ptrBag]
      omega
    by_cases h0 : qty > 0
    · rw [hg h0 hj] at hq
      obtain ⟨b, rfl⟩ := Option.isSome_iff_exists.1 hq
      have : Runs (touch (some b)) h1 fun _ h' => h' = h1 := touch_runs f1 (by simp [ptrBag, one_self])
      have := this.keep (f := fun _ => pure (true, { x with jobs := some b })) fin
      simpa [h0] using this
    · simpa [h0] using fin

end Ladder.Heap
