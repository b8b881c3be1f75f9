import Verif.Lemmas.Heap

/-
Ownership accounting for whole contexts: initialisation, registration, placement, teardown.
-/

namespace Ladder.Heap

/-- All members, in the order in which `ladder_ctx_deinit` frees them. -/
def allSlots : List Slot := memSlots ++ ([.foreign] ++ (ioSlots ++ [.cron]))

def slotBag (f : Slot → Ptr) : Bag := sumBag (fun s => ptrBag (f s)) allSlots

def ctxBag (x : Ctx) : Bag := fun a => slotBag x.slot a + ptrBag x.jobs a + arrBag netBag x.nets a

theorem mem_allSlots (s : Slot) : s ∈ allSlots := by cases s <;> decide

theorem nodup_allSlots : allSlots.Nodup := by decide

theorem sumBag_append {α : Type} (B : α → Bag) (xs ys : List α) (a : Nat) :
    sumBag B (xs ++ ys) a = sumBag B xs a + sumBag B ys a := by
  induction xs with
  | nil => simp [sumBag]
  | cons x xs ih => simp only [List.cons_append, sumBag, ih]; omega

theorem sumBag_set {f : Slot → Ptr} {s : Slot} {q : Ptr} (a : Nat) : ∀ ss : List Slot, ss.Nodup → s ∈ ss →
    sumBag (fun s' => ptrBag (if s' = s then q else f s')) ss a + ptrBag (f s) a =
      sumBag (fun s' => ptrBag (f s')) ss a + ptrBag q a
  | [], _, h => by simp at h
  | t :: ss, hn, h => by
    obtain ⟨ht, hn'⟩ := List.nodup_cons.1 hn
    simp only [sumBag]
    by_cases e : t = s
    · subst e
      have : sumBag (fun s' => ptrBag (if s' = t then q else f s')) ss a = sumBag (fun s' => ptrBag (f s')) ss a := by
        refine sumBag_congr (fun x hx a => ?_) a
        have : x ≠ t := fun e => ht (e ▸ hx)
        simp [this]
      simp only [this, if_true]
      omega
    · have h' : s ∈ ss := by
        rcases List.mem_cons.1 h with rfl | h
        · exact absurd rfl e
        · exact h
      have := sumBag_set (f := f) (q := q) a ss hn' h'
      simp only [if_neg e]
      omega

theorem slotBag_set (x : Ctx) (s : Slot) (q : Ptr) (a : Nat) :
    slotBag (x.set s q).slot a + ptrBag (x.slot s) a = slotBag x.slot a + ptrBag q a :=
  sumBag_set a allSlots nodup_allSlots (mem_allSlots s)

theorem ctxBag_set (x : Ctx) (s : Slot) (q : Ptr) (a : Nat) :
    ctxBag (x.set s q) a + ptrBag (x.slot s) a = ctxBag x a + ptrBag q a := by
  have := slotBag_set x s q a
  show slotBag (x.set s q).slot a + ptrBag x.jobs a + arrBag netBag x.nets a + _ = _
  unfold ctxBag
  omega

theorem set_slot_self (x : Ctx) (s : Slot) (q : Ptr) : (x.set s q).slot s = q := by simp [Ctx.set]

theorem set_slot_ne (x : Ctx) {s s' : Slot} (q : Ptr) (h : s' ≠ s) : (x.set s q).slot s' = x.slot s' := by
  simp [Ctx.set, h]

/-- A context as left by the library between calls.  `C` says that the caller may have overwritten the pointer to the
table of scheduled jobs with `NULL`, as the library's own test does. -/
structure CtxOk (x : Ctx) (C : Prop := False) : Prop where
  present : x.nets.isSome
  pos : 0 < x.m
  nets : ArrOk x.networks NetOk x.nets
  m : x.m > 0 → (x.slot .Mh).isSome ∧ (x.slot .M).isSome
  c : x.c > 0 → (x.slot .Cdh).isSome ∧ (x.slot .Cd).isSome ∧ (x.slot .Crh).isSome ∧ (x.slot .Cr).isSome
  t : x.t > 0 → (x.slot .Tdh).isSome ∧ (x.slot .Td).isSome ∧ (x.slot .Trh).isSome ∧ (x.slot .Tr).isSome
  foreign : 0 < x.foreigns ↔ (x.slot .foreign).isSome
  reads : x.reads > 0 → (x.slot .read).isSome ∧ (x.slot .initRead).isSome ∧ (x.slot .input).isSome
  writes : x.writes > 0 → (x.slot .write).isSome ∧ (x.slot .initWrite).isSome ∧ (x.slot .output).isSome
  cron : (x.slot .cron).isSome ∨ (C ∧ x.jobs = none)

theorem CtxOk.cronSome {x : Ctx} (ok : CtxOk x) : (x.slot .cron).isSome := ok.cron.resolve_right fun h => h.1

theorem sumBag_mem {α : Type} {B : α → Bag} {x : α} {xs : List α} (h : x ∈ xs) (a : Nat) : B x a ≤ sumBag B xs a := by
  induction xs with
  | nil => simp at h
  | cons y ys ih =>
    simp only [sumBag]
    rcases List.mem_cons.1 h with rfl | h
    · omega
    · have := ih h; omega

theorem slot_touch {x : Ctx} {h : Store} {R : Bag} (f : Fits h fun a => slotBag x.slot a + R a) {s : Slot}
    (hs : (x.slot s).isSome) : Runs (touch (x.slot s)) h fun _ h' => h' = h := by
  cases e : x.slot s with
  | none => rw [e] at hs; cases hs
  | some b =>
    refine touch_runs f ?_
    have : ptrBag (x.slot s) b ≤ slotBag x.slot b := sumBag_mem (B := fun s => ptrBag (x.slot s)) (mem_allSlots s) b
    rw [e] at this
    simp only [ptrBag, one_self] at this
    omega

theorem Runs.keep {β : Type} {m : H Unit} {h : Store} {f : Unit → H β} {Q : β → Store → Prop}
    (r : Runs m h fun _ h' => h' = h) (k : Runs (f ()) h Q) : Runs (m >>= f) h Q :=
  r.bind fun _ h' e => e ▸ k

theorem touchSlots_runs {x : Ctx} {h : Store} {R : Bag} (f : Fits h fun a => slotBag x.slot a + R a) :
    ∀ ss : List Slot, (∀ s ∈ ss, (x.slot s).isSome) → Runs (touchSlots ss x) h fun _ h' => h' = h
  | [], _ => .pure rfl
  | s :: ss, hs => (slot_touch f (hs s (by simp))).keep (touchSlots_runs f ss fun t ht => hs t (by simp [ht]))

theorem clearMemory_runs {C : Prop} {x : Ctx} (ok : CtxOk x C) {h : Store} {R : Bag}
    (f : Fits h fun a => slotBag x.slot a + R a) : Runs (clearMemory x) h fun _ h' => h' = h := by
  unfold clearMemory
  refine (touchSlots_runs f _ ?_).keep ((touchSlots_runs f _ ?_).keep (touchSlots_runs f _ ?_))
  · split
    · rename_i hg
      have := ok.m hg
      simp [this]
    · simp
  · split
    · rename_i hg
      have := ok.c hg
      simp [this]
    · simp
  · split
    · rename_i hg
      have := ok.t hg
      simp [this]
    · simp

theorem clearProgram_runs {x : Ctx} (ok : ArrOk x.networks NetOk x.nets) {h : Store} {R : Bag}
    (f : Fits h fun a => arrBag netBag x.nets a + R a) :
    Runs (clearProgram x) h fun y h' => (∃ nets, y = { x with nets := nets } ∧ ptrOf nets = ptrOf x.nets ∧
      ArrOk x.networks NetOk nets) ∧ Fits h' fun a => arrBag netBag y.nets a + R a := by
  have hd : Does clearNet NetOk netBag (fun _ y => NetOk y) netBag := by
    intro x hx h R hh
    exact (clearNet_does x hx h R hh).mono fun y h' hy => ⟨hy.1.1, hy.2⟩
  refine (each_does hd x.networks x.nets ok h R f).bind ?_
  rintro y h' ⟨⟨hy, hp⟩, fy⟩
  exact .pure ⟨⟨y, rfl, hp, hy⟩, fy⟩

theorem freeNets_runs {x : Ctx} (ok : ArrOk x.networks NetOk x.nets) {h : Store} {R : Bag}
    (f : Fits h fun a => arrBag netBag x.nets a + R a) :
    Runs (freeNets x) h fun y h' => (∃ nets, y = { x with nets := nets }) ∧ Fits h' R := by
  unfold freeNets
  cases hn : x.nets with
  | none =>
    refine .pure ⟨⟨x.nets, rfl⟩, f.congr fun a => ?_⟩
    simp [hn, arrBag]
  | some bx =>
    rw [hn] at f ok
    refine (each_does freeNet_does x.networks _ ok h R f).bind ?_
    rintro y h' ⟨-, fy⟩
    refine (free_runs (q := ptrOf y) (R := R) (fy.congr fun a => ?_)).bind fun _ h'' f'' => .pure ⟨⟨y, rfl⟩, f''⟩
    cases y with
    | none => rfl
    | some by_ => simp [arrBag, ptrOf, ptrBag, sumBag_zero]

/-- The context after `free(p); p = NULL;` for the given members. -/
def Ctx.drop (x : Ctx) (ss : List Slot) : Ctx := { x with slot := fun s => if s ∈ ss then none else x.slot s }

theorem freeSlots_runs : ∀ (ss : List Slot) (x : Ctx) (h : Store) (R : Bag), ss.Nodup →
    Fits h (fun a => sumBag (fun s => ptrBag (x.slot s)) ss a + R a) →
    Runs (freeSlots ss x) h fun y h' => y = x.drop ss ∧ Fits h' R
  | [], x, h, R, _, f => .pure ⟨by simp [Ctx.drop], f.congr fun a => by simp [sumBag]⟩
  | s :: ss, x, h, R, hn, f => by
    obtain ⟨hs, hn'⟩ := List.nodup_cons.1 hn
    unfold freeSlots
    refine (free_runs (q := x.slot s) (R := fun a => sumBag (fun s => ptrBag (x.slot s)) ss a + R a)
      (f.congr fun a => by simp only [sumBag]; omega)).bind ?_
    intro _ h' f'
    refine (freeSlots_runs ss (x.set s none) h' R hn' (f'.congr fun a => ?_)).mono ?_
    · have : sumBag (fun s' => ptrBag ((x.set s none).slot s')) ss a = sumBag (fun s => ptrBag (x.slot s)) ss a := by
        refine sumBag_congr (fun t ht a => ?_) a
        rw [set_slot_ne]
        exact fun e => hs (e ▸ ht)
      rw [this]
    · rintro y h'' ⟨rfl, f''⟩
      refine ⟨?_, f''⟩
      simp only [Ctx.drop, Ctx.set, List.mem_cons]
      congr 1
      funext t
      by_cases h1 : t = s <;> by_cases h2 : t ∈ ss <;> simp [h1, h2]

theorem touches_runs {q : Ptr} {h : Store} (r : Runs (touch q) h fun _ h' => h' = h) :
    ∀ n, Runs (touches n q) h fun _ h' => h' = h
  | 0 => .pure rfl
  | n + 1 => r.keep (touches_runs r n)

theorem touches_slot {x : Ctx} {h : Store} {R : Bag} {n : Nat} {s : Slot} (hs : n > 0 → (x.slot s).isSome)
    (f : Fits h fun a => ptrBag (x.slot s) a + R a) : Runs (touches n (x.slot s)) h fun _ h' => h' = h := by
  cases n with
  | zero => exact .pure rfl
  | succ n =>
    have := hs (by omega)
    cases e : x.slot s with
    | none => rw [e] at this; cases this
    | some b =>
      rw [e] at f
      exact touches_runs (touch_runs f (by simp [ptrBag, one_self])) _

theorem freeCron_runs {x : Ctx} {h : Store} {R : Bag}
    (hj : x.slot .cron = none → x.jobs = none)
    (f : Fits h fun a => ptrBag (x.slot .cron) a + (ptrBag x.jobs a + R a)) :
    Runs (freeCron x) h fun y h' => y = { x.set .cron none with jobs := none } ∧ Fits h' R := by
  unfold freeCron
  cases hc : x.slot .cron with
  | none =>
    rw [hc, hj hc] at f
    exact ⟨_, h, rfl, by simp only [Ctx.set], f.congr fun a => by simp [ptrBag]⟩
  | some b =>
    rw [hc] at f
    refine (touch_runs f (b := b) (by simp [ptrBag, one_self])).keep ?_
    refine (free_runs (q := x.jobs) (R := fun a => one b a + R a) (f.congr fun a => by simp only [ptrBag]; omega)).bind ?_
    intro _ h' f'
    refine (free_runs (q := some b) (R := R) f').bind ?_
    intro _ h'' f''
    exact .pure ⟨rfl, f''⟩

theorem slotBag_split (f : Slot → Ptr) (a : Nat) :
    slotBag f a = sumBag (fun s => ptrBag (f s)) memSlots a + (ptrBag (f .foreign) a +
      (sumBag (fun s => ptrBag (f s)) ioSlots a + ptrBag (f .cron) a)) := by
  simp only [slotBag, allSlots, sumBag_append, sumBag]
  omega

/-- The part of teardown after the networks. -/
theorem deinit_tail {x : Ctx} {h : Store} {R : Bag}
    (hf : x.foreigns > 0 → (x.slot .foreign).isSome) (hr : x.reads > 0 → (x.slot .initRead).isSome)
    (hw : x.writes > 0 → (x.slot .initWrite).isSome) (hj : x.slot .cron = none → x.jobs = none)
    (f : Fits h fun a => slotBag x.slot a + (ptrBag x.jobs a + R a)) :
    Runs (do
      let x ← freeSlots memSlots x
      touches x.foreigns (x.slot .foreign)
      let x ← freeSlots [.foreign] x
      touches x.reads (x.slot .initRead)
      touches x.writes (x.slot .initWrite)
      let x ← freeSlots ioSlots x
      freeCron x : H Ctx) h fun y h' => (∀ s, y.slot s = none) ∧ y.jobs = none ∧ y.nets = x.nets ∧
        y.networks = x.networks ∧ y.m = x.m ∧ y.c = x.c ∧ y.t = x.t ∧ Fits h' R := by
  refine (freeSlots_runs memSlots x h (fun a => ptrBag (x.slot .foreign) a +
      (sumBag (fun s => ptrBag (x.slot s)) ioSlots a + (ptrBag (x.slot .cron) a + (ptrBag x.jobs a + R a)))) (by decide)
    (f.congr fun a => by rw [slotBag_split]; omega)).bind ?_
  rintro y h1 ⟨rfl, f1⟩
  refine Runs.keep (touches_slot (s := .foreign) (x := x.drop memSlots) hf f1) ?_
  refine (freeSlots_runs [.foreign] (x.drop memSlots) h1 (fun a => sumBag (fun s => ptrBag (x.slot s)) ioSlots a +
    (ptrBag (x.slot .cron) a + (ptrBag x.jobs a + R a))) (by decide) (f1.congr fun a => ?_)).bind ?_
  · simp only [sumBag]
    show _ = ptrBag (x.slot .foreign) a + 0 + _
    omega
  rintro y h2 ⟨rfl, f2⟩
  have e1 : ∀ s ∈ ioSlots, ((x.drop memSlots).drop [.foreign]).slot s = x.slot s := by
    intro s hs
    have h1 : s ∉ memSlots := by revert hs; cases s <;> decide
    have h2 : s ∉ [Slot.foreign] := by revert hs; cases s <;> decide
    simp only [Ctx.drop, if_neg h1, if_neg h2]
  have fio := f2
  have tch : ∀ (n : Nat) (s : Slot), s ∈ ioSlots → (n > 0 → (x.slot s).isSome) →
      Runs (touches n (((x.drop memSlots).drop [.foreign]).slot s)) h2 fun _ h' => h' = h2 := by
    intro n s hs hn
    cases n with
    | zero => exact .pure rfl
    | succ n =>
      have := hn (by omega)
      rw [e1 s hs]
      cases e : x.slot s with
      | none => rw [e] at this; cases this
      | some b =>
        refine touches_runs (touch_runs f2 ?_) _
        have h1 : ptrBag (x.slot s) b ≤ sumBag (fun s => ptrBag (x.slot s)) ioSlots b :=
          sumBag_mem (B := fun s => ptrBag (x.slot s)) hs b
        have h2 : ptrBag (x.slot s) b = 1 := by rw [e]; exact one_self b
        omega
  refine Runs.keep (tch _ .initRead (by decide) hr) ?_
  refine Runs.keep (tch _ .initWrite (by decide) hw) ?_
  refine (freeSlots_runs ioSlots _ h2 (fun a => ptrBag (x.slot .cron) a + (ptrBag x.jobs a + R a)) (by decide)
    (f2.congr fun a => ?_)).bind ?_
  · have : sumBag (fun s => ptrBag (((x.drop memSlots).drop [.foreign]).slot s)) ioSlots a =
        sumBag (fun s => ptrBag (x.slot s)) ioSlots a := sumBag_congr (fun s hs a => by rw [e1 s hs]) a
    rw [this]
  rintro y h3 ⟨rfl, f3⟩
  refine (freeCron_runs (x := ((x.drop memSlots).drop [.foreign]).drop ioSlots) (R := R) hj f3).mono ?_
  rintro y h4 ⟨rfl, f4⟩
  refine ⟨fun s => ?_, rfl, rfl, rfl, rfl, rfl, rfl, f4⟩
  cases s <;> rfl

theorem deinit_runs {C : Prop} {x : Ctx} (ok : CtxOk x C) {h : Store} {R : Bag} (f : Fits h fun a => ctxBag x a + R a) :
    Runs (deinit x) h fun y h' => (∀ s, y.slot s = none) ∧ y.m = x.m ∧ y.c = x.c ∧ y.t = x.t ∧ Fits h' R := by
  unfold deinit
  refine Runs.keep (clearMemory_runs ok (R := fun a => ptrBag x.jobs a + arrBag netBag x.nets a + R a)
    (f.congr fun a => by simp only [ctxBag]; omega)) ?_
  refine (clearProgram_runs ok.nets (R := fun a => slotBag x.slot a + (ptrBag x.jobs a + R a))
    (f.congr fun a => by simp only [ctxBag]; omega)).bind ?_
  rintro y h1 ⟨⟨nets, rfl, -, hn⟩, f1⟩
  refine (freeNets_runs (x := { x with nets := nets }) hn f1).bind ?_
  rintro y h2 ⟨⟨nets', rfl⟩, f2⟩
  refine (deinit_tail (x := { x with nets := nets' }) ok.foreign.1 (fun h => (ok.reads h).2.1)
    (fun h => (ok.writes h).2.1) ?_ f2).mono ?_
  · intro h
    refine ok.cron.elim (fun this => ?_) fun this => this.2
    rw [show x.slot .cron = none from h] at this
    cases this
  · rintro y h' ⟨a, -, -, -, m, c, t, f'⟩
    exact ⟨a, m, c, t, f'⟩

/-- Teardown of a context whose quantities are still zero: the network array is freed, what hangs on it is not. -/
theorem deinit_zero {x : Ctx} (h0 : x.networks = 0) (hm : x.m = 0) (hc : x.c = 0) (ht : x.t = 0)
    (hf : x.foreigns = 0) (hr : x.reads = 0) (hw : x.writes = 0) (hj : x.jobs = none) {h : Store} {R : Bag}
    (f : Fits h fun a => ctxBag x a + R a) :
    Runs (deinit x) h fun y h' => y.networks = 0 ∧ y.m = 0 ∧ y.c = 0 ∧ y.t = 0 ∧ y.nets = x.nets ∧
      Fits h' fun a => (match x.nets with | none => 0 | some (_, ns) => sumBag netBag ns a) + R a := by
  unfold deinit
  refine Runs.keep (Q := _) (m := clearMemory x) ⟨(), h, ?_, rfl⟩ ?_
  · simp only [clearMemory, hm, hc, ht]; rfl
  refine Runs.bind (m := clearProgram x) (Q := fun y h' => y = x ∧ h' = h) ⟨x, h, ?_, rfl, rfl⟩ ?_
  · have he : each clearNet x.networks x.nets = pure x.nets := by rw [h0]; rfl
    unfold clearProgram
    rw [he]
    rfl
  rintro y h' ⟨ey, eh⟩
  rw [ey, eh]
  refine Runs.bind (m := freeNets _) (Q := fun y h' => y = x ∧ Fits h' fun a => slotBag x.slot a + (ptrBag x.jobs a +
    ((match x.nets with | none => 0 | some (_, ns) => sumBag netBag ns a) + R a))) ?_ ?_
  · unfold freeNets
    cases hn : x.nets with
    | none =>
      exact .pure ⟨rfl, f.congr fun a => by simp [ctxBag, hn, arrBag]; omega⟩
    | some bx =>
      obtain ⟨b, ns⟩ := bx
      refine Runs.bind (m := each freeNet x.networks _) (Q := fun y h' => y = some (b, ns) ∧ h' = h)
        ⟨some (b, ns), h, ?_, rfl, rfl⟩ ?_
      · rw [h0]; rfl
      rintro y h' ⟨ey, eh⟩
      rw [ey, eh]
      refine (free_runs (q := some b) (R := fun a => slotBag x.slot a + (ptrBag x.jobs a + (sumBag netBag ns a + R a)))
        (f.congr fun a => by simp only [ctxBag, hn, arrBag, ptrBag]; omega)).bind ?_
      intro _ h' f'
      refine .pure ⟨?_, f'⟩
      rw [← hn]
  rintro y h1 ⟨ey, f1⟩
  rw [ey]
  refine (deinit_tail (x := x) (by omega) (by omega) (by omega) (fun _ => hj) f1).mono ?_
  rintro y h' ⟨-, -, hn, hnw, m, c, t, f'⟩
  exact ⟨hnw ▸ h0, m ▸ hm, c ▸ hc, t ▸ ht, hn, f'⟩

end Ladder.Heap
