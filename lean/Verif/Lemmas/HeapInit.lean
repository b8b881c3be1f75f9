import Verif.Lemmas.HeapCtx

/-
Ownership accounting for initialisation and registration.
-/

namespace Ladder.Heap

theorem sumBag_replicate {α : Type} {B : α → Bag} {x : α} (h : ∀ a, B x a = 0) (n a : Nat) :
    sumBag B (List.replicate n x) a = 0 :=
  sumBag_zero (fun y hy => by rw [(List.mem_replicate.1 hy).2]; exact h) a

theorem newRows_runs (p : Policy) (cols : Nat) : ∀ (n : Nat) (h : Store) (R : Bag), Fits h R →
    Runs (newRows p cols n) h fun r h' => r.2.length = n ∧ (r.1 = true → ∀ row ∈ r.2, RowOk cols row) ∧
      Fits h' fun a => sumBag rowBag r.2 a + R a
  | 0, h, R, f => .pure ⟨rfl, by simp, f.congr fun a => by simp [sumBag]⟩
  | n + 1, h, R, f => by
    unfold newRows
    refine (alloc_runs p f).bind ?_
    rintro q h1 ⟨f1, -, -⟩
    cases q with
    | none =>
      refine .pure ⟨by simp, by simp, f1.congr fun a => ?_⟩
      rw [sumBag_replicate (fun a => rfl)]
      rfl
    | some b =>
      refine (newRows_runs p cols n h1 _ f1).bind ?_
      rintro ⟨ok, rest⟩ h2 ⟨hl, hr, f2⟩
      refine .pure ⟨by simpa using hl, fun hok => ?_, f2.congr fun a => ?_⟩
      · intro row hrow
        rcases List.mem_cons.1 hrow with rfl | hrow
        · refine ⟨by simp, fun x hx => ?_⟩
          rw [(List.mem_replicate.1 hx).2]
          simp [CellOk]
        · exact hr hok row hrow
      · have : sumBag cellBag (List.replicate cols {}) a = 0 := sumBag_replicate (fun a => rfl) _ _
        simp only [sumBag, rowBag, arrBag, this, ptrBag]
        simp only [rowBag] at *
        omega

theorem newNets_runs (p : Policy) (rows cols : Nat) : ∀ (n : Nat) (h : Store) (R : Bag), Fits h R →
    Runs (newNets p rows cols n) h fun r h' => r.2.length = n ∧
      (r.1 = true → ∀ net ∈ r.2, NetOk net) ∧
      (p.grow h.tries = false → ∀ a, sumBag netBag r.2 a = 0) ∧
      (p.grow h.tries = true → 0 < n → ∃ b, 1 ≤ sumBag netBag r.2 b) ∧
      Fits h' fun a => sumBag netBag r.2 a + R a
  | 0, h, R, f => .pure ⟨rfl, by simp, fun _ _ => rfl, fun _ h => absurd h (by omega), f.congr fun a => by simp [sumBag]⟩
  | n + 1, h, R, f => by
    unfold newNets
    refine (alloc_runs p f).bind ?_
    rintro q h1 ⟨f1, hq, -⟩
    have hz : ∀ k a, sumBag netBag (List.replicate k {}) a = 0 := fun k a => sumBag_replicate (fun a => rfl) _ _
    cases q with
    | none =>
      have hz' : ∀ a, sumBag netBag ({ rows := rows, cols := cols } :: List.replicate n {}) a = 0 := by
        intro a
        simp only [sumBag, hz]
        rfl
      refine .pure ⟨by simp, by simp, fun _ => hz', ?_, f1.congr fun a => ?_⟩
      · intro hg
        rw [hg] at hq
        cases hq
      · rw [hz']
        rfl
    | some b =>
      have hg : p.grow h.tries = true := by simpa using hq.symm
      refine (newRows_runs p cols rows h1 _ f1).bind ?_
      rintro ⟨ok, rs⟩ h2 ⟨hl, hr, f2⟩
      have hfirst : 1 ≤ netBag { rows := rows, cols := cols, cells := some (b, rs) } b := by
        simp only [netBag, arrBag, one_self]; omega
      cases ok with
      | false =>
        refine .pure ⟨by simp, by simp, (by rw [hg]; simp), fun _ _ => ⟨b, ?_⟩, f2.congr fun a => ?_⟩
        · simp only [sumBag]; omega
        · simp only [sumBag, hz, netBag, arrBag, ptrBag]; omega
      | true =>
        refine (newNets_runs p rows cols n h2 _ f2).bind ?_
        rintro ⟨ok, rest⟩ h3 ⟨hl3, hr3, -, -, f3⟩
        refine .pure ⟨by simpa using hl3, fun hok => ?_, (by rw [hg]; simp), fun _ _ => ⟨b, ?_⟩, f3.congr fun a => ?_⟩
        · intro net hnet
          rcases List.mem_cons.1 hnet with rfl | hnet
          · exact ⟨hl, hr rfl⟩
          · exact hr3 hok net hnet
        · simp only [sumBag]; omega
        · simp only [sumBag, netBag, arrBag, ptrBag]
          simp only [netBag] at *
          omega

theorem newSlots_runs (p : Policy) : ∀ (ss : List Slot) (x : Ctx) (h : Store) (R : Bag), ss.Nodup →
    (∀ s ∈ ss, x.slot s = none) → Fits h (fun a => slotBag x.slot a + R a) →
    Runs (newSlots p ss x) h fun r h' => (∃ f, r.2 = { x with slot := f } ∧ (∀ s, s ∉ ss → f s = x.slot s)) ∧
      (r.1 = true → ∀ s ∈ ss, (r.2.slot s).isSome) ∧ Fits h' fun a => slotBag r.2.slot a + R a
  | [], x, h, R, _, _, f => .pure ⟨⟨x.slot, rfl, fun _ _ => rfl⟩, by simp, f⟩
  | s :: ss, x, h, R, hn, hs, f => by
    obtain ⟨hs', hn'⟩ := List.nodup_cons.1 hn
    unfold newSlots
    refine (alloc_runs p f).bind ?_
    rintro q h1 ⟨f1, -, -⟩
    cases q with
    | none =>
      exact .pure ⟨⟨x.slot, rfl, fun _ _ => rfl⟩, by simp, f1.congr fun a => by simp [ptrBag]⟩
    | some b =>
      have h0 : x.slot s = none := hs s (by simp)
      refine (newSlots_runs p ss (x.set s (some b)) h1 R hn' ?_ (f1.congr fun a => ?_)).mono ?_
      · intro t ht
        rw [set_slot_ne _ _ (show t ≠ s from fun e => hs' (e ▸ ht))]
        exact hs t (by simp [ht])
      · have := slotBag_set x s (some b) a
        rw [h0] at this
        simp only [ptrBag] at this ⊢
        omega
      · rintro ⟨ok, y⟩ h' ⟨⟨g, hg, hge⟩, hall, f'⟩
        simp only at hg hall f'
        refine ⟨⟨g, hg, fun t ht => ?_⟩, fun hok t ht => ?_, f'⟩
        · rw [hge t (fun e => ht (by simp [e])), set_slot_ne]
          exact fun e => ht (by simp [e])
        · rcases List.mem_cons.1 ht with rfl | ht
          · simp only
            rw [hg]
            simp only
            rw [hge t hs', set_slot_self]
            rfl
          · exact hall hok t ht

/-- What hangs on the network array. -/
def hanging (x : Ctx) : Bag := fun a => match x.nets with | none => 0 | some (_, ns) => sumBag netBag ns a

theorem initNets_runs (p : Policy) {a : InitArgs} (hn : 1 ≤ a.networks) {h : Store} {R : Bag} (f : Fits h R) :
    Runs (initNets p a) h fun r h' => r.2 = { nets := r.2.nets } ∧
      (Fits h' fun a => arrBag netBag r.2.nets a + R a) ∧
      (r.1 = true → a.initNetwork = true → ArrOk a.networks NetOk r.2.nets) ∧
      (a.initNetwork = false → r.2.nets = none) ∧
      (a.initNetwork = true → p.grow h.tries = true → r.2.nets.isSome) ∧
      (r.1 = true → a.initNetwork = true → r.2.nets.isSome) ∧
      (a.initNetwork = false ∨ p.grow h.tries = false ∨ p.grow (h.tries + 1) = false → ∀ a, hanging r.2 a = 0) ∧
      (a.initNetwork = true → p.grow h.tries = true → p.grow (h.tries + 1) = true → ∃ b, 1 ≤ hanging r.2 b) := by
  unfold initNets
  cases hi : a.initNetwork with
  | false =>
    refine .pure ⟨rfl, f.congr fun a => by simp [arrBag], by simp, by simp, by simp, by simp, fun _ a => rfl, by simp⟩
  | true =>
    refine (alloc_runs p f).bind ?_
    rintro q h1 ⟨f1, hq, ht⟩
    cases q with
    | none =>
      have hg : p.grow h.tries = false := by simpa using hq.symm
      refine .pure ⟨rfl, f1.congr fun a => rfl, by simp, by simp, ?_, by simp, fun _ a => rfl, ?_⟩
      · rw [hg]; simp
      · rw [hg]; simp
    | some b =>
      have hg : p.grow h.tries = true := by simpa using hq.symm
      refine (newNets_runs p a.rows a.cols a.networks h1 _ f1).bind ?_
      rintro ⟨ok, ns⟩ h2 ⟨hl, hok, hz, hp, f2⟩
      rw [ht] at hz hp
      refine .pure ⟨rfl, f2.congr fun a => ?_, fun e _ => ⟨hl, hok e⟩, by simp, fun _ _ => rfl, fun _ _ => rfl, ?_, ?_⟩
      · simp only [arrBag, ptrBag]; omega
      · rintro (h | h | h) a
        · cases h
        · rw [hg] at h; cases h
        · exact hz h a
      · intro _ _ h
        exact hp h (by omega)

theorem cleanup_runs {x : Ctx} {g : Slot → Ptr} {nets : Option (Nat × List Net)}
    (hx : x = { slot := g, nets := nets }) {h : Store} {R : Bag} (f : Fits h fun a => ctxBag x a + R a) :
    Runs (cleanup x) h fun r h' => r.1 = false ∧ r.2.networks = 0 ∧ r.2.m = 0 ∧ r.2.c = 0 ∧ r.2.t = 0 ∧
      r.2.nets = x.nets ∧ (Fits h' fun a => hanging x a + R a) ∧ ∀ b, ptrOf x.nets = some b → h'.live.count b = 0 := by
  unfold cleanup
  subst hx
  refine (deinit_zero (x := { slot := g, nets := nets }) rfl rfl rfl rfl rfl rfl rfl rfl f).bind ?_
  rintro y h' ⟨h1, h2, h3, h4, h5, f'⟩
  refine .pure ⟨rfl, h1, h2, h3, h4, h5, f', ?_⟩
  intro b hb
  have := f.once b
  cases nets with
  | none => cases hb
  | some bx =>
    obtain ⟨b', ns⟩ := bx
    have e : b' = b := by simpa [ptrOf] using hb
    subst e
    rw [f'.live]
    simp only [ctxBag, arrBag, one_self] at this ⊢
    omega

/-- Everything about the outcome of `ladder_ctx_init` with accepted arguments. -/
theorem ctxInit_runs (p : Policy) (old : Ctx) {a : InitArgs} (hv : a.valid = true) {h : Store} {R : Bag}
    (f : Fits h R) :
    Runs (ctxInit p old a) h fun r h' =>
      (r.1 = true ∧ (a.initNetwork = true → CtxOk r.2) ∧ (a.initNetwork = false → r.2.nets = none) ∧
        (∀ s, (r.2.slot s).isSome = decide (s ∈ initSlots)) ∧
        r.2.networks = a.networks ∧ r.2.m = a.m ∧ r.2.c = a.c ∧ r.2.t = a.t ∧ 
        (Fits h' fun a => ctxBag r.2 a + R a)) ∨
      (r.1 = false ∧ r.2.networks = 0 ∧ r.2.m = 0 ∧ r.2.c = 0 ∧ r.2.t = 0 ∧
        (a.initNetwork = false ∨ p.grow h.tries = false ∨ p.grow (h.tries + 1) = false → Fits h' R) ∧
        (a.initNetwork = true → p.grow h.tries = true → p.grow (h.tries + 1) = true →
          ∃ (L : Bag) (b : Nat), 1 ≤ L b ∧ Fits h' fun a => L a + R a) ∧
        (a.initNetwork = true → p.grow h.tries = true →
          ∃ b, ptrOf r.2.nets = some b ∧ h'.live.count b = 0)) := by
  have hnets : 1 ≤ a.networks := by
    simp only [InitArgs.valid, decide_eq_true_eq] at hv
    omega
  have hm : 0 < a.m := by
    simp only [InitArgs.valid, decide_eq_true_eq] at hv
    omega
  unfold ctxInit
  rw [hv]
  simp only [Bool.not_true, Bool.false_eq_true, if_false]
  refine (initNets_runs p hnets f).bind ?_
  rintro ⟨ok, x⟩ h1 ⟨hx, f1, hok, hnone, hsome, hsome', hz, hp⟩
  simp only at hx f1 hok hnone hsome hsome' hz hp
  have fin : ∀ (g : Slot → Ptr) (h2 : Store),
      (Fits h2 fun a => ctxBag { x with slot := g } a + R a) →
      Runs (cleanup { x with slot := g }) h2 fun r h' => r.1 = false ∧ r.2.networks = 0 ∧ r.2.m = 0 ∧ r.2.c = 0 ∧
        r.2.t = 0 ∧
        (a.initNetwork = false ∨ p.grow h.tries = false ∨ p.grow (h.tries + 1) = false → Fits h' R) ∧
        (a.initNetwork = true → p.grow h.tries = true → p.grow (h.tries + 1) = true →
          ∃ (L : Bag) (b : Nat), 1 ≤ L b ∧ Fits h' fun a => L a + R a) ∧
        (a.initNetwork = true → p.grow h.tries = true →
          ∃ b, ptrOf r.2.nets = some b ∧ h'.live.count b = 0) := by
    intro g h2 f2
    refine (cleanup_runs (g := g) (nets := x.nets) (by rw [hx]) f2).mono ?_
    rintro ⟨ok, y⟩ h' ⟨e1, e2, e3, e4, e5, e6, f', hb⟩
    refine ⟨e1, e2, e3, e4, e5, fun hc => ?_, fun i g1 g2 => ?_, fun i g1 => ?_⟩
    · refine f'.congr fun a => ?_
      rw [show hanging { x with slot := g } a = hanging x a from rfl, hz hc]
      omega
    · obtain ⟨b, hb⟩ := hp i g1 g2
      exact ⟨_, b, hb, f'⟩
    · have := hsome i g1
      obtain ⟨bx, hbx⟩ := Option.isSome_iff_exists.1 this
      refine ⟨bx.1, ?_, hb bx.1 (by simp [ptrOf, hbx])⟩
      simp only at e6
      simp [ptrOf, e6, hbx]
  have hslot : ∀ s, x.slot s = none := by intro s; rw [hx]
  have f1' : Fits h1 fun a => slotBag x.slot a + (arrBag netBag x.nets a + R a) := f1.congr fun a => by
    have : slotBag x.slot a = 0 := sumBag_zero (fun s _ a => by rw [hslot]; rfl) a
    omega
  have hjobs : x.jobs = none := by rw [hx]
  cases ok with
  | false =>
    refine (fin x.slot h1 (f1'.congr fun a => ?_)).mono fun r h' hr => .inr hr
    simp only [ctxBag, hjobs, ptrBag]
    omega
  | true =>
    simp only [Bool.not_true, Bool.false_eq_true, if_false]
    refine (newSlots_runs p initSlots x h1 _ (by decide) (fun s _ => hslot s) f1').bind ?_
    rintro ⟨ok, y⟩ h2 ⟨⟨g, hy, hg⟩, hall, f2⟩
    simp only at hy hall f2
    subst hy
    have f2' : Fits h2 fun a => ctxBag { x with slot := g } a + R a := f2.congr fun a => by
      simp only [ctxBag, hjobs, ptrBag]
      omega
    cases ok with
    | false => exact (fin g h2 f2').mono fun r h' hr => .inr hr
    | true =>
      simp only [Bool.not_true, Bool.false_eq_true, if_false]
      have hs : ∀ s, (g s).isSome = decide (s ∈ initSlots) := by
        intro s
        by_cases hs : s ∈ initSlots
        · rw [decide_eq_true hs]; exact hall rfl s hs
        · rw [decide_eq_false hs, hg s hs, hslot]; rfl
      refine .pure (.inl ⟨rfl, fun i => ?_, hnone, hs, rfl, rfl, rfl, rfl, f2'⟩)
      have q0 : x.foreigns = 0 ∧ x.reads = 0 ∧ x.writes = 0 := by rw [hx]; exact ⟨rfl, rfl, rfl⟩
      refine ⟨hsome' rfl i, hm, hok rfl i, ?_, ?_, ?_, ?_, ?_, ?_, ?_⟩
      · intro _; simp only [hs]; decide
      · intro _; simp only [hs]; decide
      · intro _; simp only [hs]; decide
      · simp only [hs, q0.1]; decide
      · intro h; simp only [q0.2.1] at h; omega
      · intro h; simp only [q0.2.2] at h; omega
      · refine .inl ?_; simp only [hs]; decide

end Ladder.Heap
