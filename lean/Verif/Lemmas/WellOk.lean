import Verif.Spec.Well

/-
A test that is passed only by well-formed programs (contacts, coils, timers and counters).
-/

set_option autoImplicit false

namespace Ladder.Spec

/-- Tests `Readable`. -/
def readableOk (B : Ctx) (n r c i : Nat) : Bool :=
  match operand? B n r c i with
  | none => false
  | some v => decide (v.type ≠ .R) && (decide (v.type = .NONE) ||
      match place v with
      | none => false
      | some ℓ => (load B ℓ).isSome)

theorem readable_of {B : Ctx} {n r c i : Nat} (h : readableOk B n r c i = true) : Readable B n r c i := by
  unfold readableOk at h
  split at h
  · cases h
  · rename_i v hv
    rw [Bool.and_eq_true, Bool.or_eq_true] at h
    refine ⟨v, hv, of_decide_eq_true h.1, ?_⟩
    rcases h.2 with h | h
    · exact .inl (of_decide_eq_true h)
    · split at h
      · cases h
      · rename_i ℓ hℓ; exact .inr (.inr (.inr ⟨ℓ, hℓ, h⟩))

/-- Tests `Storable`. -/
def storableOk (B : Ctx) (n r c i : Nat) : Bool :=
  match operand? B n r c i with
  | none => false
  | some v => writableKind v.type &&
      match place v with
      | none => false
      | some ℓ => (load B ℓ).isSome

theorem storable_of {B : Ctx} {n r c i : Nat} (h : storableOk B n r c i = true) : Storable B true n r c i := by
  unfold storableOk at h
  split at h
  · cases h
  · rename_i v hv
    rw [Bool.and_eq_true] at h
    obtain ⟨h1, h⟩ := h
    split at h
    · cases h
    · rename_i ℓ hℓ; exact ⟨v, ℓ, hv, h1, by simp, hℓ, h⟩

/-- Tests `TimerWell`. -/
def timerOk (B : Ctx) (n r c : Nat) : Bool :=
  match operand? B n r c 0, operand? B n r c 1 with
  | some v, some p => decide (v.type = .T) && decide (v.raw.toNat < 2^31) && (load B (.acc v.raw.toNat)).isSome &&
      (load B (.Tr v.raw.toNat)).isSome && (load B (.Td v.raw.toNat)).isSome && decide (p.type.code ≤ 4) &&
      (load B (.cell n (r + 1) c)).isSome && B.millis
  | _, _ => false

theorem timer_of {B : Ctx} {n r c : Nat} (h : timerOk B n r c = true) : TimerWell B n r c := by
  unfold timerOk at h
  split at h
  · rename_i v p hv hp
    simp only [Bool.and_eq_true, decide_eq_true_eq] at h
    obtain ⟨⟨⟨⟨⟨⟨⟨h1, h2⟩, h3⟩, h4⟩, h5⟩, h6⟩, h7⟩, h8⟩ := h
    exact ⟨⟨v, hv, h1, h2, h3, h4, h5⟩, ⟨p, hp, h6⟩, h7, h8⟩
  · cases h

/-- Tests `CounterWell`. -/
def counterOk (B : Ctx) (n r c : Nat) : Bool :=
  match operand? B n r c 0, operand? B n r c 1 with
  | some v, some _ => decide (v.raw.toNat < 2^31) && (load B (.C v.raw.toNat)).isSome &&
      (load B (.Cr v.raw.toNat)).isSome && (load B (.Cd v.raw.toNat)).isSome &&
      (load B (.cell n (r + 1) c)).isSome && (decide (c = 0) || (load B (.cell n (r + 1) (c - 1))).isSome)
  | _, _ => false

theorem counter_of {B : Ctx} {n r c : Nat} (h : counterOk B n r c = true) : CounterWell B n r c := by
  unfold counterOk at h
  split at h
  · rename_i v p hv hp
    simp only [Bool.and_eq_true, decide_eq_true_eq, Bool.or_eq_true] at h
    obtain ⟨⟨⟨⟨⟨h1, h2⟩, h3⟩, h4⟩, h5⟩, h6⟩ := h
    exact ⟨⟨v, hv, h1, h2, h3, h4⟩, ⟨p, hp⟩, h5, h6⟩
  · cases h

/-- Tests `WellCell`. -/
def wellCellOk (B : Ctx) (n r c : Nat) : Ins → Bool
  | .NOP | .CONN | .MULTI => true
  | .NO | .NC => readableOk B n r c 0
  | .COIL => storableOk B n r c 0
  | .TON | .TOF | .TP => timerOk B n r c
  | .CTU | .CTD => counterOk B n r c
  | _ => false

theorem wellCell_of {B : Ctx} {n r c : Nat} {i : Ins} (h : wellCellOk B n r c i = true) : WellCell B n r c i := by
  cases i <;> first | exact trivial | cases h | exact readable_of h | exact storable_of h | exact timer_of h | exact counter_of h

/-- Tests `WellNet`. -/
def wellNetOk (B : Ctx) (n : Nat) (net : Network) : Bool :=
  net.cells.isSome && decide (net.rows < 2^32) && decide (net.cols < 2^32) && decide (0 < net.cols) &&
    (List.range net.rows).all fun r => (List.range net.cols).all fun c =>
      match cell? B n r c with
      | none => false
      | some cell => wellCellOk B n r c cell.code

theorem wellNet_of {B : Ctx} {n : Nat} {net : Network} (h : wellNetOk B n net = true) : WellNet B n net := by
  simp only [wellNetOk, Bool.and_eq_true, decide_eq_true_eq, List.all_eq_true, List.mem_range] at h
  obtain ⟨⟨⟨⟨h1, h2⟩, h3⟩, h4⟩, h5⟩ := h
  refine ⟨h1, h2, h3, h4, fun r c hr hc => ?_⟩
  have := h5 r hr c hc
  split at this
  · cases this
  · rename_i cell hcell; exact ⟨cell, hcell, wellCell_of this⟩

/-- Tests `Well`, apart from the cron jobs. -/
def wellOk (B : Ctx) : Bool :=
  decide (B.qty.networks < 2^32) && B.network.isSome &&
    (List.range B.qty.networks).all fun n =>
      match at? B.network n with
      | none => false
      | some net => net.cells.isSome && wellNetOk B n net

theorem well_of {B : Ctx} (h : wellOk B = true) (hj : B.cron = none ∨ ∃ jobs, Jobs B jobs) : Well B := by
  simp only [wellOk, Bool.and_eq_true, decide_eq_true_eq, List.all_eq_true, List.mem_range] at h
  obtain ⟨⟨h1, h2⟩, h3⟩ := h
  refine ⟨h1, fun n hn => ?_, h2, hj⟩
  have := h3 n hn
  split at this
  · cases this
  · rename_i net hnet
    rw [Bool.and_eq_true] at this
    exact ⟨net, hnet, this.1, fun _ => wellNet_of this.2⟩

end Ladder.Spec
