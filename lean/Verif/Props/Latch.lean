import Verif.Lemmas.Step
import Verif.Spec.Demo

/-
C08 (one execution) and C10: edge contacts, latch and unlatch coils.
-/

set_option autoImplicit false

namespace Ladder.Props

open Spec Op

section
variable {w : World} {n r c : Nat} {l : Bool}

/-! ### Edge contacts -/

/-- A rising-edge contact conducts iff it is powered, its operand is non-zero and was zero. -/
theorem C08_RE (env : Env) {x p : W32} (hs : Site w.ctx n r c l) (hx : Reads w.ctx n r c 0 x)
    (hp : ReadsPrev w.ctx n r c 0 p) :
    ∃ w', execIns env .RE r c w = .ok (.ok, w') ∧
      Sets w w' [(.cell n r c, (l && decide (x ≠ 0) && decide (p = 0)).toNat)] := by
  refine ⟨w.upd (.cell n r c) (l && decide (x ≠ 0) && decide (p = 0)).toNat, ?_, Sets.one hs.cell (bool_lt_cell _)⟩
  by_cases h0 : x = 0#32 <;> by_cases h1 : p = 0#32 <;>
    simp [execIns, fnRE, hs.getData hx, hs.getPrev hp, hs.getLeft, hs.setState, h0, h1]

/-- A falling-edge contact conducts iff it is powered, its operand is zero and was not. -/
theorem C08_FE (env : Env) {x p : W32} (hs : Site w.ctx n r c l) (hx : Reads w.ctx n r c 0 x)
    (hp : ReadsPrev w.ctx n r c 0 p) :
    ∃ w', execIns env .FE r c w = .ok (.ok, w') ∧
      Sets w w' [(.cell n r c, (l && decide (x = 0) && decide (p ≠ 0)).toNat)] := by
  refine ⟨w.upd (.cell n r c) (l && decide (x = 0) && decide (p ≠ 0)).toNat, ?_, Sets.one hs.cell (bool_lt_cell _)⟩
  by_cases h0 : x = 0#32 <;> by_cases h1 : p = 0#32 <;>
    simp [execIns, fnFE, hs.getData hx, hs.getPrev hp, hs.getLeft, hs.setState, h0, h1]

/-- A rising-edge contact on I0.0, which is 1 and was 0. -/
example : ∃ w', execIns Demo.env .RE 0 0 (Demo.world [Demo.net [[Demo.ins .RE [Demo.op .I 0]]]]) = .ok (.ok, w') ∧
    Sets (Demo.world [Demo.net [[Demo.ins .RE [Demo.op .I 0]]]]) w' [(.cell 0 0 0, 1)] :=
  C08_RE Demo.env (l := true) (x := 1) (p := 0) ⟨Demo.fits _ (by decide), rfl, by decide, rfl⟩ ⟨_, rfl, rfl⟩ ⟨_, rfl, rfl⟩

/-- A falling-edge contact on M1, which is 0 and was 1. -/
example : ∃ w', execIns Demo.env .FE 0 0 (Demo.world [Demo.net [[Demo.ins .FE [Demo.op .M 1]]]]) = .ok (.ok, w') ∧
    Sets (Demo.world [Demo.net [[Demo.ins .FE [Demo.op .M 1]]]]) w' [(.cell 0 0 0, 1)] :=
  C08_FE Demo.env (l := true) (x := 0) (p := 1) ⟨Demo.fits _ (by decide), rfl, by decide, rfl⟩ ⟨_, rfl, rfl⟩ ⟨_, rfl, rfl⟩

/-! ### Latch coils -/

/-- Storing a Boolean to the cell and to the operand. -/
theorem latch_store (hs : Site w.ctx n r c l) {k : Reg} {ℓ : Loc} (hd : Dest w.ctx n r c 0 k ℓ) (b : Bool) :
    ∃ w', (do setState r c b; let _ ← setData r c 0 (if b then 1 else 0); pure Err.ok : Op Err) w = .ok (.ok, w') ∧
      Sets w w' [(.cell n r c, b.toNat), (ℓ, b.toNat)] := by
  have h2 := (hs.upd_self (x := b.toNat)).setData (w := w.upd (.cell n r c) b.toNat) hd.upd (if b then 1 else 0)
  refine ⟨(w.upd (.cell n r c) b.toNat).upd ℓ (stored k (if b then 1 else 0)), ?_, ?_⟩
  · cases b <;> simp at h2 <;> simp [hs.setState, h2]
  · have hst : stored k (if b then 1 else 0) = b.toNat := by
      cases b <;> cases hk : byteKind k <;> simp [stored, hk]
    have := (Sets.one hs.cell (bool_lt_cell b)).add (ℓ := ℓ) (x := stored k (if b then 1 else 0))
      (by obtain ⟨v, -, -, -, -, h⟩ := hd.upd (ℓ' := .cell n r c) (y := b.toNat); exact h)
      (stored_lt hd _) (by simp; exact hd.ne_cell.symm)
    rw [hst] at this ⊢
    exact this

/-- One execution of a latch coil: the operand becomes "was set or powered". -/
theorem C10_COILL (env : Env) {k : Reg} {ℓ : Loc} {p : W32} (hs : Site w.ctx n r c l) (hd : Dest w.ctx n r c 0 k ℓ)
    (hp : ReadsPrev w.ctx n r c 0 p) :
    ∃ w', execIns env .COILL r c w = .ok (.ok, w') ∧
      Sets w w' [(.cell n r c, (decide (p ≠ 0) || l).toNat), (ℓ, (decide (p ≠ 0) || l).toNat)] := by
  obtain ⟨w', e, h⟩ := latch_store hs hd (decide (p ≠ 0) || l)
  refine ⟨w', ?_, h⟩
  simp only [execIns, fnCOILL, bind_apply, hs.getLeft, hs.getPrev hp]
  exact e

/-- One execution of an unlatch coil: the operand becomes "was set and not powered". -/
theorem C10_COILU (env : Env) {k : Reg} {ℓ : Loc} {p : W32} (hs : Site w.ctx n r c l) (hd : Dest w.ctx n r c 0 k ℓ)
    (hp : ReadsPrev w.ctx n r c 0 p) :
    ∃ w', execIns env .COILU r c w = .ok (.ok, w') ∧
      Sets w w' [(.cell n r c, (decide (p ≠ 0) && !l).toNat), (ℓ, (decide (p ≠ 0) && !l).toNat)] := by
  obtain ⟨w', e, h⟩ := latch_store hs hd (decide (p ≠ 0) && !l)
  refine ⟨w', ?_, h⟩
  simp only [execIns, fnCOILU, bind_apply, hs.getLeft, hs.getPrev hp]
  exact e

end

/-- `N` scans of a latch or unlatch coil on flag M `i` that is the last writer of the flag in each scan: `pre k` and `post k`
are the worlds before and after its execution in scan `k`, `power k` its power, and the previous-scan value it sees is the
flag's value at the end of the previous scan. -/
structure LatchRun (env : Env) (code : Ins) (n r c i N : Nat) (pre post : Nat → World) (power : Nat → Bool) : Prop where
  site : ∀ k < N, Site (pre k).ctx n r c (power k)
  operand : ∀ k < N, ∃ v, operand? (pre k).ctx n r c 0 = some v ∧ v.type = .M ∧ v.raw.toNat = i
  index : i < 2^31
  flag : ∀ k < N, (load (pre k).ctx (.M i)).isSome
  exec : ∀ k < N, execIns env code r c (pre k) = .ok (.ok, post k)
  hist : ∀ k, k + 1 < N → load (pre (k + 1)).ctx (.Mh i) = load (post k).ctx (.M i)

theorem LatchRun.reads {env : Env} {code : Ins} {n r c i N : Nat} {pre post : Nat → World} {power : Nat → Bool}
    (h : LatchRun env code n r c i N pre post power) {k : Nat} (hk : k < N) {b : Bool}
    (hb : load (pre k).ctx (.Mh i) = some b.toNat) :
    Dest (pre k).ctx n r c 0 .M (.M i) ∧ ReadsPrev (pre k).ctx n r c 0 (if b then 1 else 0) := by
  obtain ⟨v, ho, ht, hi⟩ := h.operand k hk
  have hidx := h.index
  have hlt : v.raw.toNat < 2^31 := by omega
  refine ⟨⟨v, ho, ht, rfl, ?_, h.flag k hk⟩, v, ho, ?_⟩
  · unfold place; simp only [ht]; rw [if_pos hlt, hi]
  · unfold prevOf prevPlace; simp only [ht]; rw [if_pos hlt, hi]
    simp only [Option.bind_some, hb, decode]
    cases b <;> rfl

/-- C10, what holds: a flag whose last writer in each scan is a latch coil is set by every powered execution and otherwise
keeps its value: after scan `k` it is set iff it was set at the beginning or the coil has been powered since.  Whatever an
unlatch coil does earlier in the scans has no effect. -/
theorem C10_latch_last_partial {env : Env} {n r c i N : Nat} {pre post : Nat → World} {power : Nat → Bool} {init : Bool}
    (h : LatchRun env .COILL n r c i N pre post power) (h0 : load (pre 0).ctx (.Mh i) = some init.toNat)
    (k : Nat) (hk : k < N) :
    ∃ b : Bool, load (post k).ctx (.M i) = some b.toNat ∧ (b = true ↔ init = true ∨ ∃ x ≤ k, power x = true) := by
  induction k with
  | zero =>
    obtain ⟨hd, hp⟩ := h.reads hk h0
    obtain ⟨w', e, hs⟩ := C10_COILL env (h.site 0 hk) hd hp
    rw [h.exec 0 hk] at e; cases e
    refine ⟨_, hs.val _ (List.mem_cons_of_mem _ (List.mem_singleton.2 rfl)), ?_⟩
    cases init <;> simp
  | succ k ih =>
    obtain ⟨b, hb, hiff⟩ := ih (by omega)
    obtain ⟨hd, hp⟩ := h.reads hk ((h.hist k hk).trans hb)
    obtain ⟨w', e, hs⟩ := C10_COILL env (h.site _ hk) hd hp
    rw [h.exec _ hk] at e; cases e
    refine ⟨_, hs.val _ (List.mem_cons_of_mem _ (List.mem_singleton.2 rfl)), ?_⟩
    have : (decide ((if b then 1 else 0 : W32) ≠ 0)) = b := by cases b <;> rfl
    rw [this, Bool.or_eq_true, hiff]
    constructor
    · rintro ((h1 | ⟨x, hx, h2⟩) | h3)
      · exact .inl h1
      · exact .inr ⟨x, by omega, h2⟩
      · exact .inr ⟨k + 1, Nat.le_refl _, h3⟩
    · rintro (h1 | ⟨x, hx, h2⟩)
      · exact .inl (.inl h1)
      · rcases Nat.lt_or_ge x (k + 1) with hlt | hge
        · exact .inl (.inr ⟨x, by omega, h2⟩)
        · exact .inr (by rw [show k + 1 = x by omega]; exact h2)

/-- C10, what holds: a flag whose last writer in each scan is an unlatch coil is reset by every powered execution and
otherwise keeps its value: after scan `k` it is set iff it was set at the beginning and the coil has not been powered since.
Whatever a latch coil does earlier in the scans has no effect. -/
theorem C10_unlatch_last_partial {env : Env} {n r c i N : Nat} {pre post : Nat → World} {power : Nat → Bool} {init : Bool}
    (h : LatchRun env .COILU n r c i N pre post power) (h0 : load (pre 0).ctx (.Mh i) = some init.toNat)
    (k : Nat) (hk : k < N) :
    ∃ b : Bool, load (post k).ctx (.M i) = some b.toNat ∧ (b = true ↔ init = true ∧ ∀ x ≤ k, power x = false) := by
  induction k with
  | zero =>
    obtain ⟨hd, hp⟩ := h.reads hk h0
    obtain ⟨w', e, hs⟩ := C10_COILU env (h.site 0 hk) hd hp
    rw [h.exec 0 hk] at e; cases e
    refine ⟨_, hs.val _ (List.mem_cons_of_mem _ (List.mem_singleton.2 rfl)), ?_⟩
    cases init <;> simp
  | succ k ih =>
    obtain ⟨b, hb, hiff⟩ := ih (by omega)
    obtain ⟨hd, hp⟩ := h.reads hk ((h.hist k hk).trans hb)
    obtain ⟨w', e, hs⟩ := C10_COILU env (h.site _ hk) hd hp
    rw [h.exec _ hk] at e; cases e
    refine ⟨_, hs.val _ (List.mem_cons_of_mem _ (List.mem_singleton.2 rfl)), ?_⟩
    have : (decide ((if b then 1 else 0 : W32) ≠ 0)) = b := by cases b <;> rfl
    rw [this, Bool.and_eq_true, hiff]
    constructor
    · rintro ⟨⟨h1, h2⟩, h3⟩
      refine ⟨h1, fun x hx => ?_⟩
      rcases Nat.lt_or_ge x (k + 1) with hlt | hge
      · exact h2 x (by omega)
      · rw [show x = k + 1 by omega]; simpa using h3
    · rintro ⟨h1, h2⟩
      exact ⟨⟨h1, fun x hx => h2 x (by omega)⟩, by rw [h2 (k + 1) (Nat.le_refl _)]; rfl⟩

/-- A rung with a latch coil and a rung with an unlatch coil on M0, the power of each coming from the cell before it. -/
def demoLatch (first second : Ins) (p1 p2 : Bool) (m h : Byte) : World :=
  let w := Demo.world [Demo.net [[Demo.ins .CONN [] p1, Demo.ins first [Demo.op .M 0]],
    [Demo.ins .CONN [] p2, Demo.ins second [Demo.op .M 0]]]]
  { w with ctx := { w.ctx with M := some [m, 0, 0], Mh := some [h, 0, 0] } }

/-- Both coils in the order they stand. -/
def demoPair (first second : Ins) (w : World) : Option World :=
  match execIns Demo.env first 0 1 w with
  | .ok (.ok, w1) =>
    match execIns Demo.env second 1 1 w1 with
    | .ok (.ok, w2) => some w2
    | _ => none
  | _ => none

/-- C10 fails in both orders: with the latch coil first, a powered latch and an unpowered unlatch leave the flag reset; with
the unlatch coil first, a powered unlatch and an unpowered latch leave it set. -/
theorem C10_refuted :
    (∃ w', demoPair .COILL .COILU (demoLatch .COILL .COILU true false 0 0) = some w' ∧ load w'.ctx (.M 0) = some 0) ∧
    (∃ w', demoPair .COILU .COILL (demoLatch .COILU .COILL true false 1 1) = some w' ∧ load w'.ctx (.M 0) = some 1) :=
  ⟨⟨_, rfl, rfl⟩, _, rfl, rfl⟩

/-- The hypotheses of the theorems can be met: one scan of a powered latch coil. -/
example : ∃ post, LatchRun Demo.env .COILL 0 0 1 0 1 (fun _ => demoLatch .COILL .NOP true false 0 0) post (fun _ => true) ∧
    load (demoLatch .COILL .NOP true false 0 0).ctx (.Mh 0) = some 0 := by
  obtain ⟨w', e, -⟩ := C10_COILL Demo.env (w := demoLatch .COILL .NOP true false 0 0) (n := 0) (r := 0) (c := 1) (l := true)
    (k := .M) (ℓ := .M 0) (p := 0) ⟨Demo.fits_of rfl, rfl, rfl, rfl⟩ ⟨_, rfl, rfl, rfl, rfl, rfl⟩ ⟨_, rfl, rfl⟩
  refine ⟨fun _ => w', ⟨fun _ _ => ⟨Demo.fits_of rfl, rfl, rfl, rfl⟩, fun _ _ => ⟨_, rfl, rfl, rfl⟩, by decide,
    fun _ _ => rfl, fun _ _ => e, fun k hk => by omega⟩, rfl⟩

end Ladder.Props
