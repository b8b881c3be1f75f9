import Verif.Lemmas.Step

/-
Symbolic execution of instructions that store several times: `Track` relates the current world to the start of the
instruction by the contents `σ` of a list `L` of locations it may change.
-/

namespace Ladder

open Spec Op

/-- A store with one location replaced. -/
def put (σ : Loc → Nat) (ℓ : Loc) (x : Nat) : Loc → Nat := fun ℓ' => if ℓ' = ℓ then x else σ ℓ'

@[simp] theorem put_same (σ : Loc → Nat) (ℓ : Loc) (x : Nat) : put σ ℓ x ℓ = x := by simp [put]

theorem put_ne {σ : Loc → Nat} {ℓ ℓ' : Loc} {x : Nat} (h : ℓ' ≠ ℓ) : put σ ℓ x ℓ' = σ ℓ' := by simp [put, h]

/-- `w` is reached from `w0` by changing only the locations `L`, whose contents are now `σ`. -/
structure Track (L : List Loc) (w0 w : World) (σ : Loc → Nat) (k : Nat) : Prop where
  fits : Fits w.ctx
  shell : shell w.ctx = shell w0.ctx
  val : ∀ ℓ ∈ L, load w.ctx ℓ = some (σ ℓ)
  other : ∀ ℓ, ℓ ∉ L → load w.ctx ℓ = load w0.ctx ℓ
  tick : w.tick = k
  trace : w.trace = w0.trace

namespace Track

variable {L : List Loc} {w0 w : World} {σ : Loc → Nat} {k n r c : Nat} {l : Bool}

theorem only (h : Track L w0 w σ k) : Only w0.ctx w.ctx L := ⟨h.shell, h.other⟩

theorem start {w : World} {L : List Loc} (hf : Fits w.ctx) (σ : Loc → Nat) (h : ∀ ℓ ∈ L, load w.ctx ℓ = some (σ ℓ)) :
    Track L w w σ w.tick := ⟨hf, rfl, h, fun _ _ => rfl, rfl, rfl⟩

theorem upd (h : Track L w0 w σ k) {ℓ : Loc} (hm : ℓ ∈ L) {x : Nat} (hx : x < ℓ.size) :
    Track L w0 (w.upd ℓ x) (put σ ℓ x) k := by
  have hl : (load w.ctx ℓ).isSome := by rw [h.val ℓ hm]; rfl
  refine ⟨h.fits.upd _ _, ?_, ?_, ?_, h.tick, h.trace⟩
  · rw [World.upd_ctx, shell_upd]; exact h.shell
  · intro ℓ' hℓ'
    rw [World.upd_ctx, load_upd _ _ _ _ hl hx]
    unfold put
    by_cases he : ℓ = ℓ'
    · subst he; simp
    · rw [if_neg he, if_neg (fun h => he h.symm)]; exact h.val _ hℓ'
  · intro ℓ' hℓ'
    rw [World.upd_ctx, load_upd_ne _ _ _ _ (fun he => hℓ' (by rw [← he]; exact hm))]
    exact h.other _ hℓ'

theorem isSome (h : Track L w0 w σ k) {ℓ : Loc} (hm : ℓ ∈ L) : (load w.ctx ℓ).isSome := by rw [h.val ℓ hm]; rfl

theorem exec (h : Track L w0 w σ k) : w.ctx.exec = w0.ctx.exec := shell_exec h.shell

theorem operand (h : Track L w0 w σ k) (n r c i : Nat) : operand? w.ctx n r c i = operand? w0.ctx n r c i := by
  rw [← operand?_shell, h.shell, operand?_shell]

theorem leftPower (h : Track L w0 w σ k) {r : Nat} (hL : c = 0 ∨ .cell n r (c - 1) ∉ L) :
    leftPower w.ctx n r c = leftPower w0.ctx n r c := by
  unfold Spec.leftPower
  split
  · rfl
  · rename_i hc
    have := h.other (.cell n r (c - 1)) (hL.resolve_left hc)
    simp only [load] at this
    revert this
    cases cell? w.ctx n r (c - 1) <;> cases cell? w0.ctx n r (c - 1) <;> simp
    rename_i a b
    cases a.state <;> cases b.state <;> simp

theorem getLeft (h : Track L w0 w σ k) {r : Nat} {b : Bool} (he : w0.ctx.exec = some n)
    (hl : Spec.leftPower w0.ctx n r c = some b) (hL : c = 0 ∨ .cell n r (c - 1) ∉ L) :
    Ladder.getLeft r c w = .ok (b, w) :=
  getLeft_ok (h.exec.trans he) ((h.leftPower hL).trans hl)

theorem getDataExec (h : Track L w0 w σ k) {i : Nat} {v : Value} (he : w0.ctx.exec = some n)
    (ho : operand? w0.ctx n r c i = some v) : Ladder.getDataExec r c i w = .ok (v, w) :=
  getDataExec_ok (h.exec.trans he) ((h.operand ..).trans ho)

theorem setState (h : Track L w0 w σ k) {r : Nat} (he : w0.ctx.exec = some n) (hm : .cell n r c ∈ L) (b : Bool) :
    Ladder.setState r c b w = .ok ((), w.upd (.cell n r c) b.toNat) ∧
      Track L w0 (w.upd (.cell n r c) b.toNat) (put σ (.cell n r c) b.toNat) k :=
  ⟨setState_ok (h.exec.trans he) (h.isSome hm), h.upd hm (bool_lt_cell b)⟩

theorem getState (h : Track L w0 w σ k) {r : Nat} {b : Bool} (he : w0.ctx.exec = some n) (hm : .cell n r c ∈ L)
    (hv : σ (.cell n r c) = b.toNat) : Ladder.getState r c w = .ok (b, w) :=
  getState_ok (h.exec.trans he) (by rw [h.val _ hm, hv])

theorem getB (h : Track L w0 w σ k) {a : BArea} {v : Value} {b : Bool} (hi : v.raw.toNat < 2^31)
    (hm : a.loc v.raw.toNat ∈ L) (hv : σ (a.loc v.raw.toNat) = b.toNat) : Ladder.getB a v.i32 w = .ok (b, w) :=
  getB_ok hi (by rw [h.val _ hm, hv])

theorem setB (h : Track L w0 w σ k) {a : BArea} {v : Value} (hi : v.raw.toNat < 2^31)
    (hm : a.loc v.raw.toNat ∈ L) (b : Bool) :
    Ladder.setB a v.i32 b w = .ok ((), w.upd (a.loc v.raw.toNat) b.toNat) ∧
      Track L w0 (w.upd (a.loc v.raw.toNat) b.toNat) (put σ (a.loc v.raw.toNat) b.toNat) k :=
  ⟨setB_ok hi (h.isSome hm), h.upd hm (by cases b <;> cases a <;> simp [BArea.loc, Loc.size])⟩

theorem getTimer (h : Track L w0 w σ k) {v : Value} (hi : v.raw.toNat < 2^31) (ha : .acc v.raw.toNat ∈ L)
    (hs : .stamp v.raw.toNat ∈ L) : Ladder.getTimer v.i32 w =
      .ok (⟨BitVec.ofNat 64 (σ (.stamp v.raw.toNat)), BitVec.ofNat 32 (σ (.acc v.raw.toNat))⟩, w) :=
  getTimer_ok hi (h.val _ ha) (h.val _ hs)

theorem setAcc (h : Track L w0 w σ k) {v : Value} (hi : v.raw.toNat < 2^31) (ha : .acc v.raw.toNat ∈ L) (x : W32) :
    Ladder.setAcc v.i32 x w = .ok ((), w.upd (.acc v.raw.toNat) x.toNat) ∧
      Track L w0 (w.upd (.acc v.raw.toNat) x.toNat) (put σ (.acc v.raw.toNat) x.toNat) k :=
  ⟨setAcc_ok hi (h.isSome ha), h.upd ha x.isLt⟩

theorem setStamp (h : Track L w0 w σ k) {v : Value} (hi : v.raw.toNat < 2^31) (ha : .stamp v.raw.toNat ∈ L) (x : W64) :
    Ladder.setStamp v.i32 x w = .ok ((), w.upd (.stamp v.raw.toNat) x.toNat) ∧
      Track L w0 (w.upd (.stamp v.raw.toNat) x.toNat) (put σ (.stamp v.raw.toNat) x.toNat) k :=
  ⟨setStamp_ok hi (h.isSome ha), h.upd ha x.isLt⟩

theorem getC (h : Track L w0 w σ k) {v : Value} (hi : v.raw.toNat < 2^31) (ha : .C v.raw.toNat ∈ L) :
    Ladder.getC v.i32 w = .ok (BitVec.ofNat 32 (σ (.C v.raw.toNat)), w) := getC_ok hi (h.val _ ha)

theorem setC (h : Track L w0 w σ k) {v : Value} (hi : v.raw.toNat < 2^31) (ha : .C v.raw.toNat ∈ L) (x : W32) :
    Ladder.setC v.i32 x w = .ok ((), w.upd (.C v.raw.toNat) x.toNat) ∧
      Track L w0 (w.upd (.C v.raw.toNat) x.toNat) (put σ (.C v.raw.toNat) x.toNat) k :=
  ⟨setC_ok hi (h.isSome ha), h.upd ha x.isLt⟩

theorem callMillis (h : Track L w0 w σ k) (env : Env) (hm : w0.ctx.millis = true) :
    Ladder.callMillis env w = .ok (env.clock k, { w with tick := k + 1 }) ∧
      Track L w0 { w with tick := k + 1 } σ (k + 1) := by
  have : w.ctx.millis = true := (shell_millis h.shell).trans hm
  refine ⟨?_, ⟨h.fits, h.shell, h.val, h.other, rfl, h.trace⟩⟩
  unfold Ladder.callMillis
  rw [if_pos this, h.tick]

end Track

end Ladder
