import Verif.Props.Access
import Verif.Lemmas.Task

/-
C62: errors of the final store of an instruction.
-/

set_option autoImplicit false

namespace Ladder.Props

open Spec Op

/-- Operand `i` of a cell names no register that can be written: a constant, a text, a timer, or a register that does not
exist. -/
def Unstorable (ctx : Ctx) (n r c i : Nat) : Prop :=
  ∃ v, operand? ctx n r c i = some v ∧
    (writableKind v.type = false ∨ ∀ ℓ, place v = some ℓ → load ctx ℓ = none)

theorem Unstorable.last {ctx : Ctx} {n r c i : Nat} (h : Unstorable ctx n r c i) (l : Last) :
    Unstorable { ctx with last := l } n r c i := by
  obtain ⟨v, h1, h2⟩ := h
  refine ⟨v, h1, h2.imp id fun h ℓ hp => ?_⟩
  have := h ℓ hp
  cases ℓ <;> exact this

theorem fits_last {ctx : Ctx} (h : Fits ctx) (l : Last) : Fits { ctx with last := l } :=
  ⟨h.1, h.2, h.3, h.4, h.5, h.6, h.7, h.8, h.9, h.10, h.11, h.12, h.13, h.14, h.15, h.16, h.17, h.18, h.19⟩

/-- The part of a world that decides where the operands of the executing network lead. -/
structure Ready (n r c i : Nat) (w : World) : Prop where
  fits : Fits w.ctx
  exec : w.ctx.exec = some n
  bad : Unstorable w.ctx n r c i
  areas : ∀ k, ¬ areaMissing w.ctx k

theorem Ready.read {env : Env} {n r c i j : Nat} {w w' : World} {x : W32} (h : Ready n r c i w)
    (hg : getData env r c j w = .ok (x, w')) : Ready n r c i w' := by
  rcases C01_read_no_side_effect env r c j w w' x hg with rfl | rfl | ⟨⟨k, hk⟩, -⟩
  · exact h
  · refine ⟨fits_last h.fits _, h.exec, h.bad.last _, fun k hk => h.areas k ?_⟩
    cases k <;> exact hk
  · exact absurd hk (h.areas k)

theorem Ready.store {n r c i : Nat} {w w' : World} {x : W32} {e : Err} (h : Ready n r c i w)
    (hg : setData r c i x w = .ok (e, w')) : e ≠ .ok ∧ w' = w := by
  obtain ⟨v, h1, h2⟩ := h.bad
  obtain ⟨e', he, hs⟩ := C04_bad_destination_rejected r c i n x w v h.fits h.exec h1 h2
  rw [hs] at hg
  cases hg
  exact ⟨he, rfl⟩

theorem shiftop_bad {env : Env} {f : W32 → Nat → Except UB W32} {n r c : Nat} {w w' : World} {e : Err} (h : Ready n r c 0 w)
    (hx : shiftop env f r c w = .ok (e, w')) : e ≠ .ok := by
  unfold shiftop at hx
  obtain ⟨a, w1, h1, hx⟩ := bind_eq_ok.1 hx
  obtain ⟨b, w2, h2, hx⟩ := bind_eq_ok.1 hx
  obtain ⟨x, w3, h3, hx⟩ := bind_eq_ok.1 hx
  obtain ⟨e', w4, h4, hx⟩ := bind_eq_ok.1 hx
  obtain ⟨l, w5, h5, hx⟩ := bind_eq_ok.1 hx
  obtain ⟨u, w6, h6, hx⟩ := bind_eq_ok.1 hx
  have he : e' = e := by
    simp only [pure_apply, Except.ok.injEq, Prod.mk.injEq] at hx
    exact hx.1
  have hw := (lift_eq_ok.1 h3).2
  subst hw
  exact he ▸ (((h.read h1).read h2).store h4).1

theorem moveStore_bad {n r c : Nat} {w w' : World} {e : Err} {x : W32} (h : Ready n r c 1 w)
    (hx : moveStore r c x w = .ok (e, w')) : e ≠ .ok := by
  unfold moveStore at hx
  obtain ⟨e', w4, h4, hx⟩ := bind_eq_ok.1 hx
  obtain ⟨l, w5, h5, hx⟩ := bind_eq_ok.1 hx
  obtain ⟨u, w6, h6, hx⟩ := bind_eq_ok.1 hx
  have := (h.store h4).1
  rw [if_neg this] at hx
  cases hx
  simp

/-- C62 (partial).  A shift, rotation or move whose destination cannot be written reports an error whenever it returns,
whatever its other operands, the power and the environment.  Missing: all other storing instructions, see `C62_refuted`. -/
theorem C62_reported_partial (env : Env) {code : Ins} {n r c : Nat} {w w' : World} {e : Err}
    (hcode : code ∈ [Ins.SHL, .SHR, .ROL, .ROR, .MOVE]) (hfit : Fits w.ctx) (hexec : w.ctx.exec = some n)
    (hbad : Unstorable w.ctx n r c (if code = .MOVE then 1 else 0)) (hareas : ∀ k, ¬ areaMissing w.ctx k)
    (h : execIns env code r c w = .ok (e, w')) : e ≠ .ok := by
  have hr : Ready n r c (if code = .MOVE then 1 else 0) w := ⟨hfit, hexec, hbad, hareas⟩
  simp only [List.mem_cons, List.not_mem_nil, or_false] at hcode
  rcases hcode with rfl | rfl | rfl | rfl | rfl
  · exact shiftop_bad hr h
  · exact shiftop_bad hr h
  · exact shiftop_bad (env := env) (f := fun x n => do
      let a ← cShl x n
      let b ← cShr x (32 - n)
      .ok (a ||| b)) hr h
  · exact shiftop_bad (env := env) (f := fun x n => do
      let a ← cShr x n
      let b ← cShl x (32 - n)
      .ok (a ||| b)) hr h
  · replace hr : Ready n r c 1 w := hr
    simp only [execIns, fnMOVE] at h
    rw [bind_getCtx] at h
    obtain ⟨cell, w1, h1, h⟩ := bind_eq_ok.1 h
    obtain ⟨-, rfl⟩ := lift_eq_ok.1 h1
    split at h
    · cases h; simp
    obtain ⟨s, w2, h2, h⟩ := bind_eq_ok.1 h
    obtain ⟨-, rfl⟩ := lift_eq_ok.1 h2
    obtain ⟨d, w3, h3, h⟩ := bind_eq_ok.1 h
    obtain ⟨-, rfl⟩ := lift_eq_ok.1 h3
    cases hs : s.type <;> simp only [hs] at h
    all_goals first
      | (cases h; simp; done)
      | (obtain ⟨x, w4, h4, h⟩ := bind_eq_ok.1 h
         split at h
         · exact moveStore_bad (hr.read h4) h
         · cases h; simp)
      | skip
    split at h
    · cases h; simp
    obtain ⟨x, w4, h4, h⟩ := bind_eq_ok.1 h
    have hw := (lift_eq_ok.1 h4).2
    split at h
    · exact moveStore_bad (hw ▸ hr) h
    · cases h; simp

/-- C62 is violated: a coil whose flag does not exist stores nothing and reports success. -/
theorem C62_refuted : ∃ (w w' : World), Fits w.ctx ∧ w.ctx.exec = some 0 ∧ Unstorable w.ctx 0 0 0 0 ∧
    (∀ k, ¬ areaMissing w.ctx k) ∧ execIns Demo.env .COIL 0 0 w = .ok (.ok, w') ∧ w'.ctx.last.err = .ok :=
  ⟨Demo.world [Demo.net [[Demo.ins .COIL [Demo.op .M 200]]]], _, Demo.fits _ (by decide), rfl,
    ⟨_, rfl, .inr fun ℓ h => by cases h; rfl⟩, fun k => by cases k <;> simp [areaMissing, Demo.world, Demo.ctx], rfl, rfl⟩

/-- The extent of the violation: coils, arithmetic and bit logic never report any error at all. -/
theorem C62_refuted_silent (env : Env) {code : Ins} {r c : Nat} {w w' : World} {e : Err}
    (hcode : code ∈ [Ins.COIL, .COILL, .COILU, .ADD, .SUB, .MUL, .DIV, .MOD, .AND, .OR, .XOR, .NOT])
    (h : execIns env code r c w = .ok (e, w')) : e = .ok := by
  have fin : ∀ {α : Type} {m : Op α} {w w' : World} {e : Err}, (m >>= fun _ => pure Err.ok) w = .ok (e, w') → e = .ok := by
    intro α m w w' e h
    obtain ⟨a, w1, -, h⟩ := bind_eq_ok.1 h
    cases h
    rfl
  have bin : ∀ {f : W32 → W32 → Except UB W32}, binop env f r c w = .ok (e, w') → e = .ok := by
    intro f h
    unfold binop at h
    obtain ⟨a, w1, -, h⟩ := bind_eq_ok.1 h
    obtain ⟨a, w1, -, h⟩ := bind_eq_ok.1 h
    obtain ⟨a, w1, -, h⟩ := bind_eq_ok.1 h
    split at h
    · obtain ⟨a, w1, -, h⟩ := bind_eq_ok.1 h
      obtain ⟨a, w1, -, h⟩ := bind_eq_ok.1 h
      obtain ⟨a, w1, -, h⟩ := bind_eq_ok.1 h
      exact fin h
    · cases h; rfl
  simp only [List.mem_cons, List.not_mem_nil, or_false] at hcode
  rcases hcode with rfl | rfl | rfl | rfl | rfl | rfl | rfl | rfl | rfl | rfl | rfl | rfl
  · simp only [execIns, fnCOIL] at h
    obtain ⟨a, w1, -, h⟩ := bind_eq_ok.1 h
    obtain ⟨a, w1, -, h⟩ := bind_eq_ok.1 h
    obtain ⟨a, w1, -, h⟩ := bind_eq_ok.1 h
    exact fin h
  · simp only [execIns, fnCOILL] at h
    obtain ⟨a, w1, -, h⟩ := bind_eq_ok.1 h
    obtain ⟨a, w1, -, h⟩ := bind_eq_ok.1 h
    obtain ⟨a, w1, -, h⟩ := bind_eq_ok.1 h
    exact fin h
  · simp only [execIns, fnCOILU] at h
    obtain ⟨a, w1, -, h⟩ := bind_eq_ok.1 h
    obtain ⟨a, w1, -, h⟩ := bind_eq_ok.1 h
    obtain ⟨a, w1, -, h⟩ := bind_eq_ok.1 h
    exact fin h
  · exact bin h
  · simp only [execIns, fnSUB] at h
    obtain ⟨a, w1, -, h⟩ := bind_eq_ok.1 h
    obtain ⟨a, w1, -, h⟩ := bind_eq_ok.1 h
    obtain ⟨a, w1, -, h⟩ := bind_eq_ok.1 h
    obtain ⟨a, w1, -, h⟩ := bind_eq_ok.1 h
    obtain ⟨a, w1, -, h⟩ := bind_eq_ok.1 h
    split at h
    · split at h
      · obtain ⟨a, w1, -, h⟩ := bind_eq_ok.1 h
        obtain ⟨a, w1, -, h⟩ := bind_eq_ok.1 h
        exact fin h
      · split at h <;>
        · obtain ⟨a, w1, -, h⟩ := bind_eq_ok.1 h
          obtain ⟨a, w1, -, h⟩ := bind_eq_ok.1 h
          exact fin h
    · cases h; rfl
  · exact bin h
  · simp only [execIns, fnDIV] at h
    obtain ⟨a, w1, -, h⟩ := bind_eq_ok.1 h
    obtain ⟨a, w1, -, h⟩ := bind_eq_ok.1 h
    obtain ⟨a, w1, -, h⟩ := bind_eq_ok.1 h
    split at h
    · obtain ⟨a, w1, -, h⟩ := bind_eq_ok.1 h
      split at h
      · exact fin h
      · obtain ⟨a, w1, -, h⟩ := bind_eq_ok.1 h
        obtain ⟨a, w1, -, h⟩ := bind_eq_ok.1 h
        exact fin h
    · cases h; rfl
  · exact bin h
  · exact bin h
  · exact bin h
  · exact bin h
  · simp only [execIns, fnNOT] at h
    obtain ⟨a, w1, -, h⟩ := bind_eq_ok.1 h
    obtain ⟨a, w1, -, h⟩ := bind_eq_ok.1 h
    obtain ⟨a, w1, -, h⟩ := bind_eq_ok.1 h
    split at h
    · obtain ⟨a, w1, -, h⟩ := bind_eq_ok.1 h
      exact fin h
    · cases h; rfl

-- a shift of a constant, a move to a register that does not exist
example : ∀ w' e, execIns Demo.env .SHL 0 0 (Demo.world [Demo.net [[Demo.ins .SHL [Demo.op .NONE 5, Demo.op .NONE 1]]]]) =
    .ok (e, w') → e ≠ .ok := fun _ _ h =>
  C62_reported_partial Demo.env (by decide) (Demo.fits _ (by decide)) rfl ⟨_, rfl, .inl rfl⟩
    (fun k => by cases k <;> simp [areaMissing, Demo.world, Demo.ctx]) h
example : ∃ w', execIns Demo.env .MOVE 0 0 (Demo.world [Demo.net [[Demo.ins .MOVE [Demo.op .D 1, Demo.op .D 200]]]]) =
    .ok (.setDataVal, w') := ⟨_, rfl⟩
example : Unstorable (Demo.world [Demo.net [[Demo.ins .MOVE [Demo.op .D 1, Demo.op .D 200]]]]).ctx 0 0 0 1 :=
  ⟨_, rfl, .inr fun ℓ h => by cases h; rfl⟩

end Ladder.Props
