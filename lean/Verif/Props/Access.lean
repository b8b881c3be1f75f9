import Verif.Lemmas.Access
import Verif.Spec.Demo

/-
C01 - C06: reading and writing operands.
-/

namespace Ladder.Props

open Spec Op

/-! ### C01 -/

/-- C01.  Reading a current operand value, for any context (even inconsistent), operand and environment: either nothing
changes, or only the error report is set to "out of range", or - and only if the register area has never been
allocated - the error report and the state are set and the panic callback is called once. -/
theorem C01_read_no_side_effect (env : Env) (r c i : Nat) (w w' : World) (x : W32)
    (h : getData env r c i w = .ok (x, w')) :
    w' = w ∨
    w' = { w with ctx := { w.ctx with last := { w.ctx.last with err := .outOfRange } } } ∨
    (∃ k, areaMissing w.ctx k) ∧
      (let c := { w.ctx with last := { w.ctx.last with err := .fail }, state := .error }
       if w.ctx.on.panic then w' = { ctx := env.panic w.tick c, tick := w.tick + 1, trace := w.trace ++ [.panic] }
       else w' = { w with ctx := c }) := by
  simp only [getData, bind_apply, getCtx_apply] at h
  cases ho : operandAt w.ctx r c i with
  | error e => simp [ho] at h
  | ok v =>
    simp only [ho, lift_ok] at h
    cases v with
    | none => simp at h; left; exact h.2.symm
    | some v =>
      rcases readValue_effect h with h | h | ⟨hm, h⟩
      · exact .inl h
      · exact .inr (.inl h)
      · exact .inr (.inr ⟨⟨_, hm⟩, h⟩)

/-- C01, history values: reading a previous-scan value changes nothing at all. -/
theorem C01_prev_no_side_effect (r c i : Nat) (w w' : World) (x : W32) (h : getPrev r c i w = .ok (x, w')) :
    w' = w := by
  simp only [getPrev, bind_apply, getCtx_apply] at h
  cases ho : operandAt w.ctx r c i with
  | error e => simp [ho] at h
  | ok v =>
    simp only [ho, lift_ok] at h
    cases v with
    | none => simp at h; exact h.2.symm
    | some v => simp only [lift_eq_ok] at h; exact h.2

/-- C01 in the vocabulary of locations: unless an area is missing, no location, quantity or program cell changes. -/
theorem C01_read_frame (env : Env) (r c i : Nat) (w w' : World) (x : W32)
    (hm : ∀ k, ¬ areaMissing w.ctx k) (h : getData env r c i w = .ok (x, w')) :
    (∀ ℓ, load w'.ctx ℓ = load w.ctx ℓ) ∧ program w'.ctx = program w.ctx ∧ w'.ctx.qty = w.ctx.qty ∧
    w'.ctx.state = w.ctx.state ∧ w'.trace = w.trace := by
  rcases C01_read_no_side_effect env r c i w w' x h with rfl | rfl | ⟨⟨k, hk⟩, -⟩
  · exact ⟨fun _ => rfl, rfl, rfl, rfl, rfl⟩
  · exact ⟨fun ℓ => by cases ℓ <;> rfl, rfl, rfl, rfl, rfl⟩
  · exact absurd hk (hm k)

-- reading D1 (value -3) through the operand of a comparison in the demo context
example : (getData Demo.env 0 0 0 (Demo.world [Demo.net [[Demo.ins .EQ [Demo.op .D 1, Demo.op .M 0]]]])).map (·.1)
    = .ok 0xFFFFFFFD := by rfl
-- an out-of-range read reports the error and yields 0
example : (getData Demo.env 0 0 0 (Demo.world [Demo.net [[Demo.ins .EQ [Demo.op .D 9, Demo.op .M 0]]]])).map
    (fun p => (p.1, p.2.ctx.last.err)) = .ok (0, .outOfRange) := by rfl

/-! ### C02 -/

/-- C02.  An accepted write through an operand changes exactly the designated location (which exists) and leaves there
the written value, reduced to the width of the location; everything else in the context, the callbacks' trace and the
program are as before.  Holds for any context, consistent or not. -/
theorem C02_write_frame (r c i n : Nat) (x : W32) (w w' : World) (hexec : w.ctx.exec = some n) (v : Value)
    (hop : operand? w.ctx n r c i = some v)
    (h : setData r c i x w = .ok (.ok, w')) :
    ∃ ℓ, place v = some ℓ ∧ (load w.ctx ℓ).isSome ∧ Only w.ctx w'.ctx [ℓ] ∧
      load w'.ctx ℓ = some (if byteKind v.type then x.toNat % 256 else x.toNat) ∧
      w'.tick = w.tick ∧ w'.trace = w.trace := by
  simp only [setData, bind_apply, getDataExec_ok hexec hop, getCtx_apply] at h
  cases hw : writeValue w.ctx v x with
  | error e => simp [hw] at h
  | ok p =>
    obtain ⟨e, ctx'⟩ := p
    simp [hw] at h
    obtain ⟨rfl, rfl⟩ := h
    rcases writeValue_cases hw with ⟨he, -⟩ | ⟨-, hk, ℓ, hp, hl, rfl⟩
    · exact absurd rfl he
    · refine ⟨ℓ, hp, hl, Only.upd _ _ _, ?_, rfl, rfl⟩
      have hpos : 0 < ℓ.size := by cases ℓ <;> simp [Loc.size]
      rw [load_upd_self _ _ _ hl (Nat.mod_lt _ hpos)]
      have hx := x.isLt
      simp only [place] at hp
      congr 1
      cases ht : v.type <;> simp only [ht] at hp <;> simp [byteKind, writableKind] at hp hk ⊢
      all_goals first
        | (simp [ht] at hk; done)
        | (obtain ⟨-, rfl⟩ := hp; simp only [Loc.size] <;> omega)
        | (subst hp; simp only [Loc.size] <;> omega)

-- writing 513 to flag M2 stores 1 (the low byte) there and nowhere else
example : (setData 0 0 0 513 (Demo.world [Demo.net [[Demo.ins .COIL [Demo.op .M 2]]]])).map
    (fun p => (p.1, p.2.ctx.M, p.2.ctx.D)) = .ok (.ok, some [1, 0, 1], some [7, 0xFFFFFFFD, 100]) := by rfl

/-! ### C03 -/

/-- C03.  Reading back an accepted write yields the written value for 32-bit registers and its low byte for byte-wide
flags. -/
theorem C03_read_after_write (env : Env) (r c i n : Nat) (x : W32) (w w' : World) (v : Value)
    (hfit : Fits w.ctx) (hexec : w.ctx.exec = some n) (hop : operand? w.ctx n r c i = some v)
    (hkind : v.type = .D ∨ v.type = .C ∨ v.type = .IW ∨ v.type = .QW ∨ v.type = .M ∨ v.type = .Q ∨ v.type = .I)
    (h : setData r c i x w = .ok (.ok, w')) :
    getData env r c i w' = .ok (if byteKind v.type then BitVec.ofNat 32 (x.toNat % 256) else x, w') := by
  obtain ⟨ℓ, hp, hl, honly, hv, -, -⟩ := C02_write_frame r c i n x w w' hexec v hop h
  simp only [setData, bind_apply, getDataExec_ok hexec hop, getCtx_apply] at h
  cases hw : writeValue w.ctx v x with
  | error e => simp [hw] at h
  | ok p =>
    obtain ⟨e, ctx'⟩ := p
    simp [hw] at h
    obtain ⟨rfl, rfl⟩ := h
    rcases writeValue_cases hw with ⟨he, -⟩ | ⟨-, hk, ℓ', hp', -, rfl⟩
    · exact absurd rfl he
    · rw [hp] at hp'; cases hp'
      refine getData_ok (hfit.upd _ _) (by simpa using hexec) (by rw [operand?_upd]; exact hop) ?_
      rcases hkind with ht | ht | ht | ht | ht | ht | ht <;> simp only [ht] at hv ⊢ <;>
        simp [value, ht, hp, hv, byteKind, decode]

-- a counter register keeps all 32 bits, an output port its low byte
example : ((do let _ ← setData 0 0 0 0xDEADBEEF; getData Demo.env 0 0 0 : Op W32)
    (Demo.world [Demo.net [[Demo.ins .MOVE [Demo.op .C 1]]]])).map (·.1) = .ok 0xDEADBEEF := by rfl
example : ((do let _ ← setData 0 0 0 0xDEADBEEF; getData Demo.env 0 0 0 : Op W32)
    (Demo.world [Demo.net [[Demo.ins .MOVE [Demo.op .Q 256]]]])).map (·.1) = .ok 0xEF := by rfl

/-! ### C04 -/

/-- C04.  In a context whose memory blocks have the configured sizes, a write through any operand has no undefined
behaviour; when the operand's kind is not writable or designates no existing location, an error is reported and the
context is unchanged. -/
theorem C04_bad_destination_rejected (r c i n : Nat) (x : W32) (w : World) (v : Value)
    (hfit : Fits w.ctx) (hexec : w.ctx.exec = some n) (hop : operand? w.ctx n r c i = some v)
    (hbad : writableKind v.type = false ∨ ∀ ℓ, place v = some ℓ → load w.ctx ℓ = none) :
    ∃ e, e ≠ .ok ∧ setData r c i x w = .ok (e, w) := by
  obtain ⟨e, ctx', hw⟩ := writeValue_total hfit v x
  rcases writeValue_cases hw with ⟨he, rfl⟩ | ⟨-, hk, ℓ, hp, hl, -⟩
  · exact ⟨e, he, by simp [setData, getDataExec_ok hexec hop, hw]⟩
  · rcases hbad with hb | hb
    · simp [hk] at hb
    · simp [hb ℓ hp] at hl

/-- C04, converse: a write to a writable, existing destination is accepted. -/
theorem C04_good_destination_accepted (r c i n : Nat) (x : W32) (w : World) (v : Value) (ℓ : Loc)
    (hfit : Fits w.ctx) (hexec : w.ctx.exec = some n) (hop : operand? w.ctx n r c i = some v)
    (hk : writableKind v.type = true) (hp : place v = some ℓ) (hl : (load w.ctx ℓ).isSome) :
    ∃ w', setData r c i x w = .ok (.ok, w') :=
  ⟨_, setData_ok hfit hexec hop hk hp hl⟩

-- index -1, index = quantity, a port that does not exist, a timer
example : (setData 0 0 0 1 (Demo.world [Demo.net [[Demo.ins .COIL [Demo.op .M 0xFFFFFFFF]]]])).map (·.1)
    = .ok .outOfRange := by rfl
example : (setData 0 0 0 1 (Demo.world [Demo.net [[Demo.ins .COIL [Demo.op .M 3]]]])).map (·.1)
    = .ok .outOfRange := by rfl
example : (setData 0 0 0 1 (Demo.world [Demo.net [[Demo.ins .COIL [Demo.op .Q 512]]]])).map (·.1)
    = .ok .outOfRange := by rfl
example : ∃ e, e ≠ .ok ∧ setData 0 0 0 7 (Demo.world [Demo.net [[Demo.ins .COIL [Demo.op .T 0]]]]) =
    .ok (e, Demo.world [Demo.net [[Demo.ins .COIL [Demo.op .T 0]]]]) :=
  C04_bad_destination_rejected 0 0 0 0 7 _ (Demo.op .T 0) (Demo.fits _ (by decide)) rfl rfl (.inl rfl)

/-! ### C05 -/

/-- The outcome is not an access outside the memory blocks. -/
def InBounds {α : Type} (x : Except UB α) : Prop := x ≠ .error .oob ∧ x ≠ .error .nullDeref

/-- C05 (partial).  With consistent sizes, reading an operand of any register kind other than the hardware kinds, with
any index whatsoever, or of a hardware kind whose port exists in its module (or whose module does not exist), stays
inside the memory blocks.  Missing: hardware kinds with a port the module does not have, see `C05_refuted`. -/
theorem C05_reads_in_bounds_partial (env : Env) (r c i n : Nat) (w : World) (v : Value)
    (hfit : Fits w.ctx) (hexec : w.ctx.exec = some n) (hop : operand? w.ctx n r c i = some v)
    (hport : ∀ ℓ, place v = some ℓ →
      match v.type with
      | .I | .IW => v.raw.toNat % 256 < w.ctx.fnReadQty → (load w.ctx ℓ).isSome
      | .Q | .QW => v.raw.toNat % 256 < w.ctx.fnWriteQty → (load w.ctx ℓ).isSome
      | _ => True) :
    InBounds (getData env r c i w) := by
  have hg : getData env r c i w = readValue env v w := by
    simp [getData, operandAt_ok hfit hexec hop]
  rw [hg]
  have hbool : ∀ (a : Arr Byte) (j : Nat), (∃ y, aget a j = .ok y) → InBounds (boolW (aget a j)) := by
    intro a j ⟨y, hy⟩
    rw [hy]
    simp only [boolW, boolOf]
    split
    · simp [InBounds, Except.map]
    · split <;> simp [InBounds, Except.map]
  have hlift : ∀ (x : Except UB W32) (w : World), InBounds x → InBounds (lift x w) := by
    intro x w hx
    cases x <;> simp_all [InBounds, lift]
  by_cases hx : ∃ x, value w.ctx v = some x
  · obtain ⟨x, hx⟩ := hx
    rw [readValue_ok hfit hx]; simp [InBounds]
  · cases ht : v.type
    case NONE => simp [value, ht] at hx
    case S => simp [value, ht] at hx
    case INV => simp [value, ht] at hx
    case I =>
      have hp : place v = some (.I (v.raw.toNat % 256) (v.raw.toNat / 256 % 256)) := by simp [place, ht]
      have := hport _ hp
      simp only [ht] at this
      by_cases hm : v.raw.toNat % 256 < w.ctx.fnReadQty
      · obtain ⟨k, hk⟩ := Option.isSome_iff_exists.1 (this hm)
        exact absurd ⟨_, by simp [value, ht, hp, hk, decode]; rfl⟩ hx
      · simp [readValue, ht, module_eq, Nat.le_of_not_lt hm, InBounds]
    case IW =>
      have hp : place v = some (.IW (v.raw.toNat % 256) (v.raw.toNat / 256 % 256)) := by simp [place, ht]
      have := hport _ hp
      simp only [ht] at this
      by_cases hm : v.raw.toNat % 256 < w.ctx.fnReadQty
      · obtain ⟨k, hk⟩ := Option.isSome_iff_exists.1 (this hm)
        exact absurd ⟨_, by simp [value, ht, hp, hk, decode]; rfl⟩ hx
      · simp [readValue, ht, module_eq, Nat.le_of_not_lt hm, InBounds]
    case Q =>
      have hp : place v = some (.Q (v.raw.toNat % 256) (v.raw.toNat / 256 % 256)) := by simp [place, ht]
      have := hport _ hp
      simp only [ht] at this
      by_cases hm : v.raw.toNat % 256 < w.ctx.fnWriteQty
      · obtain ⟨k, hk⟩ := Option.isSome_iff_exists.1 (this hm)
        exact absurd ⟨_, by simp [value, ht, hp, hk, decode]; rfl⟩ hx
      · simp [readValue, ht, module_eq, Nat.le_of_not_lt hm, InBounds]
    case QW =>
      have hp : place v = some (.QW (v.raw.toNat % 256) (v.raw.toNat / 256 % 256)) := by simp [place, ht]
      have := hport _ hp
      simp only [ht] at this
      by_cases hm : v.raw.toNat % 256 < w.ctx.fnWriteQty
      · obtain ⟨k, hk⟩ := Option.isSome_iff_exists.1 (this hm)
        exact absurd ⟨_, by simp [value, ht, hp, hk, decode]; rfl⟩ hx
      · simp [readValue, ht, module_eq, Nat.le_of_not_lt hm, InBounds]
    all_goals
      simp only [readValue, ht, bind_apply, getCtx_apply]
      generalize hs : safeIndex w.ctx _ v.i32 = si
      cases si with
      | error err => cases hpn : w.ctx.on.panic <;> simp [callPanic, external, hpn] <;> split <;> simp [InBounds]
      | ok idx =>
        apply hlift
        unfold safeIndex at hs
        simp only at hs
        split at hs
        · simp at hs
        · split at hs
          · simp at hs
          · split at hs
            · simp at hs
            · rename_i hnone hlt
              simp only [Except.ok.injEq] at hs
              subst hs
              simp only [regAt]
              have hsome : ∀ {α : Type} {a : Arr α}, ¬ a.isNone = true → a.isSome := by
                intro α a; cases a <;> simp
              first
              | (obtain ⟨y, hy, -⟩ := aget_of_lt hfit.M (hsome hnone) (Nat.lt_of_not_le hlt)
                 rw [hy]; simp [byteW, Except.map, InBounds]; done)
              | (obtain ⟨y, hy, -⟩ := aget_of_lt hfit.Cd (hsome hnone) (Nat.lt_of_not_le hlt)
                 exact hbool _ _ ⟨y, hy⟩)
              | (obtain ⟨y, hy, -⟩ := aget_of_lt hfit.Cr (hsome hnone) (Nat.lt_of_not_le hlt)
                 exact hbool _ _ ⟨y, hy⟩)
              | (obtain ⟨y, hy, -⟩ := aget_of_lt hfit.Td (hsome hnone) (Nat.lt_of_not_le hlt)
                 exact hbool _ _ ⟨y, hy⟩)
              | (obtain ⟨y, hy, -⟩ := aget_of_lt hfit.Tr (hsome hnone) (Nat.lt_of_not_le hlt)
                 exact hbool _ _ ⟨y, hy⟩)
              | (obtain ⟨y, hy, -⟩ := aget_of_lt hfit.C (hsome hnone) (Nat.lt_of_not_le hlt)
                 rw [hy]; simp [InBounds]; done)
              | (obtain ⟨y, hy, -⟩ := aget_of_lt hfit.D (hsome hnone) (Nat.lt_of_not_le hlt)
                 rw [hy]; simp [InBounds]; done)
              | (obtain ⟨y, hy, -⟩ := aget_of_lt hfit.timers (hsome hnone) (Nat.lt_of_not_le hlt)
                 rw [hy]; simp [Except.map, InBounds]; done)
              | (obtain ⟨y, hy, -⟩ := aget_of_lt hfit.R (hsome hnone) (Nat.lt_of_not_le hlt)
                 rw [hy]; simp only [truncFloat_eq]; split <;> simp [InBounds]; done)

/-- C05 is false as stated: reading input port 2 of a module with two ports leaves the block. -/
theorem C05_refuted : ∃ (w : World) (v : Value), Fits w.ctx ∧ w.ctx.exec = some 0 ∧
    operand? w.ctx 0 0 0 0 = some v ∧ v.type = .I ∧ getData Demo.env 0 0 0 w = .error .oob :=
  ⟨Demo.world [Demo.net [[Demo.ins .NO [Demo.op .I 0x200]]]], Demo.op .I 0x200, Demo.fits _ (by decide), rfl, rfl, rfl,
    by rfl⟩

-- out-of-range register index and existing port
example : InBounds (getData Demo.env 0 0 0 (Demo.world [Demo.net [[Demo.ins .NO [Demo.op .D 77]]]])) :=
  C05_reads_in_bounds_partial Demo.env 0 0 0 0 _ (Demo.op .D 77) (Demo.fits _ (by decide)) rfl rfl
    (fun _ _ => trivial)
example : InBounds (getData Demo.env 0 0 0 (Demo.world [Demo.net [[Demo.ins .NO [Demo.op .I 0x100]]]])) :=
  C05_reads_in_bounds_partial Demo.env 0 0 0 0 _ (Demo.op .I 0x100) (Demo.fits _ (by decide)) rfl rfl
    (fun ℓ h => by cases h; exact fun _ => rfl)

/-- The executing network has no operand `i` at (r,c): no network is executing, the position is outside of its grid, or the
cell has fewer operands. -/
def NoOperand (ctx : Ctx) (r c i : Nat) : Prop :=
  ctx.exec = none ∨ ∃ n net, ctx.exec = some n ∧ at? ctx.network n = some net ∧
    (r ≥ net.rows ∨ c ≥ net.cols ∨ ∃ cell, cell? ctx n r c = some cell ∧ i ≥ cell.dataQty)

theorem operandAt_none {ctx : Ctx} {r c i : Nat} (h : NoOperand ctx r c i) : operandAt ctx r c i = .ok none := by
  unfold operandAt
  rcases h with he | ⟨n, net, he, hn, h⟩
  · rw [he]
  · rw [he]
    dsimp only
    rw [aget_eq_ok.2 hn]
    dsimp only
    by_cases hb : r ≥ net.rows ∨ c ≥ net.cols
    · rw [if_pos hb]
    · rw [if_neg hb]
      rcases h with h | h | ⟨cell, hcell, hi⟩
      · exact absurd (.inl h) hb
      · exact absurd (.inr h) hb
      · simp only [cell?, hn, Option.bind_some, Option.bind_eq_some_iff] at hcell
        obtain ⟨row, hr, hc⟩ := hcell
        obtain ⟨rows, hrows, -⟩ := mem_of_at? hr
        have h3 : net.cell r c = .ok cell := by
          simp only [Network.cell, hrows]
          simp [at?, hrows] at hr
          simp [hr, hc]
        rw [h3]
        dsimp only
        rw [if_pos hi]

/-- C05, missing operands.  Reading an operand that the cell does not have yields 0 and reads no operand memory. -/
theorem C05_missing_operand (env : Env) (r c i : Nat) (w : World) (h : NoOperand w.ctx r c i) :
    getData env r c i w = .ok (0, w) := by
  simp [getData, operandAt_none h]

-- the third operand of a comparison with two
example : getData Demo.env 0 0 2 (Demo.world [Demo.net [[Demo.ins .EQ [Demo.op .D 0, Demo.op .D 1]]]]) =
    .ok (0, Demo.world [Demo.net [[Demo.ins .EQ [Demo.op .D 0, Demo.op .D 1]]]]) :=
  C05_missing_operand _ _ _ _ _ (.inr ⟨0, _, rfl, rfl, .inr (.inr ⟨_, rfl, by decide⟩)⟩)

/-! ### C06 -/

/-- C06, missing operands.  The previous value of an operand that the cell does not have is 0. -/
theorem C06_missing_operand (r c i : Nat) (w : World) (h : NoOperand w.ctx r c i) : getPrev r c i w = .ok (0, w) := by
  simp [getPrev, operandAt_none h]

/-- C06 (partial).  With consistent sizes, the previous value of a digital input or output (any module, any port, existing
or not) and of a flag whose index is within the configured quantity is read inside the memory blocks.
Missing: flag and register indices outside their area, see `C06_refuted`. -/
theorem C06_prev_in_bounds_partial (r c i n : Nat) (w : World) (v : Value)
    (hfit : Fits w.ctx) (hexec : w.ctx.exec = some n) (hop : operand? w.ctx n r c i = some v)
    (hkind : v.type = .I ∨ v.type = .Q ∨ ∃ ℓ, prevPlace v = some ℓ ∧ (load w.ctx ℓ).isSome) :
    InBounds (getPrev r c i w) := by
  have hg : getPrev r c i w = lift (prevValue w.ctx v) w := by
    simp [getPrev, operandAt_ok hfit hexec hop]
  rw [hg]
  have hlift : ∀ (x : Except UB W32) (w : World), InBounds x → InBounds (lift x w) := by
    intro x w hx
    cases x <;> simp_all [InBounds, lift]
  apply hlift
  by_cases hq : v.type = .Q
  · simp only [prevValue, hq]
    split
    · simp [InBounds]
    · have hsome : w.ctx.output.isSome := by
        cases h : w.ctx.output with
        | none => have := hfit.noOutput h; omega
        | some l => rfl
      obtain ⟨o, ho, l, hl, hm⟩ := aget_of_lt (fun l h => (hfit.output l h).1) hsome (Nat.lt_of_not_le ‹_›)
      rw [ho]
      simp only
      split
      · simp [InBounds]
      · split
        · simp [InBounds]
        · rename_i hnone hport
          obtain ⟨y, hy, -⟩ := aget_of_lt ((hfit.output l hl).2 o hm).Qh
            (by cases h : o.Qh <;> simp_all) (Nat.lt_of_not_le hport)
          rw [hy]; simp [byteW, Except.map, InBounds]
  by_cases hi : v.type = .I
  · simp only [prevValue, hi]
    split
    · simp [InBounds]
    · have hsome : w.ctx.input.isSome := by
        cases h : w.ctx.input with
        | none => have := hfit.noInput h; omega
        | some l => rfl
      obtain ⟨o, ho, l, hl, hm⟩ := aget_of_lt (fun l h => (hfit.input l h).1) hsome (Nat.lt_of_not_le ‹_›)
      rw [ho]
      simp only
      split
      · simp [InBounds]
      · split
        · simp [InBounds]
        · rename_i hnone hport
          obtain ⟨y, hy, -⟩ := aget_of_lt ((hfit.input l hl).2 o hm).Ih
            (by cases h : o.Ih <;> simp_all) (Nat.lt_of_not_le hport)
          rw [hy]; simp [byteW, Except.map, InBounds]
  rcases hkind with h | h | ⟨ℓ, hp, hl⟩
  · exact absurd h hi
  · exact absurd h hq
  · obtain ⟨k, hk⟩ := Option.isSome_iff_exists.1 hl
    unfold prevPlace at hp
    simp only at hp
    have hbool : ∀ (a : Arr Byte) (j : Nat), (∃ y, aget a j = .ok y) → InBounds (boolW (aget a j)) := by
      intro a j ⟨y, hy⟩
      rw [hy]
      simp only [boolW, boolOf]
      split
      · simp [InBounds, Except.map]
      · split <;> simp [InBounds, Except.map]
    cases ht : v.type <;> simp only [ht] at hp <;> simp at hp hq hi
    all_goals first
      | exact absurd ht hq
      | exact absurd ht hi
      | (obtain ⟨hlt, rfl⟩ := hp
         simp only [load] at hk
         obtain ⟨y, hy⟩ := at?_of_map hk
         simp only [prevValue, ht, agetI_raw hlt]
         first
         | (exact hbool _ _ ⟨y, aget_eq_ok.2 hy⟩)
         | (rw [aget_eq_ok.2 hy]; simp [byteW, Except.map, InBounds]))

/-- C06 is false as stated: the previous value of flag M3 in a context with three flags is read past the block, and that
of M(-1) before it. -/
theorem C06_refuted : ∃ (w : World) (v : Value), Fits w.ctx ∧ w.ctx.exec = some 0 ∧
    operand? w.ctx 0 0 0 0 = some v ∧ v.type = .M ∧ getPrev 0 0 0 w = .error .oob :=
  ⟨Demo.world [Demo.net [[Demo.ins .RE [Demo.op .M 3]]]], Demo.op .M 3, Demo.fits _ (by decide), rfl, rfl, rfl,
    by rfl⟩

example : InBounds (getPrev 0 0 0 (Demo.world [Demo.net [[Demo.ins .RE [Demo.op .M 2]]]])) :=
  C06_prev_in_bounds_partial 0 0 0 0 _ (Demo.op .M 2) (Demo.fits _ (by decide)) rfl rfl
    (.inr (.inr ⟨.Mh 2, by decide, by decide⟩))
example : InBounds (getPrev 0 0 0 (Demo.world [Demo.net [[Demo.ins .RE [Demo.op .I 0xFFFF]]]])) :=
  C06_prev_in_bounds_partial 0 0 0 0 _ (Demo.op .I 0xFFFF) (Demo.fits _ (by decide)) rfl rfl (.inl rfl)

end Ladder.Props
