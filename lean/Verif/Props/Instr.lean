import Verif.Lemmas.Step
import Verif.Spec.Demo

/-
C07, C09, C11 - C17: contacts, coils, arithmetic, bit logic, shifts, comparisons.
All statements are about `execIns`, the dispatch through the instruction table.
-/

namespace Ladder.Props

open Spec Op

variable {w : World} {n r c : Nat} {l : Bool}

/-! ### C07 -/

/-- C07, normally-open contact. -/
theorem C07_NO (env : Env) {x : W32} (hs : Site w.ctx n r c l) (hx : Reads w.ctx n r c 0 x) :
    ∃ w', execIns env .NO r c w = .ok (.ok, w') ∧ Sets w w' [(.cell n r c, (l && decide (x ≠ 0)).toNat)] := by
  refine ⟨w.upd (.cell n r c) (l && decide (x ≠ 0)).toNat, ?_, Sets.one hs.cell (bool_lt_cell _)⟩
  by_cases h0 : x = 0#32 <;> simp [execIns, fnNO, hs.getData hx, hs.getLeft, hs.setState, h0]

/-- C07, normally-closed contact. -/
theorem C07_NC (env : Env) {x : W32} (hs : Site w.ctx n r c l) (hx : Reads w.ctx n r c 0 x) :
    ∃ w', execIns env .NC r c w = .ok (.ok, w') ∧ Sets w w' [(.cell n r c, (l && decide (x = 0)).toNat)] := by
  refine ⟨w.upd (.cell n r c) (l && decide (x = 0)).toNat, ?_, Sets.one hs.cell (bool_lt_cell _)⟩
  by_cases h0 : x = 0#32 <;> simp [execIns, fnNC, hs.getData hx, hs.getLeft, hs.setState, h0]

/-- C07: with the same operand and power, a powered cell conducts as exactly one of the two contact kinds. -/
theorem C07_complementary (env : Env) {x : W32} (hs : Site w.ctx n r c true) (hx : Reads w.ctx n r c 0 x) :
    ∃ wo wc, execIns env .NO r c w = .ok (.ok, wo) ∧ execIns env .NC r c w = .ok (.ok, wc) ∧
      ((load wo.ctx (.cell n r c) = some 1 ∧ load wc.ctx (.cell n r c) = some 0) ∨
       (load wo.ctx (.cell n r c) = some 0 ∧ load wc.ctx (.cell n r c) = some 1)) := by
  obtain ⟨wo, h1, s1⟩ := C07_NO env hs hx
  obtain ⟨wc, h2, s2⟩ := C07_NC env hs hx
  refine ⟨wo, wc, h1, h2, ?_⟩
  have e1 := s1.val _ (List.mem_singleton.2 rfl)
  have e2 := s2.val _ (List.mem_singleton.2 rfl)
  by_cases h0 : x = 0 <;> simp_all

/-- The demo rung: a contact on M0 (which is 1) behind a closed contact. -/
def demoContact (code : Ins) : World :=
  Demo.world [Demo.net [[Demo.ins .CONN [] (state := true), Demo.ins code [Demo.op .M 0]]]]

example : ∃ w', execIns Demo.env .NO 0 1 (demoContact .NO) = .ok (.ok, w') ∧
    Sets (demoContact .NO) w' [(.cell 0 0 1, 1)] :=
  C07_NO Demo.env (l := true) (x := 1) ⟨Demo.fits _ (by decide), rfl, by decide, rfl⟩ ⟨_, rfl, by decide⟩
example : ∃ w', execIns Demo.env .NC 0 1 (demoContact .NC) = .ok (.ok, w') ∧
    Sets (demoContact .NC) w' [(.cell 0 0 1, 0)] :=
  C07_NC Demo.env (l := true) (x := 1) ⟨Demo.fits _ (by decide), rfl, by decide, rfl⟩ ⟨_, rfl, by decide⟩

/-! ### C09 -/

/-- C09.  A coil stores its power to its register and passes it on. -/
theorem C09_coil (env : Env) {k : Reg} {ℓ : Loc} (hs : Site w.ctx n r c l) (hd : Dest w.ctx n r c 0 k ℓ) :
    ∃ w', execIns env .COIL r c w = .ok (.ok, w') ∧ Sets w w' [(.cell n r c, l.toNat), (ℓ, l.toNat)] := by
  refine ⟨(w.upd (.cell n r c) l.toNat).upd ℓ (stored k (if l then 1 else 0)), ?_, ?_⟩
  · have h1 : getState r c (w.upd (.cell n r c) l.toNat) = .ok (l, w.upd (.cell n r c) l.toNat) :=
      getState_ok (by simpa using hs.exec) (load_upd_self _ _ _ hs.cell (bool_lt_cell _))
    have h2 := (hs.upd_self (x := l.toNat)).setData (w := w.upd (.cell n r c) l.toNat) hd.upd (if l then 1 else 0)
    cases l <;> simp at h1 h2 <;> simp [execIns, fnCOIL, hs.getLeft, hs.setState, h1, h2]
  · have hst : stored k (if l then 1 else 0) = l.toNat := by
      cases l <;> cases hk : byteKind k <;> simp [stored, hk]
    have := (Sets.one hs.cell (bool_lt_cell l)).add (ℓ := ℓ) (x := stored k (if l then 1 else 0))
      (by obtain ⟨v, -, -, -, -, h⟩ := hd.upd (ℓ' := .cell n r c) (y := l.toNat); exact h)
      (stored_lt hd _) (by simp; exact hd.ne_cell.symm)
    rw [hst] at this ⊢
    exact this

example : ∃ w', execIns Demo.env .COIL 0 0 (Demo.world [Demo.net [[Demo.ins .COIL [Demo.op .Q 0]]]]) = .ok (.ok, w') ∧
    Sets (Demo.world [Demo.net [[Demo.ins .COIL [Demo.op .Q 0]]]]) w' [(.cell 0 0 0, 1), (.Q 0 0, 1)] :=
  C09_coil Demo.env (l := true) (k := .Q) (ℓ := .Q 0 0) ⟨Demo.fits _ (by decide), rfl, by decide, rfl⟩
    ⟨_, rfl, rfl, rfl, rfl, by decide⟩

/-! ### Data instructions with three operands -/

/-- Running a powered three-operand instruction. -/
theorem binop_powered (env : Env) {f : W32 → W32 → Except UB W32} {a b x : W32} {k : Reg} {ℓ : Loc}
    (hs : Site w.ctx n r c true) (ha : Reads w.ctx n r c 0 a) (hb : Reads w.ctx n r c 1 b)
    (hd : Dest w.ctx n r c 2 k ℓ) (hx : f a b = .ok x) :
    ∃ w', binop env f r c w = .ok (.ok, w') ∧ Sets w w' [(.cell n r c, 1), (ℓ, stored k x)] := by
  refine ⟨(w.upd (.cell n r c) 1).upd ℓ (stored k x), ?_, ?_⟩
  · have hs' : Site (w.upd (.cell n r c) 1).ctx n r c true := hs.upd_self
    have e0 := hs.setState true
    have e1 := hs'.getLeft
    have e2 := hs'.getData (env := env) (ha.upd_cell (n' := n) (r' := r) (c' := c) (y := 1))
    have e3 := hs'.getData (env := env) (hb.upd_cell (n' := n) (r' := r) (c' := c) (y := 1))
    have e4 := hs'.setData (hd.upd (ℓ' := .cell n r c) (y := 1)) x
    simp only [Bool.toNat_true] at e0
    simp [binop, hs.getLeft, e0, e1, e2, e3, hx, e4]
  · refine (Sets.one hs.cell (by simp [Loc.size])).add ?_ (stored_lt hd x) (by simp; exact hd.ne_cell.symm)
    obtain ⟨v, -, -, -, -, h⟩ := hd.upd (ℓ' := .cell n r c) (y := 1)
    exact h

/-- An unpowered three-operand instruction only clears its own cell. -/
theorem binop_unpowered (env : Env) {f : W32 → W32 → Except UB W32} (hs : Site w.ctx n r c false) :
    ∃ w', binop env f r c w = .ok (.ok, w') ∧ Sets w w' [(.cell n r c, 0)] := by
  refine ⟨w.upd (.cell n r c) 0, ?_, Sets.one hs.cell (by simp [Loc.size])⟩
  have hs' : Site (w.upd (.cell n r c) 0).ctx n r c false := hs.upd_self
  have e0 := hs.setState false
  simp only [Bool.toNat_false] at e0
  simp [binop, hs.getLeft, e0, hs'.getLeft]

/-- The signed value `x` represents the integer `i`. -/
def Repr32 (i : Int) : Prop := -2^31 ≤ i ∧ i < 2^31

theorem signed32_ok {i : Int} (h : Repr32 i) : signed32 i = .ok (BitVec.ofInt 32 i) := by
  obtain ⟨h1, h2⟩ := h
  have : fitsI32 i = true := by simp [fitsI32]; omega
  simp [signed32, this]

theorem toInt_ofInt_of_repr {i : Int} (h : Repr32 i) : (BitVec.ofInt 32 i).toInt = i := by
  obtain ⟨h1, h2⟩ := h
  rw [BitVec.toInt_ofInt]
  rw [Int.bmod_eq_of_le] <;> omega

/-! ### C11 -/

/-- C11 (partial): a powered ADD stores the exact sum when it is representable.
Missing: the operation is undefined when it is not, see `C11_refuted`. -/
theorem C11_ADD_partial (env : Env) {a b : W32} {k : Reg} {ℓ : Loc} (hs : Site w.ctx n r c true)
    (ha : Reads w.ctx n r c 0 a) (hb : Reads w.ctx n r c 1 b) (hd : Dest w.ctx n r c 2 k ℓ)
    (hrep : Repr32 (a.toInt + b.toInt)) :
    ∃ (w' : World) (x : W32), x.toInt = a.toInt + b.toInt ∧ execIns env .ADD r c w = .ok (.ok, w') ∧
      Sets w w' [(.cell n r c, 1), (ℓ, stored k x)] := by
  obtain ⟨w', h1, h2⟩ := binop_powered env (f := fun a b => signed32 (a.toInt + b.toInt)) hs ha hb hd (signed32_ok hrep)
  exact ⟨w', _, toInt_ofInt_of_repr hrep, h1, h2⟩

/-- C11 (partial): a powered MUL stores the exact product when it is representable.
Missing: the operation is undefined when it is not, see `C11_refuted`. -/
theorem C11_MUL_partial (env : Env) {a b : W32} {k : Reg} {ℓ : Loc} (hs : Site w.ctx n r c true)
    (ha : Reads w.ctx n r c 0 a) (hb : Reads w.ctx n r c 1 b) (hd : Dest w.ctx n r c 2 k ℓ)
    (hrep : Repr32 (a.toInt * b.toInt)) :
    ∃ (w' : World) (x : W32), x.toInt = a.toInt * b.toInt ∧ execIns env .MUL r c w = .ok (.ok, w') ∧
      Sets w w' [(.cell n r c, 1), (ℓ, stored k x)] := by
  obtain ⟨w', h1, h2⟩ := binop_powered env (f := fun a b => signed32 (a.toInt * b.toInt)) hs ha hb hd (signed32_ok hrep)
  exact ⟨w', _, toInt_ofInt_of_repr hrep, h1, h2⟩

/-- The row whose output a powered SUB turns on: its own when the first operand is greater, the next when equal, the one
after when less. -/
def subRow (r : Nat) (a b : W32) : Nat :=
  if a.toInt > b.toInt then r else if a.toInt = b.toInt then r + 1 else r + 2

/-- C11 (partial): a powered SUB stores the exact difference when it is representable and turns on the output of the row
telling greater / equal / less (its own row always carries the power).
Missing: the operation is undefined when it is not, see `C11_refuted`. -/
theorem C11_SUB_partial (env : Env) {a b : W32} {k : Reg} {ℓ : Loc} (hs : Site w.ctx n r c true)
    (h1 : (load w.ctx (.cell n (r + 1) c)).isSome) (h2 : (load w.ctx (.cell n (r + 2) c)).isSome)
    (ha : Reads w.ctx n r c 0 a) (hb : Reads w.ctx n r c 1 b) (hd : Dest w.ctx n r c 2 k ℓ)
    (hrep : Repr32 (a.toInt - b.toInt)) :
    ∃ (w' : World) (x : W32), x.toInt = a.toInt - b.toInt ∧ execIns env .SUB r c w = .ok (.ok, w') ∧
      Only w.ctx w'.ctx [.cell n r c, .cell n (subRow r a b) c, ℓ] ∧ w'.tick = w.tick ∧ w'.trace = w.trace ∧
      load w'.ctx (.cell n r c) = some 1 ∧ load w'.ctx (.cell n (subRow r a b) c) = some 1 ∧
      load w'.ctx ℓ = some (stored k x) := by
  have hs1 : Site (w.upd (.cell n r c) 1).ctx n r c true := hs.upd_self
  have e0 := hs.setState true
  simp only [Bool.toNat_true] at e0
  have e2 := hs1.getData (env := env) (ha.upd_cell (n' := n) (r' := r) (c' := c) (y := 1))
  have e3 := hs1.getData (env := env) (hb.upd_cell (n' := n) (r' := r) (c' := c) (y := 1))
  have hcell : ∀ r', r' = r ∨ r' = r + 1 ∨ r' = r + 2 → (load (w.upd (.cell n r c) 1).ctx (.cell n r' c)).isSome := by
    rintro r' (rfl | rfl | rfl) <;> rw [World.upd_ctx, isSome_load_upd]
    · exact hs.cell
    · exact h1
    · exact h2
  have hrow : subRow r a b = r ∨ subRow r a b = r + 1 ∨ subRow r a b = r + 2 := by
    unfold subRow; split; · simp
    · split <;> simp
  have hs2 : Site ((w.upd (.cell n r c) 1).upd (.cell n (subRow r a b) c) 1).ctx n r c true :=
    hs1.upd_cell (by omega)
  have est : ∀ r', r' = r ∨ r' = r + 1 ∨ r' = r + 2 →
      setState r' c true (w.upd (.cell n r c) 1) = .ok ((), (w.upd (.cell n r c) 1).upd (.cell n r' c) 1) :=
    fun r' hr' => setState_ok hs1.exec (hcell r' hr')
  have hd2 : Dest ((w.upd (.cell n r c) 1).upd (.cell n (subRow r a b) c) 1).ctx n r c 2 k ℓ := by
    simp only [World.upd_ctx]; exact hd.upd.upd
  have e4 := hs2.setData hd2 (BitVec.ofInt 32 (a.toInt - b.toInt))
  have heq : (a = b) ↔ a.toInt = b.toInt := ⟨fun h => by rw [h], BitVec.eq_of_toInt_eq⟩
  refine ⟨((w.upd (.cell n r c) 1).upd (.cell n (subRow r a b) c) 1).upd ℓ
    (stored k (BitVec.ofInt 32 (a.toInt - b.toInt))), _, toInt_ofInt_of_repr hrep, ?_, ?_, rfl, rfl, ?_, ?_, ?_⟩
  · by_cases hgt : a.toInt > b.toInt
    · have hr : subRow r a b = r := by simp [subRow, hgt]
      rw [hr] at e4
      simp [execIns, fnSUB, hs.getLeft, e0, e2, e3, hs1.getLeft, hgt, est, signed32_ok hrep, e4, hr]
    · by_cases he : a.toInt = b.toInt
      · have hr : subRow r a b = r + 1 := by simp [subRow, he]
        rw [hr] at e4
        have hab := heq.2 he
        subst hab
        simp [execIns, fnSUB, hs.getLeft, e0, e2, e3, hs1.getLeft, est] at e4 ⊢
        simp [hr, signed32, fitsI32, e4]
      · have hr : subRow r a b = r + 2 := by simp [subRow, hgt, he]
        rw [hr] at e4
        have hne : ¬ a = b := fun h => he (heq.1 h)
        simp [execIns, fnSUB, hs.getLeft, e0, e2, e3, hs1.getLeft, hgt, hne, est, signed32_ok hrep, e4, hr]
  · simp only [World.upd_ctx]; exact ((Only.upd _ _ _).then_upd _ _).then_upd _ _
  · have : ℓ ≠ .cell n r c := hd.ne_cell
    rw [World.upd_ctx, load_upd_ne _ _ _ _ this]
    by_cases h : subRow r a b = r
    · rw [h]; exact load_upd_self _ _ _ (hcell r (by simp)) (by simp [Loc.size])
    · rw [World.upd_ctx, load_upd_ne _ _ _ _ (by intro hh; injection hh; omega)]
      exact load_upd_self _ _ _ hs.cell (by simp [Loc.size])
  · have : ℓ ≠ .cell n (subRow r a b) c := hd.ne_cell
    rw [World.upd_ctx, load_upd_ne _ _ _ _ this]
    exact load_upd_self _ _ _ (hcell _ hrow) (by simp [Loc.size])
  · refine load_upd_self _ _ _ ?_ (stored_lt hd2 _)
    obtain ⟨v, -, -, -, -, h⟩ := hd2
    exact h

/-- C11 is false as stated: adding 1 to the largest integer is undefined behaviour. -/
theorem C11_refuted : ∃ (w : World), Fits w.ctx ∧ Reads w.ctx 0 0 0 0 0x7FFFFFFF ∧ Reads w.ctx 0 0 0 1 1 ∧
    Dest w.ctx 0 0 0 2 .D (.D 0) ∧ execIns Demo.env .ADD 0 0 w = .error .signedOverflow :=
  ⟨Demo.world [Demo.net [[Demo.ins .ADD [Demo.op .NONE 0x7FFFFFFF, Demo.op .NONE 1, Demo.op .D 0]]]],
    Demo.fits _ (by decide), ⟨_, rfl, by decide⟩, ⟨_, rfl, by decide⟩, ⟨_, rfl, rfl, rfl, rfl, by decide⟩, by rfl⟩

/-- A demo cell with two constants and a destination, and empty cells below it. -/
def demoOp (code : Ins) (a b : Nat) (d : Value) : World :=
  Demo.world [Demo.net [[Demo.ins code [Demo.op .NONE a, Demo.op .NONE b, d]], [Demo.ins .MULTI []], [Demo.ins .MULTI []]]]

theorem demoOp_fits (code : Ins) (a b : Nat) (d : Value) : Fits (demoOp code a b d).ctx := Demo.fits _ rfl
theorem demoOp_site (code : Ins) (a b : Nat) (d : Value) : Site (demoOp code a b d).ctx 0 0 0 true :=
  ⟨demoOp_fits code a b d, rfl, rfl, rfl⟩

-- 7 - 10 = -3 is stored to D2 and the third row is turned on
example : ∃ (w' : World) (x : W32), x.toInt = -3 ∧ execIns Demo.env .SUB 0 0 (demoOp .SUB 7 10 (Demo.op .D 2)) = .ok (.ok, w') ∧
    Only (demoOp .SUB 7 10 (Demo.op .D 2)).ctx w'.ctx [.cell 0 0 0, .cell 0 2 0, .D 2] ∧
    w'.tick = 0 ∧ w'.trace = [] ∧ load w'.ctx (.cell 0 0 0) = some 1 ∧ load w'.ctx (.cell 0 2 0) = some 1 ∧
    load w'.ctx (.D 2) = some (stored .D x) :=
  C11_SUB_partial Demo.env (a := 7) (b := 10) (k := .D) (ℓ := .D 2) (demoOp_site _ _ _ _) rfl rfl
    ⟨_, rfl, rfl⟩ ⟨_, rfl, rfl⟩ ⟨_, rfl, rfl, rfl, rfl, rfl⟩ (by unfold Repr32; decide)
example : ∃ (w' : World) (x : W32), x.toInt = 17 ∧ execIns Demo.env .ADD 0 0 (demoOp .ADD 7 10 (Demo.op .C 1)) = .ok (.ok, w') ∧
    Sets (demoOp .ADD 7 10 (Demo.op .C 1)) w' [(.cell 0 0 0, 1), (.C 1, stored .C x)] :=
  C11_ADD_partial Demo.env (a := 7) (b := 10) (demoOp_site _ _ _ _)
    ⟨_, rfl, rfl⟩ ⟨_, rfl, rfl⟩ ⟨_, rfl, rfl, rfl, rfl, rfl⟩ (by unfold Repr32; decide)
example : ∃ (w' : World) (x : W32), x.toInt = -70 ∧ execIns Demo.env .MUL 0 0 (demoOp .MUL 7 0xFFFFFFF6 (Demo.op .C 1)) = .ok (.ok, w') ∧
    Sets (demoOp .MUL 7 0xFFFFFFF6 (Demo.op .C 1)) w' [(.cell 0 0 0, 1), (.C 1, stored .C x)] :=
  C11_MUL_partial Demo.env (a := 7) (b := 0xFFFFFFF6) (demoOp_site _ _ _ _)
    ⟨_, rfl, rfl⟩ ⟨_, rfl, rfl⟩ ⟨_, rfl, rfl, rfl, rfl, rfl⟩ (by unfold Repr32; decide)

/-! ### C12 -/

/-- `q` and `m` are quotient and remainder of `a` by `b`, truncated toward zero. -/
structure TruncDiv (a b q m : Int) : Prop where
  identity : a = q * b + m
  small : m.natAbs < b.natAbs
  sign : m = 0 ∨ (0 < m ↔ 0 < a)

theorem truncDiv_iff {a b : Int} (hb : b ≠ 0) : TruncDiv a b (a.tdiv b) (a.tmod b) where
  identity := by have := Int.mul_tdiv_add_tmod a b; rw [Int.mul_comm (a.tdiv b)]; omega
  small := by
    rw [Int.natAbs_tmod]
    exact Nat.mod_lt _ (by omega)
  sign := by
    rcases Int.lt_trichotomy a 0 with h | h | h
    · have := Int.neg_tmod (a := -a) (b := b)
      have := Int.tmod_nonneg b (a := -a) (by omega)
      simp at *; omega
    · subst h; simp
    · have := Int.tmod_nonneg b (Int.le_of_lt h); omega

/-- The quotient of two 32-bit numbers is representable except for the smallest number divided by -1. -/
theorem tdiv_repr {a b : W32} (h : ¬ (a.toInt = -2^31 ∧ b.toInt = -1)) : Repr32 (a.toInt.tdiv b.toInt) := by
  have h1 := BitVec.toInt_lt (x := a)
  have h2 := BitVec.le_toInt (x := a)
  simp at h1 h2
  have hle : (a.toInt.tdiv b.toInt).natAbs ≤ a.toInt.natAbs := by
    rw [Int.natAbs_tdiv]; exact Nat.div_le_self _ _
  unfold Repr32
  by_cases hmin : a.toInt = -2^31
  · have hb : b.toInt ≠ -1 := fun hb => h ⟨hmin, hb⟩
    rw [hmin]
    rcases Int.lt_trichotomy b.toInt 0 with hlt | h0 | hgt
    · have : ((-2^31 : Int).tdiv b.toInt).natAbs ≤ 2^30 := by
        rw [Int.natAbs_tdiv]
        have : (2:Nat) ≤ b.toInt.natAbs := by omega
        calc (-2^31 : Int).natAbs / b.toInt.natAbs ≤ (-2^31 : Int).natAbs / 2 := Nat.div_le_div_left this (by omega)
          _ = 2^30 := by decide
      omega
    · rw [h0]; simp
    · have : (-2^31 : Int).tdiv b.toInt ≤ 0 := by
        rw [Int.neg_tdiv]
        have := Int.tdiv_nonneg (a := 2^31) (b := b.toInt) (by decide) (by omega)
        omega
      rw [hmin] at hle
      omega
  · omega

/-- C12 (partial): powered DIV and MOD store quotient and remainder of the truncated division.
Missing: the operands smallest / -1, and MOD by zero, for which the operation is undefined, see `C12_refuted`. -/
theorem C12_DIV_MOD_partial (env : Env) {a b : W32} {k : Reg} {ℓ : Loc} (hs : Site w.ctx n r c true)
    (ha : Reads w.ctx n r c 0 a) (hb : Reads w.ctx n r c 1 b) (hd : Dest w.ctx n r c 2 k ℓ)
    (hb0 : b.toInt ≠ 0) (hmin : ¬ (a.toInt = -2^31 ∧ b.toInt = -1)) :
    ∃ (q m : W32) (wq wm : World), TruncDiv a.toInt b.toInt q.toInt m.toInt ∧
      execIns env .DIV r c w = .ok (.ok, wq) ∧ Sets w wq [(.cell n r c, 1), (ℓ, stored k q)] ∧
      execIns env .MOD r c w = .ok (.ok, wm) ∧ Sets w wm [(.cell n r c, 1), (ℓ, stored k m)] := by
  have hq : Repr32 (a.toInt.tdiv b.toInt) := tdiv_repr hmin
  have hm : Repr32 (a.toInt.tmod b.toInt) := by
    have h := (truncDiv_iff (a := a.toInt) hb0).small
    have h1 := BitVec.toInt_lt (x := b)
    have h2 := BitVec.le_toInt (x := b)
    simp at h1 h2
    unfold Repr32; omega
  have hcd : cDiv a b = .ok (BitVec.ofInt 32 (a.toInt.tdiv b.toInt)) := by simp [cDiv, hb0, signed32_ok hq]
  have hcm : cMod a b = .ok (BitVec.ofInt 32 (a.toInt.tmod b.toInt)) := by
    have : fitsI32 (a.toInt.tdiv b.toInt) = true := by unfold Repr32 at hq; simp [fitsI32]; omega
    simp [cMod, hb0, this]
  obtain ⟨wq, h1, h2⟩ := binop_powered env (f := cDiv) hs ha hb hd hcd
  obtain ⟨wm, h3, h4⟩ := binop_powered env (f := cMod) hs ha hb hd hcm
  refine ⟨_, _, wq, wm, ?_, ?_, h2, h3, h4⟩
  · rw [toInt_ofInt_of_repr hq, toInt_ofInt_of_repr hm]; exact truncDiv_iff hb0
  · rw [← h1]
    have hs' : Site (w.upd (.cell n r c) 1).ctx n r c true := hs.upd_self
    have e0 := hs.setState true
    simp only [Bool.toNat_true] at e0
    have e2 := hs'.getData (env := env) (ha.upd_cell (n' := n) (r' := r) (c' := c) (y := 1))
    have e3 := hs'.getData (env := env) (hb.upd_cell (n' := n) (r' := r) (c' := c) (y := 1))
    have hne : ¬ b = 0#32 := by rintro rfl; exact hb0 rfl
    simp [execIns, fnDIV, binop, hs.getLeft, e0, hs'.getLeft, e2, e3, hne, hcd]

/-- C12: division by zero stores 0 and is not an error. -/
theorem C12_DIV_zero (env : Env) {k : Reg} {ℓ : Loc} (hs : Site w.ctx n r c true)
    (hb : Reads w.ctx n r c 1 0) (hd : Dest w.ctx n r c 2 k ℓ) :
    ∃ w', execIns env .DIV r c w = .ok (.ok, w') ∧ Sets w w' [(.cell n r c, 1), (ℓ, 0)] := by
  refine ⟨(w.upd (.cell n r c) 1).upd ℓ (stored k 0), ?_, ?_⟩
  · have hs' : Site (w.upd (.cell n r c) 1).ctx n r c true := hs.upd_self
    have e0 := hs.setState true
    simp only [Bool.toNat_true] at e0
    have e3 := hs'.getData (env := env) (hb.upd_cell (n' := n) (r' := r) (c' := c) (y := 1))
    have e4 := hs'.setData (hd.upd (ℓ' := .cell n r c) (y := 1)) 0
    simp at e4
    simp [execIns, fnDIV, hs.getLeft, e0, hs'.getLeft, e3, e4]
  · have h0 : stored k 0 = 0 := by simp [stored]
    have := (Sets.one hs.cell (x := 1) (by simp [Loc.size])).add (ℓ := ℓ) (x := stored k 0)
      (by obtain ⟨v, -, -, -, -, h⟩ := hd.upd (ℓ' := .cell n r c) (y := 1); exact h)
      (stored_lt hd 0) (by simp; exact hd.ne_cell.symm)
    rw [h0] at this ⊢
    exact this

/-- C12 is false as stated: MOD by zero, and the smallest number DIV -1, are undefined behaviour. -/
theorem C12_refuted :
    execIns Demo.env .MOD 0 0 (demoOp .MOD 7 0 (Demo.op .D 0)) = .error .divZero ∧
    execIns Demo.env .DIV 0 0 (demoOp .DIV 0x80000000 0xFFFFFFFF (Demo.op .D 0)) = .error .signedOverflow :=
  ⟨by rfl, by rfl⟩

-- -7 / 2 = -3 rest -1
example : ∃ (q m : W32) (wq wm : World), TruncDiv (-7) 2 q.toInt m.toInt ∧
    execIns Demo.env .DIV 0 0 (demoOp .DIV 0xFFFFFFF9 2 (Demo.op .D 0)) = .ok (.ok, wq) ∧
    Sets (demoOp .DIV 0xFFFFFFF9 2 (Demo.op .D 0)) wq [(.cell 0 0 0, 1), (.D 0, stored .D q)] ∧
    execIns Demo.env .MOD 0 0 (demoOp .DIV 0xFFFFFFF9 2 (Demo.op .D 0)) = .ok (.ok, wm) ∧
    Sets (demoOp .DIV 0xFFFFFFF9 2 (Demo.op .D 0)) wm [(.cell 0 0 0, 1), (.D 0, stored .D m)] :=
  C12_DIV_MOD_partial Demo.env (a := 0xFFFFFFF9) (b := 2) (demoOp_site _ _ _ _)
    ⟨_, rfl, rfl⟩ ⟨_, rfl, rfl⟩ ⟨_, rfl, rfl, rfl, rfl, rfl⟩ (by decide) (by decide)
example : ∃ w', execIns Demo.env .DIV 0 0 (demoOp .DIV 9 0 (Demo.op .D 0)) = .ok (.ok, w') ∧
    Sets (demoOp .DIV 9 0 (Demo.op .D 0)) w' [(.cell 0 0 0, 1), (.D 0, 0)] :=
  C12_DIV_zero Demo.env (demoOp_site _ _ _ _) ⟨_, rfl, rfl⟩ ⟨_, rfl, rfl, rfl, rfl, rfl⟩

/-! ### C15 -/

/-- C15 (partial): powered OR, XOR and NOT work bit by bit.  Missing: AND, see `C15_refuted`. -/
theorem C15_OR_partial (env : Env) {a b : W32} {k : Reg} {ℓ : Loc} (hs : Site w.ctx n r c true)
    (ha : Reads w.ctx n r c 0 a) (hb : Reads w.ctx n r c 1 b) (hd : Dest w.ctx n r c 2 k ℓ) :
    ∃ (w' : World) (x : W32), (∀ i, x.getLsbD i = (a.getLsbD i || b.getLsbD i)) ∧ execIns env .OR r c w = .ok (.ok, w') ∧
      Sets w w' [(.cell n r c, 1), (ℓ, stored k x)] := by
  obtain ⟨w', h1, h2⟩ := binop_powered env (f := fun a b => .ok (a ||| b)) hs ha hb hd rfl
  exact ⟨w', _, fun i => BitVec.getLsbD_or, h1, h2⟩

/-- C15 (partial), XOR. -/
theorem C15_XOR_partial (env : Env) {a b : W32} {k : Reg} {ℓ : Loc} (hs : Site w.ctx n r c true)
    (ha : Reads w.ctx n r c 0 a) (hb : Reads w.ctx n r c 1 b) (hd : Dest w.ctx n r c 2 k ℓ) :
    ∃ (w' : World) (x : W32), (∀ i, x.getLsbD i = (a.getLsbD i ^^ b.getLsbD i)) ∧ execIns env .XOR r c w = .ok (.ok, w') ∧
      Sets w w' [(.cell n r c, 1), (ℓ, stored k x)] := by
  obtain ⟨w', h1, h2⟩ := binop_powered env (f := fun a b => .ok (a ^^^ b)) hs ha hb hd rfl
  exact ⟨w', _, fun i => BitVec.getLsbD_xor, h1, h2⟩

/-- C15 (partial), NOT. -/
theorem C15_NOT_partial (env : Env) {a : W32} {k : Reg} {ℓ : Loc} (hs : Site w.ctx n r c true)
    (ha : Reads w.ctx n r c 0 a) (hd : Dest w.ctx n r c 1 k ℓ) :
    ∃ (w' : World) (x : W32), (∀ i, i < 32 → x.getLsbD i = !a.getLsbD i) ∧ execIns env .NOT r c w = .ok (.ok, w') ∧
      Sets w w' [(.cell n r c, 1), (ℓ, stored k x)] := by
  refine ⟨(w.upd (.cell n r c) 1).upd ℓ (stored k (~~~a)), ~~~a, fun i hi => by simp [hi], ?_, ?_⟩
  · have hs' : Site (w.upd (.cell n r c) 1).ctx n r c true := hs.upd_self
    have e0 := hs.setState true
    simp only [Bool.toNat_true] at e0
    have e2 := hs'.getData (env := env) (ha.upd_cell (n' := n) (r' := r) (c' := c) (y := 1))
    have e4 := hs'.setData (hd.upd (ℓ' := .cell n r c) (y := 1)) (~~~a)
    simp [execIns, fnNOT, hs.getLeft, e0, hs'.getLeft, e2, e4]
  · refine (Sets.one hs.cell (by simp [Loc.size])).add ?_ (stored_lt hd _) (by simp; exact hd.ne_cell.symm)
    obtain ⟨v, -, -, -, -, h⟩ := hd.upd (ℓ' := .cell n r c) (y := 1)
    exact h

/-- C15 (partial): on the numbers 0 and 1, AND is the Boolean conjunction.  Missing: all other operands, which AND
treats as 0, see `C15_refuted`. -/
theorem C15_AND_partial (env : Env) {a b : Bool} {k : Reg} {ℓ : Loc} (hs : Site w.ctx n r c true)
    (ha : Reads w.ctx n r c 0 (if a then 1 else 0)) (hb : Reads w.ctx n r c 1 (if b then 1 else 0))
    (hd : Dest w.ctx n r c 2 k ℓ) :
    ∃ w', execIns env .AND r c w = .ok (.ok, w') ∧ Sets w w' [(.cell n r c, 1), (ℓ, (a && b).toNat)] := by
  obtain ⟨w', h1, h2⟩ := binop_powered env (f := fun a b => .ok (toInteger a &&& toInteger b)) hs ha hb hd rfl
  refine ⟨w', h1, ?_⟩
  have : stored k (toInteger (if a then 1 else 0) &&& toInteger (if b then 1 else 0)) = (a && b).toNat := by
    cases hk : byteKind k <;> cases a <;> cases b <;> simp [stored, hk, toInteger]
  rwa [this] at h2

/-- C15 is false as stated: 12 AND 10 stores 0 instead of 8. -/
theorem C15_refuted : ∃ w', execIns Demo.env .AND 0 0 (demoOp .AND 12 10 (Demo.op .D 0)) = .ok (.ok, w') ∧
    load w'.ctx (.D 0) = some 0 := ⟨_, by rfl, by rfl⟩

example : ∃ (w' : World) (x : W32), (∀ i, x.getLsbD i = ((12#32).getLsbD i || (10#32).getLsbD i)) ∧
    execIns Demo.env .OR 0 0 (demoOp .OR 12 10 (Demo.op .D 0)) = .ok (.ok, w') ∧
    Sets (demoOp .OR 12 10 (Demo.op .D 0)) w' [(.cell 0 0 0, 1), (.D 0, stored .D x)] :=
  C15_OR_partial Demo.env (demoOp_site _ _ _ _) ⟨_, rfl, rfl⟩ ⟨_, rfl, rfl⟩ ⟨_, rfl, rfl, rfl, rfl, rfl⟩
example : ∃ w', execIns Demo.env .AND 0 0 (demoOp .AND 1 1 (Demo.op .M 1)) = .ok (.ok, w') ∧
    Sets (demoOp .AND 1 1 (Demo.op .M 1)) w' [(.cell 0 0 0, 1), (.M 1, 1)] :=
  C15_AND_partial Demo.env (a := true) (b := true) (demoOp_site _ _ _ _) ⟨_, rfl, rfl⟩ ⟨_, rfl, rfl⟩
    ⟨_, rfl, rfl, rfl, rfl, rfl⟩

/-! ### C13, C14 -/

/-- The shift amount 0..31 congruent to the signed number. -/
def amount32 (k : W32) : Nat := (k.toInt % 32).toNat

theorem shiftAmount_eq (k : W32) : shiftAmount k = amount32 k := by
  unfold shiftAmount amount32
  simp only
  have h1 := Int.mul_tdiv_add_tmod k.toInt 32
  have h2 := Int.tmod_lt_of_pos k.toInt (by decide : (0:Int) < 32)
  have h3 := Int.lt_tmod_of_pos k.toInt (by decide : (0:Int) < 32)
  split <;> congr 1 <;> omega

theorem amount32_lt (k : W32) : amount32 k < 32 := by unfold amount32; omega

/-- Running a shift or rotation (powered or not): the result replaces operand 0. -/
theorem shiftop_run (env : Env) {f : W32 → Nat → Except UB W32} {a b x : W32} {k : Reg} {ℓ : Loc}
    (hs : Site w.ctx n r c l) (ha : Reads w.ctx n r c 0 a) (hb : Reads w.ctx n r c 1 b)
    (hd : Dest w.ctx n r c 0 k ℓ) (hx : f a (amount32 b) = .ok x) :
    shiftop env f r c w = .ok (.ok, (w.upd ℓ (stored k x)).upd (.cell n r c) l.toNat) := by
  have hs' : Site (w.upd ℓ (stored k x)).ctx n r c l := hs.upd fun _ _ => hd.ne_cell
  simp [shiftop, hs.getData ha, hs.getData hb, shiftAmount_eq, hx, hs.setData hd, hs'.getLeft, hs'.setState]

theorem shift_sets {x : W32} {k : Reg} {ℓ : Loc} (hs : Site w.ctx n r c l) (hd : Dest w.ctx n r c 0 k ℓ) :
    Sets w ((w.upd ℓ (stored k x)).upd (.cell n r c) l.toNat) [(ℓ, stored k x), (.cell n r c, l.toNat)] := by
  have hs' : Site (w.upd ℓ (stored k x)).ctx n r c l := hs.upd fun _ _ => hd.ne_cell
  refine (Sets.one ?_ (stored_lt hd x)).add hs'.cell (bool_lt_cell l) (by simp; exact hd.ne_cell)
  obtain ⟨v, -, -, -, -, h⟩ := hd
  exact h

theorem shiftop_ok (env : Env) {f : W32 → Nat → Except UB W32} {a b x : W32} {k : Reg} {ℓ : Loc}
    (hs : Site w.ctx n r c l) (ha : Reads w.ctx n r c 0 a) (hb : Reads w.ctx n r c 1 b)
    (hd : Dest w.ctx n r c 0 k ℓ) (hx : f a (amount32 b) = .ok x) :
    ∃ w', shiftop env f r c w = .ok (.ok, w') ∧ Sets w w' [(ℓ, stored k x), (.cell n r c, l.toNat)] :=
  ⟨_, shiftop_run env hs ha hb hd hx, shift_sets hs hd⟩

/-- C13: SHL multiplies by 2^k modulo 2^32, for every value and amount. -/
theorem C13_SHL (env : Env) {a b : W32} {k : Reg} {ℓ : Loc} (hs : Site w.ctx n r c l)
    (ha : Reads w.ctx n r c 0 a) (hb : Reads w.ctx n r c 1 b) (hd : Dest w.ctx n r c 0 k ℓ) :
    ∃ (w' : World) (x : W32), x.toNat = a.toNat * 2 ^ amount32 b % 2^32 ∧ execIns env .SHL r c w = .ok (.ok, w') ∧
      Sets w w' [(ℓ, stored k x), (.cell n r c, l.toNat)] := by
  obtain ⟨w', h1, h2⟩ := shiftop_ok env (f := cShl) hs ha hb hd (by simp only [cShl, amount32_lt b, if_true]; rfl)
  exact ⟨w', _, by simp [BitVec.toNat_shiftLeft, Nat.shiftLeft_eq], h1, h2⟩

/-- C13: SHR divides the unsigned value by 2^k, for every value and amount. -/
theorem C13_SHR (env : Env) {a b : W32} {k : Reg} {ℓ : Loc} (hs : Site w.ctx n r c l)
    (ha : Reads w.ctx n r c 0 a) (hb : Reads w.ctx n r c 1 b) (hd : Dest w.ctx n r c 0 k ℓ) :
    ∃ (w' : World) (x : W32), x.toNat = a.toNat / 2 ^ amount32 b ∧ execIns env .SHR r c w = .ok (.ok, w') ∧
      Sets w w' [(ℓ, stored k x), (.cell n r c, l.toNat)] := by
  obtain ⟨w', h1, h2⟩ := shiftop_ok env (f := cShr) hs ha hb hd (by simp only [cShr, amount32_lt b, if_true]; rfl)
  exact ⟨w', _, by simp [BitVec.toNat_ushiftRight, Nat.shiftRight_eq_div_pow], h1, h2⟩

/-- A demo cell with a register and a constant amount. -/
def demoShift (code : Ins) (d : Value) (amount : Nat) : World :=
  Demo.world [Demo.net [[Demo.ins code [d, Demo.op .NONE amount]]]]

theorem demoShift_site (code : Ins) (d : Value) (amount : Nat) : Site (demoShift code d amount).ctx 0 0 0 true :=
  ⟨Demo.fits _ rfl, rfl, rfl, rfl⟩

-- shifting D1 = -3 left by -30, i.e. by 2
example : ∃ (w' : World) (x : W32), x.toNat = 0xFFFFFFFD * 2 ^ 2 % 2^32 ∧
    execIns Demo.env .SHL 0 0 (demoShift .SHL (Demo.op .D 1) 0xFFFFFFE2) = .ok (.ok, w') ∧
    Sets (demoShift .SHL (Demo.op .D 1) 0xFFFFFFE2) w' [(.D 1, stored .D x), (.cell 0 0 0, 1)] :=
  C13_SHL Demo.env (a := 0xFFFFFFFD) (b := 0xFFFFFFE2) (demoShift_site _ _ _)
    ⟨_, rfl, rfl⟩ ⟨_, rfl, rfl⟩ ⟨_, rfl, rfl, rfl, rfl, rfl⟩
example : ∃ (w' : World) (x : W32), x.toNat = 0xFFFFFFFD / 2 ^ 4 ∧
    execIns Demo.env .SHR 0 0 (demoShift .SHR (Demo.op .D 1) 36) = .ok (.ok, w') ∧
    Sets (demoShift .SHR (Demo.op .D 1) 36) w' [(.D 1, stored .D x), (.cell 0 0 0, 1)] :=
  C13_SHR Demo.env (a := 0xFFFFFFFD) (b := 36) (demoShift_site _ _ _)
    ⟨_, rfl, rfl⟩ ⟨_, rfl, rfl⟩ ⟨_, rfl, rfl, rfl, rfl, rfl⟩

/-- `y` is `x` rotated left by `k`: bit `(i + k) mod 32` of `y` is bit `i` of `x`. -/
def RotL (x y : W32) (k : Nat) : Prop := ∀ i, i < 32 → y.getLsbD ((i + k) % 32) = x.getLsbD i

/-- Rotation by an amount is a function and a bijection, so left and right rotation are inverse. -/
theorem RotL.unique {x y y' : W32} {k : Nat} (h : RotL x y k) (h' : RotL x y' k) : y = y' := by
  apply BitVec.eq_of_getLsbD_eq
  intro j hj
  have e : ((j + 32 - k % 32) % 32 + k) % 32 = j := by omega
  rw [← e, h _ (Nat.mod_lt _ (by decide)), h' _ (Nat.mod_lt _ (by decide))]

theorem RotL.cancel {x y z : W32} {k : Nat} (h : RotL x y k) (h' : RotL z y k) : x = z := by
  apply BitVec.eq_of_getLsbD_eq
  intro j hj
  rw [← h j hj, ← h' j hj]

/-- The value computed by ROL, for an amount 1..31. -/
theorem rol_value (a : W32) (m : Nat) (h0 : m ≠ 0) (h : m < 32) :
    ∃ x, RotL a x m ∧ (do let p ← cShl a m; let q ← cShr a (32 - m); .ok (p ||| q) : Except UB W32) = .ok x := by
  refine ⟨(a <<< m) ||| (a >>> (32 - m)), ?_, ?_⟩
  · intro i hi
    rw [BitVec.getLsbD_or, BitVec.getLsbD_shiftLeft, BitVec.getLsbD_ushiftRight]
    by_cases hw : i + m < 32
    · have e : (i + m) % 32 = i + m := Nat.mod_eq_of_lt hw
      rw [e, BitVec.getLsbD_of_ge a (32 - m + (i + m)) (by omega)]
      simp [hw, show ¬ (i + m < m) by omega, show i + m - m = i by omega]
    · have e : (i + m) % 32 = i + m - 32 := by omega
      rw [e]
      simp [show i + m - 32 < m by omega, show 32 - m + (i + m - 32) = i by omega]
  · have h' : 32 - m < 32 := by omega
    simp only [cShl, cShr, h, h', if_true]; rfl

/-- The value computed by ROR, for an amount 1..31. -/
theorem ror_value (a : W32) (m : Nat) (h0 : m ≠ 0) (h : m < 32) :
    ∃ x, RotL x a m ∧ (do let p ← cShr a m; let q ← cShl a (32 - m); .ok (p ||| q) : Except UB W32) = .ok x := by
  refine ⟨(a >>> m) ||| (a <<< (32 - m)), ?_, ?_⟩
  · intro i hi
    rw [BitVec.getLsbD_or, BitVec.getLsbD_shiftLeft, BitVec.getLsbD_ushiftRight]
    by_cases hw : i + m < 32
    · have e : (i + m) % 32 = i + m := Nat.mod_eq_of_lt hw
      rw [e]
      simp [show i < 32 - m by omega, show m + i = i + m by omega]
    · have e : (i + m) % 32 = i + m - 32 := by omega
      rw [e, BitVec.getLsbD_of_ge a (m + i) (by omega)]
      simp [show ¬ (i < 32 - m) by omega, show i - (32 - m) = i + m - 32 by omega, hi]
  · have h' : 32 - m < 32 := by omega
    simp only [cShl, cShr, h, h', if_true]; rfl

/-- C14 (partial): ROL rotates left by the amount modulo 32.  Missing: an amount that is a multiple of 32, for which the
operation is undefined, see `C14_refuted`. -/
theorem C14_ROL_partial (env : Env) {a b : W32} {k : Reg} {ℓ : Loc} (hs : Site w.ctx n r c l)
    (ha : Reads w.ctx n r c 0 a) (hb : Reads w.ctx n r c 1 b) (hd : Dest w.ctx n r c 0 k ℓ) (h0 : amount32 b ≠ 0) :
    ∃ (w' : World) (x : W32), RotL a x (amount32 b) ∧ execIns env .ROL r c w = .ok (.ok, w') ∧
      Sets w w' [(ℓ, stored k x), (.cell n r c, l.toNat)] := by
  obtain ⟨x, hx, he⟩ := rol_value a _ h0 (amount32_lt b)
  exact ⟨_, x, hx, shiftop_run env
    (f := fun x n => do let a ← cShl x n; let b ← cShr x (32 - n); .ok (a ||| b)) hs ha hb hd he, shift_sets hs hd⟩

/-- C14 (partial): ROR rotates right by the amount modulo 32, i.e. the operand is the result rotated left.
Missing: an amount that is a multiple of 32, see `C14_refuted`. -/
theorem C14_ROR_partial (env : Env) {a b : W32} {k : Reg} {ℓ : Loc} (hs : Site w.ctx n r c l)
    (ha : Reads w.ctx n r c 0 a) (hb : Reads w.ctx n r c 1 b) (hd : Dest w.ctx n r c 0 k ℓ) (h0 : amount32 b ≠ 0) :
    ∃ (w' : World) (x : W32), RotL x a (amount32 b) ∧ execIns env .ROR r c w = .ok (.ok, w') ∧
      Sets w w' [(ℓ, stored k x), (.cell n r c, l.toNat)] := by
  obtain ⟨x, hx, he⟩ := ror_value a _ h0 (amount32_lt b)
  exact ⟨_, x, hx, shiftop_run env
    (f := fun x n => do let a ← cShr x n; let b ← cShl x (32 - n); .ok (a ||| b)) hs ha hb hd he, shift_sets hs hd⟩

/-- C14 (partial): rotating a 32-bit register left and then right by the same amount (not taken from that register)
restores it. -/
theorem C14_inverse_partial (env : Env) {a b : W32} {k : Reg} {ℓ : Loc} (hs : Site w.ctx n r c l)
    (ha : Reads w.ctx n r c 0 a) (hb : Reads w.ctx n r c 1 b) (hd : Dest w.ctx n r c 0 k ℓ)
    (hk : k = .D ∨ k = .C ∨ k = .IW ∨ k = .QW) (hfix : ∀ v, operand? w.ctx n r c 1 = some v → place v ≠ some ℓ)
    (h0 : amount32 b ≠ 0) :
    ∃ w₁ w₂, execIns env .ROL r c w = .ok (.ok, w₁) ∧ execIns env .ROR r c w₁ = .ok (.ok, w₂) ∧
      Only w.ctx w₂.ctx [.cell n r c] := by
  have hval : load w.ctx ℓ = some a.toNat := by
    obtain ⟨v, ho, hv⟩ := ha
    obtain ⟨v', ho', rfl, -, hp, hl⟩ := hd
    rw [ho] at ho'; cases ho'
    obtain ⟨y, hy⟩ := Option.isSome_iff_exists.1 hl
    have hlt := load_lt hy
    have hsz : ℓ.size = 2^32 := by
      have := place_size hp 0xFFFFFFFF
      rcases hk with ht | ht | ht | ht <;> simp [stored, ht, byteKind] at this <;> unfold place at hp <;>
        simp [ht] at hp
      · obtain ⟨-, rfl⟩ := hp; rfl
      · obtain ⟨-, rfl⟩ := hp; rfl
      · subst hp; rfl
      · subst hp; rfl
    rw [hsz] at hlt
    rw [hy]
    rcases hk with ht | ht | ht | ht <;> simp [value, ht, hp, hy, decode] at hv <;> subst hv <;> simp <;> omega
  have hst : ∀ z, stored k z = z.toNat := by
    intro z; rcases hk with rfl | rfl | rfl | rfl <;> simp [stored, byteKind]
  obtain ⟨x, hx, he⟩ := rol_value a _ h0 (amount32_lt b)
  obtain ⟨y, hy, he'⟩ := ror_value x _ h0 (amount32_lt b)
  have hya : y = a := hy.cancel hx
  subst hya
  have r1 := shiftop_run env
    (f := fun x n => do let a ← cShl x n; let b ← cShr x (32 - n); .ok (a ||| b)) hs ha hb hd he
  have hs1 : Site ((w.upd ℓ (stored k x)).upd (.cell n r c) l.toNat).ctx n r c l := by
    simp only [World.upd_ctx]; exact (hs.upd fun _ _ => hd.ne_cell).upd_self
  have ha1 : Reads ((w.upd ℓ (stored k x)).upd (.cell n r c) l.toNat).ctx n r c 0 x := by
    simp only [World.upd_ctx]
    refine Reads.upd_cell ?_
    obtain ⟨v', ho', ht, hw, hp, hl⟩ := hd
    refine ⟨v', by rw [operand?_upd]; exact ho', ?_⟩
    have hlx := load_upd_self w.ctx ℓ (stored k x) hl (stored_lt ⟨v', ho', ht, hw, hp, hl⟩ x)
    rw [hst] at hlx
    rcases hk with rfl | rfl | rfl | rfl <;> simp [value, ht, hp, hst, hlx, decode]
  have hb1 : Reads ((w.upd ℓ (stored k x)).upd (.cell n r c) l.toNat).ctx n r c 1 b := by
    simp only [World.upd_ctx]
    exact (hb.upd hfix).upd_cell
  have hd1 : Dest ((w.upd ℓ (stored k x)).upd (.cell n r c) l.toNat).ctx n r c 0 k ℓ := by
    simp only [World.upd_ctx]; exact hd.upd.upd
  have r2 := shiftop_run env
    (f := fun x n => do let a ← cShr x n; let b ← cShl x (32 - n); .ok (a ||| b)) hs1 ha1 hb1 hd1 he'
  refine ⟨_, _, r1, r2, ?_, ?_⟩
  · simp [shell_upd]
  · intro ℓ' hne
    simp only [List.mem_singleton] at hne
    simp only [World.upd_ctx]
    rw [load_upd_ne _ _ _ _ (Ne.symm hne)]
    by_cases hℓ : ℓ' = ℓ
    · subst hℓ
      rw [load_upd_self, hst, hval]
      · rw [isSome_load_upd, isSome_load_upd]; obtain ⟨v', -, -, -, -, hl⟩ := hd; exact hl
      · exact stored_lt hd _
    · rw [load_upd_ne _ _ _ _ (Ne.symm hℓ), load_upd_ne _ _ _ _ (Ne.symm hne), load_upd_ne _ _ _ _ (Ne.symm hℓ)]

/-- C14 is false as stated: rotating by 0 (or 32) is undefined behaviour. -/
theorem C14_refuted :
    execIns Demo.env .ROL 0 0 (demoShift .ROL (Demo.op .D 0) 0) = .error .shiftRange ∧
    execIns Demo.env .ROR 0 0 (demoShift .ROR (Demo.op .D 0) 32) = .error .shiftRange := ⟨by rfl, by rfl⟩

example : ∃ w₁ w₂, execIns Demo.env .ROL 0 0 (demoShift .ROL (Demo.op .D 1) 5) = .ok (.ok, w₁) ∧
    execIns Demo.env .ROR 0 0 w₁ = .ok (.ok, w₂) ∧
    Only (demoShift .ROL (Demo.op .D 1) 5).ctx w₂.ctx [.cell 0 0 0] :=
  C14_inverse_partial Demo.env (a := 0xFFFFFFFD) (b := 5) (demoShift_site _ _ _)
    ⟨_, rfl, rfl⟩ ⟨_, rfl, rfl⟩ ⟨_, rfl, rfl, rfl, rfl, rfl⟩ (.inl rfl) (by intro v hv; cases hv; simp [place, Demo.op])
    (by decide)

/-! ### C16 -/

/-- The relation a comparison instruction tests. -/
def relOf : Ins → Option (Int → Int → Bool)
  | .EQ => some fun a b => a == b
  | .NE => some fun a b => a != b
  | .LT => some fun a b => decide (a < b)
  | .LE => some fun a b => decide (a ≤ b)
  | .GT => some fun a b => decide (b < a)
  | .GE => some fun a b => decide (b ≤ a)
  | _ => none

theorem cmpop_ok (env : Env) {p : Int → Int → Bool} {a b : W32} (hs : Site w.ctx n r c l)
    (ha : Reads w.ctx n r c 0 a) (hb : Reads w.ctx n r c 1 b) :
    cmpop env p r c w = .ok (.ok, w.upd (.cell n r c) (l && p a.toInt b.toInt).toNat) := by
  cases l <;> simp [cmpop, hs.getLeft, hs.getData ha, hs.getData hb, hs.setState]

/-- C16.  A comparison conducts iff it is powered and its relation holds between the signed values of its operands, and
changes nothing but its own cell. -/
theorem C16_comparison (env : Env) {code : Ins} {p : Int → Int → Bool} (hp : relOf code = some p) {a b : W32}
    (hs : Site w.ctx n r c l) (ha : Reads w.ctx n r c 0 a) (hb : Reads w.ctx n r c 1 b) :
    ∃ w', execIns env code r c w = .ok (.ok, w') ∧ Sets w w' [(.cell n r c, (l && p a.toInt b.toInt).toNat)] := by
  refine ⟨w.upd (.cell n r c) (l && p a.toInt b.toInt).toNat, ?_, Sets.one hs.cell (bool_lt_cell _)⟩
  cases code <;> simp [relOf] at hp <;> subst hp <;>
    simp only [execIns, fnEQ, fnNE, fnLT, fnLE, fnGT, fnGE] <;> rw [cmpop_ok env hs ha hb] <;>
    (try rfl) <;> simp [bne, BEq.beq]

/-- C16: exactly one of LT, EQ, GT holds and GE, LE, NE are the negations of LT, GT, EQ. -/
theorem C16_trichotomy (a b : Int) : ∀ lt eq gt ge le ne,
    relOf .LT = some lt → relOf .EQ = some eq → relOf .GT = some gt → relOf .GE = some ge → relOf .LE = some le →
    relOf .NE = some ne →
    (lt a b).toNat + (eq a b).toNat + (gt a b).toNat = 1 ∧ ge a b = !lt a b ∧ le a b = !gt a b ∧ ne a b = !eq a b := by
  intro lt eq gt ge le ne h1 h2 h3 h4 h5 h6
  simp only [relOf, Option.some.injEq] at *
  subst h1 h2 h3 h4 h5 h6
  rcases Int.lt_trichotomy a b with h | h | h
  · simp [h, bne, show ¬ b < a by omega, show ¬ b ≤ a by omega, show a ≤ b by omega, show a ≠ b by omega]
  · subst h; simp
  · simp [h, bne, show ¬ a < b by omega, show b ≤ a by omega, show ¬ a ≤ b by omega, show a ≠ b by omega]

-- -1 < 1 in the signed order
example : ∃ w', execIns Demo.env .LT 0 0 (demoOp .LT 0xFFFFFFFF 1 (Demo.op .D 0)) = .ok (.ok, w') ∧
    Sets (demoOp .LT 0xFFFFFFFF 1 (Demo.op .D 0)) w' [(.cell 0 0 0, 1)] :=
  C16_comparison Demo.env (code := .LT) rfl (a := 0xFFFFFFFF) (b := 1) (demoOp_site _ _ _ _) ⟨_, rfl, rfl⟩ ⟨_, rfl, rfl⟩

/-! ### C17 -/

/-- Data instructions that honour the power of their rung. -/
def poweredOnly : Ins → Bool
  | .ADD | .SUB | .MUL | .DIV | .MOD | .AND | .OR | .XOR | .NOT => true
  | _ => false

/-- C17 (partial): an unpowered arithmetic or bit-logic instruction only clears its own cell.  (SUB reads its operands
even when unpowered, so they must be readable.)  Missing: MOVE, SHL, SHR, ROL, ROR and TMOVE, see `C17_refuted`. -/
theorem C17_unpowered_partial (env : Env) {code : Ins} (hc : poweredOnly code = true) (hs : Site w.ctx n r c false)
    (hsub : code = .SUB → ∃ a b, Reads w.ctx n r c 0 a ∧ Reads w.ctx n r c 1 b) :
    ∃ w', execIns env code r c w = .ok (.ok, w') ∧ Sets w w' [(.cell n r c, 0)] := by
  have hs' : Site (w.upd (.cell n r c) 0).ctx n r c false := hs.upd_self
  have e0 := hs.setState false
  simp only [Bool.toNat_false] at e0
  have hset : Sets w (w.upd (.cell n r c) 0) [(.cell n r c, 0)] := Sets.one hs.cell (by simp [Loc.size])
  cases code <;> simp [poweredOnly] at hc
  case ADD => exact binop_unpowered env hs
  case MUL => exact binop_unpowered env hs
  case MOD => exact binop_unpowered env hs
  case AND => exact binop_unpowered env hs
  case OR => exact binop_unpowered env hs
  case XOR => exact binop_unpowered env hs
  case DIV => exact ⟨_, by simp [execIns, fnDIV, hs.getLeft, e0, hs'.getLeft], hset⟩
  case NOT => exact ⟨_, by simp [execIns, fnNOT, hs.getLeft, e0, hs'.getLeft], hset⟩
  case SUB =>
    obtain ⟨a, b, ha, hb⟩ := hsub rfl
    have e2 := hs'.getData (env := env) (ha.upd_cell (n' := n) (r' := r) (c' := c) (y := 0))
    have e3 := hs'.getData (env := env) (hb.upd_cell (n' := n) (r' := r) (c' := c) (y := 0))
    exact ⟨_, by simp [execIns, fnSUB, hs.getLeft, e0, e2, e3, hs'.getLeft], hset⟩

/-- An unpowered demo cell (behind an open contact). -/
def demoOff (code : Ins) (ops : List Value) : World :=
  Demo.world [Demo.net [[Demo.ins .CONN [] (state := false), Demo.ins code ops]]]

theorem demoOff_site (code : Ins) (ops : List Value) : Site (demoOff code ops).ctx 0 0 1 false :=
  ⟨Demo.fits _ (by simp [Demo.gridOk, Demo.net, Demo.ins]), rfl, rfl, rfl⟩

/-- C17 is false as stated: an unpowered MOVE copies, and an unpowered SHL shifts. -/
theorem C17_refuted :
    (∃ w', execIns Demo.env .MOVE 0 1 (demoOff .MOVE [Demo.op .D 0, Demo.op .D 2]) = .ok (.ok, w') ∧
      load (demoOff .MOVE [Demo.op .D 0, Demo.op .D 2]).ctx (.D 2) = some 100 ∧ load w'.ctx (.D 2) = some 7) ∧
    (∃ w', execIns Demo.env .SHL 0 1 (demoOff .SHL [Demo.op .D 0, Demo.op .NONE 1]) = .ok (.ok, w') ∧
      load w'.ctx (.D 0) = some 14) :=
  ⟨⟨_, by rfl, by rfl, by rfl⟩, ⟨_, by rfl, by rfl⟩⟩

example : ∃ w', execIns Demo.env .MUL 0 1 (demoOff .MUL [Demo.op .D 0, Demo.op .D 0, Demo.op .D 2]) = .ok (.ok, w') ∧
    Sets (demoOff .MUL [Demo.op .D 0, Demo.op .D 0, Demo.op .D 2]) w' [(.cell 0 0 1, 0)] :=
  C17_unpowered_partial Demo.env rfl (demoOff_site _ _) (by simp)

end Ladder.Props
