import Verif.Lemmas.Step
import Verif.Props.Access
import Verif.Spec.Demo

/-
C23, C25: MOVE and FOREIGN.
-/

namespace Ladder.Props

open Spec Op

variable {w : World} {n r c : Nat} {l : Bool}

/-! ### C23 -/

/-- Kinds holding a 32-bit integer. -/
def wordKind (k : Reg) : Prop := k = .D ∨ k = .C ∨ k = .IW ∨ k = .QW

theorem move_store {k : Reg} {ℓ : Loc} {x : W32} (hs : Site w.ctx n r c l) (hd : Dest w.ctx n r c 1 k ℓ) :
    moveStore r c x w = .ok (.ok, (w.upd ℓ (stored k x)).upd (.cell n r c) l.toNat) := by
  have hs' : Site (w.upd ℓ (stored k x)).ctx n r c l := hs.upd fun _ _ => hd.ne_cell
  simp [moveStore, hs.setData hd, hs'.getLeft, hs'.setState]

theorem move_sets {x : W32} {k : Reg} {ℓ : Loc} (hs : Site w.ctx n r c l) (hd : Dest w.ctx n r c 1 k ℓ) :
    Sets w ((w.upd ℓ (stored k x)).upd (.cell n r c) l.toNat) [(ℓ, stored k x), (.cell n r c, l.toNat)] := by
  have hs' : Site (w.upd ℓ (stored k x)).ctx n r c l := hs.upd fun _ _ => hd.ne_cell
  refine (Sets.one ?_ (stored_lt hd x)).add hs'.cell (bool_lt_cell l) (by simp; exact hd.ne_cell)
  obtain ⟨v, -, -, -, -, h⟩ := hd
  exact h

/-- What MOVE does once its two operands are known. -/
def moveBody (env : Env) (ctx : Ctx) (s d : Value) (r c : Nat) : Op Err :=
  match s.type with
  | .D | .IW | .QW | .C | .T => do
    let x ← getData env r c 0
    if isIntReg d.type then moveStore r c x else pure .typeMismatch
  | .R =>
    if s.raw.toNat ≥ ctx.qty.r then pure .outOfRange else do
    let x ← lift (aget ctx.R s.raw.toNat)
    if d.type = .R then moveStore r c x else pure .typeMismatch
  | _ => pure .typeMismatch

theorem move_start (env : Env) {s d : Value} (hs : Site w.ctx n r c l) (h0 : operand? w.ctx n r c 0 = some s)
    (h1 : operand? w.ctx n r c 1 = some d) :
    execIns env .MOVE r c w = moveBody env w.ctx s d r c w := by
  simp only [operand?, Option.bind_eq_some_iff] at h0 h1
  obtain ⟨cell, hc, h0⟩ := h0
  obtain ⟨cell', hc', h1⟩ := h1
  rw [hc] at hc'; cases hc'
  have hq : 1 < cell.dataQty := by
    by_cases h : 1 < cell.dataQty
    · exact h
    · simp [h] at h1
  rw [if_pos (by omega)] at h0
  rw [if_pos hq] at h1
  have hd : cell.data.isNone = false := by
    cases h : cell.data with
    | none => simp [h, at?] at h0
    | some x => rfl
  have e0 : ¬ (cell.data.isNone = true ∨ cell.dataQty < 2) := by rw [hd]; simp; omega
  simp only [execIns, fnMOVE, bind_apply, getCtx_apply, execCell_ok hs.exec hc, lift_ok]
  simp only [ite_apply, e0, if_false, bind_apply, aget_eq_ok.2 h0, aget_eq_ok.2 h1, lift_ok]
  rfl

/-- The content of an integer register as MOVE reads it: timer accumulators are limited to the largest signed number. -/
def moved (k : Reg) (x : Nat) : Nat := if k = .T then min x 2147483647 else x

/-- C23: MOVE between integer registers copies the 32 bits (whether or not the rung is powered) and passes the power. -/
theorem C23_MOVE_int (env : Env) {s : Value} {ℓs ℓ : Loc} {k : Reg} {x : Nat} (hs : Site w.ctx n r c l)
    (h0 : operand? w.ctx n r c 0 = some s) (hsk : wordKind s.type ∨ s.type = .T) (hp : place s = some ℓs)
    (hx : load w.ctx ℓs = some x) (hd : Dest w.ctx n r c 1 k ℓ) (hk : wordKind k) :
    ∃ w', execIns env .MOVE r c w = .ok (.ok, w') ∧ Sets w w' [(ℓ, moved s.type x), (.cell n r c, l.toNat)] := by
  have hlt : x < 2^32 := by
    have := load_lt hx
    have hsz : ℓs.size = 2^32 := by
      unfold place at hp
      rcases hsk with (ht | ht | ht | ht) | ht <;> simp [ht] at hp <;> first | (subst hp; rfl) | (obtain ⟨-, rfl⟩ := hp; rfl)
    omega
  have hr : Reads w.ctx n r c 0 (BitVec.ofNat 32 (moved s.type x)) := by
    refine ⟨s, h0, ?_⟩
    rcases hsk with (ht | ht | ht | ht) | ht <;> simp [value, ht, hp, hx, decode, moved]
  have hm : moved s.type x < 2^32 := by unfold moved; split <;> omega
  have hst : stored k (BitVec.ofNat 32 (moved s.type x)) = moved s.type x := by
    rcases hk with rfl | rfl | rfl | rfl <;> simp [stored, byteKind] <;> omega
  refine ⟨(w.upd ℓ (moved s.type x)).upd (.cell n r c) l.toNat, ?_, ?_⟩
  · obtain ⟨d, h1, hdk, hd'⟩ := hd
    have hint : isIntReg d.type = true := by rcases hk with rfl | rfl | rfl | rfl <;> rw [hdk] <;> rfl
    rw [move_start env hs h0 h1, moveBody]
    have hms := move_store (x := BitVec.ofNat 32 (moved s.type x)) hs ⟨d, h1, hdk, hd'⟩
    rw [hst] at hms
    rcases hsk with (ht | ht | ht | ht) | ht <;> simp only [ht, bind_apply] <;> rw [hs.getData hr] <;>
      simp only [hint, if_true, ht] at hms ⊢ <;> exact hms
  · have := move_sets (x := BitVec.ofNat 32 (moved s.type x)) hs hd
    rwa [hst] at this

/-- C23: MOVE between float registers copies the 32 bits. -/
theorem C23_MOVE_real (env : Env) {s : Value} {i : Nat} {ℓ : Loc} {x : Nat} (hs : Site w.ctx n r c l)
    (h0 : operand? w.ctx n r c 0 = some s) (hsk : s.type = .R) (hp : place s = some (.R i))
    (hx : load w.ctx (.R i) = some x) (hd : Dest w.ctx n r c 1 .R ℓ) :
    ∃ w', execIns env .MOVE r c w = .ok (.ok, w') ∧ Sets w w' [(ℓ, x), (.cell n r c, l.toNat)] := by
  have hlt : x < 2^32 := load_lt hx
  have hst : stored .R (BitVec.ofNat 32 x) = x := by simp [stored, byteKind]; omega
  refine ⟨(w.upd ℓ x).upd (.cell n r c) l.toNat, ?_, ?_⟩
  · obtain ⟨d, h1, hdk, hd'⟩ := hd
    rw [move_start env hs h0 h1, moveBody]
    have hms := move_store (x := BitVec.ofNat 32 x) hs ⟨d, h1, hdk, hd'⟩
    rw [hst] at hms
    have hi : s.raw.toNat = i := by simp [place, hsk] at hp; exact hp.2
    have hg : aget w.ctx.R s.raw.toNat = .ok (BitVec.ofNat 32 x) := by rw [hi]; exact wordW_ok hx
    have hq : ¬ w.ctx.qty.r ≤ s.raw.toNat := by
      obtain ⟨y, hy⟩ := at?_of_map hx
      have := lt_of_at? hs.fits.R hy
      omega
    simp only [hsk, ge_iff_le, hq, if_false, bind_apply, hg, lift_ok, hdk, if_true]
    exact hms
  · have := move_sets (x := BitVec.ofNat 32 x) hs hd
    rwa [hst] at this

/-- Source and destination kinds MOVE accepts. -/
def compatible (s d : Reg) : Prop :=
  ((wordKind s ∨ s = .T) ∧ (wordKind d ∨ d = .T)) ∨ (s = .R ∧ d = .R)

/-- C23: an incompatible pair is reported and nothing at all changes. -/
theorem C23_MOVE_incompatible (env : Env) {s d : Value} (hs : Site w.ctx n r c l)
    (h0 : operand? w.ctx n r c 0 = some s) (h1 : operand? w.ctx n r c 1 = some d)
    (hsrc : ∀ ℓ, place s = some ℓ → (load w.ctx ℓ).isSome) (hneg : place s = none → s.type = .NONE ∨ s.type = .S ∨ s.type = .INV)
    (hbad : ¬ compatible s.type d.type) :
    ∃ e, e ≠ .ok ∧ execIns env .MOVE r c w = .ok (e, w) := by
  rw [move_start env hs h0 h1, moveBody]
  have hread : wordKind s.type ∨ s.type = .T → ∃ x, Reads w.ctx n r c 0 x := by
    intro hsk
    cases hp : place s with
    | none => rcases hneg hp with h | h | h <;> simp [h, wordKind] at hsk
    | some ℓ =>
      obtain ⟨x, hx⟩ := Option.isSome_iff_exists.1 (hsrc ℓ hp)
      rcases hsk with (ht | ht | ht | ht) | ht <;>
        exact ⟨_, s, h0, by simp [value, ht, hp, hx, decode]; rfl⟩
  by_cases hsk : wordKind s.type ∨ s.type = .T
  · obtain ⟨x, hr⟩ := hread hsk
    have hint : isIntReg d.type = false := by
      have : ¬ (wordKind d.type ∨ d.type = .T) := fun h => hbad (.inl ⟨hsk, h⟩)
      cases hd : d.type <;> simp [hd, wordKind] at this <;> rfl
    refine ⟨.typeMismatch, by simp, ?_⟩
    rcases hsk with (ht | ht | ht | ht) | ht <;> simp only [ht, bind_apply] <;> rw [hs.getData hr] <;>
      simp [hint]
  · by_cases hr : s.type = .R
    · have hdr : d.type ≠ .R := fun h => hbad (.inr ⟨hr, h⟩)
      cases hp : place s with
      | none => rcases hneg hp with h | h | h <;> simp [h] at hr
      | some ℓ =>
        obtain ⟨x, hx⟩ := Option.isSome_iff_exists.1 (hsrc ℓ hp)
        simp [place, hr] at hp
        obtain ⟨-, rfl⟩ := hp
        have hg : aget w.ctx.R s.raw.toNat = .ok (BitVec.ofNat 32 x) := wordW_ok hx
        have hq : ¬ w.ctx.qty.r ≤ s.raw.toNat := by
          obtain ⟨y, hy⟩ := at?_of_map hx
          have := lt_of_at? hs.fits.R hy
          omega
        exact ⟨.typeMismatch, by simp, by simp [hr, hq, hg, hdr]⟩
    · refine ⟨.typeMismatch, by simp, ?_⟩
      cases ht : s.type <;> simp [ht, wordKind] at hsk hr ⊢

/-- C23: a compatible pair whose destination does not exist or is a timer is reported and no register changes. -/
theorem C23_MOVE_bad_destination (env : Env) {s d : Value} {x : W32} (hs : Site w.ctx n r c l)
    (h0 : operand? w.ctx n r c 0 = some s) (h1 : operand? w.ctx n r c 1 = some d)
    (hc : compatible s.type d.type) (hx : Reads w.ctx n r c 0 x)
    (hbad : writableKind d.type = false ∨ ∀ ℓ, place d = some ℓ → load w.ctx ℓ = none) :
    ∃ e w', e ≠ .ok ∧ execIns env .MOVE r c w = .ok (e, w') ∧ Only w.ctx w'.ctx [.cell n r c] := by
  rw [move_start env hs h0 h1, moveBody]
  have key : ∀ y, ∃ e w', e ≠ .ok ∧ moveStore r c y w = .ok (e, w') ∧ Only w.ctx w'.ctx [.cell n r c] := by
    intro y
    obtain ⟨e, he, hsd⟩ := C04_bad_destination_rejected r c 1 n y w d hs.fits hs.exec h1 hbad
    refine ⟨.setDataVal, w.upd (.cell n r c) l.toNat, by simp, ?_, Only.upd _ _ _⟩
    simp [moveStore, hsd, hs.getLeft, hs.setState, he]
  rcases hc with ⟨hsk, hdk⟩ | ⟨hsr, hdr⟩
  · have hint : isIntReg d.type = true := by
      rcases hdk with (ht | ht | ht | ht) | ht <;> rw [ht] <;> rfl
    obtain ⟨e, w', he, hm, ho⟩ := key x
    refine ⟨e, w', he, ?_, ho⟩
    rcases hsk with (ht | ht | ht | ht) | ht <;> simp only [ht, bind_apply] <;> rw [hs.getData hx] <;>
      simp only [hint, if_true] <;> exact hm
  · obtain ⟨v, hv, hval⟩ := hx
    rw [h0] at hv; cases hv
    simp only [value, hsr, Option.bind_eq_some_iff] at hval
    obtain ⟨ℓ, hp, y, hy, -⟩ := hval
    simp [place, hsr] at hp
    obtain ⟨-, rfl⟩ := hp
    have hg : aget w.ctx.R s.raw.toNat = .ok (BitVec.ofNat 32 y) := wordW_ok hy
    have hq : ¬ w.ctx.qty.r ≤ s.raw.toNat := by
      obtain ⟨z, hz⟩ := at?_of_map hy
      have := lt_of_at? hs.fits.R hz
      omega
    obtain ⟨e, w', he, hm, ho⟩ := key (BitVec.ofNat 32 y)
    refine ⟨e, w', he, ?_, ho⟩
    simp only [hsr, ge_iff_le, hq, if_false, bind_apply, hg, lift_ok, hdr, if_true]
    exact hm

/-- MOVE from the first operand to the second, on an unpowered cell in column 1. -/
def demoMove (s d : Value) : World :=
  Demo.world [Demo.net [[Demo.ins .NOP [], Demo.ins .MOVE [s, d]], [Demo.ins .NOP [], Demo.ins .MULTI []]]]

theorem demoMove_site (s d : Value) : Site (demoMove s d).ctx 0 0 1 false := ⟨Demo.fits _ rfl, rfl, rfl, rfl⟩

-- D1 (-3) is copied to QW 0.0
example : ∃ w', execIns Demo.env .MOVE 0 1 (demoMove (Demo.op .D 1) (Demo.op .QW 0)) = .ok (.ok, w') ∧
    Sets (demoMove (Demo.op .D 1) (Demo.op .QW 0)) w' [(.QW 0 0, 0xFFFFFFFD), (.cell 0 0 1, 0)] :=
  C23_MOVE_int Demo.env (x := 0xFFFFFFFD) (demoMove_site _ _) rfl (.inl (.inl rfl)) rfl rfl
    ⟨_, rfl, rfl, rfl, rfl, rfl⟩ (.inr (.inr (.inr rfl)))
-- R0 (3.14159) is copied to R1
example : ∃ w', execIns Demo.env .MOVE 0 1 (demoMove (Demo.op .R 0) (Demo.op .R 1)) = .ok (.ok, w') ∧
    Sets (demoMove (Demo.op .R 0) (Demo.op .R 1)) w' [(.R 1, 0x40490FDB), (.cell 0 0 1, 0)] :=
  C23_MOVE_real Demo.env (i := 0) (x := 0x40490FDB) (demoMove_site _ _) rfl rfl rfl rfl ⟨_, rfl, rfl, rfl, rfl, rfl⟩
-- a float into an integer register
example : ∃ e, e ≠ .ok ∧ execIns Demo.env .MOVE 0 1 (demoMove (Demo.op .R 0) (Demo.op .D 1)) =
    .ok (e, demoMove (Demo.op .R 0) (Demo.op .D 1)) :=
  C23_MOVE_incompatible Demo.env (demoMove_site _ _) rfl rfl (fun ℓ h => by cases h; rfl) (fun h => by cases h)
    (by unfold compatible wordKind; decide)
-- a destination that does not exist
example : ∃ e w', e ≠ .ok ∧ execIns Demo.env .MOVE 0 1 (demoMove (Demo.op .D 0) (Demo.op .D 9)) = .ok (e, w') ∧
    Only (demoMove (Demo.op .D 0) (Demo.op .D 9)).ctx w'.ctx [.cell 0 0 1] :=
  C23_MOVE_bad_destination Demo.env (x := 7) (demoMove_site _ _) rfl rfl (.inl ⟨.inl (.inl rfl), .inl (.inl rfl)⟩)
    ⟨_, rfl, rfl⟩ (.inr fun ℓ h => by cases h; rfl)

/-! ### C25 -/

/-- C25 (partial): FOREIGN with id 0 or 1 calls exactly the registered function of that number, once, and reports what it
reports.  Missing: larger ids, see `C25_refuted`. -/
theorem C25_FOREIGN_partial (env : Env) {id : W32} (hs : Site w.ctx n r c l) (hid : Reads w.ctx n r c 0 id)
    (hsmall : id.toNat < 2) (hqty : id.toNat < w.ctx.foreignQty) (hreg : (at? w.ctx.foreign id.toNat).isSome) :
    execIns env .FOREIGN r c w = .ok ((env.foreign w.tick id.toNat c r w.ctx).1,
      { ctx := (env.foreign w.tick id.toNat c r w.ctx).2, tick := w.tick + 1,
        trace := w.trace ++ [.foreign id.toNat c r] }) := by
  have hid' : toInteger id = id := by
    have : id = 0 ∨ id = 1 := by
      rcases (show id.toNat = 0 ∨ id.toNat = 1 by omega) with h | h
      · left; exact BitVec.eq_of_toNat_eq h
      · right; exact BitVec.eq_of_toNat_eq h
    rcases this with rfl | rfl <;> rfl
  obtain ⟨f, hf⟩ := Option.isSome_iff_exists.1 hreg
  simp only [execIns, fnFOREIGN, bind_apply, hs.getData hid, getCtx_apply, hid', ge_iff_le, ite_apply]
  rw [if_neg (by omega)]
  simp [callForeign, aget_eq_ok.2 hf]

/-- C25: with id 0 or 1 and no such function FOREIGN reports an error, calls nothing and changes nothing. -/
theorem C25_FOREIGN_missing (env : Env) {id : W32} (hs : Site w.ctx n r c l) (hid : Reads w.ctx n r c 0 id)
    (hsmall : id.toNat < 2) (hqty : w.ctx.foreignQty ≤ id.toNat) :
    execIns env .FOREIGN r c w = .ok (.noForeign, w) := by
  have hid' : toInteger id = id := by
    have : id = 0 ∨ id = 1 := by
      rcases (show id.toNat = 0 ∨ id.toNat = 1 by omega) with h | h
      · left; exact BitVec.eq_of_toNat_eq h
      · right; exact BitVec.eq_of_toNat_eq h
    rcases this with rfl | rfl <;> rfl
  simp only [execIns, fnFOREIGN, bind_apply, hs.getData hid, getCtx_apply, hid', ge_iff_le, ite_apply]
  rw [if_pos hqty]
  simp

/-- A FOREIGN instruction with the given id and `q` registered functions. -/
def demoForeign (id q : Nat) : World :=
  let w := Demo.world [Demo.net [[Demo.ins .FOREIGN [Demo.op .NONE id]]]]
  { w with ctx := { w.ctx with foreignQty := q, foreign := some ((List.range q).map fun i => { id := i, desc := ⟨1, 1, 1, 1⟩, hasDeinit := false }) } }

theorem demoForeign_site (id q : Nat) : Site (demoForeign id q).ctx 0 0 0 true := by
  refine ⟨?_, rfl, rfl, rfl⟩
  have h : Fits (Demo.world [Demo.net [[Demo.ins .FOREIGN [Demo.op .NONE id]]]]).ctx := Demo.fits _ rfl
  exact { h with }

example : execIns Demo.env .FOREIGN 0 0 (demoForeign 1 3) = .ok (.ok, { demoForeign 1 3 with
    tick := 1, trace := [.foreign 1 0 0] }) :=
  C25_FOREIGN_partial Demo.env (id := 1) (demoForeign_site 1 3) ⟨_, rfl, rfl⟩ (by decide) (by decide) rfl
example : execIns Demo.env .FOREIGN 0 0 (demoForeign 1 1) = .ok (.noForeign, demoForeign 1 1) :=
  C25_FOREIGN_missing Demo.env (id := 1) (demoForeign_site 1 1) ⟨_, rfl, rfl⟩ (by decide) (by decide)

/-- C25 does not hold: with three functions registered, FOREIGN with id 2 calls function 0; and with id 7, which does
not exist, it calls function 0 as well instead of reporting an error. -/
theorem C25_refuted :
    (∃ w', execIns Demo.env .FOREIGN 0 0 (demoForeign 2 3) = .ok (.ok, w') ∧ w'.trace = [.foreign 0 0 0]) ∧
    (∃ w', execIns Demo.env .FOREIGN 0 0 (demoForeign 7 3) = .ok (.ok, w') ∧ w'.trace = [.foreign 0 0 0]) :=
  ⟨⟨_, rfl, rfl⟩, ⟨_, rfl, rfl⟩⟩

end Ladder.Props
