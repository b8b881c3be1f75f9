import Verif.Lemmas.Fits
import Verif.Lemmas.Op
import Verif.Model.Instr

/-
The primitive operations of the model in terms of `load` and `upd`.
-/

namespace Ladder

open Spec Op

theorem aget_eq_ok {α : Type} {a : Arr α} {i : Nat} {x : α} : aget a i = .ok x ↔ at? a i = some x := by
  cases a with
  | none => simp [aget, at?]
  | some l => simp only [aget, at?, Option.bind_some]; cases l[i]? <;> simp

theorem agetI_eq_ok {α : Type} {a : Arr α} {i : Int} {x : α} (hi : 0 ≤ i) :
    agetI a i = .ok x ↔ at? a i.toNat = some x := by
  unfold agetI
  rw [if_neg (by omega), aget_eq_ok]

theorem execCell_ok {ctx : Ctx} {n r c : Nat} {cell : Cell} (he : ctx.exec = some n)
    (h : cell? ctx n r c = some cell) : ctx.execCell r c = .ok cell := by
  simp only [cell?, Option.bind_eq_some_iff] at h
  obtain ⟨net, hn, row, hr, hc⟩ := h
  have : ctx.exnet = .ok net := by simp [Ctx.exnet, he, aget_eq_ok, hn]
  simp only [Ctx.execCell, this, Network.cell]
  cases hcells : net.cells with
  | none => simp [at?, hcells] at hr
  | some rows =>
    simp [at?, hcells] at hr
    simp [hr, hc]

theorem execData_ok {ctx : Ctx} {n r c i : Nat} {v : Value} (he : ctx.exec = some n)
    (h : operand? ctx n r c i = some v) : ctx.execData r c i = .ok v := by
  simp only [operand?, Option.bind_eq_some_iff] at h
  obtain ⟨cell, hc, hd⟩ := h
  split at hd
  · simp only [Ctx.execData, execCell_ok he hc, aget_eq_ok, hd]
  · simp at hd

theorem getDataExec_ok {w : World} {n r c i : Nat} {v : Value} (he : w.ctx.exec = some n)
    (h : operand? w.ctx n r c i = some v) : getDataExec r c i w = .ok (v, w) := by
  simp [getDataExec, execData_ok he h]

theorem load_cell {ctx : Ctx} {n r c x : Nat} (h : load ctx (.cell n r c) = some x) :
    ∃ cell, cell? ctx n r c = some cell ∧ cell.state.toNat = x := by
  simpa [load] using h

theorem getState_ok {w : World} {n r c : Nat} {b : Bool} (he : w.ctx.exec = some n)
    (h : load w.ctx (.cell n r c) = some b.toNat) : getState r c w = .ok (b, w) := by
  obtain ⟨cell, hc, hs⟩ := load_cell h
  have : cell.state = b := by cases hb : cell.state <;> cases b <;> simp_all
  simp [getState, execCell_ok he hc, this]

theorem leftPower_upd_cell {ctx : Ctx} {n r c x : Nat} {ℓ : Loc} (h : c = 0 ∨ ℓ ≠ .cell n r (c - 1)) :
    leftPower (upd ctx ℓ x) n r c = leftPower ctx n r c := by
  unfold leftPower
  split
  · rfl
  · rename_i hc
    have h' : ℓ ≠ .cell n r (c - 1) := by rcases h with h | h; exact absurd h hc; exact h
    have := load_upd_ne ctx ℓ (.cell n r (c - 1)) x h'
    simp only [load] at this
    cases h1 : cell? (upd ctx ℓ x) n r (c - 1) <;> cases h2 : cell? ctx n r (c - 1) <;>
      simp_all
    rename_i a b
    cases ha : a.state <;> cases hb : b.state <;> simp_all

theorem getLeft_ok {w : World} {n r c : Nat} {b : Bool} (he : w.ctx.exec = some n)
    (h : leftPower w.ctx n r c = some b) : getLeft r c w = .ok (b, w) := by
  unfold leftPower at h
  unfold getLeft
  split
  · rename_i hc; simp [hc] at h; simp [h]
  · rename_i hc
    rw [if_neg hc, Option.map_eq_some_iff] at h
    obtain ⟨cell, hcell, hs⟩ := h
    exact getState_ok he (by simp [load, hcell, hs])

theorem setState_ok {w : World} {n r c : Nat} {b : Bool} (he : w.ctx.exec = some n)
    (h : (load w.ctx (.cell n r c)).isSome) :
    setState r c b w = .ok ((), { w with ctx := upd w.ctx (.cell n r c) b.toNat }) := by
  obtain ⟨x, hx⟩ := Option.isSome_iff_exists.1 h
  obtain ⟨cell, hc, -⟩ := load_cell hx
  simp only [setState]
  rw [bind_ok (getCtx_apply w), bind_ok (by rw [execCell_ok he hc]; rfl), modCtx_apply]
  simp only [he, upd]
  cases b <;> simp

/-! ### Sizes -/

theorem lt_of_at? {α : Type} {a : Arr α} {n i : Nat} {x : α} (hf : ∀ l, a = some l → l.length = n)
    (h : at? a i = some x) : i < n := by
  cases a with
  | none => simp [at?] at h
  | some l =>
    simp [at?] at h
    have := (List.getElem?_eq_some_iff.1 h).1
    rw [hf l rfl] at this; exact this

theorem at?_of_lt {α : Type} {a : Arr α} {n i : Nat} (hf : ∀ l, a = some l → l.length = n) (ha : a.isSome)
    (h : i < n) : ∃ x, at? a i = some x := by
  cases a with
  | none => simp at ha
  | some l =>
    have := hf l rfl
    exact ⟨l[i]'(by omega), by simp [at?]⟩

theorem isSome_of_at? {α : Type} {a : Arr α} {i : Nat} {x : α} (h : at? a i = some x) : a.isSome := by
  cases a <;> simp [at?] at h ⊢

theorem mem_of_at? {α : Type} {a : Arr α} {i : Nat} {x : α} (h : at? a i = some x) : ∃ l, a = some l ∧ x ∈ l := by
  cases a with
  | none => simp [at?] at h
  | some l => exact ⟨l, rfl, List.mem_of_getElem? (by simpa [at?] using h)⟩

theorem toInt_of_lt {x : W32} (h : x.toNat < 2^31) : x.toInt = x.toNat := by
  rw [BitVec.toInt_eq_toNat_cond]; split <;> omega

theorem toInt_neg_of_ge {x : W32} (h : ¬ x.toNat < 2^31) : x.toInt < 0 := by
  rw [BitVec.toInt_eq_toNat_cond]; split <;> omega

theorem module_eq (v : Value) : v.module = v.raw.toNat % 256 := by
  simp [Value.module]

theorem port_eq (v : Value) : v.port = v.raw.toNat / 256 % 256 := by
  simp [Value.port, Nat.shiftRight_eq_div_pow]

/-! ### Reading operands -/

theorem truncFloat_eq (b : W32) :
    floatToI32 b = match truncFloat b.toNat with
      | some i => .ok (BitVec.ofInt 32 i)
      | none => .error .floatCast := by
  have hf : (b.extractLsb' 0 23).toNat = b.toNat % 2^23 := by simp
  have he : (b.extractLsb' 23 8).toNat = b.toNat / 2^23 % 256 := by simp [Nat.shiftRight_eq_div_pow]
  have hs : b.msb = decide (b.toNat / 2^31 = 1) := by
    rw [BitVec.msb_eq_decide]
    have := b.isLt
    simp only [decide_eq_decide]
    omega
  have hmag : (if b.toNat / 2^23 % 256 < 127 then 0
      else if b.toNat / 2^23 % 256 < 150 then (b.toNat % 2^23 + 2^23) / 2^(150 - b.toNat / 2^23 % 256)
      else (b.toNat % 2^23 + 2^23) * 2^(b.toNat / 2^23 % 256 - 150)) =
      (if b.toNat / 2^23 % 256 = 0 then 2 * (b.toNat % 2^23)
        else (2^23 + b.toNat % 2^23) * 2^(b.toNat / 2^23 % 256)) / 2^150 := by
    generalize b.toNat / 2^23 % 256 = e
    have hlt : b.toNat % 2^23 < 2^23 := Nat.mod_lt _ (by decide)
    generalize b.toNat % 2^23 = f at hlt
    split
    · rename_i h
      symm
      apply Nat.div_eq_of_lt
      split
      · omega
      · calc (2^23 + f) * 2^e ≤ (2^23 + f) * 2^126 := Nat.mul_le_mul_left _ (Nat.pow_le_pow_right (by decide) (by omega))
          _ < 2^24 * 2^126 := Nat.mul_lt_mul_of_pos_right (by omega) (by decide)
          _ = 2^150 := by decide
    · have he0 : e ≠ 0 := by omega
      simp only [he0, if_false]
      split
      · have : (2:Nat)^150 = 2^(150 - e) * 2^e := by rw [← Nat.pow_add]; congr 1; omega
        rw [this, Nat.mul_div_mul_right _ _ (Nat.two_pow_pos e), Nat.add_comm]
      · have : (2:Nat)^e = 2^(e - 150) * 2^150 := by rw [← Nat.pow_add]; congr 1; omega
        rw [this, ← Nat.mul_assoc, Nat.mul_div_cancel _ (by decide), Nat.add_comm]
  simp only [floatToI32, truncFloat, hf, he, hs, hmag]
  simp only [decide_eq_true_eq]
  generalize (if b.toNat / 2^31 = 1 then _ else _ : Int) = v
  by_cases h255 : b.toNat / 2^23 % 256 = 255
  · simp [h255]
  · by_cases h1 : v < -2^31
    · rw [if_pos (by omega), if_neg (by omega)]
    · by_cases h2 : v ≥ 2^31
      · rw [if_pos (by omega), if_neg (by omega)]
      · rw [if_neg (by omega), if_pos (by omega)]

theorem floatToI32_ok {b : W32} {i : Int} (h : truncFloat b.toNat = some i) :
    floatToI32 b = .ok (BitVec.ofInt 32 i) := by rw [truncFloat_eq, h]

theorem byteW_ok {a : Arr Byte} {i x : Nat} (h : (at? a i).map (·.toNat) = some x) :
    byteW (aget a i) = .ok (BitVec.ofNat 32 x) := by
  rw [Option.map_eq_some_iff] at h
  obtain ⟨b, hb, rfl⟩ := h
  rw [aget_eq_ok.2 hb]
  simp [byteW, Except.map]

theorem wordW_ok {a : Arr W32} {i x : Nat} (h : (at? a i).map (·.toNat) = some x) :
    aget a i = .ok (BitVec.ofNat 32 x) := by
  rw [Option.map_eq_some_iff] at h
  obtain ⟨b, hb, rfl⟩ := h
  rw [aget_eq_ok.2 hb]
  simp

theorem boolW_ok {a : Arr Byte} {i x : Nat} (h : (at? a i).map (·.toNat) = some x) (hx : x ≤ 1) :
    boolW (aget a i) = .ok (BitVec.ofNat 32 x) := by
  rw [Option.map_eq_some_iff] at h
  obtain ⟨b, hb, rfl⟩ := h
  rw [aget_eq_ok.2 hb]
  have : b = 0 ∨ b = 1 := by
    rcases Nat.le_one_iff_eq_zero_or_eq_one.1 hx with h | h
    · left; exact BitVec.eq_of_toNat_eq h
    · right; exact BitVec.eq_of_toNat_eq h
  rcases this with rfl | rfl <;> rfl

theorem at?_of_map {α : Type} {a : Arr α} {i x : Nat} {f : α → Nat} (h : (at? a i).map f = some x) :
    ∃ y, at? a i = some y := by
  cases hy : at? a i with
  | none => simp [hy] at h
  | some y => exact ⟨y, rfl⟩

theorem safeIndex_ok {ctx : Ctx} {v : Value} {ℓ : Loc} {x : Nat} (hf : Fits ctx) (hp : place v = some ℓ)
    (hl : load ctx ℓ = some x)
    (hk : v.type ≠ .I ∧ v.type ≠ .IW ∧ v.type ≠ .Q ∧ v.type ≠ .QW) :
    safeIndex ctx v.type v.i32 = .ok v.raw.toNat := by
  unfold place at hp
  simp only at hp
  cases ht : v.type <;> simp only [ht] at hp <;> simp_all
  all_goals
    obtain ⟨hlt, rfl⟩ := hp
    simp only [load] at hl
    obtain ⟨y, hy⟩ := at?_of_map hl
    have hi : v.i32 = v.raw.toNat := toInt_of_lt hlt
    simp only [safeIndex, hi]
    rw [if_neg (by omega)]
    have hn := isSome_of_at? hy
    first
    | have hb := lt_of_at? hf.M hy
      simp_all [Option.isNone_iff_eq_none, Option.isSome_iff_ne_none]; done
    | have hb := lt_of_at? hf.Cd hy
      simp_all [Option.isNone_iff_eq_none, Option.isSome_iff_ne_none]; done
    | have hb := lt_of_at? hf.Cr hy
      simp_all [Option.isNone_iff_eq_none, Option.isSome_iff_ne_none]; done
    | have hb := lt_of_at? hf.Td hy
      simp_all [Option.isNone_iff_eq_none, Option.isSome_iff_ne_none]; done
    | have hb := lt_of_at? hf.Tr hy
      simp_all [Option.isNone_iff_eq_none, Option.isSome_iff_ne_none]; done
    | have hb := lt_of_at? hf.C hy
      simp_all [Option.isNone_iff_eq_none, Option.isSome_iff_ne_none]; done
    | have hb := lt_of_at? hf.timers hy
      simp_all [Option.isNone_iff_eq_none, Option.isSome_iff_ne_none]; done
    | have hb := lt_of_at? hf.D hy
      simp_all [Option.isNone_iff_eq_none, Option.isSome_iff_ne_none]; done
    | have hb := lt_of_at? hf.R hy
      simp_all [Option.isNone_iff_eq_none, Option.isSome_iff_ne_none]; done

theorem regAt_ok {ctx : Ctx} {v : Value} {ℓ : Loc} {n : Nat} {x : W32} (hp : place v = some ℓ)
    (hl : load ctx ℓ = some n) (hd : decode v.type n = some x)
    (hk : v.type ≠ .I ∧ v.type ≠ .IW ∧ v.type ≠ .Q ∧ v.type ≠ .QW) :
    regAt ctx v.type v.raw.toNat = .ok x := by
  unfold place at hp
  simp only at hp
  cases ht : v.type <;> simp only [ht] at hp <;> simp_all
  all_goals
    obtain ⟨hlt, rfl⟩ := hp
    simp only [load] at hl
    simp only [decode] at hd
    simp only [regAt]
  case M => rw [byteW_ok hl]; simpa using hd
  case Cd => rw [Option.ite_none_right_eq_some] at hd; rw [boolW_ok hl hd.1]; simpa using hd.2
  case Cr => rw [Option.ite_none_right_eq_some] at hd; rw [boolW_ok hl hd.1]; simpa using hd.2
  case Td => rw [Option.ite_none_right_eq_some] at hd; rw [boolW_ok hl hd.1]; simpa using hd.2
  case Tr => rw [Option.ite_none_right_eq_some] at hd; rw [boolW_ok hl hd.1]; simpa using hd.2
  case C => rw [wordW_ok hl]; simpa using hd
  case D => rw [wordW_ok hl]; simpa using hd
  case T =>
    obtain ⟨t, ht⟩ := at?_of_map hl
    rw [aget_eq_ok.2 ht]
    simp [ht] at hl
    simp only [Option.some.injEq] at hd
    simp only [Except.map, ← hl] at hd ⊢
    rw [← hd]
    congr 1
    split
    · rw [Nat.min_eq_right (by omega)]
    · rw [Nat.min_eq_left (by omega)]; simp
  case R =>
    rw [wordW_ok hl]
    rw [Option.map_eq_some_iff] at hd
    obtain ⟨i, hi, rfl⟩ := hd
    simp only
    apply floatToI32_ok
    have : n < 2^32 := by
      obtain ⟨t, ht⟩ := at?_of_map hl
      simp [ht] at hl
      rw [← hl]; exact t.isLt
    rwa [BitVec.toNat_ofNat, Nat.mod_eq_of_lt this]

theorem port_ok {α : Type} {a : Arr α} {qty m n : Nat} {f : α → Option Nat}
    (hs : ∀ l, a = some l → l.length = qty)
    (h : (at? a m).bind f = some n) : m < qty ∧ ∃ o, aget a m = .ok o ∧ at? a m = some o ∧ f o = some n := by
  rw [Option.bind_eq_some_iff] at h
  obtain ⟨o, ho, hn⟩ := h
  exact ⟨lt_of_at? hs ho, o, aget_eq_ok.2 ho, ho, hn⟩

theorem readValue_ok {env : Env} {w : World} {v : Value} {x : W32} (hf : Fits w.ctx)
    (h : value w.ctx v = some x) : readValue env v w = .ok (x, w) := by
  unfold value at h
  simp only [readValue, bind_apply, getCtx_apply]
  cases ht : v.type <;> simp only [ht] at h ⊢
  case NONE => simp at h; simp [h]
  case S => simp at h; simp [h]
  case INV => simp at h; simp [h]
  all_goals
    rw [Option.bind_eq_some_iff] at h
    obtain ⟨ℓ, hp, h⟩ := h
    rw [Option.bind_eq_some_iff] at h
    obtain ⟨n, hl, hd⟩ := h
  case Q =>
    simp only [place, ht, Option.some.injEq] at hp; subst hp
    simp only [load] at hl
    obtain ⟨hm, o, ho, -, hn⟩ := port_ok (fun l h => (hf.output l h).1) hl
    rw [module_eq, port_eq, ite_apply, if_neg (by omega)]
    simp only [decode, Option.some.injEq] at hd
    rw [bind_ok (by rw [ho]; rfl), byteW_ok hn, hd]; rfl
  case I =>
    simp only [place, ht, Option.some.injEq] at hp; subst hp
    simp only [load] at hl
    obtain ⟨hm, o, ho, -, hn⟩ := port_ok (fun l h => (hf.input l h).1) hl
    rw [module_eq, port_eq, ite_apply, if_neg (by omega)]
    simp only [decode, Option.some.injEq] at hd
    rw [bind_ok (by rw [ho]; rfl), byteW_ok hn, hd]; rfl
  case IW =>
    simp only [place, ht, Option.some.injEq] at hp; subst hp
    simp only [load] at hl
    obtain ⟨hm, o, ho, -, hn⟩ := port_ok (fun l h => (hf.input l h).1) hl
    rw [module_eq, port_eq, ite_apply, if_neg (by omega)]
    simp only [decode, Option.some.injEq] at hd
    rw [bind_ok (by rw [ho]; rfl), wordW_ok hn, hd]; rfl
  case QW =>
    simp only [place, ht, Option.some.injEq] at hp; subst hp
    simp only [load] at hl
    obtain ⟨hm, o, ho, -, hn⟩ := port_ok (fun l h => (hf.output l h).1) hl
    rw [module_eq, port_eq, ite_apply, if_neg (by omega)]
    simp only [decode, Option.some.injEq] at hd
    rw [bind_ok (by rw [ho]; rfl), wordW_ok hn, hd]; rfl
  all_goals
    have hk : v.type ≠ .I ∧ v.type ≠ .IW ∧ v.type ≠ .Q ∧ v.type ≠ .QW := by simp [ht]
    have h1 := safeIndex_ok hf hp hl hk
    have h2 := regAt_ok hp hl (by rw [ht]; exact hd) hk
    rw [ht] at h1 h2
    rw [h1]
    simp only [h2, lift_ok]

theorem operandAt_ok {ctx : Ctx} {n r c i : Nat} {v : Value} (hf : Fits ctx) (he : ctx.exec = some n)
    (h : operand? ctx n r c i = some v) : operandAt ctx r c i = .ok (some v) := by
  simp only [operand?, cell?, Option.bind_eq_some_iff] at h
  obtain ⟨cell, ⟨net, hn, row, hr, hc⟩, hd⟩ := h
  obtain ⟨nets, hnets, hmem⟩ := mem_of_at? hn
  have hg := hf.network nets hnets net hmem
  have h1 : r < net.rows := lt_of_at? hg.rows hr
  obtain ⟨rows, hrows, hrmem⟩ := mem_of_at? hr
  have h2 : c < net.cols := by
    rw [← hg.cols rows hrows row hrmem]
    exact (List.getElem?_eq_some_iff.1 hc).1
  have h3 : net.cell r c = .ok cell := by
    simp only [Network.cell, hrows]
    simp [at?, hrows] at hr
    simp [hr, hc]
  rw [Option.ite_none_right_eq_some] at hd
  simp only [operandAt, he, aget_eq_ok.2 hn]
  rw [if_neg (by omega), h3]
  simp only
  rw [if_neg (by omega), aget_eq_ok.2 hd.2]

theorem getData_ok {env : Env} {w : World} {n r c i : Nat} {v : Value} {x : W32} (hf : Fits w.ctx)
    (he : w.ctx.exec = some n) (ho : operand? w.ctx n r c i = some v) (hv : value w.ctx v = some x) :
    getData env r c i w = .ok (x, w) := by
  simp [getData, operandAt_ok hf he ho, readValue_ok hf hv]

theorem agetI_raw {α : Type} {a : Arr α} {v : Value} (h : v.raw.toNat < 2^31) :
    agetI a v.i32 = aget a v.raw.toNat := by
  have : v.i32 = v.raw.toNat := toInt_of_lt h
  rw [this]; unfold agetI; rw [if_neg (by omega)]; simp

theorem prevValue_ok {ctx : Ctx} {v : Value} {x : W32} (hf : Fits ctx) (h : prevOf ctx v = some x) :
    prevValue ctx v = .ok x := by
  unfold prevOf at h
  rw [Option.bind_eq_some_iff] at h
  obtain ⟨ℓ, hp, h⟩ := h
  rw [Option.bind_eq_some_iff] at h
  obtain ⟨n, hl, hd⟩ := h
  unfold prevPlace at hp
  simp only at hp
  cases ht : v.type <;> simp only [ht] at hp hd <;> simp_all
  case Q =>
    subst hp
    simp only [load] at hl
    obtain ⟨hm, o, ho, ho', hn⟩ := port_ok (fun l h => (hf.output l h).1) hl
    obtain ⟨mods, hmods, hmem⟩ := mem_of_at? ho'
    obtain ⟨y, hy⟩ := at?_of_map hn
    have hport := lt_of_at? ((hf.output mods hmods).2 o hmem).Qh hy
    simp only [decode, Option.some.injEq] at hd
    simp only [prevValue, ht, module_eq, port_eq]
    have hsome := isSome_of_at? hy
    rw [if_neg (by omega), ho]
    simp only
    rw [if_neg (by cases hq : o.Qh <;> simp_all), if_neg (by omega), byteW_ok hn, hd]
  case I =>
    subst hp
    simp only [load] at hl
    obtain ⟨hm, o, ho, ho', hn⟩ := port_ok (fun l h => (hf.input l h).1) hl
    obtain ⟨mods, hmods, hmem⟩ := mem_of_at? ho'
    obtain ⟨y, hy⟩ := at?_of_map hn
    have hport := lt_of_at? ((hf.input mods hmods).2 o hmem).Ih hy
    simp only [decode, Option.some.injEq] at hd
    simp only [prevValue, ht, module_eq, port_eq]
    have hsome := isSome_of_at? hy
    rw [if_neg (by omega), ho]
    simp only
    rw [if_neg (by cases hq : o.Ih <;> simp_all), if_neg (by omega), byteW_ok hn, hd]
  all_goals
    obtain ⟨hlt, rfl⟩ := hp
    simp only [load] at hl
    simp only [decode] at hd
    simp only [prevValue, ht]
    rw [agetI_raw hlt]
    first
    | (rw [byteW_ok hl]; simpa using hd)
    | (rw [Option.ite_none_right_eq_some] at hd; rw [boolW_ok hl hd.1]; simpa using hd.2)

theorem getPrev_ok {w : World} {n r c i : Nat} {v : Value} {x : W32} (hf : Fits w.ctx)
    (he : w.ctx.exec = some n) (ho : operand? w.ctx n r c i = some v) (hv : prevOf w.ctx v = some x) :
    getPrev r c i w = .ok (x, w) := by
  simp [getPrev, operandAt_ok hf he ho, prevValue_ok hf hv]

/-! ### Writing operands -/

theorem lowByte_eq (x : W32) : lowByte x = BitVec.ofNat 8 x.toNat := by
  apply BitVec.eq_of_toNat_eq; simp [lowByte]

theorem ofNat_mod (x : W32) : BitVec.ofNat 8 (x.toNat % 256) = BitVec.ofNat 8 x.toNat := by
  apply BitVec.eq_of_toNat_eq; simp

theorem ofNat_mod32 (x : W32) : BitVec.ofNat 32 (x.toNat % 4294967296) = x := by
  apply BitVec.eq_of_toNat_eq; simp; exact x.isLt

theorem writeValue_ok {ctx : Ctx} {v : Value} {ℓ : Loc} {x : W32} (hf : Fits ctx) (hk : writableKind v.type = true)
    (hp : place v = some ℓ) (hl : (load ctx ℓ).isSome) :
    writeValue ctx v x = .ok (.ok, upd ctx ℓ (x.toNat % ℓ.size)) := by
  obtain ⟨n, hl⟩ := Option.isSome_iff_exists.1 hl
  have hsafe := fun hk => safeIndex_ok hf hp hl hk
  unfold place at hp
  simp only at hp
  cases ht : v.type <;> simp only [ht] at hp hk hsafe <;> simp_all [writableKind]
  case Q =>
    subst hp
    simp only [load] at hl
    obtain ⟨hm, o, ho, ho', hn⟩ := port_ok (fun l h => (hf.output l h).1) hl
    obtain ⟨mods, hmods, hmem⟩ := mem_of_at? ho'
    obtain ⟨y, hy⟩ := at?_of_map hn
    obtain ⟨l, hql, -⟩ := mem_of_at? hy
    have hfit := ((hf.output mods hmods).2 o hmem).Q
    have hport := lt_of_at? hfit hy
    have hlen := hfit l hql
    simp [writeValue, ht, module_eq, port_eq, safeModPort, hmods]
    rw [if_neg (by omega)]
    rw [hmods] at ho
    simp [ho, Except.map]
    rw [if_neg (by omega)]
    simp [storePort, hmods, ho, hql]
    rw [if_pos (by omega)]
    simp [upd, Loc.size, lowByte_eq, ofNat_mod]
  case I =>
    subst hp
    simp only [load] at hl
    obtain ⟨hm, o, ho, ho', hn⟩ := port_ok (fun l h => (hf.input l h).1) hl
    obtain ⟨mods, hmods, hmem⟩ := mem_of_at? ho'
    obtain ⟨y, hy⟩ := at?_of_map hn
    obtain ⟨l, hql, -⟩ := mem_of_at? hy
    have hfit := ((hf.input mods hmods).2 o hmem).I
    have hport := lt_of_at? hfit hy
    have hlen := hfit l hql
    simp [writeValue, ht, module_eq, port_eq, safeModPort, hmods]
    rw [if_neg (by omega)]
    rw [hmods] at ho
    simp [ho, Except.map]
    rw [if_neg (by omega)]
    simp [storePort, hmods, ho, hql]
    rw [if_pos (by omega)]
    simp [upd, Loc.size, lowByte_eq, ofNat_mod]
  case IW =>
    subst hp
    simp only [load] at hl
    obtain ⟨hm, o, ho, ho', hn⟩ := port_ok (fun l h => (hf.input l h).1) hl
    obtain ⟨mods, hmods, hmem⟩ := mem_of_at? ho'
    obtain ⟨y, hy⟩ := at?_of_map hn
    obtain ⟨l, hql, -⟩ := mem_of_at? hy
    have hfit := ((hf.input mods hmods).2 o hmem).IW
    have hport := lt_of_at? hfit hy
    have hlen := hfit l hql
    simp [writeValue, ht, module_eq, port_eq, safeModPort, hmods]
    rw [if_neg (by omega)]
    rw [hmods] at ho
    simp [ho, Except.map]
    rw [if_neg (by omega)]
    simp [storePort, hmods, ho, hql]
    rw [if_pos (by omega)]
    simp [upd, Loc.size, ofNat_mod32]
  case QW =>
    subst hp
    simp only [load] at hl
    obtain ⟨hm, o, ho, ho', hn⟩ := port_ok (fun l h => (hf.output l h).1) hl
    obtain ⟨mods, hmods, hmem⟩ := mem_of_at? ho'
    obtain ⟨y, hy⟩ := at?_of_map hn
    obtain ⟨l, hql, -⟩ := mem_of_at? hy
    have hfit := ((hf.output mods hmods).2 o hmem).QW
    have hport := lt_of_at? hfit hy
    have hlen := hfit l hql
    simp [writeValue, ht, module_eq, port_eq, safeModPort, hmods]
    rw [if_neg (by omega)]
    rw [hmods] at ho
    simp [ho, Except.map]
    rw [if_neg (by omega)]
    simp [storePort, hmods, ho, hql]
    rw [if_pos (by omega)]
    simp [upd, Loc.size, ofNat_mod32]
  all_goals
    obtain ⟨hlt, rfl⟩ := hp
    simp only [load] at hl
    obtain ⟨y, hy⟩ := at?_of_map hl
    obtain ⟨l, hal, -⟩ := mem_of_at? hy
    have hlen : v.raw.toNat < l.length := by
      simp [at?, hal] at hy; exact (List.getElem?_eq_some_iff.1 hy).1
    simp [writeValue, ht, hsafe, storeReg, hal, hlen, upd, Loc.size, ofNat_mod32, lowByte_eq, ofNat_mod]

theorem setData_ok {w : World} {n r c i : Nat} {v : Value} {ℓ : Loc} {x : W32} (hf : Fits w.ctx)
    (he : w.ctx.exec = some n) (ho : operand? w.ctx n r c i = some v) (hk : writableKind v.type = true)
    (hp : place v = some ℓ) (hl : (load w.ctx ℓ).isSome) :
    setData r c i x w = .ok (.ok, { w with ctx := upd w.ctx ℓ (x.toNat % ℓ.size) }) := by
  simp [setData, getDataExec_ok he ho, writeValue_ok hf hk hp hl]

/-! ### Timers and counters -/

/-- Location of element `i` of a `bool` area. -/
def BArea.loc (a : BArea) (i : Nat) : Loc :=
  match a with
  | .Cd => .Cd i | .Cr => .Cr i | .Td => .Td i | .Tr => .Tr i

theorem toNat_raw {v : Value} (h : v.raw.toNat < 2^31) : v.i32.toNat = v.raw.toNat := by
  have : v.i32 = v.raw.toNat := toInt_of_lt h
  rw [this]; simp

theorem getB_ok {w : World} {a : BArea} {v : Value} {b : Bool} (hv : v.raw.toNat < 2^31)
    (h : load w.ctx (a.loc v.raw.toNat) = some b.toNat) : getB a v.i32 w = .ok (b, w) := by
  have key : ∀ A : Arr Byte, (at? A v.raw.toNat).map (·.toNat) = some b.toNat →
      ∃ y, agetI A v.i32 = .ok y ∧ boolOf y = .ok b := by
    intro A hA
    rw [Option.map_eq_some_iff] at hA
    obtain ⟨y, hy, hb⟩ := hA
    refine ⟨y, by rw [agetI_raw hv, aget_eq_ok, hy], ?_⟩
    cases b
    · have : y = 0 := BitVec.eq_of_toNat_eq hb
      subst this; rfl
    · have : y = 1 := BitVec.eq_of_toNat_eq hb
      subst this; rfl
  have : ∃ y, agetI (a.get w.ctx) v.i32 = .ok y ∧ boolOf y = .ok b := by
    cases a <;> exact key _ h
  obtain ⟨y, hy, hb⟩ := this
  simp [getB, hy, hb]

theorem setB_ok {w : World} {a : BArea} {v : Value} {b : Bool} (hv : v.raw.toNat < 2^31)
    (h : (load w.ctx (a.loc v.raw.toNat)).isSome) :
    setB a v.i32 b w = .ok ((), { w with ctx := upd w.ctx (a.loc v.raw.toNat) b.toNat }) := by
  have key : ∀ A : Arr Byte, ((at? A v.raw.toNat).map (·.toNat)).isSome → ∃ y, agetI A v.i32 = .ok y := by
    intro A hA
    simp only [Option.isSome_map, Option.isSome_iff_exists] at hA
    obtain ⟨y, hy⟩ := hA
    exact ⟨y, by rw [agetI_raw hv, aget_eq_ok, hy]⟩
  have : ∃ y, agetI (a.get w.ctx) v.i32 = .ok y := by
    cases a <;> exact key _ h
  obtain ⟨y, hy⟩ := this
  have hb : byteOf b = BitVec.ofNat 8 b.toNat := by cases b <;> rfl
  simp only [setB, bind_apply, getCtx_apply, hy, lift_ok, modCtx_apply, toNat_raw hv, hb]
  cases a <;> rfl

theorem load_timer {ctx : Ctx} {i a s : Nat} (ha : load ctx (.acc i) = some a) (hs : load ctx (.stamp i) = some s) :
    at? ctx.timers i = some ⟨BitVec.ofNat 64 s, BitVec.ofNat 32 a⟩ := by
  simp only [load, Option.map_eq_some_iff] at ha hs
  obtain ⟨t, ht, rfl⟩ := ha
  obtain ⟨t', ht', rfl⟩ := hs
  rw [ht] at ht'; cases ht'
  simp [ht]

theorem getTimer_ok {w : World} {v : Value} {a s : Nat} (hv : v.raw.toNat < 2^31)
    (ha : load w.ctx (.acc v.raw.toNat) = some a) (hs : load w.ctx (.stamp v.raw.toNat) = some s) :
    getTimer v.i32 w = .ok (⟨BitVec.ofNat 64 s, BitVec.ofNat 32 a⟩, w) := by
  have : agetI w.ctx.timers v.i32 = .ok ⟨BitVec.ofNat 64 s, BitVec.ofNat 32 a⟩ := by
    rw [agetI_raw hv, aget_eq_ok, load_timer ha hs]
  simp [getTimer, this]

theorem aset_modify {α : Type} {a : Arr α} {i : Nat} {t : α} {f : α → α} (h : at? a i = some t) :
    aset a i (f t) = a.map (·.modify i f) := by
  cases a with
  | none => rfl
  | some l =>
    simp only [at?, Option.bind_some] at h
    simp only [aset, Option.map_some, Option.some.injEq]
    apply List.ext_getElem?
    intro j
    rw [List.getElem?_set, List.getElem?_modify]
    split
    · rename_i hij; subst hij
      rw [if_pos (List.getElem?_eq_some_iff.1 h).1, h]; rfl
    · cases l[j]? <;> rfl

theorem setAcc_ok {w : World} {v : Value} {x : W32} (hv : v.raw.toNat < 2^31)
    (h : (load w.ctx (.acc v.raw.toNat)).isSome) :
    setAcc v.i32 x w = .ok ((), { w with ctx := upd w.ctx (.acc v.raw.toNat) x.toNat }) := by
  obtain ⟨n, hn⟩ := Option.isSome_iff_exists.1 h
  obtain ⟨t, ht⟩ := at?_of_map hn
  have h1 : agetI w.ctx.timers v.i32 = .ok t := by rw [agetI_raw hv, aget_eq_ok, ht]
  simp only [setAcc, bind_apply, getCtx_apply, h1, lift_ok, modCtx_apply, toNat_raw hv, upd]
  rw [aset_modify (f := fun t => { t with acc := x }) ht]
  simp

theorem setStamp_ok {w : World} {v : Value} {x : W64} (hv : v.raw.toNat < 2^31)
    (h : (load w.ctx (.stamp v.raw.toNat)).isSome) :
    setStamp v.i32 x w = .ok ((), { w with ctx := upd w.ctx (.stamp v.raw.toNat) x.toNat }) := by
  obtain ⟨n, hn⟩ := Option.isSome_iff_exists.1 h
  obtain ⟨t, ht⟩ := at?_of_map hn
  have h1 : agetI w.ctx.timers v.i32 = .ok t := by rw [agetI_raw hv, aget_eq_ok, ht]
  simp only [setStamp, bind_apply, getCtx_apply, h1, lift_ok, modCtx_apply, toNat_raw hv, upd]
  rw [aset_modify (f := fun t => { t with timeStamp := x }) ht]
  simp

theorem getC_ok {w : World} {v : Value} {x : Nat} (hv : v.raw.toNat < 2^31)
    (h : load w.ctx (.C v.raw.toNat) = some x) : getC v.i32 w = .ok (BitVec.ofNat 32 x, w) := by
  have h1 : agetI w.ctx.C v.i32 = .ok (BitVec.ofNat 32 x) := by rw [agetI_raw hv]; exact wordW_ok h
  simp [getC, h1]

theorem setC_ok {w : World} {v : Value} {x : W32} (hv : v.raw.toNat < 2^31)
    (h : (load w.ctx (.C v.raw.toNat)).isSome) :
    setC v.i32 x w = .ok ((), { w with ctx := upd w.ctx (.C v.raw.toNat) x.toNat }) := by
  obtain ⟨n, hn⟩ := Option.isSome_iff_exists.1 h
  have h1 : agetI w.ctx.C v.i32 = .ok (BitVec.ofNat 32 n) := by rw [agetI_raw hv]; exact wordW_ok hn
  simp [setC, h1, toNat_raw hv, upd]

end Ladder
