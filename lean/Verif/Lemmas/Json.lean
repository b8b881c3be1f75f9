import Verif.Spec.Json
import Verif.Lemmas.Area

/-
Lemmas about the JSON form of programs: numbers in strings, tables, and single operands, cells and rows.
-/

set_option autoImplicit false

namespace Ladder

open Spec

/-! ### Numbers in strings -/

theorem digitChar_toNat : ∀ {n : Nat}, n < 10 → (digitChar n).toNat = 48 + n
  | 0, _ | 1, _ | 2, _ | 3, _ | 4, _ | 5, _ | 6, _ | 7, _ | 8, _ | 9, _ => by decide
  | n + 10, h => by omega

/-- The character is a decimal digit. -/
def isDig (c : Char) : Prop := 48 ≤ c.toNat ∧ c.toNat ≤ 57

theorem digitChar_isDig {n : Nat} (h : n < 10) : isDig (digitChar n) := by
  unfold isDig; rw [digitChar_toNat h]; omega

theorem readDigits_cons {c : Char} (h : isDig c) (acc : Nat) (s : List Char) :
    readDigits acc (c :: s) = readDigits (acc * 10 + (c.toNat - 48)) s := if_pos h

theorem readDigits_stop {acc : Nat} {s : List Char} (h : ∀ c cs, s = c :: cs → ¬ isDig c) : readDigits acc s = (acc, s) := by
  cases s with
  | nil => rfl
  | cons c cs => exact if_neg (h c cs rfl)

theorem readDigits_decimal (n : Nat) : ∀ (s : List Char), ∃ k, ∀ acc, readDigits acc (decimal n ++ s) = readDigits (acc * k + n) s := by
  induction n using Nat.strongRecOn with
  | ind n ih =>
    intro s
    by_cases h : n < 10
    · refine ⟨10, fun acc => ?_⟩
      unfold decimal
      rw [if_pos h, List.singleton_append, readDigits_cons (digitChar_isDig h), digitChar_toNat h]
      congr 1; omega
    · obtain ⟨k, hk⟩ := ih (n / 10) (by omega) (digitChar (n % 10) :: s)
      refine ⟨k * 10, fun acc => ?_⟩
      unfold decimal
      rw [if_neg h, List.append_assoc, List.singleton_append, hk, readDigits_cons (digitChar_isDig (by omega)),
        digitChar_toNat (by omega), ← Nat.mul_assoc]
      congr 1
      generalize acc * k = x
      omega

theorem decimal_head (n : Nat) : ∃ c cs, decimal n = c :: cs ∧ isDig c := by
  induction n using Nat.strongRecOn with
  | ind n ih =>
    unfold decimal
    by_cases h : n < 10
    · rw [if_pos h]; exact ⟨_, _, rfl, digitChar_isDig h⟩
    · rw [if_neg h]
      obtain ⟨c, cs, e, hc⟩ := ih (n / 10) (by omega)
      rw [e]
      exact ⟨c, _, rfl, hc⟩

theorem scanUlong_decimal {n : Nat} (hn : n < 2 ^ 64) {s : List Char} (h : ∀ c cs, s = c :: cs → ¬ isDig c) :
    scanUlong (decimal n ++ s) = some (n, s) := by
  obtain ⟨c, cs, e, hc⟩ := decimal_head n
  obtain ⟨k, hk⟩ := readDigits_decimal n s
  have h0 := hk 0
  rw [e, List.cons_append, readDigits_cons hc, Nat.zero_mul, Nat.zero_mul, Nat.zero_add, Nat.zero_add, readDigits_stop h] at h0
  have hb : isBlank c = false := by
    unfold isBlank
    unfold isDig at hc
    have : c ≠ ' ' := by rintro rfl; revert hc; decide
    simp only [this, decide_false, Bool.false_or, Bool.and_eq_false_iff, decide_eq_false_iff_not]
    omega
  have hm : c ≠ '-' := by rintro rfl; revert hc; unfold isDig; decide
  have hp : c ≠ '+' := by rintro rfl; revert hc; unfold isDig; decide
  unfold scanUlong
  rw [e, List.cons_append, List.dropWhile_cons, hb]
  unfold scanSigned
  simp only [Bool.false_eq_true, if_false, hm, hp]
  unfold scanDigits
  simp only
  rw [if_pos (show 48 ≤ c.toNat ∧ c.toNat ≤ 57 from hc), h0]
  unfold toUlong
  rw [if_neg (by omega)]
  rfl

theorem numberOf_plain (v : Value) : numberOf (plainStr v) = some v.raw := by
  have h := scanUlong_decimal (n := v.raw.toNat) (s := []) (by have := v.raw.isLt; omega) (by simp)
  unfold numberOf plainStr
  rw [String.toList_ofList]
  rw [List.append_nil] at h
  rw [h]
  simp

theorem modPortOf_str {v : Value} (hv : v.raw.toNat < 2 ^ 16) : modPortOf (modPortStr v) = some v.raw := by
  have hm : v.module = v.raw.toNat % 256 := by simp [Value.module]
  have hp : v.port = v.raw.toNat / 256 % 256 := by simp [Value.port, Nat.shiftRight_eq_div_pow]
  have h1 := scanUlong_decimal (n := v.module) (s := '.' :: decimal v.port) (by omega) (by
    intro c cs e; injection e with e _; subst e; unfold isDig; decide)
  have h2 := scanUlong_decimal (n := v.port) (s := []) (by omega) (by simp)
  rw [List.append_nil] at h2
  unfold modPortOf modPortStr
  rw [String.toList_ofList, h1]
  simp only [if_true]
  rw [h2]
  simp only
  rw [if_pos ⟨trivial, by omega, by omega⟩]
  congr 1
  apply BitVec.eq_of_toNat_eq
  rw [BitVec.toNat_ofNat]
  omega

theorem digitChar_eq : ∀ {n : Nat}, n < 10 → digitChar n = n.digitChar
  | 0, _ | 1, _ | 2, _ | 3, _ | 4, _ | 5, _ | 6, _ | 7, _ | 8, _ | 9, _ => by decide
  | n + 10, h => by omega

theorem decimal_eq (n : Nat) : decimal n = Nat.toDigits 10 n := by
  induction n using Nat.strongRecOn with
  | ind n ih =>
    unfold decimal
    by_cases h : n < 10
    · rw [if_pos h, Nat.toDigits_of_lt_base h, digitChar_eq h]
    · rw [if_neg h, Nat.toDigits_of_base_le (by omega) (by omega), ih _ (by omega), digitChar_eq (by omega)]

theorem toList_toString (n : Nat) : (toString n).toList = decimal n := by
  rw [decimal_eq, Nat.toString_eq_ofList_toDigits, String.toList_ofList]

theorem numberOf_toString {n : Nat} (h : n < 2 ^ 32) : numberOf (toString n) = some (BitVec.ofNat 32 n) := by
  have := scanUlong_decimal (n := n) (s := []) (by omega) (by simp)
  unfold numberOf
  rw [List.append_nil] at this
  rw [toList_toString, this]
  rfl

theorem modPortOf_toString {m p : Nat} (hm : m < 256) (hp : p < 256) :
    modPortOf (toString m ++ "." ++ toString p) = some (BitVec.ofNat 32 (m + 256 * p)) := by
  have h1 := scanUlong_decimal (n := m) (s := '.' :: decimal p) (by omega) (by
    intro c cs e; injection e with e _; subst e; unfold isDig; decide)
  have h2 := scanUlong_decimal (n := p) (s := []) (by omega) (by simp)
  rw [List.append_nil] at h2
  unfold modPortOf
  have e : (toString m ++ "." ++ toString p).toList = decimal m ++ '.' :: decimal p := by
    rw [String.toList_append, String.toList_append, toList_toString, toList_toString, List.append_assoc]
    rfl
  rw [e, h1]
  simp only [if_true]
  rw [h2]
  simp only
  rw [if_pos ⟨trivial, by omega, by omega⟩, Nat.mod_eq_of_lt (by omega), Nat.mod_eq_of_lt (by omega)]

/-! ### Tables -/

theorem insOf_symbolOf (c : Ins) : insOf (symbolOf c) = c := by cases c <;> simp [insOf, symbolOf]

theorem regOf_typeName (t : Reg) : regOf (typeName t) = t := by cases t <;> simp [regOf, typeName]

theorem timed_iff {code : Ins} {d : Nat} : (timed code = true ∧ d = 1) ↔ IsBase code d := by
  unfold IsBase
  cases code <;> simp [timed]

theorem tableQty_operands {H : Host} {code : Ins} (h : code ≠ .MULTI) : tableQty H code = .ok (operands code) := by
  cases code <;> first | rfl | exact absurd rfl h

theorem ite_peel {α : Type} {s a : String} {x y r : α} (h : (if s = a then x else y) = r) : (s = a ∧ x = r) ∨ y = r := by
  by_cases e : s = a
  · rw [if_pos e] at h; exact .inl ⟨e, h⟩
  · rw [if_neg e] at h; exact .inr h

theorem insOf_cases {s : String} : ∀ {c : Ins}, insOf s = c → c = .INV ∨ (s, c) ∈ symbols := by
  intro c h
  unfold insOf at h
  iterate 39 (
    replace h := ite_peel h
    rcases h with ⟨e, h⟩ | h
    · subst e; subst h
      first | exact .inl rfl | exact .inr (by simp [symbols]))
  exact .inl h.symm

theorem insOf_symbols {s : String} (h : insOf s ≠ .INV) : (s, insOf s) ∈ symbols := (insOf_cases rfl).resolve_left h

theorem baseOf_bases {s : String} {t : Reg} (h : baseOf s = some t) : s ∈ bases := by
  unfold baseOf at h
  iterate 5 (
    split at h
    · rename_i e
      subst e
      simp [bases])
  cases h

theorem regOf_types {s : String} : ∀ {t : Reg}, regOf s = t → t = .INV ∨ s ∈ types ∨ s ∈ bases := by
  intro t h
  unfold regOf at h
  iterate 16 (
    replace h := ite_peel h
    rcases h with ⟨e, h⟩ | h
    · subst e; subst h
      first | exact .inl rfl | exact .inr (.inl (by simp [types])))
  cases hb : baseOf s with
  | none => rw [hb] at h; exact .inl h.symm
  | some r => exact .inr (.inr (baseOf_bases hb))

theorem baseOf_baseName {t : Reg} (h : t = .M ∨ t = .Q ∨ t = .I ∨ t = .Cd) : baseOf (baseName t) = some t := by
  rcases h with rfl | rfl | rfl | rfl <;> simp [baseOf, baseName]

theorem baseOf_table {s : String} {t : Reg} (h : baseOf s = some t) : (s, t) ∈ baseTable := by
  unfold baseOf at h
  iterate 5 (
    replace h := ite_peel h
    rcases h with ⟨e, h⟩ | h
    · subst e
      cases h
      simp [baseTable])
  cases h

theorem regOf_table {s : String} : ∀ {t : Reg}, regOf s = t → t = .INV ∨ (s, t) ∈ typeTable ∨ (s ∉ types ∧ (s, t) ∈ baseTable) := by
  intro t h
  have h' := h
  unfold regOf at h
  iterate 16 (
    replace h := ite_peel h
    rcases h with ⟨e, h⟩ | h
    · subst e; subst h
      first | exact .inl rfl | exact .inr (.inl (by simp [typeTable])))
  cases hb : baseOf s with
  | none => rw [hb] at h; exact .inl h.symm
  | some r =>
    rw [hb] at h
    subst h
    have ht := baseOf_table hb
    refine .inr (.inr ⟨?_, ht⟩)
    revert ht
    simp only [baseTable, List.mem_cons, Prod.mk.injEq, List.not_mem_nil, or_false]
    rintro (⟨rfl, -⟩ | ⟨rfl, -⟩ | ⟨rfl, -⟩ | ⟨rfl, -⟩ | ⟨rfl, -⟩) <;> simp [types]

theorem dataName_preset {code : Ins} {d : Nat} (h : IsPreset code d) : dataName code d = "preset value" := by
  obtain ⟨rfl | rfl, rfl⟩ := h <;> rfl

/-! ### Members -/

theorem has_member {ms : List (String × Json)} {name : String} {v : Json} : Member name v ms ↔ member ms name = some v := by
  induction ms with
  | nil => exact ⟨fun h => (by cases h), fun h => by cases h⟩
  | cons p ms ih =>
    obtain ⟨k, w⟩ := p
    by_cases hk : k = name
    · subst hk
      simp only [member, if_true]
      exact ⟨fun h => by cases h with | here => rfl | there h _ => exact absurd rfl h, fun h => by cases h; exact .here ms⟩
    · simp only [member, hk, if_false]
      exact ⟨fun h => by cases h with | here => exact absurd rfl hk | there _ m => exact ih.1 m, fun h => .there hk (ih.2 h)⟩

theorem strMember_iff {ms : List (String × Json)} {name s : String} : strMember ms name = some s ↔ Member name (.str s) ms := by
  rw [has_member]
  unfold strMember
  constructor
  · intro h
    split at h
    · rename_i e; cases h; exact e
    · cases h
  · intro h
    rw [h]

/-! ### What is saved can be loaded -/

theorem value_trip {H : Host} {code : Ins} {d : Nat} {v : Value} (h : Expressible H code d v) :
    ∃ j, saveValue H code d v = .ok j ∧ loadValue H code d j = some v := by
  obtain ⟨ty, raw, cs⟩ := v
  have hc := h.text
  simp only at hc
  subst hc
  unfold saveValue
  by_cases hb : IsBase code d
  · have hi := timed_iff.2 hb
    have ht := h.base hb
    have hn : ty ≠ .NONE := by rintro rfl; simp at ht
    unfold valueMembers typeStr
    rw [if_pos hi]
    refine ⟨_, rfl, ?_⟩
    unfold loadValue
    simp only [strMember, member, if_true, String.reduceEq, if_false, hi, and_self, hn]
    rw [baseOf_baseName ht]
    simp only
    rw [numberOf_plain]
    rfl
  · have hi : ¬ (timed code = true ∧ d = 1) := fun x => hb (timed_iff.1 x)
    have hty : regOf (typeStr code d ⟨ty, raw, none⟩) = ty := by
      unfold typeStr
      split
      · rename_i e
        simp only at e
        rw [dataName_preset ((h.kind hb).2.2 e), if_pos rfl, e]
        rfl
      · rw [regOf_typeName]
    have fin : ∀ w, operandOf H ty w = some ⟨ty, raw, none⟩ → valueMembers H code d ⟨ty, raw, none⟩ = .ok [("value", .str w), ("value", .str w)] →
        ∃ j, (match valueMembers H code d ⟨ty, raw, none⟩ with
          | .error e => .error e
          | .ok ms => Except.ok (Json.obj (("name", .str (dataName code d)) :: ("type", .str (typeStr code d ⟨ty, raw, none⟩)) :: ms)) : Except UB Json)
            = .ok j ∧ loadValue H code d j = some ⟨ty, raw, none⟩ := by
      intro w hw hm
      rw [hm]
      refine ⟨_, rfl, ?_⟩
      unfold loadValue
      simp only [strMember, member, if_true, String.reduceEq, if_false, hi]
      rw [hty]
      exact hw
    have hk := h.kind hb
    have hp := h.port hb
    have hr := h.real hb
    simp only at hk hp hr
    have num := numberOf_plain ⟨ty, raw, none⟩
    have mem : ∀ w, (match ty with
        | .I | .Q => Except.ok [("value", Json.str (modPortStr ⟨ty, raw, none⟩)), ("value", .str (modPortStr ⟨ty, raw, none⟩))]
        | .S => .error UB.uninit
        | .R => .ok [("value", .str (H.fmtReal raw)), ("value", .str (H.fmtReal raw))]
        | _ => .ok [("value", .str (plainStr ⟨ty, raw, none⟩)), ("value", .str (plainStr ⟨ty, raw, none⟩))]) = Except.ok w →
        valueMembers H code d ⟨ty, raw, none⟩ = .ok w := by
      intro w e
      unfold valueMembers
      rw [if_neg hi]
      exact e
    have hport := fun x => modPortOf_str (v := ⟨ty, raw, none⟩) (hp x)
    cases ty
    case S => exact absurd rfl hk.1
    case INV => exact absurd rfl hk.2.1
    case I => exact fin _ (by unfold operandOf; simp only; rw [hport (.inl rfl)]; rfl) (mem _ rfl)
    case Q => exact fin _ (by unfold operandOf; simp only; rw [hport (.inr rfl)]; rfl) (mem _ rfl)
    case R => exact fin _ (by unfold operandOf; simp only; rw [hr rfl]) (mem _ rfl)
    all_goals exact fin _ (by unfold operandOf; simp only; rw [num]; rfl) (mem _ rfl)

theorem values_trip {H : Host} {code : Ins} {l : List Value} (h : ∀ d v, l[d]? = some v → Expressible H code d v) :
    ∀ (n d : Nat), d + n = l.length → ∃ js, saveValues H code (some l) d n = .ok js ∧ js.length = n ∧
      loadValues H code d js = some (l.drop d)
  | 0, d, e => ⟨[], rfl, rfl, by rw [List.drop_of_length_le (by omega)]; rfl⟩
  | n + 1, d, e => by
    have hd : d < l.length := by omega
    obtain ⟨j, h1, h2⟩ := value_trip (h d _ (List.getElem?_eq_getElem hd))
    obtain ⟨js, h3, h4, h5⟩ := values_trip h n (d + 1) (by omega)
    refine ⟨j :: js, ?_, by simp [h4], ?_⟩
    · unfold saveValues aget
      simp only [List.getElem?_eq_getElem hd, h1, h3]
    · unfold loadValues
      rw [h2, h5]
      simp only
      rw [List.drop_eq_getElem_cons hd]

theorem cell_trip {H : Host} {cell : Cell} (h : CellExpressible H cell) :
    ∃ j, saveCell H cell = .ok j ∧ loadCell H j = .ok (some (cellText cell)) := by
  have hq : tableQty H cell.code = .ok (operands cell.code) := by
    by_cases hm : cell.code = .MULTI
    · rw [hm]; unfold tableQty iocd; simp only; rw [h.multi hm]; rfl
    · exact tableQty_operands hm
  have hload : ∀ js, js.length = cell.dataQty → (cell.dataQty ≠ 0 → loadValues H cell.code 0 js = cell.data) →
      loadCell H (.obj [("symbol", .str (symbolOf cell.code)), ("bar", .bool cell.bar), ("data", .arr js)]) = .ok (some (cellText cell)) := by
    intro js hl hv
    unfold loadCell
    simp only [strMember, member, if_true, String.reduceEq, if_false, insOf_symbolOf, h.code]
    unfold loadData
    rw [hq]
    simp only
    rw [if_pos (hl.trans h.qty)]
    by_cases h0 : cell.dataQty = 0
    · rw [if_pos (hl.trans h0)]
      unfold cellText
      have := h.bare h0
      obtain ⟨s, b, c, q, dt⟩ := cell
      simp only at *
      subst h0; subst this
      rfl
    · rw [if_neg (by omega), hv h0, hl]
      obtain ⟨l, hl, -⟩ := h.block h0
      unfold cellText
      obtain ⟨s, b, c, q, dt⟩ := cell
      simp only at *
      subst hl
      rfl
  by_cases h0 : cell.dataQty = 0
  · refine ⟨_, by unfold saveCell; rw [h0]; rfl, hload [] (by simp [h0]) (fun x => absurd h0 x)⟩
  · obtain ⟨l, e, hl⟩ := h.block h0
    obtain ⟨js, h1, h2, h3⟩ := values_trip (H := H) (code := cell.code) (l := l)
      (fun d v hv => h.data d v (by rw [e]; exact hv)) l.length 0 (by omega)
    refine ⟨_, by unfold saveCell; rw [e, ← hl, h1], hload js (by omega) fun _ => by rw [h3, e]; rfl⟩

theorem row_trip {H : Host} {net : Network} {g : List (List Cell)} {r : Nat} {row : List Cell} (hg : net.cells = some g)
    (hr : g[r]? = some row) (h : ∀ cell ∈ row, CellExpressible H cell) :
    ∀ (n c : Nat), c + n = row.length → ∃ js, saveRow H net r c n = .ok js ∧ js.length = n ∧
      loadAll (loadCell H) js = .ok (some ((row.drop c).map cellText))
  | 0, c, e => ⟨[], rfl, rfl, by rw [List.drop_of_length_le (by omega)]; rfl⟩
  | n + 1, c, e => by
    have hc : c < row.length := by omega
    obtain ⟨j, h1, h2⟩ := cell_trip (h row[c] (List.getElem_mem hc))
    obtain ⟨js, h3, h4, h5⟩ := row_trip hg hr h n (c + 1) (by omega)
    refine ⟨j :: js, ?_, by simp [h4], ?_⟩
    · unfold saveRow Network.cell
      rw [hg]
      simp only [hr, List.getElem?_eq_getElem hc, h1, h3]
    · unfold loadAll
      rw [h2, h5]
      simp only
      rw [List.drop_eq_getElem_cons hc, List.map_cons]

theorem rows_trip {H : Host} {net : Network} {g : List (List Cell)} (hg : net.cells = some g)
    (h : ∀ row ∈ g, row.length = net.cols ∧ ∀ cell ∈ row, CellExpressible H cell) :
    ∀ (n r : Nat), r + n = g.length → ∃ js, saveRows H net r n = .ok js ∧ js.length = n ∧
      loadAll (loadRow H net.cols) js = .ok (some ((g.drop r).map (·.map cellText)))
  | 0, r, e => ⟨[], rfl, rfl, by rw [List.drop_of_length_le (by omega)]; rfl⟩
  | n + 1, r, e => by
    have hr : r < g.length := by omega
    have hm := h g[r] (List.getElem_mem hr)
    obtain ⟨l, h1, h2, h3⟩ := row_trip hg (List.getElem?_eq_getElem hr) hm.2 net.cols 0 (by omega)
    obtain ⟨js, h4, h5, h6⟩ := rows_trip hg h n (r + 1) (by omega)
    refine ⟨.arr l :: js, ?_, by simp [h5], ?_⟩
    · unfold saveRows
      rw [h1, h4]
    · unfold loadAll
      rw [h6]
      unfold loadRow
      simp only
      rw [if_pos h2.symm, h3]
      simp only
      rw [List.drop_eq_getElem_cons hr]
      rfl

theorem u32_of_lt {n : Nat} (h : n < 2 ^ 32) : u32OfDouble (some (n : Int)) = .ok n := by
  unfold u32OfDouble
  simp only
  rw [if_pos ⟨Int.natCast_nonneg n, by omega⟩, Int.toNat_natCast]

theorem trunc_natCast (n : Nat) : (Num.fin (n : Rat)).trunc = some (n : Int) := by
  simp [Num.trunc]

/-- The members of a saved network. -/
def netMembers (n rows cols : Nat) (l : List Json) : List (String × Json) :=
  [("id", .num (.fin n)), ("rows", .num (.fin rows)), ("cols", .num (.fin cols)), ("networkData", .arr l)]

theorem loadShape_eq {H : Host} {ms : List (String × Json)} {r c : Num} {rows cols : Nat}
    (e1 : member ms "rows" = some (.num r)) (e2 : member ms "cols" = some (.num c)) (hr : u32OfDouble r.trunc = .ok rows)
    (hc : u32OfDouble c.trunc = .ok cols) : loadShape H ms = loadGrid H rows cols (member ms "networkData") := by
  unfold loadShape
  rw [e1]
  simp only
  rw [hr]
  simp only
  rw [e2]
  simp only
  rw [hc]

theorem loadShape_members {H : Host} {n rows cols : Nat} {l : List Json} (hr : rows < 2 ^ 32) (hc : cols < 2 ^ 32) :
    loadShape H (netMembers n rows cols l) = loadGrid H rows cols (some (.arr l)) := by
  have e1 : member (netMembers n rows cols l) "rows" = some (.num (.fin rows)) := by simp [member, netMembers]
  have e2 : member (netMembers n rows cols l) "cols" = some (.num (.fin cols)) := by simp [member, netMembers]
  have e3 : member (netMembers n rows cols l) "networkData" = some (.arr l) := by simp [member, netMembers]
  rw [loadShape_eq e1 e2 (by rw [trunc_natCast]; exact u32_of_lt hr) (by rw [trunc_natCast]; exact u32_of_lt hc), e3]

theorem net_trip {H : Host} {net : Network} (h : NetExpressible H net) (n : Nat) :
    ∃ ms, saveNet H n net = .ok (.obj ms) ∧ member ms "id" = some (.num (.fin n)) ∧ loadShape H ms = .ok (true, netText net) := by
  obtain ⟨g, hg, hl, hr⟩ := h.shape
  obtain ⟨js, h1, h2, h3⟩ := rows_trip hg hr net.rows 0 (by omega)
  refine ⟨netMembers n net.rows net.cols js, by unfold saveNet; rw [h1]; rfl, by simp [member, netMembers], ?_⟩
  rw [loadShape_members h.bounds.1 h.bounds.2]
  unfold loadGrid
  simp only
  rw [if_pos h2.symm, h3]
  simp only
  unfold netText
  rw [← h.enable, hg]
  rfl

end Ladder
