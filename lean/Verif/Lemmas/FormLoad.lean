import Verif.Lemmas.JsonAccept
import Verif.Lemmas.Shipped

/-
The forms of the schema, compared with what the loader accepts and what the saver writes.
-/

set_option autoImplicit false

namespace Ladder

open Spec

/-! ### Loading -/

/-- What is needed of a symbol of the schema. -/
def symbolFits (s : String) : Bool :=
  match formOf s with
  | none => false
  | some f => s ∈ divergent ||
    symbols.any fun q => q.1 = s && (q.2 = .MULTI || operands q.2 = f.length) && decide (q.2 = .MULTI ↔ s = "occupied") &&
      (List.range f.length).all fun d => match f[d]? with
        | none => true
        | some p => if timed q.2 && d = 1 then p.2.all (· ∈ bases) else p.2.all (· ∈ types)

theorem symbols_fit : ∀ s ∈ cellSymbols, symbolFits s = true := by decide +kernel

/-- What is needed of a divergent symbol. -/
def symbolSplits (s : String) : Bool :=
  match formOf s with
  | none => false
  | some f => symbols.all fun q => q.1 ≠ s || (q.2 ≠ .MULTI && operands q.2 ≠ f.length)

theorem symbols_split : ∀ s ∈ divergent, symbolSplits s = true := by decide +kernel

theorem symbol_fits {s : String} {f : List (String × List String)} (h : formOf s = some f) (hs : s ∉ divergent) :
    ∃ code, (s, code) ∈ symbols ∧ (code ≠ .MULTI → operands code = f.length) ∧ (code = .MULTI → s = "occupied") ∧
      ∀ (d : Nat) p, f[d]? = some p → (IsBase code d → ∀ t ∈ p.2, t ∈ bases) ∧ (¬ IsBase code d → ∀ t ∈ p.2, t ∈ types) := by
  have := symbols_fit s (symbol_of h)
  unfold symbolFits at this
  rw [h] at this
  simp only [Bool.or_eq_true, decide_eq_true_iff] at this
  have := this.resolve_left hs
  rw [List.any_eq_true] at this
  obtain ⟨⟨s', code⟩, hm, hc⟩ := this
  simp only [Bool.and_eq_true, Bool.or_eq_true, decide_eq_true_iff] at hc
  obtain ⟨⟨⟨rfl, h1⟩, h2⟩, h3⟩ := hc
  refine ⟨code, hm, h1.resolve_left, h2.1, fun d p hp => ?_⟩
  have hd : d < f.length := (List.getElem?_eq_some_iff.1 hp).1
  have h3 := List.all_eq_true.1 h3 d (List.mem_range.2 hd)
  rw [hp] at h3
  simp only at h3
  rw [← timed_iff]
  split at h3
  · rename_i e
    refine ⟨fun _ t ht => ?_, fun x => absurd e x⟩
    simpa using List.all_eq_true.1 h3 t ht
  · rename_i e
    refine ⟨fun x => absurd x e, fun _ t ht => ?_⟩
    simpa using List.all_eq_true.1 h3 t ht

theorem symbol_splits {s : String} {f : List (String × List String)} (h : formOf s = some f) (hs : s ∈ divergent) {code : Ins}
    (hm : (s, code) ∈ symbols) : code ≠ .MULTI ∧ operands code ≠ f.length := by
  have := symbols_split s hs
  unfold symbolSplits at this
  rw [h] at this
  simpa using List.all_eq_true.1 this _ hm

theorem form_occupied {f : List (String × List String)} (h : formOf "occupied" = some f) : f = [] := by
  cases h; rfl

theorem cellDoc_of {H : Host} {j : Json} (h : CellForm j)
    (hc : ∀ os s, j = .obj os → Member "symbol" (.str s) os → s ∉ divergent ∧ (s = "occupied" → H.beyond = some 0)) : CellDoc H j := by
  obtain ⟨os, s, bar, l, f, rfl, h1, h2, h3, h4, h5, h6, h7⟩ := h
  obtain ⟨c1, c2⟩ := hc os s rfl h1
  obtain ⟨code, s1, s2, s3, s4⟩ := symbol_fits h2 c1
  refine ⟨os, s, code, bar, l, rfl, h1, s1, h3, h4, fun e => ?_, fun e => ?_, fun d x hx => ?_⟩
  · have := s3 e
    subst this
    rw [h6, form_occupied h2]
    exact c2 rfl
  · rw [h6, s2 e]
  · have hd : d < f.length := by rw [← h6]; exact (List.getElem?_eq_some_iff.1 hx).1
    obtain ⟨o, t, v, rfl, o1, o2, o3, o4, o5⟩ := h7 d _ x (List.getElem?_eq_getElem hd) hx
    obtain ⟨b1, b2⟩ := s4 d _ (List.getElem?_eq_getElem hd)
    exact ⟨o, _, t, v, rfl, o1, o2, o4, fun hb => b1 hb t o3, fun hb => .inl (b2 hb t o3)⟩

theorem cellDoc_symbol {H : Host} {os : List (String × Json)} {s : String} (h : CellForm (.obj os)) (hd : CellDoc H (.obj os))
    (hs : Member "symbol" (.str s) os) : s ∉ divergent ∧ (s = "occupied" → H.beyond = some 0) := by
  obtain ⟨os', s1, bar, l, f, e, h1, h2, h3, h4, h5, h6, h7⟩ := h
  cases e
  obtain ⟨os', s2, code, bar', l', e, d1, d2, d3, d4, d5, d6, d7⟩ := hd
  cases e
  cases same_member hs h1
  cases same_member h1 d1
  cases same_member h4 d4
  constructor
  · intro hx
    obtain ⟨x1, x2⟩ := symbol_splits h2 hx d2
    exact x2 (by rw [← d6 x1, h6])
  · rintro rfl
    have : code = .MULTI := (insOf_mem d2).1.symm
    rw [d5 this, h6, form_occupied h2]
    rfl

theorem number_unique {name : String} {a b : Int} {ms : List (String × Json)} (h : Number name a ms) (h' : Number name b ms) : a = b := by
  obtain ⟨x, h1, h2⟩ := h
  obtain ⟨y, h3, h4⟩ := h'
  cases same_member h1 h3
  rw [h2] at h4
  cases h4
  rfl

theorem netDoc_iff {H : Host} {n : Nat} {j : Json} (h : NetForm j) : NetDoc H n j ↔ Consistent H n j := by
  obtain ⟨os, l, rfl, -, -, -, hl, -, hr⟩ := h
  constructor
  · rintro ⟨ms, id, rows, cols, l', e, h1, h2, h3, h4, h5, h6, h7, h8, h9⟩
    cases e
    refine ⟨os, id, rows, cols, l', rfl, h1, h4, h5, h6, h2, h3, h8, h7, fun cells hc => ?_⟩
    obtain ⟨c', e, e1, e2⟩ := h9 _ hc
    cases e
    refine ⟨by omega, fun o s ho hs => ?_⟩
    cases same_member hl h6
    obtain ⟨c', e, e3⟩ := hr _ hc
    cases e
    exact cellDoc_symbol (e3 _ ho) (e2 _ ho) hs
  · rintro ⟨ms, id, rows, cols, l', e, h1, h2, h3, h4, h5, h6, h7, h8, h9⟩
    cases e
    refine ⟨os, id, rows, cols, l', rfl, h1, h5, h6, h2, h3, h4, h8, h7, fun x hx => ?_⟩
    cases same_member hl h4
    obtain ⟨cells, rfl, e3⟩ := hr _ hx
    obtain ⟨e1, e2⟩ := h9 cells hx
    exact ⟨cells, rfl, by omega, fun y hy => cellDoc_of (e3 y hy) fun o s e hs => e2 o s (e ▸ hy) hs⟩

theorem whole_number {name : String} {os : List (String × Json)} (h : WholeNumber name os) : ∃ k, Number name k os ∧ -2 ^ 31 ≤ k ∧ k < 2 ^ 31 := by
  obtain ⟨k, h1, h2, h3⟩ := h
  exact ⟨k, ⟨_, h1, by simp [Num.trunc]⟩, h2, h3⟩

theorem whole_ranged {name : String} {os : List (String × Json)} {k : Int} (h : WholeNumber name os) (hk : Number name k os) (h0 : 0 ≤ k) :
    Ranged name os := by
  obtain ⟨k', h1, h2, h3⟩ := whole_number h
  cases number_unique hk h1
  intro x hx
  obtain ⟨y, h4, h5⟩ := h1
  cases same_member hx h4
  exact ⟨k, h5, h0, by omega⟩

theorem sizes_of {H : Host} {n : Nat} {j : Json} (h : NetForm j) (hc : Consistent H n j) : Sizes j := by
  obtain ⟨os, l, rfl, w1, w2, w3, hl, -, hr⟩ := h
  obtain ⟨ms, id, rows, cols, l', e, h1, h2, h3, h4, h5, h6, h7, h8, h9⟩ := hc
  cases e
  intro ms e
  cases e
  exact ⟨whole_ranged w1 h1 h5, whole_ranged w2 h2 (by omega), whole_ranged w3 h3 h7⟩

/-! ### Saving -/

theorem saveValues_at {H : Host} {code : Ins} {data : Arr Value} : ∀ {n d : Nat} {js : List Json},
    saveValues H code data d n = .ok js → js.length = n ∧
      ∀ (i : Nat) x, js[i]? = some x → ∃ v, at? data (d + i) = some v ∧ saveValue H code (d + i) v = .ok x
  | 0, d, js, h => by
    cases h
    simp
  | n + 1, d, js, h => by
    unfold saveValues at h
    split at h
    · cases h
    rename_i v hv
    split at h
    · cases h
    rename_i j hj
    split at h
    · cases h
    rename_i js' hjs
    cases h
    obtain ⟨h1, h2⟩ := saveValues_at hjs
    refine ⟨by simp [h1], fun i x hx => ?_⟩
    cases i with
    | zero =>
      cases hx
      exact ⟨v, aget_eq_ok.1 hv, hj⟩
    | succ i =>
      have := h2 i x hx
      rwa [Nat.add_right_comm, Nat.add_assoc] at this

theorem value_form {H : Host} {code : Ins} {d : Nat} {v : Value} {j : Json} {p : String × List String}
    (h : saveValue H code d v = .ok j) : OperandForm p j ↔ dataName code d = p.1 ∧ typeStr code d v ∈ p.2 := by
  unfold saveValue at h
  split at h
  · cases h
  rename_i ms hms
  cases h
  have hv : ∃ w, ms = [("value", .str w)] ∨ ms = [("value", .str w), ("value", .str w)] := by
    unfold valueMembers at hms
    split at hms
    · cases hms; exact ⟨_, .inl rfl⟩
    · split at hms <;> first | (cases hms; exact ⟨_, .inr rfl⟩) | cases hms
  constructor
  · rintro ⟨os, t, w, e, h1, h2, h3, h4, h5⟩
    cases e
    rw [has_member] at h1 h2
    simp [member] at h1 h2
    exact ⟨h1, h2 ▸ h3⟩
  · rintro ⟨h1, h2⟩
    obtain ⟨w, hw⟩ := hv
    refine ⟨_, typeStr code d v, w, rfl, ?_, ?_, h2, ?_, ?_⟩
    · rw [h1]; exact .here _
    · exact .there (by decide) (.here _)
    · rcases hw with rfl | rfl
      · exact .there (by decide) (.there (by decide) (.here _))
      · exact .there (by decide) (.there (by decide) (.here _))
    · intro k v hk
      rcases hw with rfl | rfl <;> simp at hk
      · rcases hk with ⟨rfl, -⟩ | ⟨rfl, -⟩ | ⟨rfl, -⟩ <;> exact ⟨_, by simp, rfl⟩
      · rcases hk with ⟨rfl, -⟩ | ⟨rfl, -⟩ | ⟨rfl, -⟩ <;> exact ⟨_, by simp, rfl⟩

/-- All register types. -/
def regs : List Reg := [.NONE, .M, .Q, .I, .Cd, .Cr, .Td, .Tr, .IW, .QW, .C, .T, .D, .S, .R, .INV]

theorem mem_regs (t : Reg) : t ∈ regs := by cases t <;> decide

theorem typeStr_type {code : Ins} {d : Nat} {v : Value} : typeStr code d v = typeStr code d ⟨v.type, 0, none⟩ := rfl

/-- Comparison of the form of a saved instruction with `kinds`. -/
def kindsFit (code : Ins) : Bool :=
  match formOf (symbolOf code), kinds code with
  | none, none => true
  | none, some _ => false
  | some f, some ks => f.length = ks.length && (List.range f.length).all fun d =>
      match f[d]?, ks[d]? with
      | some p, some k => dataName code d = p.1 && regs.all fun t => decide (typeStr code d ⟨t, 0, none⟩ ∈ p.2 ↔ t ∈ k)
      | _, _ => true
  | some f, none => (List.range f.length).any fun d =>
      match f[d]? with
      | some p => dataName code d ≠ p.1
      | none => false

theorem kinds_fit (code : Ins) : kindsFit code = true := by
  cases code <;> decide +kernel

theorem saveCell_form {H : Host} {x : Cell} {j : Json} (h : saveCell H x = .ok j) : CellForm j ↔ Portable x := by
  unfold saveCell at h
  split at h
  · cases h
  rename_i l hl
  cases h
  obtain ⟨s1, s2⟩ := saveValues_at hl
  simp only [Nat.zero_add] at s2
  have hk := kinds_fit x.code
  unfold kindsFit at hk
  have op : ∀ (d : Nat) p y, l[d]? = some y → (OperandForm p y ↔ dataName x.code d = p.1 ∧ ∃ v, at? x.data d = some v ∧
      typeStr x.code d ⟨v.type, 0, none⟩ ∈ p.2) := by
    intro d p y hy
    obtain ⟨v, v1, v2⟩ := s2 d y hy
    rw [value_form v2]
    constructor
    · rintro ⟨a, b⟩; exact ⟨a, v, v1, b⟩
    · rintro ⟨a, w, w1, b⟩
      rw [v1] at w1
      cases w1
      exact ⟨a, b⟩
  have at_l : ∀ d, d < x.dataQty → ∃ y, l[d]? = some y := fun d hd => ⟨_, List.getElem?_eq_getElem (by omega)⟩
  have form : CellForm (.obj [("symbol", .str (symbolOf x.code)), ("bar", .bool x.bar), ("data", .arr l)]) ↔
      ∃ f, formOf (symbolOf x.code) = some f ∧ x.dataQty = f.length ∧
        ∀ (i : Nat) p y, f[i]? = some p → l[i]? = some y → OperandForm p y := by
    constructor
    · rintro ⟨os, s, bar, l', f, e, h1, h2, h3, h4, h5, h6, h7⟩
      cases e
      rw [has_member] at h1 h4
      simp [member] at h1 h4
      subst h1; subst h4
      exact ⟨f, h2, by omega, h7⟩
    · rintro ⟨f, h2, h6, h7⟩
      refine ⟨_, _, x.bar, l, f, rfl, .here _, h2, .there (by decide) (.here _), .there (by decide) (.there (by decide) (.here _)), ?_,
        by omega, h7⟩
      intro k v hk
      simp at hk
      rcases hk with ⟨rfl, -⟩ | ⟨rfl, -⟩ | ⟨rfl, -⟩ <;> exact ⟨_, by simp, rfl⟩
  rw [form]
  unfold Portable
  split at hk
  · rename_i e1 e2
    rw [e1, e2]
    simp
  · cases hk
  · rename_i f ks e1 e2
    rw [Bool.and_eq_true, decide_eq_true_iff] at hk
    obtain ⟨k1, k2⟩ := hk
    have k3 : ∀ (d : Nat) p k, f[d]? = some p → ks[d]? = some k → dataName x.code d = p.1 ∧
        ∀ t, (typeStr x.code d ⟨t, 0, none⟩ ∈ p.2 ↔ t ∈ k) := by
      intro d p k hp hk
      have := List.all_eq_true.1 k2 d (List.mem_range.2 (List.getElem?_eq_some_iff.1 hp).1)
      rw [hp, hk] at this
      simp only [Bool.and_eq_true, decide_eq_true_iff] at this
      refine ⟨this.1, fun t => ?_⟩
      have := List.all_eq_true.1 this.2 t (mem_regs t)
      simp only [decide_eq_true_iff] at this
      rw [this]
    constructor
    · rintro ⟨f', e, h1, h2⟩
      rw [e1] at e
      cases e
      refine ⟨ks, e2, by omega, fun d k hk => ?_⟩
      have hd : d < f.length := by rw [k1]; exact (List.getElem?_eq_some_iff.1 hk).1
      obtain ⟨y, hy⟩ := at_l d (by omega)
      have hp := List.getElem?_eq_getElem hd
      obtain ⟨-, v, hv, ht⟩ := (op d _ y hy).1 (h2 d _ y hp hy)
      exact ⟨v, hv, ((k3 d _ k hp hk).2 _).1 ht⟩
    · rintro ⟨ks', e, h1, h2⟩
      rw [e2] at e
      cases e
      refine ⟨f, e1, by omega, fun d p y hp hy => (op d p y hy).2 ?_⟩
      have hd : d < ks.length := by rw [← k1]; exact (List.getElem?_eq_some_iff.1 hp).1
      have hk := List.getElem?_eq_getElem hd
      obtain ⟨v, hv, ht⟩ := h2 d _ hk
      obtain ⟨a, b⟩ := k3 d p _ hp hk
      exact ⟨a, v, hv, (b _).2 ht⟩
  · rename_i f e1 e2
    rw [List.any_eq_true] at hk
    obtain ⟨d, hd, hk⟩ := hk
    rw [List.mem_range] at hd
    rw [List.getElem?_eq_getElem hd] at hk
    simp only [ne_eq, decide_not, Bool.not_eq_true', decide_eq_false_iff_not] at hk
    constructor
    · rintro ⟨f', e, h1, h2⟩
      rw [e1] at e
      cases e
      obtain ⟨y, hy⟩ := at_l d (by omega)
      exact absurd ((op d _ y hy).1 (h2 d _ y (List.getElem?_eq_getElem hd) hy)).1 hk
    · rintro ⟨ks, e, -⟩
      rw [e2] at e
      cases e

theorem cell_at {net : Network} {r k : Nat} {x : Cell} :
    net.cell r k = .ok x ↔ ∃ row, at? net.cells r = some row ∧ row[k]? = some x := by
  unfold Network.cell at?
  cases net.cells with
  | none => simp
  | some g =>
    simp only [Option.bind_some]
    cases g[r]? with
    | none => simp
    | some row => cases h : row[k]? <;> simp [h]

theorem saveRow_form {H : Host} {net : Network} {r : Nat} : ∀ {n k : Nat} {js : List Json}, saveRow H net r k n = .ok js →
    ((∀ j ∈ js, CellForm j) ↔ ∀ i x, k ≤ i → i < k + n → net.cell r i = .ok x → Portable x)
  | 0, k, js, h => by
    cases h
    constructor
    · intro _ i x h1 h2; omega
    · intro _ j hj; cases hj
  | n + 1, k, js, h => by
    unfold saveRow at h
    split at h
    · cases h
    rename_i x hx
    split at h
    · cases h
    rename_i j hj
    split at h
    · cases h
    rename_i js' hjs
    cases h
    rw [List.forall_mem_cons, saveCell_form hj, saveRow_form hjs]
    constructor
    · rintro ⟨a, b⟩ i y h1 h2 h3
      by_cases e : i = k
      · subst e
        rw [hx] at h3
        cases h3
        exact a
      · exact b i y (by omega) (by omega) h3
    · exact fun a => ⟨a k x (by omega) (by omega) hx, fun i y h1 h2 => a i y (by omega) (by omega)⟩

theorem saveRows_form {H : Host} {net : Network} : ∀ {n r : Nat} {js : List Json}, saveRows H net r n = .ok js →
    ((∀ j ∈ js, ∃ cells, j = .arr cells ∧ ∀ x ∈ cells, CellForm x) ↔
      ∀ i k x, r ≤ i → i < r + n → k < net.cols → net.cell i k = .ok x → Portable x)
  | 0, r, js, h => by
    cases h
    constructor
    · intro _ i k x h1 h2; omega
    · intro _ j hj; cases hj
  | n + 1, r, js, h => by
    unfold saveRows at h
    split at h
    · cases h
    rename_i l hl
    split at h
    · cases h
    rename_i js' hjs
    cases h
    rw [List.forall_mem_cons, saveRows_form hjs]
    have := saveRow_form hl
    constructor
    · rintro ⟨⟨cells, e, a⟩, b⟩ i k y h1 h2 h3 h4
      cases e
      by_cases e : i = r
      · subst e
        exact this.1 a k y (by omega) (by omega) h4
      · exact b i k y (by omega) (by omega) h3 h4
    · exact fun a => ⟨⟨l, rfl, this.2 fun k x _ h2 => a r k x (by omega) (by omega) (by omega)⟩,
        fun i k y h1 h2 => a i k y (by omega) (by omega)⟩

theorem whole_nat {name : String} {n : Nat} {os : List (String × Json)} (h : Member name (.num (.fin n)) os) :
    WholeNumber name os ↔ n < 2 ^ 31 := by
  constructor
  · rintro ⟨k, h1, h2, h3⟩
    have := same_member h h1
    simp only [Json.num.injEq, Num.fin.injEq] at this
    have e : (n : Int) = k := by
      have : ((n : Int) : Rat) = (k : Rat) := by rw [← this]; exact Rat.intCast_natCast n
      exact Rat.intCast_inj.1 this
    omega
  · intro hn
    refine ⟨n, ?_, by omega, by omega⟩
    have : (((n : Int)) : Rat) = (n : Rat) := Rat.intCast_natCast n
    rw [this]
    exact h

theorem saveNet_form {H : Host} {n : Nat} {net : Network} {j : Json} (h : saveNet H n net = .ok j) :
    NetForm j ↔ n < 2 ^ 31 ∧ NetPortable net := by
  unfold saveNet at h
  split at h
  · cases h
  rename_i l hl
  cases h
  have m1 : Member "id" (.num (.fin n)) (netMembers n net.rows net.cols l) := .here _
  have m2 : Member "rows" (.num (.fin net.rows)) (netMembers n net.rows net.cols l) := .there (by decide) (.here _)
  have m3 : Member "cols" (.num (.fin net.cols)) (netMembers n net.rows net.cols l) := .there (by decide) (.there (by decide) (.here _))
  have m4 : Member "networkData" (.arr l) (netMembers n net.rows net.cols l) :=
    .there (by decide) (.there (by decide) (.there (by decide) (.here _)))
  have rows := saveRows_form hl
  have cells : (∀ i k x, 0 ≤ i → i < 0 + net.rows → k < net.cols → net.cell i k = .ok x → Portable x) ↔
      ∀ (r k : Nat) (row : List Cell) (x : Cell), r < net.rows → k < net.cols → at? net.cells r = some row → row[k]? = some x →
        Portable x := by
    constructor
    · intro a r k row x h1 h2 h3 h4
      exact a r k x (by omega) (by omega) h2 (cell_at.2 ⟨row, h3, h4⟩)
    · intro a i k x _ h1 h2 h3
      obtain ⟨row, h4, h5⟩ := cell_at.1 h3
      exact a i k row x (by omega) h2 h4 h5
  rw [cells] at rows
  constructor
  · rintro ⟨os, l', e, w1, w2, w3, h4, h5, h6⟩
    cases e
    cases same_member m4 h4
    exact ⟨(whole_nat m1).1 w1, (whole_nat m2).1 w2, (whole_nat m3).1 w3, rows.1 h6⟩
  · rintro ⟨a, b, c, d⟩
    refine ⟨_, l, rfl, (whole_nat m1).2 a, (whole_nat m2).2 b, (whole_nat m3).2 c, m4, ?_, rows.2 d⟩
    intro k v hk
    simp at hk
    rcases hk with ⟨rfl, -⟩ | ⟨rfl, -⟩ | ⟨rfl, -⟩ | ⟨rfl, -⟩ <;> exact ⟨_, by simp, rfl⟩

theorem saveNets_form {H : Host} {c : Ctx} : ∀ {k n : Nat} {js : List Json}, saveNets H c n k = .ok js →
    ((∀ j ∈ js, NetForm j) ↔ ∀ i, n ≤ i → i < n + k → i < 2 ^ 31 ∧ ∀ net, at? c.network i = some net → NetPortable net)
  | 0, n, js, h => by
    cases h
    constructor
    · intro _ i h1 h2; omega
    · intro _ j hj; cases hj
  | k + 1, n, js, h => by
    unfold saveNets at h
    split at h
    · cases h
    rename_i net hn
    split at h
    · cases h
    rename_i j hj
    split at h
    · cases h
    rename_i js' hjs
    cases h
    rw [List.forall_mem_cons, saveNet_form hj, saveNets_form hjs]
    constructor
    · rintro ⟨⟨a1, a2⟩, b⟩ i h1 h2
      by_cases e : i = n
      · subst e
        refine ⟨a1, fun net' h => ?_⟩
        rw [aget_eq_ok.1 hn] at h
        cases h
        exact a2
      · exact b i (by omega) (by omega)
    · exact fun a => ⟨⟨(a n (by omega) (by omega)).1, (a n (by omega) (by omega)).2 net (aget_eq_ok.1 hn)⟩,
        fun i h1 h2 => a i (by omega) (by omega)⟩

theorem saveProgram_form {H : Host} {c : Ctx} {j : Json} (h : saveProgram H c = .ok j) : ProgramForm j ↔ ProgramPortable c := by
  unfold saveProgram at h
  split at h
  · cases h
  rename_i l hl
  cases h
  have := saveNets_form hl
  unfold ProgramForm ProgramPortable
  constructor
  · rintro ⟨l', e, a⟩
    cases e
    have := this.1 a
    refine ⟨?_, fun n net hn => (this n (by omega) (by omega)).2 net⟩
    by_cases h0 : c.qty.networks = 0
    · omega
    · have := (this (c.qty.networks - 1) (by omega) (by omega)).1
      omega
  · rintro ⟨a, b⟩
    exact ⟨l, rfl, this.2 fun i _ h2 => ⟨by omega, fun net => b i net (by omega)⟩⟩

end Ladder
