import Verif.Lemmas.JsonMean

/-
Well-formed documents with readable values are accepted.
-/

set_option autoImplicit false

namespace Ladder

open Spec

theorem baseOf_some : ∀ {s : String}, s ∈ bases → ∃ t, baseOf s = some t := by
  intro s h
  simp only [bases, List.mem_cons, List.not_mem_nil, or_false] at h
  rcases h with rfl | rfl | rfl | rfl | rfl <;> exact ⟨_, rfl⟩

theorem insOf_mem {s : String} {code : Ins} (h : (s, code) ∈ symbols) : insOf s = code ∧ code ≠ .INV := by
  have : ∀ p ∈ symbols, insOf p.1 = p.2 ∧ p.2 ≠ .INV := by decide +kernel
  exact this _ h

theorem regOf_known : ∀ {s : String}, s ∈ types ∨ s ∈ bases → regOf s ≠ .INV := by
  have h1 : ∀ s ∈ types, regOf s ≠ .INV := by decide +kernel
  have h2 : ∀ s ∈ bases, regOf s ≠ .INV := by decide +kernel
  intro s h
  rcases h with h | h
  · exact h1 s h
  · exact h2 s h

theorem loadValue_ok {H : Host} {code : Ins} {d : Nat} {j : Json} (h : OperandDoc code d j) (hr : Legible code d j) :
    ∃ v, loadValue H code d j = some v := by
  obtain ⟨ms, name, ty, w, rfl, h1, h2, h3, h4, h5⟩ := h
  obtain ⟨r1, r2⟩ := hr ms ty w rfl h2 h3
  unfold loadValue
  simp only
  rw [strMember_iff.2 h1, strMember_iff.2 h2, strMember_iff.2 h3]
  simp only
  by_cases hb : IsBase code d
  · rw [if_pos (timed_iff.2 hb)]
    obtain ⟨t, ht⟩ := baseOf_some (h4 hb)
    obtain ⟨k, hk, rfl⟩ := r1 hb
    rw [ht, numberOf_toString hk]
    exact ⟨_, rfl⟩
  · rw [if_neg (fun x => hb (timed_iff.1 x))]
    have hn := regOf_known (h5 hb)
    have ht := (regOf_table (s := ty) rfl).resolve_left hn
    obtain ⟨r3, r4⟩ := r2 hb _ ht
    unfold operandOf
    split
    · rename_i e; exact absurd e hn
    · exact ⟨_, rfl⟩
    · exact ⟨_, rfl⟩
    · rename_i e
      obtain ⟨m, p, hm, hp, rfl⟩ := r3 (.inl e)
      rw [modPortOf_toString hm hp]
      exact ⟨_, rfl⟩
    · rename_i e
      obtain ⟨m, p, hm, hp, rfl⟩ := r3 (.inr e)
      rw [modPortOf_toString hm hp]
      exact ⟨_, rfl⟩
    · rename_i e1 e2 e3 e4 e5
      obtain ⟨k, hk, rfl⟩ := r4 ⟨e2, e3, e4, e5⟩
      rw [numberOf_toString hk]
      exact ⟨_, rfl⟩

theorem loadValues_ok {H : Host} {code : Ins} : ∀ {js : List Json} {d : Nat},
    (∀ i x, js[i]? = some x → ∃ v, loadValue H code (d + i) x = some v) → ∃ vs, loadValues H code d js = some vs
  | [], d, _ => ⟨[], rfl⟩
  | j :: js, d, h => by
    obtain ⟨v, hv⟩ := h 0 j rfl
    obtain ⟨vs, hvs⟩ := loadValues_ok (H := H) (code := code) (js := js) (d := d + 1) fun i x hx => by
      rw [Nat.add_right_comm, Nat.add_assoc]
      exact h (i + 1) x hx
    exact ⟨v :: vs, by unfold loadValues; rw [Nat.add_zero] at hv; rw [hv, hvs]⟩

theorem loadCell_ok {H : Host} {j : Json} (h : CellDoc H j) (hr : LegibleCell j) : ∃ x, loadCell H j = .ok (some x) := by
  obtain ⟨ms, s, code, bar, l, rfl, h1, h2, h3, h4, h5, h6, h7⟩ := h
  obtain ⟨e, hn⟩ := insOf_mem h2
  have hq : tableQty H code = .ok l.length := by
    by_cases hm : code = .MULTI
    · subst hm
      unfold tableQty
      rw [h5 rfl]
      rfl
    · rw [tableQty_operands hm, h6 hm]
  unfold loadCell
  simp only
  rw [strMember_iff.2 h1]
  simp only
  rw [e, if_neg hn, has_member.1 h3]
  simp only
  rw [has_member.1 h4]
  simp only
  unfold loadData
  rw [hq]
  simp only [if_true]
  split
  · exact ⟨_, rfl⟩
  · obtain ⟨vs, hvs⟩ := loadValues_ok (H := H) (code := code) (js := l) (d := 0) fun i x hx => by
      rw [Nat.zero_add]
      exact loadValue_ok (h7 i x hx) (hr ms s code l rfl h1 h2 h4 i x hx)
    rw [hvs]
    exact ⟨_, rfl⟩

theorem loadAll_ok {α : Type} {f : Json → Except UB (Option α)} : ∀ {l : List Json}, (∀ j ∈ l, ∃ x, f j = .ok (some x)) →
    ∃ xs, loadAll f l = .ok (some xs)
  | [], _ => ⟨[], rfl⟩
  | j :: js, h => by
    obtain ⟨x, hx⟩ := h j (by simp)
    obtain ⟨xs, hxs⟩ := loadAll_ok (f := f) (l := js) fun k hk => h k (by simp [hk])
    exact ⟨x :: xs, by unfold loadAll; rw [hx, hxs]⟩

theorem u32_number {name : String} {k : Int} {ms : List (String × Json)} (h : Number name k ms) (hr : Ranged name ms) :
    ∃ x, member ms name = some (.num x) ∧ u32OfDouble x.trunc = .ok k.toNat ∧ 0 ≤ k := by
  obtain ⟨x, hx, e⟩ := h
  obtain ⟨k', e', h0, h1⟩ := hr x hx
  rw [e] at e'
  cases e'
  refine ⟨x, has_member.1 hx, ?_, h0⟩
  rw [e]
  unfold u32OfDouble
  simp only
  rw [if_pos ⟨h0, h1⟩]

theorem loadNet_ok {H : Host} {c : Ctx} {j : Json} {l : List Network} (h : NetDoc H c.qty.networks j) (hz : Sizes j) (hr : LegibleNet j)
    (e : c.network = some l) (hl : l.length = c.qty.networks) (ht : ∀ net ∈ l, Tidy net) :
    ∃ n net, loadNet H c j = .ok (true, { c with network := some (l.set n net) }) := by
  obtain ⟨ms, id, rows, cols, data, rfl, h1, h2, h3, h4, h5, h6, h7, h8, h9⟩ := h
  obtain ⟨z1, z2, z3⟩ := hz ms rfl
  obtain ⟨x, e1, u1, -⟩ := u32_number h1 z1
  obtain ⟨y, e2, u2, -⟩ := u32_number h4 z2
  obtain ⟨z, e3, u3, -⟩ := u32_number h5 z3
  have hn : id.toNat < l.length := by omega
  have hg : ∃ g, loadAll (loadRow H cols.toNat) data = .ok (some g) := by
    refine loadAll_ok fun j hj => ?_
    obtain ⟨cells, rfl, hc, hx⟩ := h9 j hj
    unfold loadRow
    simp only
    rw [if_pos hc.symm]
    exact loadAll_ok fun x hx' => loadCell_ok (hx x hx') (hr ms data cells x rfl h6 hj hx')
  obtain ⟨g, hg⟩ := hg
  refine ⟨id.toNat, _, loadNet_eq e1 u1 (by omega) e (List.getElem?_eq_getElem hn) (ht _ (List.getElem_mem hn)) (good := true)
    (new := ⟨true, rows.toNat, cols.toNat, some g⟩) ?_⟩
  rw [loadShape_eq e2 e3 u2 u3, has_member.1 h6]
  unfold loadGrid
  simp only
  rw [if_pos (by omega), hg]

theorem loadNets_ok {H : Host} : ∀ {js : List Json} {c : Ctx} {l : List Network},
    (∀ j ∈ js, NetDoc H c.qty.networks j ∧ Sizes j ∧ LegibleNet j) → c.network = some l → l.length = c.qty.networks →
      (∀ net ∈ l, Tidy net) → ∃ c', loadNets H c js = .ok (true, c')
  | [], c, l, _, _, _, _ => ⟨c, rfl⟩
  | j :: js, c, l, hj, e, hl, ht => by
    obtain ⟨h1, h2, h3⟩ := hj j (by simp)
    obtain ⟨n, net, h4⟩ := loadNet_ok h1 h2 h3 e hl ht
    have h5 : loadNets H c [j] = .ok (true, { c with network := some (l.set n net) }) := by
      unfold loadNets
      rw [h4]
      rfl
    have h6 := loadNets_tidy h5 (fun l' hl' => by rw [e] at hl'; cases hl'; exact ht) _ rfl
    obtain ⟨c', h7⟩ := loadNets_ok (js := js) (c := { c with network := some (l.set n net) }) (fun k hk => hj k (by simp [hk])) rfl
      (by simpa using hl) h6
    exact ⟨c', by unfold loadNets; rw [h4]; exact h7⟩

theorem loadProgram_ok {H : Host} {c : Ctx} {doc : Json} (hc : Receptive c) (hd : ProgramDoc H c.qty.networks doc)
    (hz : ∀ l, doc = .arr l → ∀ j ∈ l, Sizes j ∧ LegibleNet j) : ∃ c', loadProgram H c doc = .ok (.ok, c') := by
  obtain ⟨l, rfl, hl⟩ := hd
  obtain ⟨cur, h1, h2, h3⟩ := clearProgram_total hc
  obtain ⟨c', h4⟩ := loadNets_ok (H := H) (js := l) (c := { c with network := some cur })
    (fun j hj => ⟨hl j hj, hz l rfl j hj⟩) rfl h2 (fun n hn => (h3 n hn).1)
  refine ⟨c', ?_⟩
  unfold loadProgram
  simp only
  rw [h1]
  simp only
  rw [h4]

end Ladder
