import Verif.Lemmas.Prim

/-
Lemmas on `Sets`, `Site`, `Reads` and `Dest` used to run instructions symbolically.
-/

namespace Ladder

open Spec Op

/-- The world after storing to one location. -/
def World.upd (w : World) (ℓ : Loc) (x : Nat) : World := { w with ctx := Ladder.upd w.ctx ℓ x }

@[simp] theorem World.upd_ctx (w : World) (ℓ : Loc) (x : Nat) : (w.upd ℓ x).ctx = Ladder.upd w.ctx ℓ x := rfl
@[simp] theorem World.upd_tick (w : World) (ℓ : Loc) (x : Nat) : (w.upd ℓ x).tick = w.tick := rfl
@[simp] theorem World.upd_trace (w : World) (ℓ : Loc) (x : Nat) : (w.upd ℓ x).trace = w.trace := rfl

theorem place_ne_cell {v : Value} {n r c : Nat} : place v ≠ some (.cell n r c) := by
  unfold place; simp only; split <;> (try split) <;> simp

theorem prevPlace_ne_cell {v : Value} {n r c : Nat} : prevPlace v ≠ some (.cell n r c) := by
  unfold prevPlace; simp only; split <;> (try split) <;> simp

theorem value_upd {ctx : Ctx} {v : Value} {ℓ : Loc} {x : Nat} (h : place v ≠ some ℓ) :
    value (upd ctx ℓ x) v = value ctx v := by
  have : ∀ k, ((place v).bind fun ℓ' => (load (upd ctx ℓ x) ℓ').bind (decode k)) =
      (place v).bind fun ℓ' => (load ctx ℓ').bind (decode k) := by
    intro k
    cases hp : place v with
    | none => rfl
    | some ℓ' =>
      simp only [Option.bind_some]
      rw [load_upd_ne _ _ _ _ (fun he => h (by rw [hp, he]))]
  unfold value
  split <;> first | rfl | exact this _

theorem prevOf_upd {ctx : Ctx} {v : Value} {ℓ : Loc} {x : Nat} (h : prevPlace v ≠ some ℓ) :
    prevOf (upd ctx ℓ x) v = prevOf ctx v := by
  unfold prevOf
  cases hp : prevPlace v with
  | none => rfl
  | some ℓ' =>
    simp only [Option.bind_some]
    rw [load_upd_ne _ _ _ _ (fun he => h (by rw [hp, he]))]

theorem isSome_load_upd {ctx : Ctx} {ℓ ℓ' : Loc} {x : Nat} :
    (load (upd ctx ℓ x) ℓ').isSome = (load ctx ℓ').isSome := by
  by_cases h : ℓ = ℓ'
  · subst h
    cases ℓ <;> simp [load, upd, at?_aset, at?_modify, cell?_modCell, Ctx.modIn, Ctx.modOut] <;>
      (try (cases h : at? _ _ <;> simp [at?_aset] <;> rfl)) <;> (try rfl)
  · rw [load_upd_ne _ _ _ _ h]

theorem load_lt {ctx : Ctx} {ℓ : Loc} {x : Nat} (h : load ctx ℓ = some x) : x < ℓ.size := by
  cases ℓ <;> simp only [load, Option.map_eq_some_iff, Option.bind_eq_some_iff] at h
  all_goals first
    | (obtain ⟨y, -, rfl⟩ := h; first | exact BitVec.isLt _ | exact Bool.toNat_lt _)
    | (obtain ⟨o, -, y, -, rfl⟩ := h; exact BitVec.isLt _)

namespace Spec

theorem Reads.upd {ctx : Ctx} {n r c i : Nat} {x : W32} {ℓ : Loc} {y : Nat} (h : Reads ctx n r c i x)
    (hne : ∀ v, operand? ctx n r c i = some v → place v ≠ some ℓ) : Reads (Ladder.upd ctx ℓ y) n r c i x := by
  obtain ⟨v, ho, hv⟩ := h
  exact ⟨v, by rw [operand?_upd]; exact ho, by rw [value_upd (hne v ho)]; exact hv⟩

theorem Reads.upd_cell {ctx : Ctx} {n r c i n' r' c' : Nat} {x : W32} {y : Nat} (h : Reads ctx n r c i x) :
    Reads (Ladder.upd ctx (.cell n' r' c') y) n r c i x := h.upd fun _ _ => place_ne_cell

theorem ReadsPrev.upd_cell {ctx : Ctx} {n r c i n' r' c' : Nat} {x : W32} {y : Nat} (h : ReadsPrev ctx n r c i x) :
    ReadsPrev (Ladder.upd ctx (.cell n' r' c') y) n r c i x := by
  obtain ⟨v, ho, hv⟩ := h
  exact ⟨v, by rw [operand?_upd]; exact ho, by rw [prevOf_upd prevPlace_ne_cell]; exact hv⟩

theorem Dest.upd {ctx : Ctx} {n r c i : Nat} {k : Reg} {ℓ ℓ' : Loc} {y : Nat} (h : Dest ctx n r c i k ℓ) :
    Dest (Ladder.upd ctx ℓ' y) n r c i k ℓ := by
  obtain ⟨v, ho, ht, hk, hp, hl⟩ := h
  exact ⟨v, by rw [operand?_upd]; exact ho, ht, hk, hp, by rw [isSome_load_upd]; exact hl⟩

theorem Dest.ne_cell {ctx : Ctx} {n r c i n' r' c' : Nat} {k : Reg} {ℓ : Loc} (h : Dest ctx n r c i k ℓ) :
    ℓ ≠ .cell n' r' c' := by
  obtain ⟨v, -, -, -, hp, -⟩ := h
  rintro rfl; exact place_ne_cell hp

theorem Site.upd_cell {ctx : Ctx} {n r c : Nat} {l : Bool} {x : Nat} (h : Site ctx n r c l)
    {r' c' : Nat} (hne : c = 0 ∨ r' ≠ r ∨ c' ≠ c - 1) :
    Site (Ladder.upd ctx (.cell n r' c') x) n r c l where
  fits := h.fits.upd _ _
  exec := by simpa using h.exec
  cell := by rw [isSome_load_upd]; exact h.cell
  left := by
    rw [leftPower_upd_cell, h.left]
    rcases hne with hne | hne | hne
    · exact .inl hne
    · right; intro hh; cases hh; exact hne rfl
    · right; intro hh; cases hh; exact hne rfl

theorem Site.upd_self {ctx : Ctx} {n r c : Nat} {l : Bool} {x : Nat} (h : Site ctx n r c l) :
    Site (Ladder.upd ctx (.cell n r c) x) n r c l := h.upd_cell (by omega)

theorem Site.upd {ctx : Ctx} {n r c : Nat} {l : Bool} {x : Nat} {ℓ : Loc} (h : Site ctx n r c l)
    (hne : ∀ r' c', ℓ ≠ .cell n r' c') : Site (Ladder.upd ctx ℓ x) n r c l where
  fits := h.fits.upd _ _
  exec := by simpa using h.exec
  cell := by rw [isSome_load_upd]; exact h.cell
  left := by rw [leftPower_upd_cell (.inr (hne _ _)), h.left]

theorem Site.getLeft {w : World} {n r c : Nat} {l : Bool} (h : Site w.ctx n r c l) :
    Ladder.getLeft r c w = .ok (l, w) := getLeft_ok h.exec h.left

theorem Site.setState {w : World} {n r c : Nat} {l : Bool} (h : Site w.ctx n r c l) (b : Bool) :
    Ladder.setState r c b w = .ok ((), w.upd (.cell n r c) b.toNat) := setState_ok h.exec h.cell

theorem Site.getData {env : Env} {w : World} {n r c i : Nat} {l : Bool} {x : W32} (h : Site w.ctx n r c l)
    (hx : Reads w.ctx n r c i x) : Ladder.getData env r c i w = .ok (x, w) := by
  obtain ⟨v, ho, hv⟩ := hx
  exact getData_ok h.fits h.exec ho hv

theorem Site.getPrev {w : World} {n r c i : Nat} {l : Bool} {x : W32} (h : Site w.ctx n r c l)
    (hx : ReadsPrev w.ctx n r c i x) : Ladder.getPrev r c i w = .ok (x, w) := by
  obtain ⟨v, ho, hv⟩ := hx
  exact getPrev_ok h.fits h.exec ho hv

theorem place_size {v : Value} {ℓ : Loc} (hp : place v = some ℓ) (x : W32) :
    x.toNat % ℓ.size = stored v.type x := by
  have hx := x.isLt
  unfold place at hp
  simp only at hp
  unfold stored
  cases ht : v.type <;> simp only [ht] at hp <;> simp [byteKind] at hp ⊢
  all_goals first
    | (obtain ⟨-, rfl⟩ := hp; simp only [Loc.size] <;> omega)
    | (subst hp; simp only [Loc.size] <;> omega)

theorem Site.setData {w : World} {n r c i : Nat} {l : Bool} {k : Reg} {ℓ : Loc} (h : Site w.ctx n r c l)
    (hd : Dest w.ctx n r c i k ℓ) (x : W32) :
    Ladder.setData r c i x w = .ok (.ok, w.upd ℓ (stored k x)) := by
  obtain ⟨v, ho, rfl, hk, hp, hl⟩ := hd
  rw [setData_ok h.fits h.exec ho hk hp hl, place_size hp]; rfl

theorem stored_lt {ctx : Ctx} {n r c i : Nat} {k : Reg} {ℓ : Loc} (hd : Dest ctx n r c i k ℓ) (x : W32) :
    stored k x < ℓ.size := by
  obtain ⟨v, -, rfl, -, hp, -⟩ := hd
  rw [← place_size hp]
  exact Nat.mod_lt _ (by cases ℓ <;> simp [Loc.size])

theorem Site.of_operand {ctx : Ctx} {n r c i : Nat} {v : Value} (h : operand? ctx n r c i = some v) :
    (load ctx (.cell n r c)).isSome := by
  simp only [operand?, Option.bind_eq_some_iff] at h
  obtain ⟨cell, hc, -⟩ := h
  simp [load, hc]

theorem Sets.nil (w : World) : Sets w w [] := ⟨rfl, rfl, Only.refl _, by simp⟩

theorem Sets.one {w : World} {ℓ : Loc} {x : Nat} (hl : (load w.ctx ℓ).isSome) (hx : x < ℓ.size) :
    Sets w (w.upd ℓ x) [(ℓ, x)] :=
  ⟨rfl, rfl, Only.upd _ _ _, by simp [load_upd_self _ _ _ hl hx]⟩

/-- Add a store to a location not in the list. -/
theorem Sets.add {w w' : World} {S : List (Loc × Nat)} (h : Sets w w' S) {ℓ : Loc} {x : Nat}
    (hl : (load w'.ctx ℓ).isSome) (hx : x < ℓ.size) (hn : ∀ p ∈ S, p.1 ≠ ℓ) : Sets w (w'.upd ℓ x) (S ++ [(ℓ, x)]) where
  tick := h.tick
  trace := h.trace
  only := by simpa using h.only.then_upd ℓ x
  val := by
    intro p hp
    rcases List.mem_append.1 hp with hp | hp
    · rw [World.upd_ctx, load_upd_ne _ _ _ _ (hn p hp).symm, h.val p hp]
    · simp at hp; subst hp
      exact load_upd_self _ _ _ hl hx

/-- Store again to a location in the list. -/
theorem Sets.again {w w' : World} {S : List (Loc × Nat)} (h : Sets w w' S) {ℓ : Loc} {x : Nat}
    (hl : (load w'.ctx ℓ).isSome) (hx : x < ℓ.size) (hm : ℓ ∈ S.map (·.1)) :
    Sets w (w'.upd ℓ x) (S.map fun p => if p.1 = ℓ then (ℓ, x) else p) where
  tick := h.tick
  trace := h.trace
  only := by
    have he : (S.map fun p => if p.1 = ℓ then (ℓ, x) else p).map (·.1) = S.map (·.1) := by
      rw [List.map_map]; apply List.map_congr_left; intro p _; simp; split <;> simp_all
    rw [he]
    refine (h.only.then_upd ℓ x).mono ?_
    intro ℓ' h'
    simp at h' hm ⊢
    rcases h' with h' | h'
    · exact h'
    · subst h'; exact hm
  val := by
    intro p hp
    obtain ⟨q, hq, rfl⟩ := List.mem_map.1 hp
    split
    · exact load_upd_self _ _ _ hl hx
    · rename_i hne
      rw [World.upd_ctx, load_upd_ne _ _ _ _ (Ne.symm hne), h.val q hq]

theorem bool_lt_cell (b : Bool) {n r c : Nat} : b.toNat < (Loc.cell n r c).size := by
  cases b <;> simp [Loc.size]

end Spec

end Ladder
