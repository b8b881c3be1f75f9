import Verif.Lemmas.HeapJson

/-
The loader of the heap model follows the loader of the other model when no request is refused.
-/

namespace Ladder.Heap

open Ladder (Ins Json Host UB member strMember insOf tableQty u32OfDouble mapFirst loadValue loadValues loadAll)

/-- If the run ends without misuse, its result is described by `Q`. -/
def Post {α : Type} (m : H α) (Q : α → Prop) : Prop := ∀ h a h', m h = .ok (a, h') → Q a

theorem Post.pure {α : Type} {a : α} {Q : α → Prop} (q : Q a) : Post (pure a : H α) Q := by
  intro h b h' e
  have e : (Except.ok (a, h) : Except Misuse (α × Store)) = .ok (b, h') := e
  cases e
  exact q

theorem Post.bind {α β : Type} {m : H α} {f : α → H β} {Q : α → Prop} {Q' : β → Prop} (hm : Post m Q)
    (k : ∀ a, Q a → Post (f a) Q') : Post (m >>= f) Q' := by
  intro h b h' e
  have e : H.bind m f h = .ok (b, h') := e
  unfold H.bind at e
  split at e
  · rename_i a h1 e1
    exact k a (hm _ _ _ e1) _ _ _ e
  · cases e

theorem Post.any {α : Type} {m : H α} : Post m fun _ => True := fun _ _ _ _ => trivial

theorem Post.skip {α β : Type} {m : H α} {f : α → H β} {Q : β → Prop} (k : ∀ a, Post (f a) Q) : Post (m >>= f) Q :=
  Post.any.bind fun a _ => k a

theorem Post.mono {α : Type} {m : H α} {Q Q' : α → Prop} (hm : Post m Q) (k : ∀ a, Q a → Q' a) : Post m Q' :=
  fun h a h' e => k a (hm h a h' e)

theorem Post.fault {α : Type} {e : Misuse} {Q : α → Prop} : Post (fault e : H α) Q := by
  intro h a h' e'
  cases e'

theorem alloc_post {p : Policy} (hp : ∀ k, p.grow k = true) : Post (alloc p) fun q => q.isSome := by
  intro h a h' e
  unfold alloc at e
  rw [if_pos (hp _)] at e
  cases e
  rfl

theorem ofUB_post {α : Type} {x : Except UB α} : Post (ofUB x) fun a => x = .ok a := by
  cases x with
  | ok a => exact .pure rfl
  | error e => exact .fault

theorem walk_post {α β γ : Type} {f : α → H α} {g : β → Except UB β} {v : α → γ} {w : β → γ}
    (hf : ∀ x z z', v x = w z → g z = .ok z' → Post (f x) fun y => v y = w z') :
    ∀ (n : Nat) (xs : List α) (zs zs' : List β), xs.map v = zs.map w → mapFirst g n zs = .ok zs' →
    Post (walk f n xs) fun ys => ys.map v = zs'.map w
  | 0, xs, zs, zs', hv, hg => by
    cases hg
    exact .pure hv
  | n + 1, xs, [], zs', hv, hg => by cases hg
  | n + 1, [], z :: zs, zs', hv, hg => by cases hv
  | n + 1, x :: xs, z :: zs, zs', hv, hg => by
    simp only [List.map_cons, List.cons.injEq] at hv
    unfold mapFirst at hg
    split at hg
    · cases hg
    rename_i y hy
    split at hg
    · cases hg
    rename_i ys hys
    cases hg
    unfold walk
    refine (hf x z y hv.1 hy).bind fun a ha => ?_
    refine (walk_post hf n xs zs ys hv.2 hys).bind fun as has => .pure ?_
    simp only [List.map_cons, ha, has]

theorem each_post {α β γ : Type} {f : α → H α} {g : β → Except UB β} {v : α → γ} {w : β → γ}
    (hf : ∀ x z z', v x = w z → g z = .ok z' → Post (f x) fun y => v y = w z') {n : Nat} {a : Option (Nat × List α)}
    {zs zs' : List β} (hv : (a.map fun b => b.2.map v) = some (zs.map w)) (hg : mapFirst g n zs = .ok zs') :
    Post (each f n a) fun y => (y.map fun b => b.2.map v) = some (zs'.map w) := by
  unfold each
  split
  · rename_i hn
    subst hn
    cases hg
    exact .pure hv
  · cases a with
    | none => exact .fault
    | some bx =>
      obtain ⟨b, xs⟩ := bx
      simp only [Option.map_some, Option.some.injEq] at hv
      refine (walk_post (fun x z z' h1 h2 => Post.skip fun _ => hf x z z' h1 h2) n xs zs zs' hv hg).bind fun ys hys => .pure ?_
      simp only [Option.map_some, hys]

theorem dropData_post (x : Cell) : Post (dropData x) fun y => y.code = x.code ∧ y.data = none ∧
    y.qty = if x.data.isSome then 0 else x.qty := by
  unfold dropData
  split
  · rename_i h
    exact .pure ⟨rfl, h, by simp [h]⟩
  · rename_i d h
    exact Post.skip fun _ => Post.skip fun _ => .pure ⟨rfl, rfl, by simp [h]⟩

theorem clearCell_post (x : Cell) (z z' : Ladder.Cell) (hv : x.view = shadow z) (hg : Ladder.clearCell z = .ok z') :
    Post (clearCell x) fun y => y.view = shadow z' := by
  unfold clearCell
  refine (dropData_post x).bind fun y ⟨_, h2, h3⟩ => .pure ?_
  simp only [Cell.view, shadow, Prod.mk.injEq] at hv
  obtain ⟨-, v2, v3⟩ := hv
  unfold Ladder.clearCell at hg
  cases hz : z.data with
  | none =>
    have hx : x.data = none := by
      rw [hz] at v3
      cases hd : x.data with
      | none => rfl
      | some d => rw [hd] at v3; cases v3
    rw [hx] at h3
    simp only [hz] at hg
    cases hg
    simp only [Cell.view, shadow, h2, Option.map_none, h3, Option.isSome_none, Bool.false_eq_true, if_false, v2]
  | some l =>
    have hx : x.data.isSome = true := by
      rw [hz] at v3
      cases hd : x.data with
      | none => rw [hd] at v3; cases v3
      | some d => rfl
    rw [if_pos hx] at h3
    simp only [hz] at hg
    split at hg
    · cases hg
      simp only [Cell.view, shadow, h2, h3, Option.map_none]
    · cases hg

theorem clearNet_post (x : Net) (z z' : Ladder.Network) (hv : x.view = netShadow z) (hg : Ladder.clearNetwork z = .ok z') :
    Post (clearNet x) fun y => y.view = netShadow z' := by
  have hv' := hv
  simp only [Net.view, netShadow, Prod.mk.injEq] at hv
  obtain ⟨v1, v2, v3⟩ := hv
  unfold clearNet
  unfold Ladder.clearNetwork at hg
  split
  · rename_i h0
    have : z' = z := by
      split at hg
      · split at hg <;> cases hg
        rfl
      · rw [if_pos (by omega)] at hg
        cases hg
        rfl
    rw [this]
    exact .pure hv'
  · rename_i h0
    split at hg
    · rename_i hz
      split at hg
      · rename_i hr
        cases hg
        have : x.cells = none := by
          rw [hz] at v3
          cases hd : x.cells with
          | none => rfl
          | some d => rw [hd] at v3; cases v3
        have hr0 : x.rows = 0 := by omega
        unfold each
        rw [if_pos hr0]
        exact .pure hv'
      · cases hg
    · rename_i rows hz
      rw [if_neg (by omega)] at hg
      split at hg
      · cases hg
      rename_i rows' hrows
      cases hg
      rw [hz] at v3
      rw [v1, v2]
      refine (each_post (v := fun row : Row => row.map fun b => b.2.map Cell.view)
        (w := fun row : List Ladder.Cell => some (row.map shadow)) (g := mapFirst Ladder.clearCell z.cols) ?_ v3
        hrows).bind fun cells hcells => .pure ?_
      · intro row zs zs' h1 h2
        exact each_post clearCell_post h1 h2
      · simp only [Net.view, netShadow, hcells, Option.map_some]

theorem clearProgram_post {x : Ctx} {c c' : Ladder.Ctx} (hs : Twin x c) (hg : Ladder.clearProgram c = .ok c') :
    Post (clearProgram x) fun y => Twin y c' := by
  obtain ⟨s1, s2⟩ := hs
  unfold Ladder.clearProgram at hg
  unfold clearProgram
  split at hg
  · rename_i h0
    cases hg
    unfold each
    rw [if_pos (by omega)]
    exact Post.bind (Q := fun nets => nets = x.nets) (.pure rfl) fun nets e => .pure ⟨s1, by rw [e]; exact s2⟩
  · split at hg
    · cases hg
    rename_i nets hn
    split at hg
    · cases hg
    rename_i nets' hm
    cases hg
    rw [hn] at s2
    exact (each_post clearNet_post s2 (by rw [s1]; exact hm)).bind fun a ha => .pure ⟨s1, ha⟩

/-! ### Loading -/

theorem operandOf_text {host : Host} {t : Ladder.Reg} {s : String} {v : Ladder.Value} (h : operandOf host t s = some v) :
    decide (v.type = .S) = v.cstr.isSome := by
  unfold operandOf at h
  split at h
  · cases h
  · cases h; rfl
  · cases h; rfl
  · obtain ⟨raw, -, rfl⟩ := Option.map_eq_some_iff.1 h; rfl
  · obtain ⟨raw, -, rfl⟩ := Option.map_eq_some_iff.1 h; rfl
  · obtain ⟨raw, -, rfl⟩ := Option.map_eq_some_iff.1 h
    rename_i h1 h2 h3 h4 h5
    simp only [Option.isSome_none, decide_eq_false_iff_not]
    exact h2

theorem baseOf_text {s : String} {t : Ladder.Reg} (h : baseOf s = some t) : t ≠ .S := by
  unfold baseOf at h
  repeat' split at h
  all_goals cases h
  all_goals simp

theorem loadValue_text {host : Host} {code : Ins} {d : Nat} {j : Json} {v : Ladder.Value}
    (h : loadValue host code d j = some v) : decide (v.type = .S) = v.cstr.isSome := by
  unfold loadValue at h
  split at h
  · split at h
    · split at h
      · split at h
        · cases h
        · rename_i t ht
          obtain ⟨raw, -, rfl⟩ := Option.map_eq_some_iff.1 h
          simpa using baseOf_text ht
      · exact operandOf_text h
    · cases h
  · cases h

theorem loadOperand_post {p : Policy} (hp : ∀ k, p.grow k = true) (host : Host) (code : Ins) (j : Json) (d : Nat) :
    Post (loadOperand p host code (j, d) none) fun r => r.1 = (loadValue host code d j).isSome ∧
      ∀ v, loadValue host code d j = some v → r.2.isSome = v.cstr.isSome := by
  unfold loadOperand
  simp only
  cases hv : loadValue host code d j with
  | none => exact .pure ⟨rfl, fun v hv => by cases hv⟩
  | some v =>
    have ht := loadValue_text hv
    simp only
    split
    · rename_i hS
      refine (alloc_post hp).bind fun q hq => .pure ⟨hq, ?_⟩
      intro w hw
      cases hw
      rw [← ht]
      simpa [hS] using hq
    · rename_i hS
      refine .pure ⟨rfl, ?_⟩
      intro w hw
      cases hw
      rw [← ht]
      simp [hS]

theorem loadValues_post {p : Policy} (hp : ∀ k, p.grow k = true) (host : Host) (code : Ins) (b : Nat) :
    ∀ (l : List Json) (d : Nat), Post (walkWhile (fun j x => do touch (some b); loadOperand p host code j x)
      (l.zipIdx d) (List.replicate l.length none)) fun r => r.1 = (loadValues host code d l).isSome ∧
      ∀ vs, loadValues host code d l = some vs → r.2.map Option.isSome = vs.map fun v => v.cstr.isSome
  | [], d => .pure ⟨rfl, fun vs h => by cases h; rfl⟩
  | j :: l, d => by
    simp only [List.zipIdx_cons, List.length_cons, List.replicate_succ]
    unfold walkWhile loadValues
    refine Post.bind (Post.skip fun _ => loadOperand_post hp host code j d) ?_
    rintro ⟨ok, q⟩ ⟨h1, h2⟩
    simp only at h1 h2
    cases hv : loadValue host code d j with
    | none =>
      rw [hv] at h1
      simp only [Option.isSome_none] at h1
      subst h1
      exact .pure ⟨rfl, fun vs h => by cases h⟩
    | some v =>
      rw [hv] at h1
      simp only [Option.isSome_some] at h1
      subst h1
      simp only [if_true]
      refine (loadValues_post hp host code b l (d + 1)).bind ?_
      rintro ⟨r, qs⟩ ⟨h3, h4⟩
      simp only at h3 h4
      cases hvs : loadValues host code (d + 1) l with
      | none =>
        rw [hvs] at h3
        exact .pure ⟨h3, fun vs h => by cases h⟩
      | some vs =>
        rw [hvs] at h3
        refine .pure ⟨h3, fun ws h => ?_⟩
        cases h
        simp only [List.map_cons, h2 v hv, h4 vs hvs]

theorem loadOperands_post {p : Policy} (hp : ∀ k, p.grow k = true) (host : Host) (l : List Json) (code : Ins) (bar : Bool)
    {o : Option Ladder.Cell} (hg : loadData host code bar l = .ok o) :
    Post (loadOperands p host l { code := code }) fun r => r.1 = o.isSome ∧ ∀ z, o = some z → r.2.view = shadow z := by
  unfold loadOperands
  unfold loadData at hg
  refine ofUB_post.bind fun q hq => ?_
  simp only at hq
  rw [hq] at hg
  simp only at hg
  split at hg
  · rename_i hl
    rw [if_neg (by omega)]
    split at hg
    · rename_i h0
      cases hg
      rw [if_pos h0]
      exact .pure ⟨rfl, fun z hz => by cases hz; simp [Cell.view, shadow, h0]⟩
    · rename_i h0
      cases hg
      rw [if_neg h0]
      refine (alloc_post hp).bind fun s hs => ?_
      cases s with
      | none => cases hs
      | some b =>
        have hne : l.zipIdx ≠ [] := by
          intro e
          have := congrArg List.length e
          simp only [List.length_zipIdx, List.length_nil] at this
          omega
        unfold eachWhile
        simp only
        rw [if_neg hne]
        refine Post.bind (Post.bind (loadValues_post hp host code b l 0) (Q' := fun r =>
          r.1 = (loadValues host code 0 l).isSome ∧ ∀ vs, loadValues host code 0 l = some vs →
            (r.2.map fun d => d.2.map Option.isSome) = some (vs.map fun v => v.cstr.isSome)) ?_) ?_
        · rintro ⟨r, ts⟩ ⟨h1, h2⟩
          exact .pure ⟨h1, fun vs hvs => by simp only [Option.map_some]; rw [h2 vs hvs]⟩
        · rintro ⟨ok, data⟩ ⟨h1, h2⟩
          simp only at h1 h2
          cases hvs : loadValues host code 0 l with
          | none =>
            rw [hvs] at h1
            simp only [Option.isSome_none] at h1
            subst h1
            exact Post.skip fun y => .pure ⟨rfl, fun z hz => by cases hz⟩
          | some vs =>
            rw [hvs] at h1
            simp only [Option.isSome_some] at h1
            subst h1
            refine .pure ⟨rfl, fun z hz => ?_⟩
            cases hz
            simp only [Cell.view, shadow, h2 vs hvs, Option.map_some]
  · rename_i hl
    cases hg
    rw [if_pos hl]
    exact .pure ⟨rfl, fun z hz => by cases hz⟩

theorem loadCell_post {p : Policy} (hp : ∀ k, p.grow k = true) (host : Host) (j : Json) {o : Option Ladder.Cell}
    (hg : Ladder.loadCell host j = .ok o) :
    Post (loadCell p host j {}) fun r => r.1 = o.isSome ∧ ∀ z, o = some z → r.2.view = shadow z := by
  have no : ∀ x : Cell, (Except.ok none : Except UB (Option Ladder.Cell)) = .ok o →
      Post (pure (false, x) : H (Bool × Cell)) fun r => r.1 = o.isSome ∧ ∀ z, o = some z → r.2.view = shadow z := by
    intro x e
    cases e
    exact .pure ⟨rfl, fun z hz => by cases hz⟩
  unfold Ladder.loadCell at hg
  unfold loadCell
  cases j with
  | obj ms =>
    simp only at hg ⊢
    cases hs : strMember ms "symbol" with
    | none => rw [hs] at hg; exact no _ hg
    | some s =>
      rw [hs] at hg
      simp only at hg ⊢
      split
      · rename_i hi
        rw [if_pos hi] at hg
        exact no _ hg
      · rename_i hi
        rw [if_neg hi] at hg
        split
        · rename_i bar hb
          rw [hb] at hg
          simp only at hg
          split
          · rename_i l hd
            rw [hd] at hg
            exact loadOperands_post hp host l (insOf s) bar hg
          · rename_i hd
            split at hg
            · rename_i l hd'
              exact absurd hd' (hd l)
            · exact no _ hg
        · rename_i hb
          split at hg
          · rename_i bar hb'
            exact absurd hb' (hb bar)
          · exact no _ hg
  | _ => exact no _ hg

theorem walkWhile_post {α β γ : Type} {f : Json → α → H (Bool × α)} {g : Json → Except UB (Option β)} {v : α → γ} {w : β → γ}
    {P : α → Prop} (hf : ∀ j x o, P x → g j = .ok o → Post (f j x) fun r => r.1 = o.isSome ∧ ∀ z, o = some z → v r.2 = w z)
    (b : Nat) : ∀ (js : List Json) (xs : List α) (o : Option (List β)), (∀ x ∈ xs, P x) → js.length = xs.length →
    loadAll g js = .ok o → Post (walkWhile (fun j x => do touch (some b); f j x) js xs) fun r =>
      r.1 = o.isSome ∧ ∀ zs, o = some zs → r.2.map v = zs.map w
  | [], [], o, _, _, hg => by
    cases hg
    exact .pure ⟨rfl, fun zs hz => by cases hz; rfl⟩
  | [], _ :: _, _, _, hl, _ => by simp at hl
  | _ :: _, [], _, _, hl, _ => by simp at hl
  | j :: js, x :: xs, o, hp, hl, hg => by
    unfold loadAll at hg
    unfold walkWhile
    split at hg
    · cases hg
    · rename_i hj
      cases hg
      refine Post.bind (Post.skip fun _ => hf j x _ (hp x (by simp)) hj) ?_
      rintro ⟨ok, y⟩ ⟨h1, -⟩
      have h1 : ok = false := h1
      subst h1
      exact .pure ⟨rfl, fun zs hz => by cases hz⟩
    · rename_i z hj
      refine Post.bind (Post.skip fun _ => hf j x _ (hp x (by simp)) hj) ?_
      rintro ⟨ok, y⟩ ⟨h1, h2⟩
      have h1 : ok = true := h1
      subst h1
      have h2 : v y = w z := h2 z rfl
      simp only [if_true]
      split at hg
      · cases hg
      · rename_i hjs
        cases hg
        refine (walkWhile_post hf b js xs _ (fun z hz => hp z (by simp [hz])) (by simpa using hl) hjs).bind ?_
        rintro ⟨r, ys⟩ ⟨h3, -⟩
        exact .pure ⟨h3, fun zs hz => by cases hz⟩
      · rename_i zs hjs
        cases hg
        refine (walkWhile_post hf b js xs _ (fun z hz => hp z (by simp [hz])) (by simpa using hl) hjs).bind ?_
        rintro ⟨r, ys⟩ ⟨h3, h4⟩
        simp only at h3 h4
        refine .pure ⟨h3, fun ws hw => ?_⟩
        cases hw
        simp only [List.map_cons, h2, h4 zs rfl]

theorem eachWhile_post {α β γ : Type} {f : Json → α → H (Bool × α)} {g : Json → Except UB (Option β)} {v : α → γ} {w : β → γ}
    {P : α → Prop} (hf : ∀ j x o, P x → g j = .ok o → Post (f j x) fun r => r.1 = o.isSome ∧ ∀ z, o = some z → v r.2 = w z)
    {b : Nat} {js : List Json} {xs : List α} {o : Option (List β)} (hp : ∀ x ∈ xs, P x) (hl : js.length = xs.length)
    (hg : loadAll g js = .ok o) : Post (eachWhile f js (some (b, xs))) fun r =>
      r.1 = o.isSome ∧ ∀ zs, o = some zs → (r.2.map fun d => d.2.map v) = some (zs.map w) := by
  unfold eachWhile
  split
  · rename_i h0
    subst h0
    cases hg
    have : xs = [] := List.eq_nil_of_length_eq_zero hl.symm
    subst this
    exact .pure ⟨rfl, fun zs hz => by cases hz; rfl⟩
  · refine (walkWhile_post hf b js xs o hp hl hg).bind ?_
    rintro ⟨r, ys⟩ ⟨h1, h2⟩
    exact .pure ⟨h1, fun zs hz => by simp only [Option.map_some]; rw [h2 zs hz]⟩

theorem loadRow_post {p : Policy} (hp : ∀ k, p.grow k = true) (host : Host) (cols : Nat) (j : Json) (row : Row)
    (o : Option (List Ladder.Cell)) (hr : ∃ b, row = some (b, List.replicate cols {}))
    (hg : Ladder.loadRow host cols j = .ok o) :
    Post (loadRow p host cols j row) fun r => r.1 = o.isSome ∧
      ∀ z, o = some z → (r.2.map fun b => b.2.map Cell.view) = some (z.map shadow) := by
  obtain ⟨b, rfl⟩ := hr
  have no : (Except.ok none : Except UB (Option (List Ladder.Cell))) = .ok o →
      Post (pure (false, some (b, List.replicate cols {})) : H (Bool × Row)) fun r => r.1 = o.isSome ∧
      ∀ z, o = some z → (r.2.map fun b => b.2.map Cell.view) = some (z.map shadow) := by
    intro e
    cases e
    exact .pure ⟨rfl, fun z hz => by cases hz⟩
  unfold Ladder.loadRow at hg
  unfold loadRow
  cases j with
  | arr l =>
    simp only at hg ⊢
    split
    · rename_i hl
      rw [if_pos hl] at hg
      refine eachWhile_post (P := fun x => x = ({} : Cell)) ?_ ?_ ?_ hg
      · rintro j x o rfl h
        exact loadCell_post hp host j h
      · exact fun x hx => (List.mem_replicate.1 hx).2
      · simp [hl]
    · rename_i hl
      rw [if_neg hl] at hg
      exact no hg
  | _ => exact no hg

theorem newRows_post {p : Policy} (hp : ∀ k, p.grow k = true) (cols b : Nat) :
    ∀ rows, Post (walkWhile (fun j x => do touch (some b); newRow p cols j x) (List.replicate rows ())
      (List.replicate rows none)) fun r => r.1 = true ∧ r.2.length = rows ∧
      ∀ row ∈ r.2, ∃ b, row = some (b, List.replicate cols {})
  | 0 => .pure ⟨rfl, rfl, by simp⟩
  | n + 1 => by
    simp only [List.replicate_succ]
    unfold walkWhile
    refine Post.bind (Q := fun r => r.1 = true ∧ ∃ b, r.2 = some (b, List.replicate cols {})) (Post.skip fun _ => ?_) ?_
    · unfold newRow
      refine (alloc_post hp).bind fun q hq => ?_
      cases q with
      | none => cases hq
      | some b => exact .pure ⟨rfl, b, rfl⟩
    · rintro ⟨ok, y⟩ ⟨h1, h2⟩
      have h1 : ok = true := h1
      subst h1
      simp only [if_true]
      refine (newRows_post hp cols b n).bind ?_
      rintro ⟨r, ys⟩ ⟨h3, h4, h5⟩
      refine .pure ⟨h3, by simpa using h4, fun row hrow => ?_⟩
      rcases List.mem_cons.1 hrow with rfl | hrow
      · exact h2
      · exact h5 row hrow

theorem loadGrid_post {p t : Policy} (hp : ∀ k, p.grow k = true) (ht : ∀ k, t.grow k = true) (host : Host) (rows cols : Nat)
    (data : Option Json) {good : Bool} {z : Ladder.Network} (hg : Ladder.loadGrid host rows cols data = .ok (good, z)) :
    Post (loadGrid p t host rows cols data) fun r => r.1 = good ∧ r.2.view = netShadow z := by
  have no : (Except.ok (false, { emptyNet with rows := rows, cols := cols }) : Except UB (Bool × Ladder.Network)) =
      .ok (good, z) → Post (pure (false, { rows := rows, cols := cols }) : H (Bool × Net)) fun r =>
        r.1 = good ∧ r.2.view = netShadow z := by
    intro e
    cases e
    exact .pure ⟨rfl, rfl⟩
  unfold Ladder.loadGrid at hg
  unfold loadGrid
  split
  · rename_i l
    simp only at hg
    split
    · rename_i hl
      rw [if_neg hl] at hg
      exact no hg
    · rename_i hl
      have hl : rows = l.length := Classical.not_not.1 hl
      rw [if_pos hl] at hg
      refine (alloc_post ht).bind fun q hq => ?_
      cases q with
      | none => cases hq
      | some b =>
        refine Post.bind (Q := fun r => r.1 = true ∧ ∃ rs, r.2 = some (b, rs) ∧ rs.length = rows ∧
          ∀ row ∈ rs, ∃ b, row = some (b, List.replicate cols {})) ?_ ?_
        · unfold eachWhile
          split
          · rename_i h0
            have h0 : rows = 0 := by simpa using h0
            subst h0
            exact .pure ⟨rfl, [], rfl, rfl, by simp⟩
          · refine (newRows_post hp cols b rows).bind ?_
            rintro ⟨r, ys⟩ ⟨h1, h2, h3⟩
            exact .pure ⟨h1, ys, rfl, h2, h3⟩
        · rintro ⟨ok, cells⟩ ⟨h1, rs, h2, h3, h4⟩
          have h1 : ok = true := h1
          have h2 : cells = some (b, rs) := h2
          subst h1 h2
          simp only [if_true]
          unfold fillGrid
          cases ho : loadAll (Ladder.loadRow host cols) l with
          | error e => rw [ho] at hg; cases hg
          | ok o =>
            rw [ho] at hg
            refine (eachWhile_post (v := fun row : Row => row.map fun b => b.2.map Cell.view)
              (w := fun row : List Ladder.Cell => some (row.map shadow)) (fun j x o hx h => loadRow_post hp host cols j x o hx h)
              h4 (by omega) ho).bind ?_
            rintro ⟨ok, cells⟩ ⟨h5, h6⟩
            simp only at h5 h6
            cases o with
            | none =>
              have h5 : ok = false := h5
              subst h5
              cases hg
              refine Post.bind (Q := fun y => y = ({} : Net)) ?_ fun y hy => .pure ⟨rfl, by rw [hy]; rfl⟩
              unfold releaseNet
              exact Post.skip fun _ => Post.skip fun _ => .pure rfl
            | some g =>
              have h5 : ok = true := h5
              subst h5
              cases hg
              refine .pure ⟨rfl, ?_⟩
              simp only [Net.view, netShadow, h6 g rfl, Option.map_some]
  · rename_i hd
    split at hg
    · rename_i l
      exact absurd rfl (hd l)
    · exact no hg

theorem loadShape_post {p t : Policy} (hp : ∀ k, p.grow k = true) (ht : ∀ k, t.grow k = true) (host : Host)
    (ms : List (String × Json)) {good : Bool} {z : Ladder.Network} (hg : Ladder.loadShape host ms = .ok (good, z)) :
    Post (loadShape p t host ms {}) fun r => r.1 = good ∧ r.2.view = netShadow z := by
  unfold Ladder.loadShape at hg
  unfold loadShape
  split
  · rename_i r hr
    rw [hr] at hg
    simp only at hg
    refine ofUB_post.bind fun rows hrows => ?_
    rw [hrows] at hg
    simp only at hg
    split
    · rename_i c hc
      rw [hc] at hg
      simp only at hg
      refine ofUB_post.bind fun cols hcols => ?_
      rw [hcols] at hg
      exact loadGrid_post hp ht host rows cols _ hg
    · rename_i hc
      split at hg
      · rename_i c hc'
        exact absurd hc' (hc c)
      · cases hg
        exact .pure ⟨rfl, rfl⟩
  · rename_i hr
    split at hg
    · rename_i r hr'
      exact absurd hr' (hr r)
    · cases hg
      exact .pure ⟨rfl, rfl⟩

theorem loadNet_post {p t : Policy} (hp : ∀ k, p.grow k = true) (ht : ∀ k, t.grow k = true) (host : Host) (j : Json)
    {x : Ctx} {c c' : Ladder.Ctx} {good : Bool} (hs : Twin x c) (hg : Ladder.loadNet host c j = .ok (good, c')) :
    Post (loadNet p t host j x) fun r => r.1 = good ∧ Twin r.2 c' := by
  have no : (Except.ok (false, c) : Except UB (Bool × Ladder.Ctx)) = .ok (good, c') →
      Post (pure (false, x) : H (Bool × Ctx)) fun r => r.1 = good ∧ Twin r.2 c' := by
    intro e
    cases e
    exact .pure ⟨rfl, hs⟩
  unfold Ladder.loadNet at hg
  unfold loadNet
  cases j with
  | obj ms =>
    simp only at hg ⊢
    split
    · rename_i v hv
      rw [hv] at hg
      simp only at hg
      refine ofUB_post.bind fun n hn => ?_
      rw [hn] at hg
      simp only at hg
      obtain ⟨s1, s2⟩ := hs
      split
      · rename_i h0
        rw [if_pos (by omega)] at hg
        exact no hg
      · rename_i h0
        rw [if_neg (by omega)] at hg
        split at hg
        · cases hg
        rename_i net hnet
        split at hg
        · cases hg
        rename_i hrel
        split at hg
        · cases hg
        rename_i good' z hz
        cases hg
        refine Post.bind (Q := fun r => r.1 = good ∧ ∃ b xs y, x.nets = some (b, xs) ∧ r.2 = some (b, xs.set n y) ∧
          y.view = netShadow z) ?_ ?_
        · unfold at_
          split
          · exact .fault
          · rename_i b xs hx
            refine Post.skip fun _ => ?_
            split
            · exact .fault
            · rename_i old hold
              refine Post.bind (Q := fun r => r.1 = good ∧ r.2.view = netShadow z) ?_ ?_
              · refine Post.bind (Q := fun y => y = ({} : Net)) ?_ fun y hy => ?_
                · unfold releaseNet
                  exact Post.skip fun _ => Post.skip fun _ => .pure rfl
                · rw [hy]
                  exact loadShape_post hp ht host ms hz
              · rintro ⟨r, y⟩ ⟨h1, h2⟩
                exact .pure ⟨h1, b, xs, y, hx, rfl, h2⟩
        · rintro ⟨r, nets⟩ ⟨h1, b, xs, y, hx, h2, h3⟩
          refine .pure ⟨h1, s1, ?_⟩
          simp only at h2
          rw [hx] at s2
          simp only [h2, Option.map_some, List.map_set, h3]
          cases hc : c.network with
          | none => rw [hc] at s2; cases s2
          | some l =>
            rw [hc] at s2
            simp only [Option.map_some, Option.some.injEq] at s2
            simp only [Option.map_some, List.map_set, s2]
    · rename_i hv
      split at hg
      · rename_i v hv'
        exact absurd hv' (hv v)
      · exact no hg
  | _ => exact no hg

theorem loadNets_post {p t : Policy} (hp : ∀ k, p.grow k = true) (ht : ∀ k, t.grow k = true) (host : Host) :
    ∀ (js : List Json) {x : Ctx} {c c' : Ladder.Ctx} {good : Bool}, Twin x c → Ladder.loadNets host c js = .ok (good, c') →
    Post (loadNets p t host js x) fun r => r.1 = good ∧ Twin r.2 c'
  | [], x, c, c', good, hs, hg => by
    cases hg
    exact .pure ⟨rfl, hs⟩
  | j :: js, x, c, c', good, hs, hg => by
    unfold Ladder.loadNets at hg
    unfold loadNets
    split at hg
    · cases hg
    · rename_i c1 h1
      cases hg
      refine (loadNet_post hp ht host j hs h1).bind ?_
      rintro ⟨ok, y⟩ ⟨h2, h3⟩
      have h2 : ok = false := h2
      subst h2
      exact .pure ⟨rfl, h3⟩
    · rename_i c1 h1
      refine (loadNet_post hp ht host j hs h1).bind ?_
      rintro ⟨ok, y⟩ ⟨h2, h3⟩
      have h2 : ok = true := h2
      subst h2
      exact loadNets_post hp ht host js h3 hg

theorem loadFile_post {p t : Policy} (hp : ∀ k, p.grow k = true) (ht : ∀ k, t.grow k = true) (host : Host) (doc : Json)
    {x : Ctx} {c c' : Ladder.Ctx} {e : JsonErr} (hs : Twin x c) (hg : loadProgram host c doc = .ok (e, c')) :
    Post (loadFile p t host (.tree doc) x) fun r => (r.1 = true ↔ e = .ok) ∧ Twin r.2 c' := by
  unfold loadFile
  have hbuf : Post (readFile p (.tree doc)) fun q => q.isSome := by
    unfold readFile
    refine (alloc_post hp).bind fun q hq => ?_
    simp only [hq, if_true]
    exact Post.skip fun _ => .pure hq
  refine hbuf.bind fun q hq => ?_
  cases q with
  | none => cases hq
  | some b =>
    simp only [Option.isNone_some, Bool.false_eq_true, if_false]
    refine Post.bind (Q := fun r => ∃ d, r = some (d, doc)) ?_ ?_
    · unfold parse
      refine Post.skip fun _ => (alloc_post hp).bind fun q hq => ?_
      cases q with
      | none => cases hq
      | some d => exact .pure ⟨d, rfl⟩
    · rintro _ ⟨d, rfl⟩
      refine Post.skip fun _ => ?_
      unfold loadProgram at hg
      have no : (Except.ok (JsonErr.typeInv, c) : Except UB (JsonErr × Ladder.Ctx)) = .ok (e, c') →
          Post (do touch (some d); free (some d); pure (false, x) : H (Bool × Ctx)) fun r =>
            (r.1 = true ↔ e = .ok) ∧ Twin r.2 c' := by
        intro h
        cases h
        exact Post.skip fun _ => Post.skip fun _ => .pure ⟨by simp, hs⟩
      cases doc with
      | arr l =>
        simp only at hg ⊢
        split at hg
        · cases hg
        rename_i c1 h1
        refine Post.skip fun _ => Post.bind (Q := fun r => (r.1 = true ↔ e = .ok) ∧ Twin r.2 c') ?_ fun r hr =>
          Post.skip fun _ => .pure hr
        unfold loadList
        refine (clearProgram_post hs h1).bind fun y hy => ?_
        split at hg
        · cases hg
        · rename_i c2 h2
          cases hg
          refine (loadNets_post hp ht host l hy h2).bind ?_
          rintro ⟨ok, z⟩ ⟨h3, h4⟩
          have h3 : ok = true := h3
          subst h3
          exact .pure ⟨by simp, h4⟩
        · rename_i c2 h2
          split at hg
          · cases hg
          rename_i c3 h5
          cases hg
          refine (loadNets_post hp ht host l hy h2).bind ?_
          rintro ⟨ok, z⟩ ⟨h3, h4⟩
          have h3 : ok = false := h3
          subst h3
          exact (clearProgram_post h4 h5).bind fun w hw => .pure ⟨by simp, hw⟩
      | _ => exact no hg

end Ladder.Heap
