import Verif.Lemmas.HeapWhole
import Verif.Spec.HeapMain

/-
A program read from a file without texts has no texts.
-/

set_option autoImplicit false

namespace Ladder.Heap

open Ladder (Ins Json Host member strMember loadValue operandOf regOf baseOf)

/-- A cell without texts. -/
def Plain (x : Cell) : Prop := ∀ b ts, x.data = some (b, ts) → ∀ q ∈ ts, q = none

def PlainNet (x : Net) : Prop := Holds (Holds Plain) x.cells

def PlainCtx (x : Ctx) : Prop := Holds PlainNet x.nets

theorem PlainCtx.textless {x : Ctx} (h : PlainCtx x) : Textless x := by
  intro n r c cell b ts hc
  obtain ⟨⟨b, ns⟩, h1, h2⟩ := Option.bind_eq_some_iff.1 hc
  obtain ⟨net, h3, h4⟩ := Option.bind_eq_some_iff.1 h2
  obtain ⟨⟨b2, rows⟩, h5, h6⟩ := Option.bind_eq_some_iff.1 h4
  obtain ⟨row, h7, h8⟩ := Option.bind_eq_some_iff.1 h6
  obtain ⟨⟨b3, cells⟩, h9, h10⟩ := Option.bind_eq_some_iff.1 h8
  unfold PlainCtx at h
  rw [h1] at h
  have hnet := h net (List.mem_of_getElem? h3)
  unfold PlainNet at hnet
  rw [h5] at hnet
  have hrow := hnet row (List.mem_of_getElem? h7)
  rw [h9] at hrow
  exact hrow cell (List.mem_of_getElem? h10) _ _

theorem walkWhile_among {ι α : Type} {f : ι → α → H (Bool × α)} {P : α → Prop} :
    ∀ (js : List ι), (∀ j ∈ js, ∀ x, P x → Post (f j x) fun r => r.1 = true → P r.2) →
    ∀ (xs : List α), (∀ x ∈ xs, P x) → Post (walkWhile f js xs) fun r => r.1 = true → ∀ y ∈ r.2, P y
  | [], _, xs, h => by unfold walkWhile; exact .pure fun _ => h
  | _ :: _, _, [], _ => by unfold walkWhile; exact .fault
  | j :: js, hf, x :: xs, h => by
    unfold walkWhile
    refine (hf j (by simp) x (h x (by simp))).bind fun r hr => ?_
    obtain ⟨ok, y⟩ := r
    cases ok with
    | false => exact .pure fun e => nomatch e
    | true =>
      refine (walkWhile_among js (fun j hj => hf j (by simp [hj])) xs fun z hz => h z (by simp [hz])).bind fun r' hr' => ?_
      obtain ⟨ok', ys⟩ := r'
      refine .pure fun e z hz => ?_
      rcases List.mem_cons.1 hz with rfl | hz
      · exact hr rfl
      · exact hr' e z hz

theorem eachWhile_among {ι α : Type} {f : ι → α → H (Bool × α)} {P : α → Prop} (js : List ι)
    (hf : ∀ j ∈ js, ∀ x, P x → Post (f j x) fun r => r.1 = true → P r.2) {a : Option (Nat × List α)} (ha : Holds P a) :
    Post (eachWhile f js a) fun r => r.1 = true → Holds P r.2 := by
  unfold eachWhile
  by_cases hn : js = []
  · rw [if_pos hn]; exact .pure fun _ => ha
  · rw [if_neg hn]
    cases a with
    | none => exact .fault
    | some a =>
      obtain ⟨b, xs⟩ := a
      refine (walkWhile_among (P := P) js (fun j hj x hx => .skip fun _ => hf j hj x hx) xs ha).bind fun r hr => ?_
      obtain ⟨ok, ys⟩ := r
      exact .pure hr

theorem clearCell_plain (x : Cell) (_ : Plain x) : Post (clearCell x) Plain := by
  unfold clearCell
  refine Post.bind (Q := fun y => y.data = none ∨ Plain y) ?_ fun y hy => .pure ?_
  · unfold dropData
    cases e : x.data with
    | none => exact .pure (.inl e)
    | some d => exact .skip fun _ => .skip fun _ => .pure (.inl rfl)
  · rcases hy with hy | hy
    · intro b ts e
      exact absurd (hy.symm.trans e) (by simp)
    · exact hy

theorem clearProgram_plain {x : Ctx} (hx : PlainCtx x) : Post (clearProgram x) PlainCtx := by
  unfold clearProgram
  refine (each_holds (P := PlainNet) (fun net hnet => ?_) x.networks hx).bind fun nets hn => .pure hn
  unfold clearNet
  by_cases hc : net.cols = 0
  · rw [if_pos hc]; exact .pure hnet
  · rw [if_neg hc]
    exact (each_holds (P := Holds Plain) (fun row hrow => each_holds clearCell_plain _ hrow) _ hnet).bind fun cells hcells =>
      .pure hcells

theorem regOf_text {s : String} (h : s ≠ "CSTR") : regOf s ≠ .S := by
  have key : ∀ (a : Prop) [Decidable a] (u v : Ladder.Reg), u ≠ .S → v ≠ .S → (if a then u else v) ≠ .S := by
    intro a _ u v hu hv
    split
    · exact hu
    · exact hv
  unfold regOf
  rw [if_neg h]
  repeat refine key _ _ _ (by decide) ?_
  cases hb : baseOf s with
  | none => simp
  | some t => exact baseOf_text hb

theorem loadValue_plain {host : Host} {code : Ins} {d : Nat} {j : Json} {v : Ladder.Value} (hj : wordlessOp j = true)
    (h : loadValue host code d j = some v) : v.type ≠ .S := by
  unfold loadValue at h
  split at h
  · rename_i ms
    split at h
    · rename_i ty w _ hty _
      split at h
      · split at h
        · cases h
        · rename_i t ht
          obtain ⟨raw, -, rfl⟩ := Option.map_eq_some_iff.1 h
          exact baseOf_text ht
      · have hne : ty ≠ "CSTR" := by
          intro e
          subst e
          simp [wordlessOp, hty] at hj
        have hS := regOf_text hne
        generalize regOf ty = t at h hS
        unfold operandOf at h
        split at h
        · cases h
        · exact absurd rfl hS
        · cases h; exact hS
        · obtain ⟨raw, -, rfl⟩ := Option.map_eq_some_iff.1 h; exact hS
        · obtain ⟨raw, -, rfl⟩ := Option.map_eq_some_iff.1 h; exact hS
        · obtain ⟨raw, -, rfl⟩ := Option.map_eq_some_iff.1 h; exact hS
    · cases h
  · cases h

theorem loadOperands_plain (p : Policy) (host : Host) (l : List Json) (hl : ∀ j ∈ l, wordlessOp j = true) (x : Cell) (hx : Plain x) :
    Post (loadOperands p host l x) fun r => r.1 = true → Plain r.2 := by
  unfold loadOperands
  refine .skip fun q => ?_
  by_cases h1 : l.length ≠ q
  · rw [if_pos h1]; exact .pure fun e => nomatch e
  · rw [if_neg h1]
    dsimp only
    by_cases h2 : l.length = 0
    · rw [if_pos h2]; exact .pure fun _ => hx
    · rw [if_neg h2]
      refine .skip fun q => ?_
      cases q with
      | none => exact .pure fun e => nomatch e
      | some b =>
        have h0 : Holds (fun q : Ptr => q = none) (some (b, List.replicate l.length none)) := fun q hq => (List.mem_replicate.1 hq).2
        refine (eachWhile_among (P := fun q : Ptr => q = none) l.zipIdx (fun j hj q hq => ?_) h0).bind fun r hr => ?_
        · unfold loadOperand
          split
          · exact .pure fun e => nomatch e
          · rename_i v hv
            have hm : j.1 ∈ l := (List.mem_zipIdx' (x := j.1) (i := j.2) hj).2 ▸ List.getElem_mem _
            rw [if_neg (loadValue_plain (hl _ hm) hv)]
            exact .pure fun _ => hq
        · obtain ⟨ok, data⟩ := r
          cases ok with
          | true =>
            refine .pure fun _ b' ts e => ?_
            have := hr rfl
            dsimp only at e this
            rw [e] at this
            exact this
          | false => exact .skip fun _ => .pure fun e => nomatch e

theorem loadCell_plain (p : Policy) (host : Host) (j : Json) (hj : wordlessCell j = true) (x : Cell) (hx : Plain x) :
    Post (loadCell p host j x) fun r => r.1 = true → Plain r.2 := by
  have no : ∀ y : Cell, Post (pure (false, y) : H (Bool × Cell)) fun r => r.1 = true → Plain r.2 :=
    fun y => .pure fun e => nomatch e
  unfold loadCell
  cases j with
  | obj ms =>
    dsimp only
    split
    · exact no _
    · split
      · exact no _
      · split
        · split
          · rename_i l hd
            refine loadOperands_plain p host _ (fun o ho => ?_) _ hx
            simp only [wordlessCell, hd] at hj
            exact List.all_eq_true.1 hj o ho
          · exact no _
        · exact no _
  | _ => exact no _

theorem loadRow_plain (p : Policy) (host : Host) (cols : Nat) (j : Json) (hj : wordlessRow j = true) (row : Row) (hr : Holds Plain row) :
    Post (loadRow p host cols j row) fun r => r.1 = true → Holds Plain r.2 := by
  unfold loadRow
  split
  · split
    · exact eachWhile_among _ (fun c hc => loadCell_plain p host c (List.all_eq_true.1 hj c hc)) hr
    · exact .pure fun e => nomatch e
  · exact .pure fun e => nomatch e

theorem plain_none {rows cols : Nat} : PlainNet { rows := rows, cols := cols } := trivial

theorem releaseNet_plain (x : Net) : Post (releaseNet x) PlainNet := by
  unfold releaseNet
  exact .skip fun _ => .skip fun _ => .pure trivial

theorem plain_blank : Plain {} := fun _ _ e => nomatch e

theorem loadGrid_plain (p t : Policy) (host : Host) (rows cols : Nat) (data : Option Json)
    (hd : ∀ l, data = some (.arr l) → ∀ j ∈ l, wordlessRow j = true) :
    Post (loadGrid p t host rows cols data) fun r => PlainNet r.2 := by
  unfold loadGrid
  split
  · rename_i l
    split
    · exact .pure plain_none
    · refine .skip fun q => ?_
      cases q with
      | none => exact .pure plain_none
      | some b =>
        have h0 : Holds (Holds Plain) (some (b, List.replicate rows (none : Row))) := fun row hrow => by
          rw [(List.mem_replicate.1 hrow).2]
          trivial
        refine (eachWhile_holds (P := Holds Plain) (fun u row _ => ?_) _ h0).bind fun r hr => ?_
        · unfold newRow
          refine .skip fun q => .pure fun _ => ?_
          cases q with
          | none => trivial
          | some b =>
            intro x hx
            rw [(List.mem_replicate.1 hx).2]
            exact plain_blank
        · obtain ⟨ok, cells⟩ := r
          cases ok with
          | false => exact .skip fun _ => .skip fun _ => .pure trivial
          | true =>
            unfold fillGrid
            refine (eachWhile_among _ (fun j hj => loadRow_plain p host cols j (hd l rfl j hj)) (hr rfl)).bind fun r hr => ?_
            obtain ⟨ok, cells⟩ := r
            cases ok with
            | true => exact .pure (hr rfl)
            | false => exact (releaseNet_plain _).bind fun y hy => .pure hy
  · exact .pure plain_none

theorem loadShape_plain (p t : Policy) (host : Host) (ms : List (String × Json)) (hj : wordlessNet (.obj ms) = true) {x : Net} (hx : PlainNet x) :
    Post (loadShape p t host ms x) fun r => PlainNet r.2 := by
  unfold loadShape
  split
  · refine .skip fun rows => ?_
    split
    · refine .skip fun cols => loadGrid_plain p t host rows cols _ fun l e j hm => ?_
      simp only [wordlessNet, e] at hj
      exact List.all_eq_true.1 hj j hm
    · exact .pure hx
  · exact .pure hx

theorem loadNet_plain (p t : Policy) (host : Host) (j : Json) (hj : wordlessNet j = true) {x : Ctx} (hx : PlainCtx x) :
    Post (loadNet p t host j x) fun r => PlainCtx r.2 := by
  unfold loadNet
  split
  · split
    · refine .skip fun n => ?_
      split
      · exact .pure hx
      · unfold onNet
        refine (at_holds (P := PlainNet) (fun net _ => (releaseNet_plain net).bind fun y hy => loadShape_plain p t host _ hj hy) n hx).bind
          fun r hr => ?_
        obtain ⟨r, nets⟩ := r
        exact .pure hr
    · exact .pure hx
  · exact .pure hx

theorem loadNets_plain (p t : Policy) (host : Host) : ∀ (l : List Json), (∀ j ∈ l, wordlessNet j = true) → ∀ {x : Ctx}, PlainCtx x →
    Post (loadNets p t host l x) fun r => PlainCtx r.2
  | [], _, x, hx => by unfold loadNets; exact .pure hx
  | j :: js, hl, x, hx => by
    unfold loadNets
    refine (loadNet_plain p t host j (hl j (by simp)) hx).bind fun r hr => ?_
    obtain ⟨ok, y⟩ := r
    cases ok with
    | true => exact loadNets_plain p t host js (fun j hj => hl j (by simp [hj])) hr
    | false => exact .pure hr

theorem loadFile_plain (p t : Policy) (host : Host) (file : File) (hf : wordlessFile file = true) {x : Ctx} (hx : PlainCtx x) :
    Post (loadFile p t host file x) fun r => PlainCtx r.2 := by
  unfold loadFile
  refine .skip fun buf => ?_
  split
  · exact .pure hx
  · refine Post.bind (Q := fun root => ∀ b j, root = some (b, j) → file = .tree j) ?_ fun root hroot => .skip fun _ => ?_
    · unfold parse
      split
      · refine .skip fun _ => .skip fun q => .pure fun b j e => ?_
        obtain ⟨_, -, e⟩ := Option.map_eq_some_iff.1 e
        cases e
        rfl
      · exact .skip fun _ => .pure fun _ _ e => nomatch e
    split
    · exact .pure hx
    · rename_i b l
      have e := hroot _ _ rfl
      subst e
      refine .skip fun _ => ?_
      refine Post.bind (Q := fun r => PlainCtx r.2) ?_ fun r hr => .skip fun _ => .pure hr
      unfold loadList
      refine (clearProgram_plain hx).bind fun y hy => ?_
      refine (loadNets_plain p t host _ (fun j hj => List.all_eq_true.1 hf j hj) hy).bind fun r hr => ?_
      obtain ⟨ok, z⟩ := r
      cases ok with
      | true => exact .pure hr
      | false => exact (clearProgram_plain hr).bind fun z hz => .pure hz
    · exact .skip fun _ => .skip fun _ => .pure hx

theorem newRows_plain (p : Policy) (cols : Nat) : ∀ n, Post (newRows p cols n) fun r => ∀ row ∈ r.2, Holds Plain row
  | 0 => by unfold newRows; exact .pure (by simp)
  | n + 1 => by
    unfold newRows
    refine .skip fun q => ?_
    cases q with
    | none =>
      refine .pure fun row hrow => ?_
      rw [(List.mem_replicate.1 hrow).2]
      trivial
    | some b =>
      refine (newRows_plain p cols n).bind fun r hr => ?_
      obtain ⟨ok, rest⟩ := r
      refine .pure fun row hrow => ?_
      rcases List.mem_cons.1 hrow with rfl | hrow
      · intro x hx
        rw [(List.mem_replicate.1 hx).2]
        exact plain_blank
      · exact hr row hrow

theorem newNets_plain (p : Policy) (rows cols : Nat) : ∀ n, Post (newNets p rows cols n) fun r => ∀ net ∈ r.2, PlainNet net
  | 0 => by unfold newNets; exact .pure (by simp)
  | n + 1 => by
    have rest : ∀ net ∈ List.replicate n ({} : Net), PlainNet net := fun net hnet => by
      rw [(List.mem_replicate.1 hnet).2]
      trivial
    have cons : ∀ {net0 : Net} {l : List Net}, PlainNet net0 → (∀ net ∈ l, PlainNet net) → ∀ net ∈ net0 :: l, PlainNet net := by
      intro net0 l h1 h2 net hnet
      rcases List.mem_cons.1 hnet with rfl | hnet
      · exact h1
      · exact h2 net hnet
    unfold newNets
    refine .skip fun q => ?_
    cases q with
    | none => exact .pure (cons plain_none rest)
    | some b =>
      refine (newRows_plain p cols rows).bind fun r hr => ?_
      obtain ⟨ok, rs⟩ := r
      cases ok with
      | true =>
        refine (newNets_plain p rows cols n).bind fun r' hr' => ?_
        obtain ⟨ok', l⟩ := r'
        exact .pure (cons hr hr')
      | false => exact .pure (cons hr rest)

theorem ctxInit_plain (p : Policy) (old : Ctx) (a : InitArgs) :
    Post (ctxInit p old a) fun r => r.1 = true → PlainCtx r.2 := by
  have clean : ∀ x, Post (cleanup x) fun r => r.1 = true → PlainCtx r.2 := fun x => by
    unfold cleanup
    exact .skip fun _ => .pure fun e => nomatch e
  unfold ctxInit
  split
  · exact .pure fun e => nomatch e
  · refine Post.bind (Q := fun r => Holds PlainNet r.2.nets) ?_ fun r hr => ?_
    · unfold initNets
      split
      · refine .skip fun q => ?_
        cases q with
        | none => exact .pure trivial
        | some b =>
          refine (newNets_plain p a.rows a.cols a.networks).bind fun r hr => ?_
          obtain ⟨ok, nets⟩ := r
          exact .pure hr
      · exact .pure trivial
    · obtain ⟨ok, x⟩ := r
      dsimp only
      split
      · exact clean x
      · refine (newSlots_nets p initSlots x).bind fun r' hr' => ?_
        obtain ⟨ok', y⟩ := r'
        dsimp only at hr' ⊢
        split
        · exact clean y
        · refine .pure fun _ => ?_
          show Holds PlainNet y.nets
          rw [hr']
          exact hr

end Ladder.Heap
