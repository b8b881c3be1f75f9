import Verif.Spec.Mem
import Verif.Model.Data

/-
Algebra of locations: `upd` stores to one location; laws relating it to `load`, `shell` and `Only`.
-/

namespace Ladder

open Spec

/-- Store a number to a location. -/
def upd (ctx : Ctx) (ℓ : Loc) (v : Nat) : Ctx :=
  match ℓ with
  | .M i => { ctx with M := aset ctx.M i (BitVec.ofNat 8 v) }
  | .Cd i => { ctx with Cd := aset ctx.Cd i (BitVec.ofNat 8 v) }
  | .Cr i => { ctx with Cr := aset ctx.Cr i (BitVec.ofNat 8 v) }
  | .Td i => { ctx with Td := aset ctx.Td i (BitVec.ofNat 8 v) }
  | .Tr i => { ctx with Tr := aset ctx.Tr i (BitVec.ofNat 8 v) }
  | .Mh i => { ctx with Mh := aset ctx.Mh i (BitVec.ofNat 8 v) }
  | .Cdh i => { ctx with Cdh := aset ctx.Cdh i (BitVec.ofNat 8 v) }
  | .Crh i => { ctx with Crh := aset ctx.Crh i (BitVec.ofNat 8 v) }
  | .Tdh i => { ctx with Tdh := aset ctx.Tdh i (BitVec.ofNat 8 v) }
  | .Trh i => { ctx with Trh := aset ctx.Trh i (BitVec.ofNat 8 v) }
  | .C i => { ctx with C := aset ctx.C i (BitVec.ofNat 32 v) }
  | .D i => { ctx with D := aset ctx.D i (BitVec.ofNat 32 v) }
  | .R i => { ctx with R := aset ctx.R i (BitVec.ofNat 32 v) }
  | .acc i => { ctx with timers := ctx.timers.map (·.modify i fun t => { t with acc := BitVec.ofNat 32 v }) }
  | .stamp i => { ctx with timers := ctx.timers.map (·.modify i fun t => { t with timeStamp := BitVec.ofNat 64 v }) }
  | .I m p => ctx.modIn m fun o => { o with I := aset o.I p (BitVec.ofNat 8 v) }
  | .IW m p => ctx.modIn m fun o => { o with IW := aset o.IW p (BitVec.ofNat 32 v) }
  | .Ih m p => ctx.modIn m fun o => { o with Ih := aset o.Ih p (BitVec.ofNat 8 v) }
  | .IWh m p => ctx.modIn m fun o => { o with IWh := aset o.IWh p (BitVec.ofNat 32 v) }
  | .Q m p => ctx.modOut m fun o => { o with Q := aset o.Q p (BitVec.ofNat 8 v) }
  | .QW m p => ctx.modOut m fun o => { o with QW := aset o.QW p (BitVec.ofNat 32 v) }
  | .Qh m p => ctx.modOut m fun o => { o with Qh := aset o.Qh p (BitVec.ofNat 8 v) }
  | .QWh m p => ctx.modOut m fun o => { o with QWh := aset o.QWh p (BitVec.ofNat 32 v) }
  | .cell n r c => ctx.modCell n r c fun cell => { cell with state := decide (v ≠ 0) }

/-- Number of values a location can hold. -/
def Spec.Loc.size : Loc → Nat
  | .M _ | .Cd _ | .Cr _ | .Td _ | .Tr _ | .Mh _ | .Cdh _ | .Crh _ | .Tdh _ | .Trh _ => 256
  | .C _ | .D _ | .R _ | .acc _ => 2^32
  | .stamp _ => 2^64
  | .I _ _ | .Ih _ _ | .Q _ _ | .Qh _ _ => 256
  | .IW _ _ | .IWh _ _ | .QW _ _ | .QWh _ _ => 2^32
  | .cell _ _ _ => 2

theorem at?_aset {α : Type} (a : Arr α) (i j : Nat) (x : α) :
    at? (aset a i x) j = if i = j then (at? a j).map fun _ => x else at? a j := by
  cases a with
  | none => simp [at?, aset]
  | some l =>
    simp only [at?, aset, Option.map_some, Option.bind_some, List.getElem?_set]
    split
    · split <;> simp_all
    · rfl

theorem at?_modify {α : Type} (a : Arr α) (i j : Nat) (f : α → α) :
    at? (a.map fun l => l.modify i f) j = if i = j then (at? a j).map f else at? a j := by
  cases a with
  | none => simp [at?]
  | some l => simp only [at?, Option.map_some, Option.bind_some, List.getElem?_modify]; split <;> simp_all

theorem cell?_modCell (ctx : Ctx) (n r c n' r' c' : Nat) (f : Cell → Cell) :
    cell? (ctx.modCell n r c f) n' r' c' =
      if n = n' ∧ r = r' ∧ c = c' then (cell? ctx n' r' c').map f else cell? ctx n' r' c' := by
  simp only [cell?, Ctx.modCell, at?_modify]
  by_cases hn : n = n'
  · subst hn
    cases h : at? ctx.network n with
    | none => simp
    | some net =>
      simp only [if_true, Option.map_some, Option.bind_some, at?_modify]
      by_cases hr : r = r'
      · subst hr
        cases h2 : at? net.cells r with
        | none => simp
        | some row =>
          simp only [if_true, Option.map_some, Option.bind_some, List.getElem?_modify, true_and]
          split <;> simp_all
      · simp [hr]
  · simp [hn]

theorem load_upd_self (ctx : Ctx) (ℓ : Loc) (v : Nat) (h : (load ctx ℓ).isSome) (hv : v < ℓ.size) :
    load (upd ctx ℓ v) ℓ = some v := by
  cases ℓ <;> simp only [Loc.size] at hv <;>
    simp [load, upd, at?_aset, at?_modify, Ctx.modIn, Ctx.modOut, cell?_modCell] at h ⊢
  all_goals first
    | (rw [Option.isSome_iff_exists] at h; obtain ⟨x, hx⟩ := h; simp [hx]; omega)
    | (rw [Option.isSome_iff_exists] at h; obtain ⟨x, hx⟩ := h; simp [hx]
       match v, hv with
       | 0, _ => simp
       | 1, _ => simp)
    | (rw [Option.isSome_iff_exists] at h; obtain ⟨x, hx⟩ := h
       rw [Option.bind_eq_some_iff] at hx
       obtain ⟨o, ho, hp⟩ := hx
       simp only [Option.map_eq_some_iff] at hp
       obtain ⟨y, hy, -⟩ := hp
       simp [ho, hy, at?_aset]; omega)

theorem load_upd_ne (ctx : Ctx) (ℓ ℓ' : Loc) (v : Nat) (h : ℓ ≠ ℓ') :
    load (upd ctx ℓ v) ℓ' = load ctx ℓ' := by
  cases ℓ <;> cases ℓ' <;>
    simp only [load, upd, at?_aset, at?_modify, Ctx.modIn, Ctx.modOut, cell?_modCell] <;>
    first
    | rfl
    | (simp at h; simp [h]; done)
    | (split <;> simp [Option.map_map, Function.comp_def]; done)
    | (split
       · rename_i hm
         subst hm
         simp only [ne_eq, Loc.I.injEq, Loc.Ih.injEq, Loc.IW.injEq, Loc.IWh.injEq, Loc.Q.injEq, Loc.Qh.injEq,
           Loc.QW.injEq, Loc.QWh.injEq, true_and, reduceCtorEq, not_false_eq_true] at h
         simp [h, Option.bind_map, Function.comp_def, at?_aset]
       · rfl)
    | (rw [if_neg (by simp_all)])

theorem load_upd (ctx : Ctx) (ℓ ℓ' : Loc) (v : Nat) (h : (load ctx ℓ).isSome) (hv : v < ℓ.size) :
    load (upd ctx ℓ v) ℓ' = if ℓ = ℓ' then some v else load ctx ℓ' := by
  split
  · rename_i e; subst e; exact load_upd_self ctx ℓ v h hv
  · exact load_upd_ne ctx ℓ ℓ' v ‹_›

theorem map_modify_eq {α β : Type} (f : α → β) (g : α → α) (hfg : ∀ x, f (g x) = f x) (l : List α) (i : Nat) :
    (l.modify i g).map f = l.map f := by
  apply List.ext_getElem?
  intro j
  simp only [List.getElem?_map, List.getElem?_modify]
  split
  · cases l[j]? <;> simp [hfg]
  · cases l[j]? <;> rfl

theorem shell_upd (ctx : Ctx) (ℓ : Loc) (v : Nat) : shell (upd ctx ℓ v) = shell ctx := by
  cases ℓ <;> simp only [shell, upd, program, Ctx.modIn, Ctx.modOut, Ctx.modCell, Option.map_map, Function.comp_def]
  case cell n r c =>
    congr 1
    cases ctx.network with
    | none => rfl
    | some nets =>
      simp only [Option.map_some]
      rw [map_modify_eq]
      intro net
      simp only [netText, Option.map_map, Function.comp_def]
      congr 1
      cases net.cells with
      | none => rfl
      | some rows =>
        simp only [Option.map_some]
        rw [map_modify_eq]
        intro row
        rw [map_modify_eq]
        intro cell
        rfl
  all_goals
    congr 1
    first
    | (cases ctx.input with
       | none => rfl
       | some l => simp only [Option.map_some]; rw [map_modify_eq]; intro; rfl)
    | (cases ctx.output with
       | none => rfl
       | some l => simp only [Option.map_some]; rw [map_modify_eq]; intro; rfl)

theorem at?_map {α β : Type} (a : Arr α) (f : α → β) (i : Nat) : at? (a.map (·.map f)) i = (at? a i).map f := by
  cases a <;> simp [at?]

theorem cell?_shell (ctx : Ctx) (n r c : Nat) : cell? (shell ctx) n r c = (cell? ctx n r c).map cellText := by
  simp only [cell?, shell, program, at?_map]
  cases at? ctx.network n with
  | none => rfl
  | some net =>
    simp only [Option.map_some, Option.bind_some, netText, at?_map]
    cases at? net.cells r with
    | none => rfl
    | some row => simp

theorem operand?_shell (ctx : Ctx) (n r c i : Nat) : operand? (shell ctx) n r c i = operand? ctx n r c i := by
  simp only [operand?, cell?_shell]
  cases cell? ctx n r c <;> rfl

theorem operand?_upd (ctx : Ctx) (ℓ : Loc) (v n r c i : Nat) :
    operand? (upd ctx ℓ v) n r c i = operand? ctx n r c i := by
  rw [← operand?_shell, shell_upd, operand?_shell]

theorem Spec.Only.refl (a : Ctx) : Only a a [] := ⟨rfl, fun _ _ => rfl⟩

theorem Spec.Only.trans {a b c : Ctx} {S T : List Loc} (h : Only a b S) (h' : Only b c T) : Only a c (S ++ T) :=
  ⟨h'.1.trans h.1, fun ℓ hℓ => by
    rw [List.mem_append, not_or] at hℓ
    rw [h'.2 ℓ hℓ.2, h.2 ℓ hℓ.1]⟩

theorem Spec.Only.mono {a b : Ctx} {S T : List Loc} (h : Only a b S) (hs : ∀ ℓ ∈ S, ℓ ∈ T) : Only a b T :=
  ⟨h.1, fun ℓ hℓ => h.2 ℓ fun hm => hℓ (hs ℓ hm)⟩

theorem Spec.Only.upd (a : Ctx) (ℓ : Loc) (v : Nat) : Only a (upd a ℓ v) [ℓ] :=
  ⟨shell_upd a ℓ v, fun ℓ' h => load_upd_ne a ℓ ℓ' v (by simpa [eq_comm] using h)⟩

theorem Spec.Only.then_upd {a b : Ctx} {S : List Loc} (h : Only a b S) (ℓ : Loc) (v : Nat) :
    Only a (Ladder.upd b ℓ v) (S ++ [ℓ]) := h.trans (Only.upd b ℓ v)

section proj

theorem shell_state {a b : Ctx} (h : shell a = shell b) : a.state = b.state :=
  (congrArg Ctx.state h :)
theorem shell_writeOnFault {a b : Ctx} (h : shell a = shell b) : a.writeOnFault = b.writeOnFault :=
  (congrArg Ctx.writeOnFault h :)
theorem shell_last {a b : Ctx} (h : shell a = shell b) : a.last = b.last :=
  (congrArg Ctx.last h :)
theorem shell_qty {a b : Ctx} (h : shell a = shell b) : a.qty = b.qty :=
  (congrArg Ctx.qty h :)
theorem shell_fnReadQty {a b : Ctx} (h : shell a = shell b) : a.fnReadQty = b.fnReadQty :=
  (congrArg Ctx.fnReadQty h :)
theorem shell_fnWriteQty {a b : Ctx} (h : shell a = shell b) : a.fnWriteQty = b.fnWriteQty :=
  (congrArg Ctx.fnWriteQty h :)
theorem shell_read {a b : Ctx} (h : shell a = shell b) : a.read = b.read :=
  (congrArg Ctx.read h :)
theorem shell_write {a b : Ctx} (h : shell a = shell b) : a.write = b.write :=
  (congrArg Ctx.write h :)
theorem shell_initRead {a b : Ctx} (h : shell a = shell b) : a.initRead = b.initRead :=
  (congrArg Ctx.initRead h :)
theorem shell_initWrite {a b : Ctx} (h : shell a = shell b) : a.initWrite = b.initWrite :=
  (congrArg Ctx.initWrite h :)
theorem shell_millis {a b : Ctx} (h : shell a = shell b) : a.millis = b.millis :=
  (congrArg Ctx.millis h :)
theorem shell_delay {a b : Ctx} (h : shell a = shell b) : a.delay = b.delay :=
  (congrArg Ctx.delay h :)
theorem shell_on {a b : Ctx} (h : shell a = shell b) : a.on = b.on :=
  (congrArg Ctx.on h :)
theorem shell_scan {a b : Ctx} (h : shell a = shell b) : a.scan = b.scan :=
  (congrArg Ctx.scan h :)
theorem shell_exec {a b : Ctx} (h : shell a = shell b) : a.exec = b.exec :=
  (congrArg Ctx.exec h :)
theorem shell_foreignQty {a b : Ctx} (h : shell a = shell b) : a.foreignQty = b.foreignQty :=
  (congrArg Ctx.foreignQty h :)
theorem shell_foreign {a b : Ctx} (h : shell a = shell b) : a.foreign = b.foreign :=
  (congrArg Ctx.foreign h :)
theorem shell_cron {a b : Ctx} (h : shell a = shell b) : a.cron = b.cron :=
  (congrArg Ctx.cron h :)

variable (ctx : Ctx) (ℓ : Loc) (v : Nat)

@[simp] theorem upd_state : (upd ctx ℓ v).state = ctx.state := shell_state (shell_upd ctx ℓ v)
@[simp] theorem upd_writeOnFault : (upd ctx ℓ v).writeOnFault = ctx.writeOnFault := shell_writeOnFault (shell_upd ctx ℓ v)
@[simp] theorem upd_last : (upd ctx ℓ v).last = ctx.last := shell_last (shell_upd ctx ℓ v)
@[simp] theorem upd_qty : (upd ctx ℓ v).qty = ctx.qty := shell_qty (shell_upd ctx ℓ v)
@[simp] theorem upd_fnReadQty : (upd ctx ℓ v).fnReadQty = ctx.fnReadQty := shell_fnReadQty (shell_upd ctx ℓ v)
@[simp] theorem upd_fnWriteQty : (upd ctx ℓ v).fnWriteQty = ctx.fnWriteQty := shell_fnWriteQty (shell_upd ctx ℓ v)
@[simp] theorem upd_read : (upd ctx ℓ v).read = ctx.read := shell_read (shell_upd ctx ℓ v)
@[simp] theorem upd_write : (upd ctx ℓ v).write = ctx.write := shell_write (shell_upd ctx ℓ v)
@[simp] theorem upd_initRead : (upd ctx ℓ v).initRead = ctx.initRead := shell_initRead (shell_upd ctx ℓ v)
@[simp] theorem upd_initWrite : (upd ctx ℓ v).initWrite = ctx.initWrite := shell_initWrite (shell_upd ctx ℓ v)
@[simp] theorem upd_millis : (upd ctx ℓ v).millis = ctx.millis := shell_millis (shell_upd ctx ℓ v)
@[simp] theorem upd_delay : (upd ctx ℓ v).delay = ctx.delay := shell_delay (shell_upd ctx ℓ v)
@[simp] theorem upd_on : (upd ctx ℓ v).on = ctx.on := shell_on (shell_upd ctx ℓ v)
@[simp] theorem upd_scan : (upd ctx ℓ v).scan = ctx.scan := shell_scan (shell_upd ctx ℓ v)
@[simp] theorem upd_exec : (upd ctx ℓ v).exec = ctx.exec := shell_exec (shell_upd ctx ℓ v)
@[simp] theorem upd_foreignQty : (upd ctx ℓ v).foreignQty = ctx.foreignQty := shell_foreignQty (shell_upd ctx ℓ v)
@[simp] theorem upd_foreign : (upd ctx ℓ v).foreign = ctx.foreign := shell_foreign (shell_upd ctx ℓ v)
@[simp] theorem upd_cron : (upd ctx ℓ v).cron = ctx.cron := shell_cron (shell_upd ctx ℓ v)

end proj

end Ladder
