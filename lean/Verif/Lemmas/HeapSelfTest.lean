import Verif.Model.HeapSelfTest
import Verif.Lemmas.HeapInit
import Verif.Lemmas.HeapCell
import Verif.Lemmas.HeapWhole

/-
Ownership accounting for the test of the instructions.
-/

set_option autoImplicit false

namespace Ladder.Heap

theorem Runs.post {α : Type} {m : H α} {h : Store} {Q : α → Store → Prop} {P : α → Prop} (r : Runs m h Q) (p : Post m P) :
    Runs m h fun a h' => Q a h' ∧ P a := by
  obtain ⟨a, h', e, q⟩ := r
  exact ⟨a, h', e, q, p h a h' e⟩

/-! ### Cells of other networks -/

/-- The cells outside of network `n` are the same. -/
def Others (n : Nat) (x y : Ctx) : Prop := ∀ n', n' ≠ n → ∀ r c, y.cell n' r c = x.cell n' r c

theorem Others.refl (n : Nat) (x : Ctx) : Others n x x := fun _ _ _ _ => rfl

theorem Others.trans {n : Nat} {x y z : Ctx} (a : Others n x y) (b : Others n y z) : Others n x z :=
  fun n' h r c => (b n' h r c).trans (a n' h r c)

theorem onNet_others {β : Type} (n : Nat) (f : Net → H (β × Net)) (x : Ctx) :
    Post (onNet n f x) fun res => Others n x res.2 := by
  unfold onNet at_
  cases e : x.nets with
  | none => exact .fault
  | some a =>
    obtain ⟨b, ns⟩ := a
    refine Post.bind (Q := fun res : β × Option (Nat × List Net) => ∃ y, res.2 = some (b, ns.set n y)) ?_ ?_
    · refine .skip fun _ => ?_
      cases ns[n]? with
      | none => exact .fault
      | some net => exact .skip fun r => .pure ⟨_, rfl⟩
    · rintro ⟨r, nets⟩ ⟨y, hy⟩
      refine .pure fun n' hn r c => ?_
      have hy : nets = some (b, ns.set n y) := hy
      subst hy
      simp only [Ctx.cell, e, Option.bind_some, List.getElem?_set_ne (fun h => hn h.symm)]

theorem onCell_others {β : Type} (n r c : Nat) (f : Cell → H (β × Cell)) (x : Ctx) :
    Post (onCell n r c f x) fun res => Others n x res.2 := onNet_others n _ x

theorem spanDo_others (n c : Nat) (f : Cell → H Cell) : ∀ (k r : Nat) (x : Ctx), Post (spanDo n c f k r x) (Others n x)
  | 0, _, x => by unfold spanDo; exact .pure (.refl n x)
  | k + 1, r, x => by
    unfold spanDo
    refine (onCell_others n r c _ x).bind fun res h => ?_
    obtain ⟨u, y⟩ := res
    exact (spanDo_others n c f k (r + 1) y).mono fun z hz => h.trans hz

theorem place_others (p : Policy) (d : Ladder.Iocd) (code : Ins) (n r c : Nat) (x : Ctx) :
    Post (place p d code n r c x) fun res => Others n x res.2 := by
  unfold place
  refine .skip fun r0 => ?_
  obtain ⟨rows, _⟩ := r0
  dsimp only
  split
  · exact .pure (.refl n x)
  · refine .skip fun free => ?_
    split
    · exact .pure (.refl n x)
    · refine (spanDo_others n c _ d.cells r x).bind fun y hy => ?_
      refine (onCell_others n r c _ y).bind fun res hres => ?_
      obtain ⟨u, z⟩ := res
      dsimp only at hres ⊢
      have hz := hy.trans hres
      split
      · refine (onCell_others n r c _ z).bind fun res' hres' => ?_
        obtain ⟨u', w⟩ := res'
        exact .pure (hz.trans hres')
      · refine .skip fun q => ?_
        cases q with
        | none => exact (spanDo_others n c _ _ _ z).bind fun w hw => .pure (hz.trans hw)
        | some b =>
          refine (onCell_others n r c _ z).bind fun res' hres' => ?_
          obtain ⟨u', w⟩ := res'
          exact (spanDo_others n c _ _ _ w).bind fun v hv => .pure ((hz.trans hres').trans hv)

theorem fnCell_others (p : Policy) (d : Ladder.Iocd) (code : Ins) (fid n r c : Nat) (x : Ctx) :
    Post (fnCell p d code fid n r c x) fun res => Others n x res.2 := by
  unfold fnCell
  split
  · exact .pure (.refl n x)
  · refine .skip fun r0 => ?_
    obtain ⟨⟨rows, cols⟩, _⟩ := r0
    dsimp only
    split
    · exact .pure (.refl n x)
    · split
      · exact .pure (.refl n x)
      · split
        · split
          · exact .pure (.refl n x)
          · exact .skip fun _ => place_others p d code n r c x
        · exact place_others p d code n r c x

/-! ### A new context -/

theorem newRows_blank (p : Policy) (cols : Nat) : ∀ n, Post (newRows p cols n) fun r => r.1 = true →
    ∀ j, j < n → ∃ b, r.2[j]? = some (some (b, List.replicate cols {}))
  | 0 => by unfold newRows; exact .pure fun _ j hj => by omega
  | n + 1 => by
    unfold newRows
    refine .skip fun q => ?_
    cases q with
    | none => exact .pure fun h => by cases h
    | some b =>
      refine (newRows_blank p cols n).bind fun r hr => ?_
      obtain ⟨ok, rest⟩ := r
      refine .pure fun h j hj => ?_
      cases j with
      | zero => exact ⟨b, rfl⟩
      | succ j =>
        obtain ⟨b', hb⟩ := hr h j (by omega)
        exact ⟨b', by simpa using hb⟩

theorem newNets_blank (p : Policy) (rows cols : Nat) : ∀ n, Post (newNets p rows cols n) fun r => r.1 = true →
    ∀ i, i < n → ∃ net : Net, r.2[i]? = some net ∧ ∀ j k, j < rows → k < cols → net.cell j k = some {}
  | 0 => by unfold newNets; exact .pure fun _ j hj => by omega
  | n + 1 => by
    unfold newNets
    refine .skip fun q => ?_
    cases q with
    | none => exact .pure fun h => by cases h
    | some b =>
      refine (newRows_blank p cols rows).bind fun r hr => ?_
      obtain ⟨ok, rs⟩ := r
      dsimp only at hr ⊢
      split
      · rename_i hok
        refine (newNets_blank p rows cols n).bind fun r' hr' => ?_
        obtain ⟨ok', rest⟩ := r'
        refine .pure fun h i hi => ?_
        cases i with
        | zero =>
          refine ⟨_, rfl, fun j k hj hk => ?_⟩
          obtain ⟨b', hb⟩ := hr hok j hj
          simp [Net.cell, hb, hk]
        | succ i =>
          obtain ⟨net, h1, h2⟩ := hr' h i (by omega)
          exact ⟨net, by simpa using h1, h2⟩
      · exact .pure fun h => by cases h

theorem newSlots_blank (p : Policy) : ∀ (ss : List Slot) (x : Ctx), Post (newSlots p ss x) fun r => r.2.nets = x.nets
  | [], x => by unfold newSlots; exact .pure rfl
  | s :: ss, x => by
    unfold newSlots
    refine .skip fun q => ?_
    cases q with
    | none => exact .pure rfl
    | some b => exact newSlots_blank p ss (x.set s (some b))

/-- Every cell of a new context is empty. -/
theorem ctxInit_blank (p : Policy) (old : Ctx) {a : InitArgs} (hn : a.initNetwork = true) :
    Post (ctxInit p old a) fun r => r.1 = true → ∀ n j k, n < a.networks → j < a.rows → k < a.cols →
      r.2.cell n j k = some {} := by
  unfold ctxInit
  split
  · rename_i hv
    intro h r h' e
    have e : (Except.ok ((false, old), h) : Except Misuse ((Bool × Ctx) × Store)) = .ok (r, h') := e
    cases e
    intro h; cases h
  · refine Post.bind (Q := fun r => r.1 = true → ∀ n j k, n < a.networks → j < a.rows → k < a.cols →
      r.2.cell n j k = some {}) ?_ ?_
    · unfold initNets
      rw [if_pos hn]
      refine .skip fun q => ?_
      cases q with
      | none => exact .pure fun h => by cases h
      | some b =>
        refine (newNets_blank p a.rows a.cols a.networks).bind fun r hr => ?_
        obtain ⟨ok, nets⟩ := r
        refine .pure fun h n j k h1 h2 h3 => ?_
        obtain ⟨net, e1, e2⟩ := hr h n h1
        simp only [Ctx.cell, Option.bind_some]
        simp only at e1
        rw [e1]
        exact e2 j k h2 h3
    · rintro ⟨ok, x⟩ hx
      have no : ∀ y : Ctx, Post (cleanup y) fun r => r.1 = true → ∀ n j k, n < a.networks → j < a.rows → k < a.cols →
          r.2.cell n j k = some {} := fun y => .skip fun _ => .pure fun h => by cases h
      cases ok with
      | false => exact no x
      | true =>
        simp only [Bool.not_true, Bool.false_eq_true, if_false]
        refine (newSlots_blank p initSlots x).bind fun r hr => ?_
        obtain ⟨ok, y⟩ := r
        cases ok with
        | false => exact no y
        | true =>
          refine .pure fun _ n j k h1 h2 h3 => ?_
          have := hx rfl n j k h1 h2 h3
          simp only [Ctx.cell] at this hr ⊢
          rw [hr]
          exact this

theorem walk_each {α : Type} {f : α → H α} {P : α → α → Prop} (hr : ∀ x, P x x) (hf : ∀ x, Post (f x) (P x)) :
    ∀ (n : Nat) (xs : List α), Post (walk f n xs) fun ys => ∀ (i : Nat) x, xs[i]? = some x → ∃ y, ys[i]? = some y ∧ P x y
  | 0, xs => by unfold walk; exact .pure fun i x h => ⟨x, h, hr x⟩
  | n + 1, [] => by unfold walk; exact .fault
  | n + 1, x :: xs => by
    unfold walk
    refine (hf x).bind fun y hy => ?_
    refine (walk_each hr hf n xs).bind fun ys hys => .pure fun i z h => ?_
    cases i with
    | zero =>
      have : x = z := by simpa using h
      subst this
      exact ⟨y, rfl, hy⟩
    | succ i => exact hys i z (by simpa using h)

theorem each_each {α : Type} {f : α → H α} {P : α → α → Prop} (hr : ∀ x, P x x) (hf : ∀ x, Post (f x) (P x)) (n : Nat)
    (a : Option (Nat × List α)) : Post (each f n a) fun a' => ∀ (i : Nat) x, (a.bind fun b => b.2[i]?) = some x →
      ∃ y, (a'.bind fun b => b.2[i]?) = some y ∧ P x y := by
  unfold each
  by_cases hn : n = 0
  · rw [if_pos hn]; exact .pure fun i x h => ⟨x, h, hr x⟩
  · rw [if_neg hn]
    cases a with
    | none => exact .fault
    | some a =>
      obtain ⟨b, xs⟩ := a
      refine (walk_each (P := P) hr (fun x => .skip fun _ => hf x) n xs).bind fun ys hys => .pure fun i x h => ?_
      exact hys i x h

/-- `ladder_clear_program` leaves an empty cell empty. -/
theorem clearProgram_blank (x : Ctx) : Post (clearProgram x) fun y => ∀ n r c, x.cell n r c = some {} → y.cell n r c = some {} := by
  have h1 : ∀ x, Post (clearCell x) fun y => x = {} → y = {} := by
    intro x
    unfold clearCell dropData
    cases hx : x.data with
    | none =>
      refine Post.bind (Q := fun y => y = x) (.pure rfl) fun y hy => .pure fun e => ?_
      subst hy e
      rfl
    | some d => exact .skip fun _ => .pure fun e => by subst e; cases hx
  have h2 : ∀ (cols : Nat) (row : Row), Post (each clearCell cols row) fun y => ∀ (c : Nat),
      (row.bind fun b => b.2[c]?) = some ({} : Cell) → (y.bind fun b => b.2[c]?) = some ({} : Cell) := by
    intro cols row
    refine (each_each (P := fun x y => x = {} → y = {}) (fun _ h => h) h1 cols row).mono fun y hy c hc => ?_
    obtain ⟨z, hz, e⟩ := hy c _ hc
    rw [hz, e rfl]
  have h3 : ∀ net, Post (clearNet net) fun y => ∀ r c, net.cell r c = some {} → y.cell r c = some {} := by
    intro net
    unfold clearNet
    split
    · exact .pure fun r c h => h
    · refine (each_each (P := fun row row' : Row => ∀ (c : Nat), (row.bind fun b => b.2[c]?) = some ({} : Cell) →
        (row'.bind fun b => b.2[c]?) = some {}) (fun _ _ h => h) (h2 net.cols) net.rows net.cells).bind fun cells hcells => ?_
      refine .pure fun r c h => ?_
      have e : ∀ net : Net, net.cell r c = (net.cells.bind fun b => b.2[r]?).bind fun row => row.bind fun b => b.2[c]? := by
        intro net
        unfold Net.cell
        cases net.cells <;> rfl
      rw [e] at h ⊢
      obtain ⟨row, hrow, hc⟩ := Option.bind_eq_some_iff.1 h
      obtain ⟨row', hrow', k⟩ := hcells r row hrow
      rw [hrow']
      exact k c hc
  unfold clearProgram
  refine (each_each (P := fun net net' : Net => ∀ r c, net.cell r c = some {} → net'.cell r c = some {}) (fun _ _ _ h => h) h3
    x.networks x.nets).bind fun nets hnets => .pure fun n r c h => ?_
  have e : ∀ y : Ctx, y.cell n r c = (y.nets.bind fun b => b.2[n]?).bind fun net => net.cell r c := by
    intro y
    unfold Ctx.cell
    cases y.nets <;> rfl
  rw [e] at h ⊢
  obtain ⟨net, hnet, hc⟩ := Option.bind_eq_some_iff.1 h
  obtain ⟨net', hnet', k⟩ := hnets n net hnet
  rw [hnet']
  exact k r c hc

theorem addModule_slot (p : Policy) (tb : Table) (n : Nat) (hook : Bool) (x : Ctx) {s : Slot} (h1 : s ≠ tb.fn) (h2 : s ≠ tb.init)
    (h3 : s ≠ tb.vals) : Post (addModule p tb n hook x) fun r => r.2.slot s = x.slot s := by
  unfold addModule
  refine .skip fun q => ?_
  cases q with
  | none => exact .pure rfl
  | some b =>
    refine .skip fun q => ?_
    cases q with
    | none => exact .skip fun _ => .pure (by simp only [set_slot_ne _ _ h1])
    | some b =>
      refine .skip fun q => ?_
      cases q with
      | none => exact .skip fun _ => .skip fun _ => .pure (by simp only [set_slot_ne _ _ h1, set_slot_ne _ _ h2])
      | some b =>
        refine .skip fun _ => .skip fun _ => .skip fun _ => ?_
        cases hook with
        | true => exact .pure (by simp only [set_slot_ne _ _ h1, set_slot_ne _ _ h2, set_slot_ne _ _ h3])
        | false =>
          exact .skip fun _ => .skip fun _ => .skip fun _ => .pure (by
            simp only [set_slot_ne _ _ h1, set_slot_ne _ _ h2, set_slot_ne _ _ h3])

theorem addModule_rest (p : Policy) (tb : Table) (n : Nat) (hook : Bool) (x : Ctx) :
    Post (addModule p tb n hook x) fun r => r.2.jobs = x.jobs ∧ r.2.reads = x.reads ∧ r.2.writes = x.writes := by
  unfold addModule
  refine .skip fun q => ?_
  cases q with
  | none => exact .pure ⟨rfl, rfl, rfl⟩
  | some b =>
    refine .skip fun q => ?_
    cases q with
    | none => exact .skip fun _ => .pure ⟨rfl, rfl, rfl⟩
    | some b =>
      refine .skip fun q => ?_
      cases q with
      | none => exact .skip fun _ => .skip fun _ => .pure ⟨rfl, rfl, rfl⟩
      | some b =>
        refine .skip fun _ => .skip fun _ => .skip fun _ => ?_
        cases hook with
        | true => exact .pure ⟨rfl, rfl, rfl⟩
        | false => exact .skip fun _ => .skip fun _ => .skip fun _ => .pure ⟨rfl, rfl, rfl⟩

/-- What the registration of a module leaves alone. -/
def Kept (x y : Ctx) : Prop := y.slot .cron = x.slot .cron ∧ y.jobs = x.jobs ∧ y.nets = x.nets

theorem Post.both {α : Type} {m : H α} {P Q : α → Prop} (a : Post m P) (b : Post m Q) : Post m fun x => P x ∧ Q x :=
  fun h x h' e => ⟨a h x h' e, b h x h' e⟩

theorem addRead_kept (p : Policy) (hook : Bool) (x : Ctx) : Post (addRead p hook x) fun r => Kept x r.2 ∧ r.2.writes = x.writes := by
  unfold addRead
  split
  · exact .pure ⟨⟨rfl, rfl, rfl⟩, rfl⟩
  · refine ((addModule_slot p readTable x.reads hook x (s := .cron) (by decide) (by decide) (by decide)).both
      ((addModule_rest p readTable x.reads hook x).both (addModule_nets p readTable x.reads hook x))).bind fun r hr => ?_
    obtain ⟨ok, y⟩ := r
    cases ok with
    | false => exact .pure ⟨⟨hr.1, hr.2.1.1, hr.2.2⟩, hr.2.1.2.2⟩
    | true => exact .pure ⟨⟨hr.1, hr.2.1.1, hr.2.2⟩, hr.2.1.2.2⟩

theorem addWrite_kept (p : Policy) (hook : Bool) (x : Ctx) : Post (addWrite p hook x) fun r => Kept x r.2 := by
  unfold addWrite
  split
  · exact .pure ⟨rfl, rfl, rfl⟩
  · refine ((addModule_slot p writeTable x.writes hook x (s := .cron) (by decide) (by decide) (by decide)).both
      ((addModule_rest p writeTable x.writes hook x).both (addModule_nets p writeTable x.writes hook x))).bind fun r hr => ?_
    obtain ⟨ok, y⟩ := r
    cases ok with
    | false => exact .pure ⟨hr.1, hr.2.1.1, hr.2.2⟩
    | true => exact .pure ⟨hr.1, hr.2.1.1, hr.2.2⟩

theorem newSlots_jobs (p : Policy) : ∀ (ss : List Slot) (x : Ctx), Post (newSlots p ss x) fun r => ∃ g, r.2 = { x with slot := g }
  | [], x => by unfold newSlots; exact .pure ⟨_, rfl⟩
  | s :: ss, x => by
    unfold newSlots
    refine .skip fun q => ?_
    cases q with
    | none => exact .pure ⟨_, rfl⟩
    | some b => exact newSlots_jobs p ss (x.set s (some b))

theorem ctxInit_jobs (p : Policy) (old : Ctx) (a : InitArgs) : Post (ctxInit p old a) fun r => r.1 = true → r.2.jobs = none ∧ r.2.reads = 0 ∧ r.2.writes = 0 := by
  unfold ctxInit
  split
  · exact .pure fun h => by cases h
  · refine Post.bind (Q := fun r => r.2.jobs = none ∧ r.2.reads = 0 ∧ r.2.writes = 0) ?_ ?_
    · unfold initNets
      split
      · refine .skip fun q => ?_
        cases q with
        | none => exact .pure ⟨rfl, rfl, rfl⟩
        | some b => exact .skip fun r => .pure ⟨rfl, rfl, rfl⟩
      · exact .pure ⟨rfl, rfl, rfl⟩
    · rintro ⟨ok, x⟩ hx
      have no : ∀ y : Ctx, Post (cleanup y) fun r => r.1 = true → r.2.jobs = none ∧ r.2.reads = 0 ∧ r.2.writes = 0 :=
        fun y => .skip fun _ => .pure fun h => by cases h
      cases ok with
      | false => exact no x
      | true =>
        simp only [Bool.not_true, Bool.false_eq_true, if_false]
        refine (newSlots_jobs p initSlots x).bind fun r hr => ?_
        obtain ⟨ok, y⟩ := r
        cases ok with
        | false => exact no y
        | true =>
          obtain ⟨g, hr⟩ := hr
          have hr : y = { x with slot := g } := hr
          subst hr
          exact .pure fun _ => hx

/-! ### Everything granted -/

theorem newRows_granted {p : Policy} (hp : ∀ k, p.grow k = true) (cols : Nat) : ∀ n, Post (newRows p cols n) fun r => r.1 = true
  | 0 => by unfold newRows; exact .pure rfl
  | n + 1 => by
    unfold newRows
    refine (alloc_post hp).bind fun q hq => ?_
    cases q with
    | none => cases hq
    | some b => exact (newRows_granted hp cols n).bind fun r hr => .pure hr

theorem newNets_granted {p : Policy} (hp : ∀ k, p.grow k = true) (rows cols : Nat) :
    ∀ n, Post (newNets p rows cols n) fun r => r.1 = true
  | 0 => by unfold newNets; exact .pure rfl
  | n + 1 => by
    unfold newNets
    refine (alloc_post hp).bind fun q hq => ?_
    cases q with
    | none => cases hq
    | some b =>
      refine (newRows_granted hp cols rows).bind fun r hr => ?_
      obtain ⟨ok, rs⟩ := r
      have hr : ok = true := hr
      subst hr
      exact (newNets_granted hp rows cols n).bind fun r hr => .pure hr

theorem newSlots_granted {p : Policy} (hp : ∀ k, p.grow k = true) : ∀ (ss : List Slot) (x : Ctx),
    Post (newSlots p ss x) fun r => r.1 = true
  | [], x => by unfold newSlots; exact .pure rfl
  | s :: ss, x => by
    unfold newSlots
    refine (alloc_post hp).bind fun q hq => ?_
    cases q with
    | none => cases hq
    | some b => exact newSlots_granted hp ss _

theorem ctxInit_granted {p : Policy} (hp : ∀ k, p.grow k = true) (old : Ctx) {a : InitArgs} (hv : a.valid = true) :
    Post (ctxInit p old a) fun r => r.1 = true := by
  unfold ctxInit
  rw [hv]
  simp only [Bool.not_true, Bool.false_eq_true, if_false]
  refine Post.bind (Q := fun r => r.1 = true) ?_ ?_
  · unfold initNets
    split
    · refine (alloc_post hp).bind fun q hq => ?_
      cases q with
      | none => cases hq
      | some b => exact (newNets_granted hp _ _ _).bind fun r hr => .pure hr
    · exact .pure rfl
  · rintro ⟨ok, x⟩ hx
    have hx : ok = true := hx
    subst hx
    refine (newSlots_granted hp initSlots x).bind fun r hr => ?_
    obtain ⟨ok, y⟩ := r
    have hr : ok = true := hr
    subst hr
    exact .pure rfl

theorem enlarge_granted {p : Policy} (hp : ∀ k, p.grow k = true) (q : Ptr) : Post (enlarge p q) fun r => r.isSome := by
  cases q with
  | none => exact alloc_post hp
  | some b =>
    intro h r h' e
    unfold enlarge moveBlock at e
    simp only [hp, if_true] at e
    split at e
    · cases e; rfl
    · cases e

theorem addModule_granted {p : Policy} (hp : ∀ k, p.grow k = true) (tb : Table) (n : Nat) (x : Ctx) :
    Post (addModule p tb n true x) fun r => r.1 = true := by
  unfold addModule
  refine (enlarge_granted hp _).bind fun q hq => ?_
  cases q with
  | none => cases hq
  | some b =>
    refine (enlarge_granted hp _).bind fun q hq => ?_
    cases q with
    | none => cases hq
    | some b =>
      refine (enlarge_granted hp _).bind fun q hq => ?_
      cases q with
      | none => cases hq
      | some b => exact .skip fun _ => .skip fun _ => .skip fun _ => .pure rfl

theorem addRead_granted {p : Policy} (hp : ∀ k, p.grow k = true) {x : Ctx} (hx : x.reads = 0) :
    Post (addRead p true x) fun r => r.1 = true := by
  unfold addRead
  rw [if_neg (by omega)]
  exact (addModule_granted hp readTable x.reads x).bind fun r hr => .pure hr

theorem addWrite_granted {p : Policy} (hp : ∀ k, p.grow k = true) {x : Ctx} (hx : x.writes = 0) :
    Post (addWrite p true x) fun r => r.1 = true := by
  unfold addWrite
  rw [if_neg (by omega)]
  exact (addModule_granted hp writeTable x.writes x).bind fun r hr => .pure hr

namespace SelfTest

theorem desc_cells (code : Ins) : 1 ≤ (desc code).cells := by cases code <;> decide

theorem finish {x : Ctx} (ok : CtxOk x True) {h : Store} {R : Bag} (f : Fits h fun a => ctxBag x a + R a) :
    Runs (do let _ ← deinit x; pure () : H Unit) h fun _ h' => Fits h' R :=
  (deinit_runs ok f).bind fun _ _ hy => .pure hy.2.2.2.2

/-- The steps of a test without tables. -/
def Plain (s : Step) : Prop :=
  match s with
  | .cell _ _ _ => True
  | .foreign => True
  | _ => False

theorem body_runs (p : Policy) : ∀ (steps : List Step) (x : Ctx) (h : Store) (R : Bag), (∀ s ∈ steps, Plain s) → CtxOk x True →
    Fits h (fun a => ctxBag x a + R a) → Runs (body p steps x) h fun _ h' => Fits h' R
  | [], x, h, R, _, ok, f => by unfold body; exact finish ok f
  | s :: k, x, h, R, hs, ok, f => by
    unfold body
    refine Runs.bind (Q := fun r h' => CtxOk r.2 True ∧ Fits h' fun a => ctxBag r.2 a + R a) ?_ ?_
    · have := hs s (by simp)
      cases s with
      | cell row col code => exact fnCell_runs p (desc_cells code) code 0 0 row col ok f
      | foreign => exact addForeign_runs p 1 true ok f
      | table n => exact this.elim
      | drop n => exact this.elim
    · rintro ⟨o, y⟩ h' ⟨oky, fy⟩
      cases o with
      | true => exact body_runs p k y h' R (fun t ht => hs t (by simp [ht])) oky fy
      | false => exact finish oky fy

/-- The first cell of network `n` holds a table of one operand without text in block `b`, or nothing. -/
def Tab (x : Ctx) (n : Nat) (b : Option Nat) : Prop :=
  ∃ cell, x.cell n 0 0 = some cell ∧ cell.data = b.map fun b => (b, [none])

theorem Tab.other {x y : Ctx} {n m : Nat} {b : Option Nat} (t : Tab x m b) (o : Others n x y) (hm : m ≠ n) : Tab y m b := by
  obtain ⟨cell, h1, h2⟩ := t
  exact ⟨cell, (o m hm 0 0).trans h1, h2⟩

theorem dropTable_runs {x : Ctx} (ok : CtxOk x True) {n : Nat} {b : Option Nat} (t : Tab x n b) {h : Store} {R : Bag}
    (f : Fits h fun a => ctxBag x a + R a) :
    Runs (dropTable n x) h fun y h' => CtxOk y True ∧ Others n x y ∧ Fits h' fun a => ctxBag y a + R a := by
  obtain ⟨cell, hc, hd⟩ := t
  unfold dropTable
  refine Runs.bind ((onCell_runs ok hc (G := fun _ => 0) (R := R) (Q := fun _ _ => True) ?_ (f.congr fun a => by omega)).post
    (onCell_others n 0 0 _ x)) ?_
  · intro h R fh
    refine (free_runs (q := ptrOf cell.data) (R := R) (fh.congr fun a => ?_)).bind ?_
    · cases b with
      | none => simp [cellBag, hd, arrBag, ptrOf, ptrBag]
      | some b => simp [cellBag, hd, arrBag, ptrOf, ptrBag, sumBag]
    · rintro u h' f'
      refine .pure ⟨⟨by simp [CellOk], trivial⟩, f'.congr fun a => by simp [cellBag, arrBag]⟩
  · rintro ⟨u, y⟩ h' ⟨⟨oky, -, fy⟩, oy⟩
    exact .pure ⟨oky, oy, fy⟩

theorem setTable_runs {x : Ctx} (ok : CtxOk x True) {n b : Nat} (t : Tab x n none) {h : Store} {R : Bag}
    (f : Fits h fun a => one b a + (ctxBag x a + R a)) :
    Runs (onCell n 0 0 (fun cell => pure ((), { cell with qty := 1, data := some (b, [none]) })) x) h fun r h' =>
      CtxOk r.2 True ∧ Tab r.2 n (some b) ∧ Others n x r.2 ∧ Fits h' fun a => ctxBag r.2 a + R a := by
  obtain ⟨cell, hc, hd⟩ := t
  refine ((onCell_runs ok hc (G := one b) (R := R) (Q := fun _ y => y.data = some (b, [none])) ?_
    (f.congr fun a => by omega)).post (onCell_others n 0 0 _ x)).mono ?_
  · intro h R fh
    refine .pure ⟨⟨?_, rfl⟩, fh.congr fun a => ?_⟩
    · intro _
      exact ⟨rfl, fun _ _ => trivial⟩
    · simp [cellBag, hd, arrBag, sumBag, ptrBag]
  · rintro ⟨u, y⟩ h' ⟨⟨oky, ⟨z, hz, hy⟩, fy⟩, oy⟩
    refine ⟨oky, ⟨z, by rw [hy 0, if_pos rfl], hz⟩, oy, fy⟩

theorem tmove_runs (p : Policy) {x : Ctx} (ok : CtxOk x True) (t1 : Tab x 1 none) (t2 : Tab x 2 none) {h : Store} {R : Bag}
    (f : Fits h fun a => ctxBag x a + R a) : Runs (body p testTMOVE x) h fun _ h' => Fits h' R := by
  unfold testTMOVE body act
  dsimp only
  refine Runs.bind (Q := fun r h' => CtxOk r.2 True ∧ (r.1 = true → ∃ b, Tab r.2 1 (some b)) ∧ Tab r.2 2 none ∧
    Fits h' fun a => ctxBag r.2 a + R a) ?_ ?_
  · refine (alloc_runs p f).bind ?_
    rintro q h1 ⟨f1, -, -⟩
    cases q with
    | none => exact .pure ⟨ok, fun h => (by cases h), t2, f1.congr fun a => by simp [ptrBag]⟩
    | some b =>
      refine (setTable_runs (n := 1) ok t1 f1).bind ?_
      rintro ⟨u, y⟩ h2 ⟨oky, ty, oy, fy⟩
      exact .pure ⟨oky, fun _ => ⟨b, ty⟩, t2.other oy (by decide), fy⟩
  rintro ⟨o, x⟩ h1 ⟨ok, t1, t2, f⟩
  cases o with
  | false => exact finish ok f
  | true =>
  obtain ⟨b1, t1⟩ := t1 rfl
  simp only [if_true]
  unfold body act
  dsimp only
  refine Runs.bind (Q := fun r h' => CtxOk r.2 True ∧ (r.1 = true → Tab r.2 1 (some b1) ∧ ∃ b, Tab r.2 2 (some b)) ∧
    Fits h' fun a => ctxBag r.2 a + R a) ?_ ?_
  · refine (alloc_runs p f).bind ?_
    rintro q h1 ⟨f1, -, -⟩
    cases q with
    | none =>
      simp only [if_true]
      refine (dropTable_runs ok t1 (R := R) (f1.congr fun a => by simp [ptrBag])).bind ?_
      rintro y h2 ⟨oky, -, fy⟩
      exact .pure ⟨oky, fun h => (by cases h), fy⟩
    | some b =>
      refine (setTable_runs (n := 2) ok t2 f1).bind ?_
      rintro ⟨u, y⟩ h2 ⟨oky, ty, oy, fy⟩
      exact .pure ⟨oky, fun _ => ⟨t1.other oy (by decide), b, ty⟩, fy⟩
  rintro ⟨o, x⟩ h1 ⟨ok, t, f⟩
  cases o with
  | false => exact finish ok f
  | true =>
  obtain ⟨t1, b2, t2⟩ := t rfl
  simp only [if_true]
  unfold body act
  dsimp only
  refine ((fnCell_runs p (desc_cells .TMOVE) .TMOVE 0 0 0 0 ok f).post (fnCell_others p (desc .TMOVE) .TMOVE 0 0 0 0 x)).bind ?_
  rintro ⟨o, y⟩ h2 ⟨⟨ok, f⟩, oy⟩
  cases o with
  | false => exact finish ok f
  | true =>
  have t1 := t1.other oy (by decide)
  have t2 := t2.other oy (by decide)
  simp only [if_true]
  unfold body act
  dsimp only
  refine Runs.bind ((dropTable_runs ok t1 f).bind (Q' := fun r h' => r.1 = true ∧ CtxOk r.2 True ∧ Tab r.2 2 (some b2) ∧
    Fits h' fun a => ctxBag r.2 a + R a) ?_) ?_
  · rintro z h3 ⟨okz, oz, fz⟩
    exact .pure ⟨rfl, okz, t2.other oz (by decide), fz⟩
  rintro ⟨o, z⟩ h3 ⟨e, ok, t2, f⟩
  have e : o = true := e
  subst e
  simp only [if_true]
  unfold body act
  dsimp only
  refine Runs.bind ((dropTable_runs ok t2 f).bind (Q' := fun r h' => r.1 = true ∧ CtxOk r.2 True ∧
    Fits h' fun a => ctxBag r.2 a + R a) ?_) ?_
  · rintro w h4 ⟨okw, -, fw⟩
    exact .pure ⟨rfl, okw, fw⟩
  rintro ⟨o, w⟩ h4 ⟨e, ok, f⟩
  have e : o = true := e
  subst e
  simp only [if_true]
  unfold body
  exact finish ok f

end SelfTest

end Ladder.Heap
