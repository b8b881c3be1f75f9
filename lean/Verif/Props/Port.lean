import Verif.Model.Port
import Verif.Model.Scan
import Verif.Spec.Port
import Verif.Spec.Demo
import Verif.Lemmas.Op

/-
The callbacks of the shipped port: C80 (panic report), C81 (read and write callbacks), C83 (clock and delay).
-/

set_option autoImplicit false

namespace Ladder.Props

open Spec Op Demo

theorem ok_bind {α β : Type} {x : Except UB α} {f : α → Except UB β} {b : β} :
    (x >>= f) = .ok b ↔ ∃ a, x = .ok a ∧ f a = .ok b := by
  cases x with
  | error e => simp [bind, Except.bind]
  | ok a => simp [bind, Except.bind]

theorem ok_pure {α : Type} {a b : α} : (pure a : Except UB α) = .ok b ↔ a = b := by
  simp [pure, Except.pure]

theorem ok_aget {α : Type} {a : Arr α} {i : Nat} {x : α} : aget a i = .ok x ↔ elem a i = some x := by
  unfold aget elem
  cases a with
  | none => simp
  | some l => simp only [Option.bind]; cases l[i]? <;> simp

/-- Two lists related element by element. -/
inductive Pairs {α β : Type} (R : α → β → Prop) : List α → List β → Prop
  | nil : Pairs R [] []
  | cons {x : α} {y : β} {xs : List α} {ys : List β} : R x y → Pairs R xs ys → Pairs R (x :: xs) (y :: ys)

theorem ok_mapM {α β : Type} {f : α → Except UB β} : ∀ {xs : List α} {ys : List β},
    xs.mapM f = .ok ys ↔ Pairs (fun x y => f x = .ok y) xs ys
  | [], ys => by
    rw [List.mapM_nil, ok_pure]
    constructor
    · intro h; subst h; exact .nil
    · intro h; cases h; rfl
  | x :: xs, ys => by
    rw [List.mapM_cons, ok_bind]
    constructor
    · rintro ⟨y, hy, h⟩
      rw [ok_bind] at h
      obtain ⟨ys', hys, h⟩ := h
      rw [ok_pure] at h
      subst h
      exact .cons hy (ok_mapM.1 hys)
    · intro h
      cases h with
      | cons hy hys => exact ⟨_, hy, by rw [ok_bind]; exact ⟨_, ok_mapM.2 hys, by rw [ok_pure]⟩⟩

theorem pairs_exists {α β : Type} {R : α → β → Prop} : ∀ {xs : List α}, (∀ x ∈ xs, ∃ y, R x y) →
    ∃ ys, Pairs R xs ys
  | [], _ => ⟨[], .nil⟩
  | x :: xs, h => by
    obtain ⟨y, hy⟩ := h x (by simp)
    obtain ⟨ys, hys⟩ := pairs_exists (xs := xs) fun x hx => h x (by simp [hx])
    exact ⟨y :: ys, .cons hy hys⟩

theorem pairs_mem {α β : Type} {R : α → β → Prop} : ∀ {xs : List α} {ys : List β}, Pairs R xs ys →
    ∀ x ∈ xs, ∃ y, R x y
  | _, _, .nil => by simp
  | _, _, .cons h t => by
    intro z hz
    rcases List.mem_cons.1 hz with rfl | hz
    · exact ⟨_, h⟩
    · exact pairs_mem t z hz

theorem pairs_get {α β : Type} {R : α → β → Prop} : ∀ {xs : List α} {ys : List β}, Pairs R xs ys →
    xs.length = ys.length ∧ ∀ (i : Nat) (x : α), xs[i]? = some x → ∃ y, ys[i]? = some y ∧ R x y
  | _, _, .nil => ⟨rfl, by simp⟩
  | _, _, .cons h t => by
    obtain ⟨hl, hg⟩ := pairs_get t
    refine ⟨by simp [hl], fun i x hx => ?_⟩
    cases i with
    | zero => simp only [List.getElem?_cons_zero, Option.some.injEq] at hx ⊢; subst hx; exact ⟨_, rfl, h⟩
    | succ i => simp only [List.getElem?_cons_succ] at hx ⊢; exact hg i x hx

/-- A loop that prints `n` things is defined exactly when each of them is. -/
theorem ok_range {β : Type} {f : Nat → Except UB β} {n : Nat} :
    (∃ ys, (List.range n).mapM f = .ok ys) ↔ ∀ i, i < n → ∃ y, f i = .ok y := by
  constructor
  · rintro ⟨ys, h⟩ i hi
    exact pairs_mem (ok_mapM.1 h) i (by simpa using hi)
  · intro h
    obtain ⟨ys, hys⟩ := pairs_exists (R := fun x y => f x = .ok y) (xs := List.range n) fun x hx => h x (by simpa using hx)
    exact ⟨ys, ok_mapM.2 hys⟩

theorem range_get {β : Type} {f : Nat → Except UB β} {n : Nat} {ys : List β} (h : (List.range n).mapM f = .ok ys) :
    ys.length = n ∧ ∀ i, i < n → ∃ y, ys[i]? = some y ∧ f i = .ok y := by
  obtain ⟨hl, hg⟩ := pairs_get (ok_mapM.1 h)
  refine ⟨by simpa using hl.symm, fun i hi => ?_⟩
  exact hg i i (by simp [hi])

theorem holds_iff {α : Type} {a : Arr α} {n : Nat} (hn : 0 < n) :
    Holds a n ↔ ∀ i, i < n → ∃ x, elem a i = some x := by
  unfold Holds elem
  cases a with
  | none =>
    constructor
    · rintro ⟨l, hl, _⟩; cases hl
    · intro h; obtain ⟨x, hx⟩ := h 0 hn; cases hx
  | some l =>
    simp only [Option.bind, Option.some.injEq]
    constructor
    · rintro ⟨l', rfl, hl⟩ i hi
      exact ⟨l[i], by simp [show i < l.length by omega]⟩
    · intro h
      refine ⟨l, rfl, ?_⟩
      obtain ⟨x, hx⟩ := h (n - 1) (by omega)
      have := (List.getElem?_eq_some_iff.1 hx).1
      omega

/-! ### C80: the panic report -/

/-- The report is defined exactly for the instructions and errors that existed when its tables were written. -/
theorem C80_report_defined_partial (c : Ctx) :
    (∃ r, Port.onPanic c = .ok r) ↔
      (c.last.instr ≠ .INV ∧ c.last.instr ≠ .MULTI) ∧
      (c.last.err ≠ .overflow ∧ c.last.err ≠ .null ∧ c.last.err ≠ .fail) := by
  have hs : ∃ s, elem (some Port.statusNames) c.state.code = some s := by
    cases c.state <;> exact ⟨_, rfl⟩
  have hi : (∃ s, elem (some Port.insNames) c.last.instr.code = some s) ↔ c.last.instr ≠ .INV ∧ c.last.instr ≠ .MULTI := by
    cases c.last.instr <;> simp [elem, Port.insNames, Ins.code]
  have he : (∃ s, elem (some Port.errNames) c.last.err.code = some s) ↔
      c.last.err ≠ .overflow ∧ c.last.err ≠ .null ∧ c.last.err ≠ .fail := by
    cases c.last.err <;> simp [elem, Port.errNames, Err.code]
  rw [← hi, ← he]
  unfold Port.onPanic
  simp only [ok_bind, ok_aget, ok_pure]
  constructor
  · rintro ⟨r, s, hs, i, hi, e, he, _⟩
    exact ⟨⟨i, hi⟩, ⟨e, he⟩⟩
  · rintro ⟨⟨i, hi⟩, ⟨e, he⟩⟩
    obtain ⟨s, hs⟩ := hs
    exact ⟨_, s, hs, i, hi, e, he, rfl⟩

/-- A report that is defined shows the codes and the place recorded, and names the state, the instruction and the error
(an error of mismatched types excepted). -/
theorem C80_report_names_partial (c : Ctx) (r : Port.Report) (h : Port.onPanic c = .ok r) :
    r.state = (stateName c.state, c.state.code) ∧ r.instr = (insName c.last.instr, c.last.instr.code) ∧
    r.network = c.last.network ∧ r.cell = (c.last.row, c.last.col) ∧ r.err.2 = c.last.err.code ∧
    (c.last.err ≠ .typeMismatch → r.err.1 = errName c.last.err) := by
  unfold Port.onPanic at h
  simp only [ok_bind, ok_aget, ok_pure] at h
  obtain ⟨s, hs, i, hi, e, he, rfl⟩ := h
  refine ⟨?_, ?_, rfl, rfl, rfl, ?_⟩
  · revert hs; cases c.state <;> simp [elem, Port.statusNames, St.code, stateName] <;> exact fun h => h.symm
  · revert hi; cases c.last.instr <;> simp [elem, Port.insNames, Ins.code, insName] <;> exact fun h => h.symm
  · revert he; cases c.last.err <;> simp [elem, Port.errNames, Err.code, errName] <;> exact fun h => h.symm

/-- An operand of the wrong type is reported as a failure: the name printed is the name of another error. -/
theorem C80_refuted_name (c : Ctx) (r : Port.Report) (h : Port.onPanic c = .ok r) (he : c.last.err = .typeMismatch) :
    r.err.1 = errName .fail ∧ r.err.1 ≠ errName c.last.err := by
  unfold Port.onPanic at h
  simp only [ok_bind, ok_aget, ok_pure] at h
  obtain ⟨s, hs, i, hi, e, he', rfl⟩ := h
  rw [he] at he' ⊢
  simp [elem, Port.errNames, Err.code] at he'
  subst he'
  simp [errName]

/-- Whenever the watchdog of the scan stops a program, the panic callback of the shipped port reads past its table. -/
theorem C80_refuted_watchdog (env : Env) (cnt : Nat) (w w' : World)
    (keeps : ∀ t c, (env.panic t c).on.panic = true) (hp : w.ctx.on.panic = true)
    (h : watch env cnt w = .ok (true, w')) :
    ∃ t c, w'.ctx = env.panic t c ∧ Port.onPanic c = .error .oob := by
  have bad : ∀ (c : Ctx), c.last.err = .overflow → Port.onPanic c = .error .oob := by
    intro c hc
    unfold Port.onPanic
    rw [hc]
    cases c.state <;> cases c.last.instr <;> rfl
  have cp : ∀ v : World, v.ctx.on.panic = true →
      callPanic env v = .ok ((), ⟨env.panic v.tick v.ctx, v.tick + 1, v.trace ++ [.panic]⟩) := by
    intro v hv
    simp only [callPanic, if_pos hv, external]
  have tail : ∀ v : World, v.ctx.on.panic = true →
      (getCtx >>= fun ctx =>
        if ctx.scan.maxScanCycles < cnt then do
          modCtx fun ctx => { ctx with state := .error, last := { ctx.last with err := .overflow } }
          callPanic env
          pure true
        else pure false : Op Bool) v = .ok (true, w') →
      ∃ t c, w'.ctx = env.panic t c ∧ Port.onPanic c = .error .oob := by
    intro v hv h
    rw [bind_ok (getCtx_apply v), ite_apply] at h
    split at h
    · rw [bind_ok (modCtx_apply _ v), bind_ok (cp _ (by exact hv))] at h
      simp only [pure_apply, Except.ok.injEq, Prod.mk.injEq, true_and] at h
      subst h
      exact ⟨_, _, rfl, bad _ rfl⟩
    · simp at h
  unfold watch at h
  rw [bind_ok (getCtx_apply w), ite_apply] at h
  split at h
  · rw [bind_ok (cp _ hp)] at h
    exact tail _ (keeps _ _) h
  · exact tail _ hp h

/-- Reads the outcome of a scan off a computed flag. -/
theorem of_flag {w : World} {p : Ctx → Bool} {q : World → Prop} {env : Env}
    (h : (match scan env w with | .ok (_, w') => p w'.ctx | .error _ => false) = true)
    (hq : ∀ w', p w'.ctx = true → q w') : ∃ w', scan env w = .ok ((), w') ∧ q w' := by
  split at h
  next u w' e => exact ⟨w', e, hq w' h⟩
  next => cases h

/-- Callbacks that leave the context alone, except that a panic report that cannot be printed is noted in the fault
setting. -/
def reporting : Env :=
  { Demo.env with panic := fun _ c => match Port.onPanic c with | .ok _ => c | .error _ => { c with writeOnFault := true } }

/-- A program with eight cells, watched with a limit of five steps. -/
def restless : World :=
  let w := world [net [List.replicate 8 (ins .CONN [])]]
  { w with ctx := { w.ctx with on := { panic := true }, scan := { w.ctx.scan with maxScanCycles := 5 } } }

/-- The watchdog of a scan calls the panic callback of the shipped port where it is undefined. -/
theorem C80_refuted_scan :
    ∃ w', scan reporting restless = .ok ((), w') ∧ restless.ctx.writeOnFault = false ∧ w'.ctx.writeOnFault = true ∧
      w'.ctx.last.err = .overflow :=
  of_flag (p := fun c => c.writeOnFault && decide (c.last.err = .overflow)) (by decide +kernel) fun w' h => by
    simp only [Bool.and_eq_true, decide_eq_true_eq] at h
    exact ⟨rfl, h.1, h.2⟩

example : (∃ r, Port.onPanic (ctx []) = .ok r) := (C80_report_defined_partial _).2 (by decide)

example : watch Demo.env 6 restless = .ok (true,
    { restless with
      ctx := { restless.ctx with state := .error, last := { restless.ctx.last with err := .overflow } }
      tick := 2, trace := [.panic, .panic] }) := rfl

example : Port.onPanic { ctx [] with last := { instr := .ADD, err := .typeMismatch } } =
    .ok ⟨("RUNNING", 1), ("ADD", 17), 0, (0, 0), ("FAIL", 8)⟩ := rfl

/-! ### C81: the read and write callbacks -/

theorem inMod_aset (c : Ctx) (id : Nat) (m : InMod) (j : Nat) :
    inMod { c with input := aset c.input id m } j =
      if j = id then (inMod c id).map fun _ => m else inMod c j := by
  unfold inMod elem aset
  cases c.input with
  | none => simp
  | some l =>
    simp only [Option.map, Option.bind, List.getElem?_set]
    by_cases e : j = id
    · subst e
      simp only [if_true]
      by_cases hl : j < l.length
      · simp [hl]
      · simp [hl]
    · rw [if_neg (fun h : id = j => e h.symm), if_neg e]

theorem elem_aset {α : Type} (a : Arr α) (i j : Nat) (x : α) :
    elem (aset a i x) j = if j = i then (elem a i).map fun _ => x else elem a j := by
  unfold elem aset
  cases a with
  | none => simp
  | some l =>
    simp only [Option.map, Option.bind, List.getElem?_set]
    by_cases e : j = i
    · subst e
      by_cases hl : j < l.length <;> simp [hl]
    · rw [if_neg (fun h : i = j => e h.symm), if_neg e]

theorem map_set {α β : Type} (f : α → β) : ∀ (l : List α) (i : Nat) (x y : α), l[i]? = some y → f x = f y →
    (l.set i x).map f = l.map f
  | [], _, _, _, h, _ => by simp at h
  | a :: l, 0, x, y, h, e => by simp at h; subst h; simp [e]
  | a :: l, i + 1, x, y, h, e => by
    simp only [List.set_cons_succ, List.map_cons, map_set f l i x y (by simpa using h) e]

/-- What `dummy_read` does, for any keys typed: it toggles the input named by the last key, or asks the task to stop,
changes nothing else, and shows the first eight inputs. -/
theorem C81_read_effect (typed : List Byte) (id : Nat) (c c' : Ctx) (shown : List Byte)
    (h : Port.read typed id c = .ok (c', shown)) :
    (∀ j k, inBit c' j k =
      if j = id ∧ typed.getLast? = some (BitVec.ofNat 8 (k + 48)) ∧ k < 8 then
        (inBit c j k).map fun b => if b = 0 then 1 else 0
      else inBit c j k) ∧
    c'.state = (if typed.getLast? = some 81 ∨ typed.getLast? = some 113 then .exitTsk else c.state) ∧
    besides c' = besides c ∧
    shown.length = 8 ∧ ∀ k, k < 8 → inBit c' id k = shown[k]? := by
  -- the character
  have hkey : ∀ x : Byte, x ≠ 0 → ((Port.key typed).toNat = x.toNat ↔ typed.getLast? = some x) := by
    intro x hx
    unfold Port.key
    cases typed.getLast? with
    | none =>
      simp only [Option.getD]
      constructor
      · intro e; exact absurd (BitVec.eq_of_toNat_eq e).symm hx
      · intro e; cases e
    | some y =>
      simp only [Option.getD, Option.some.injEq]
      exact ⟨fun e => BitVec.eq_of_toNat_eq e, fun e => by rw [e]⟩
  have h81 := hkey 81 (by decide)
  have h113 := hkey 113 (by decide)
  have hd : ∀ k, k < 8 → ((Port.key typed).toNat = k + 48 ↔ typed.getLast? = some (BitVec.ofNat 8 (k + 48))) := by
    intro k hk
    have e : (BitVec.ofNat 8 (k + 48)).toNat = k + 48 := by simp; omega
    rw [← hkey (BitVec.ofNat 8 (k + 48)) (by intro h0; rw [h0] at e; simp at e), e]
  unfold Port.read at h
  simp only [ok_bind, ok_aget, ok_pure] at h
  generalize hc1 : (if (Port.key typed).toNat = 81 ∨ (Port.key typed).toNat = 113 then { c with state := St.exitTsk } else c) = c1 at h
  obtain ⟨c2, hc2, m, hm, l, hl, he⟩ := h
  unfold Port.toggle at hc2
  simp only [Prod.mk.injEq] at he
  obtain ⟨rfl, rfl⟩ := he
  have s1 : c1.state = if typed.getLast? = some 81 ∨ typed.getLast? = some 113 then .exitTsk else c.state := by
    rw [← hc1]
    have : (81#8).toNat = 81 := rfl
    simp only [← h81, ← h113]
    show _ = if (Port.key typed).toNat = 81 ∨ (Port.key typed).toNat = 113 then _ else _
    split <;> rfl
  have i1 : c1.input = c.input := by rw [← hc1]; split <;> rfl
  have b1 : besides c1 = besides c := by rw [← hc1]; split <;> rfl
  have bit1 : ∀ j k, inBit c1 j k = inBit c j k := by intro j k; simp only [inBit, inMod, i1]
  obtain ⟨ll, lg⟩ := range_get hl
  have last : ∀ k, k < 8 → inBit c2 id k = l[k]? := by
    intro k hk
    obtain ⟨y, hy, hf⟩ := lg k hk
    rw [ok_aget] at hf
    show (inMod c2 id).bind _ = _
    rw [show inMod c2 id = some m from hm, hy]
    exact hf
  by_cases hch : 47 < (Port.key typed).toNat ∧ (Port.key typed).toNat < 56
  · rw [if_pos hch] at hc2
    simp only [ok_bind, ok_aget, ok_pure] at hc2
    obtain ⟨m0, hm0, v, hv, rfl⟩ := hc2
    have hm0' : inMod c1 id = some m0 := hm0
    refine ⟨fun j k => ?_, ?_, ?_, ll, last⟩
    · show (inMod { c1 with input := aset c1.input id _ } j).bind _ = _
      rw [inMod_aset]
      by_cases ej : j = id
      · subst ej
        rw [if_pos rfl, hm0']
        show elem (aset m0.I _ _) k = _
        rw [elem_aset]
        by_cases ek : k = (Port.key typed).toNat - 48
        · subst ek
          rw [if_pos rfl, hv]
          have hk8 : (Port.key typed).toNat - 48 < 8 := by omega
          refine Eq.trans ?_ (if_pos ⟨rfl, (hd _ hk8).1 (by omega), hk8⟩).symm
          rw [← bit1]
          show _ = ((inMod c1 j).bind _).map _
          rw [hm0']
          show _ = (elem m0.I _).map _
          rw [hv]
          simp only [Option.map, Option.some.injEq]
          by_cases v0 : v = 0
          · subst v0; simp
          · have : 0 < v.toNat := by
              rcases Nat.eq_zero_or_pos v.toNat with e | e
              · exact absurd (BitVec.eq_of_toNat_eq e) v0
              · exact e
            rw [if_pos this, if_neg v0]
        · rw [if_neg ek, if_neg, ← bit1]
          · show _ = (inMod c1 j).bind _
            rw [hm0']; rfl
          · rintro ⟨_, e, hk⟩
            exact ek (by have := (hd k hk).2 e; omega)
      · rw [if_neg ej, if_neg (by rintro ⟨e, _⟩; exact ej e), ← bit1]
        rfl
    · exact s1
    · rw [← b1]
      have : c1.input.isSome := by
        revert hm0; unfold elem; cases c1.input <;> simp
      obtain ⟨l1, hl1⟩ := Option.isSome_iff_exists.1 this
      simp only [besides, hl1, aset, Option.map_some]
      congr 1
      congr 1
      exact map_set _ _ _ _ m0 (by simpa [elem, hl1] using hm0) rfl
  · rw [if_neg hch, Except.ok.injEq] at hc2
    subst hc2
    refine ⟨fun j k => ?_, s1, b1, ll, last⟩
    rw [bit1, if_neg]
    rintro ⟨_, e, hk⟩
    have := (hd k hk).2 e
    omega

/-- `dummy_read` is defined exactly when its module has at least eight digital inputs, whatever is typed. -/
theorem C81_read_defined (typed : List Byte) (id : Nat) (c : Ctx) :
    (∃ r, Port.read typed id c = .ok r) ↔ ∃ m, inMod c id = some m ∧ Holds m.I 8 := by
  constructor
  · rintro ⟨⟨c', shown⟩, h⟩
    obtain ⟨hb, _, _, hlen, hs⟩ := C81_read_effect typed id c c' shown h
    have each : ∀ k, k < 8 → ∃ b, inBit c id k = some b := by
      intro k hk
      have h1 := hs k hk
      rw [hb, List.getElem?_eq_getElem (show k < shown.length by omega)] at h1
      revert h1
      split
      · intro h1; cases hx : inBit c id k with
        | none => rw [hx] at h1; cases h1
        | some b => exact ⟨b, rfl⟩
      · intro h1; exact ⟨_, h1⟩
    cases hm : inMod c id with
    | none => obtain ⟨b, hb⟩ := each 0 (by omega); simp [inBit, hm] at hb
    | some m =>
      refine ⟨m, rfl, (holds_iff (by omega)).2 fun k hk => ?_⟩
      obtain ⟨b, hb⟩ := each k hk
      exact ⟨b, by simpa [inBit, hm] using hb⟩
  · rintro ⟨m, hm, hI⟩
    have hI' := (holds_iff (by omega)).1 hI
    unfold Port.read
    generalize hc1 : (if (Port.key typed).toNat = 81 ∨ (Port.key typed).toNat = 113 then { c with state := St.exitTsk } else c) = c1
    have hm1 : elem c1.input id = some m := by rw [← hc1]; split <;> exact hm
    simp only [ok_bind, ok_aget, ok_pure, hc1]
    by_cases hch : 47 < (Port.key typed).toNat ∧ (Port.key typed).toNat < 56
    · obtain ⟨v, hv⟩ := hI' ((Port.key typed).toNat - 48) (by omega)
      let m' : InMod := { m with I := aset m.I ((Port.key typed).toNat - 48) (if v.toNat > 0 then 0 else 1) }
      have hm' : elem (aset c1.input id m') id = some m' := by rw [elem_aset, if_pos rfl, hm1]; rfl
      obtain ⟨ys, hys⟩ := (ok_range (f := aget m'.I) (n := 8)).2 fun i hi => by
        obtain ⟨x, hx⟩ := hI' i hi
        by_cases e : i = (Port.key typed).toNat - 48
        · exact ⟨if v.toNat > 0 then 0 else 1, by rw [ok_aget, elem_aset, if_pos e, hv]; rfl⟩
        · exact ⟨x, by rw [ok_aget, elem_aset, if_neg e]; exact hx⟩
      refine ⟨_, { c1 with input := aset c1.input id m' }, ?_, m', hm', ys, hys, rfl⟩
      rw [Port.toggle, if_pos hch]
      simp only [ok_bind, ok_aget, ok_pure]
      exact ⟨m, hm1, v, hv, rfl⟩
    · obtain ⟨ys, hys⟩ := (ok_range (f := aget m.I) (n := 8)).2 fun i hi => by
        obtain ⟨x, hx⟩ := hI' i hi
        exact ⟨x, ok_aget.2 hx⟩
      exact ⟨_, c1, by rw [Port.toggle, if_neg hch], m, hm1, ys, hys, rfl⟩

theorem ok_boolOf {b : Byte} {x : Bool} : boolOf b = .ok x ↔ b = byteOf x := by
  unfold boolOf byteOf
  by_cases h0 : b = 0
  · subst h0; cases x <;> simp
  · by_cases h1 : b = 1
    · subst h1; cases x <;> simp
    · rw [if_neg h0, if_neg h1]
      cases x
      · exact ⟨nofun, fun h => absurd h h0⟩
      · exact ⟨nofun, fun h => absurd h h1⟩

theorem ok_cell {net : Network} {r k : Nat} {x : Cell} : net.cell r k = .ok x ↔ cellAt net r k = some x := by
  unfold Network.cell cellAt elem
  cases net.cells with
  | none => simp
  | some rows =>
    simp only [Option.bind]
    cases rows[r]? with
    | none => simp
    | some row => simp only; cases row[k]? <;> simp

/-- What `dummy_write` shows: flags 0 to 7 and 10 to 17, outputs 0 to 7 of its module, timers and counters 0 to 6, and
the state of every cell. -/
theorem C81_write_shows (id : Nat) (c : Ctx) (s : Port.Screen) (h : Port.write id c = .ok s) :
    (s.m.length = 8 ∧ ∀ k, k < 8 → s.m[k]? = elem c.M k) ∧
    (s.m10.length = 8 ∧ ∀ k, k < 8 → s.m10[k]? = elem c.M (10 + k)) ∧
    (s.q.length = 8 ∧ ∀ k, k < 8 → s.q[k]? = (outMod c id).bind fun o => elem o.Q k) ∧
    (s.timers.length = 7 ∧ ∀ k, k < 7 → ∃ d r t, elem c.Td k = some (byteOf d) ∧ elem c.Tr k = some (byteOf r) ∧
      elem c.timers k = some t ∧ s.timers[k]? = some (d, r, t.acc)) ∧
    (s.counters.length = 7 ∧ ∀ k, k < 7 → ∃ d r v, elem c.Cd k = some (byteOf d) ∧ elem c.Cr k = some (byteOf r) ∧
      elem c.C k = some v ∧ s.counters[k]? = some (d, r, v)) ∧
    (s.nets.length = c.qty.networks ∧ ∀ n, n < c.qty.networks → ∃ net p, elem c.network n = some net ∧
      s.nets[n]? = some p ∧ p.length = net.rows ∧ ∀ r, r < net.rows → ∃ line, p[r]? = some line ∧
        line.length = net.cols ∧ ∀ k, k < net.cols → ∃ cell, cellAt net r k = some cell ∧ line[k]? = some cell.state) := by
  unfold Port.write at h
  simp only [ok_bind, ok_aget] at h
  obtain ⟨m, hm, m10, hm10, o, ho, q, hq, ts, hts, cs, hcs, ns, hns, h⟩ := h
  have hs : s = { m, m10, q, timers := ts, counters := cs, nets := ns } := by
    split at h
    · exact (ok_pure.1 h).symm
    · cases h
  subst hs
  obtain ⟨hml, hmg⟩ := range_get hm
  obtain ⟨hm10l, hm10g⟩ := range_get hm10
  obtain ⟨hql, hqg⟩ := range_get hq
  obtain ⟨htl, htg⟩ := range_get hts
  obtain ⟨hcl, hcg⟩ := range_get hcs
  obtain ⟨hnl, hng⟩ := range_get hns
  refine ⟨⟨hml, fun k hk => ?_⟩, ⟨hm10l, fun k hk => ?_⟩, ⟨hql, fun k hk => ?_⟩, ⟨htl, fun k hk => ?_⟩,
    ⟨hcl, fun k hk => ?_⟩, ⟨hnl, fun n hn => ?_⟩⟩
  · obtain ⟨y, hy, hf⟩ := hmg k hk
    rw [hy, ← ok_aget.1 hf]
  · obtain ⟨y, hy, hf⟩ := hm10g k hk
    rw [hy, ← ok_aget.1 hf]
  · obtain ⟨y, hy, hf⟩ := hqg k hk
    rw [hy, ← ok_aget.1 hf]
    show _ = (elem c.output id).bind _
    rw [ho]
    rfl
  · obtain ⟨y, hy, hf⟩ := htg k hk
    unfold Port.timerLine at hf
    simp only [ok_bind, ok_aget, ok_pure, ok_boolOf] at hf
    obtain ⟨_, h1, d, rfl, _, h2, r, rfl, t, h3, rfl⟩ := hf
    exact ⟨d, r, t, h1, h2, h3, hy⟩
  · obtain ⟨y, hy, hf⟩ := hcg k hk
    unfold Port.counterLine at hf
    simp only [ok_bind, ok_aget, ok_pure, ok_boolOf] at hf
    obtain ⟨_, h1, d, rfl, _, h2, r, rfl, v, h3, rfl⟩ := hf
    exact ⟨d, r, v, h1, h2, h3, hy⟩
  · obtain ⟨p, hp, hf⟩ := hng n hn
    simp only [ok_bind, ok_aget] at hf
    obtain ⟨net, hnet, hf⟩ := hf
    obtain ⟨hpl, hpg⟩ := range_get hf
    refine ⟨net, p, hnet, hp, hpl, fun r hr => ?_⟩
    obtain ⟨line, hline, hf⟩ := hpg r hr
    obtain ⟨hll, hlg⟩ := range_get hf
    refine ⟨line, hline, hll, fun k hk => ?_⟩
    obtain ⟨b, hb, hf⟩ := hlg k hk
    simp only [ok_bind, ok_cell, ok_pure] at hf
    obtain ⟨cell, hcell, rfl⟩ := hf
    exact ⟨cell, hcell, hb⟩

/-- `dummy_write` is defined exactly when what it shows exists: 18 flags, 8 outputs, 7 timers and 7 counters whose
`bool`s hold 0 or 1, every cell of every network, and a delay function. -/
theorem C81_write_defined (id : Nat) (c : Ctx) :
    (∃ s, Port.write id c = .ok s) ↔
      Holds c.M 18 ∧ (∃ o, outMod c id = some o ∧ Holds o.Q 8) ∧
      (Holds c.Td 7 ∧ Booleans c.Td 7 ∧ Holds c.Tr 7 ∧ Booleans c.Tr 7 ∧ Holds c.timers 7) ∧
      (Holds c.Cd 7 ∧ Booleans c.Cd 7 ∧ Holds c.Cr 7 ∧ Booleans c.Cr 7 ∧ Holds c.C 7) ∧
      Drawn c ∧ c.delay = true := by
  constructor
  · rintro ⟨s, h⟩
    obtain ⟨⟨_, hm⟩, ⟨hl10, hm10⟩, ⟨hql, hq⟩, ⟨_, ht⟩, ⟨_, hc⟩, ⟨_, hn⟩⟩ := C81_write_shows id c s h
    have hdelay : c.delay = true := by
      unfold Port.write at h
      simp only [ok_bind] at h
      obtain ⟨_, _, _, _, _, _, _, _, _, _, _, _, _, _, h⟩ := h
      split at h
      · assumption
      · cases h
    refine ⟨?_, ?_, ?_, ?_, ?_, hdelay⟩
    · have h7 := hm10 7 (by omega)
      rw [List.getElem?_eq_getElem (show 7 < s.m10.length by omega)] at h7
      revert h7
      unfold elem Holds
      cases c.M with
      | none => intro h; cases h
      | some l =>
        intro h
        have := (List.getElem?_eq_some_iff.1 h.symm).1
        exact ⟨l, rfl, by omega⟩
    · have hq' : ∀ k, k < 8 → ∃ b, ((outMod c id).bind fun o => elem o.Q k) = some b := by
        intro k hk
        exact ⟨s.q[k], by rw [← hq k hk, List.getElem?_eq_getElem]⟩
      cases ho : outMod c id with
      | none => obtain ⟨b, hb⟩ := hq' 0 (by omega); rw [ho] at hb; cases hb
      | some o =>
        refine ⟨o, rfl, (holds_iff (by omega)).2 fun k hk => ?_⟩
        obtain ⟨b, hb⟩ := hq' k hk
        rw [ho] at hb
        exact ⟨b, hb⟩
    · have bb : ∀ b, byteOf b = 0 ∨ byteOf b = 1 := by intro b; cases b <;> simp [byteOf]
      refine ⟨(holds_iff (by omega)).2 fun k hk => ?_, fun k hk b hb => ?_, (holds_iff (by omega)).2 fun k hk => ?_,
        fun k hk b hb => ?_, (holds_iff (by omega)).2 fun k hk => ?_⟩ <;>
        obtain ⟨d, r, t, h1, h2, h3, _⟩ := ht k hk
      · exact ⟨_, h1⟩
      · rw [h1] at hb; cases hb; exact bb d
      · exact ⟨_, h2⟩
      · rw [h2] at hb; cases hb; exact bb r
      · exact ⟨_, h3⟩
    · have bb : ∀ b, byteOf b = 0 ∨ byteOf b = 1 := by intro b; cases b <;> simp [byteOf]
      refine ⟨(holds_iff (by omega)).2 fun k hk => ?_, fun k hk b hb => ?_, (holds_iff (by omega)).2 fun k hk => ?_,
        fun k hk b hb => ?_, (holds_iff (by omega)).2 fun k hk => ?_⟩ <;>
        obtain ⟨d, r, t, h1, h2, h3, _⟩ := hc k hk
      · exact ⟨_, h1⟩
      · rw [h1] at hb; cases hb; exact bb d
      · exact ⟨_, h2⟩
      · rw [h2] at hb; cases hb; exact bb r
      · exact ⟨_, h3⟩
    · intro n hlt
      obtain ⟨net, p, h1, _, _, h2⟩ := hn n hlt
      refine ⟨net, h1, fun r hr k hk => ?_⟩
      obtain ⟨line, _, _, h3⟩ := h2 r hr
      obtain ⟨cell, h4, _⟩ := h3 k hk
      exact ⟨cell, h4⟩
  · rintro ⟨hM, ⟨o, ho, hQ⟩, ⟨hTd, bTd, hTr, bTr, hT⟩, ⟨hCd, bCd, hCr, bCr, hC⟩, hD, hdel⟩
    have hM' := (holds_iff (by omega)).1 hM
    have hQ' := (holds_iff (by omega)).1 hQ
    have flag : ∀ {a : Arr Byte}, Holds a 7 → Booleans a 7 → ∀ k, k < 7 → ∃ b, elem a k = some (byteOf b) := by
      intro a h1 h2 k hk
      obtain ⟨x, hx⟩ := (holds_iff (by omega)).1 h1 k hk
      rcases h2 k hk x hx with rfl | rfl
      · exact ⟨false, hx⟩
      · exact ⟨true, hx⟩
    obtain ⟨m, hm⟩ := (ok_range (f := aget c.M) (n := 8)).2 fun i hi => by
      obtain ⟨x, hx⟩ := hM' i (by omega); exact ⟨x, ok_aget.2 hx⟩
    obtain ⟨m10, hm10⟩ := (ok_range (f := fun n => aget c.M (10 + n)) (n := 8)).2 fun i hi => by
      obtain ⟨x, hx⟩ := hM' (10 + i) (by omega); exact ⟨x, ok_aget.2 hx⟩
    obtain ⟨q, hq⟩ := (ok_range (f := aget o.Q) (n := 8)).2 fun i hi => by
      obtain ⟨x, hx⟩ := hQ' i (by omega); exact ⟨x, ok_aget.2 hx⟩
    obtain ⟨ts, hts⟩ := (ok_range (f := Port.timerLine c) (n := 7)).2 fun i hi => by
      obtain ⟨d, h1⟩ := flag hTd bTd i hi
      obtain ⟨r, h2⟩ := flag hTr bTr i hi
      obtain ⟨t, h3⟩ := (holds_iff (by omega)).1 hT i hi
      refine ⟨(d, r, t.acc), ?_⟩
      unfold Port.timerLine
      simp only [ok_bind, ok_aget, ok_pure, ok_boolOf]
      exact ⟨_, h1, d, rfl, _, h2, r, rfl, t, h3, rfl⟩
    obtain ⟨cs, hcs⟩ := (ok_range (f := Port.counterLine c) (n := 7)).2 fun i hi => by
      obtain ⟨d, h1⟩ := flag hCd bCd i hi
      obtain ⟨r, h2⟩ := flag hCr bCr i hi
      obtain ⟨t, h3⟩ := (holds_iff (by omega)).1 hC i hi
      refine ⟨(d, r, t), ?_⟩
      unfold Port.counterLine
      simp only [ok_bind, ok_aget, ok_pure, ok_boolOf]
      exact ⟨_, h1, d, rfl, _, h2, r, rfl, t, h3, rfl⟩
    obtain ⟨ns, hns⟩ := (ok_range (f := fun nt => do
        let net ← aget c.network nt
        Port.netPicture net) (n := c.qty.networks)).2 fun n hn => by
      obtain ⟨net, h1, h2⟩ := hD n hn
      obtain ⟨p, hp⟩ := (ok_range (f := fun r => (List.range net.cols).mapM fun k => do
          let cell ← net.cell r k
          pure cell.state) (n := net.rows)).2 fun r hr => ok_range.2 fun k hk => by
        obtain ⟨cell, hcell⟩ := h2 r hr k hk
        exact ⟨cell.state, by simp only [ok_bind, ok_cell, ok_pure]; exact ⟨cell, hcell, rfl⟩⟩
      exact ⟨p, by simp only [ok_bind, ok_aget]; exact ⟨net, h1, hp⟩⟩
    refine ⟨{ m, m10, q, timers := ts, counters := cs, nets := ns }, ?_⟩
    unfold Port.write
    simp only [ok_bind, ok_aget]
    exact ⟨m, hm, m10, hm10, o, ho, q, hq, ts, hts, cs, hcs, ns, hns, by rw [if_pos hdel]; rfl⟩

theorem take_snoc {α : Type} (a : Arr α) (n : Nat) (x : α) (h : (a.getD []).length = n) :
    grow a n x = some (a.getD [] ++ [x]) := by
  unfold grow
  rw [List.take_of_length_le (by omega)]

/-- Registering a read module of the shipped port with memory to spare: it gets the next number and eight inputs that are
off, the modules already there are left alone, and its read callback is defined whatever is typed. -/
theorem C81_read_registered (c : Ctx) (alloc k : Nat) (ha : 3 ≤ alloc) (hk : 3 ≤ k) (hq : c.fnReadQty < 255)
    (hin : (c.input.getD []).length = c.fnReadQty) :
    ∃ c', addRead k c (some (Port.readHook alloc)) = (true, c') ∧ c'.fnReadQty = c.fnReadQty + 1 ∧
      (∀ j, j < c.fnReadQty → inMod c' j = inMod c j) ∧
      (∀ j, inBit c' c.fnReadQty j = if j < 8 then some 0 else none) ∧
      ∀ typed, ∃ r, Port.read typed c.fnReadQty c' = .ok r := by
  have hg : grow c.input c.fnReadQty ({} : InMod) = some (c.input.getD [] ++ [({} : InMod)]) := take_snoc _ _ _ hin
  have hget : (c.input.getD [] ++ [({} : InMod)])[c.fnReadQty]? = some {} := by
    rw [List.getElem?_append_right (by omega)]
    simp [hin]
  let m : InMod := { iQty := 8, iwQty := 8, I := some (List.replicate 8 0), IW := some (List.replicate 8 0)
                     Ih := some (List.replicate 8 0) }
  let c' : Ctx := { c with
    read := grow c.read c.fnReadQty true, initRead := grow c.initRead c.fnReadQty true
    input := some ((c.input.getD [] ++ [({} : InMod)]).set c.fnReadQty m), fnReadQty := c.fnReadQty + 1 }
  have hadd : addRead k c (some (Port.readHook alloc)) = (true, c') := by
    unfold addRead
    simp only []
    rw [if_neg (by omega), if_neg (by omega), if_neg (by omega), if_neg (by omega)]
    simp only [Port.readHook, Port.initRead, Port.initIn, hg, aget, hget, bind, Except.bind, aset, Option.map, pure,
      Except.pure, if_true, if_neg (show ¬ alloc < 3 by omega), Option.isSome_some]
    rfl
  have hmod : inMod c' c.fnReadQty = some m := by
    show ((c.input.getD [] ++ [({} : InMod)]).set c.fnReadQty m)[c.fnReadQty]? = some m
    rw [List.getElem?_set_self (by simp [hin])]
  refine ⟨c', hadd, rfl, fun j hj => ?_, fun j => ?_, fun typed => ?_⟩
  · show ((c.input.getD [] ++ [({} : InMod)]).set c.fnReadQty m)[j]? = _
    rw [List.getElem?_set_ne (by omega), List.getElem?_append_left (by omega)]
    unfold inMod elem
    cases hc : c.input with
    | none => rw [hc] at hin; simp at hin; omega
    | some l => rfl
  · show (inMod c' c.fnReadQty).bind _ = _
    rw [hmod]
    show (List.replicate 8 (0 : Byte))[j]? = _
    rw [List.getElem?_replicate]
  · exact (C81_read_defined typed c.fnReadQty c').2 ⟨m, hmod, _, rfl, by simp⟩

/-- A read module that does not get its memory is not registered: number and records of the modules are as before. -/
theorem C81_read_refused (c : Ctx) (alloc k : Nat) (ha : alloc < 3) (hin : (c.input.getD []).length = c.fnReadQty) :
    ∃ c', addRead k c (some (Port.readHook alloc)) = (false, c') ∧ c'.fnReadQty = c.fnReadQty ∧
      ∀ j, inMod c' j = inMod c j := by
  unfold addRead
  simp only []
  by_cases hq : c.fnReadQty ≥ 255
  · rw [if_pos hq]
    exact ⟨_, rfl, rfl, fun _ => rfl⟩
  by_cases h0 : k = 0
  · rw [if_neg hq, if_pos h0]
    exact ⟨_, rfl, rfl, fun _ => rfl⟩
  by_cases h1 : k = 1
  · rw [if_neg hq, if_neg h0, if_pos h1]
    exact ⟨_, rfl, rfl, fun _ => rfl⟩
  by_cases h2 : k = 2
  · rw [if_neg hq, if_neg h0, if_neg h1, if_pos h2]
    exact ⟨_, rfl, rfl, fun _ => rfl⟩
  rw [if_neg hq, if_neg h0, if_neg h1, if_neg h2]
  have hg : grow c.input c.fnReadQty ({} : InMod) = some (c.input.getD [] ++ [({} : InMod)]) := take_snoc _ _ _ hin
  have hget : (c.input.getD [] ++ [({} : InMod)])[c.fnReadQty]? = some {} := by
    rw [List.getElem?_append_right (by omega)]
    simp [hin]
  have hset : ∀ m : InMod, ((c.input.getD [] ++ [({} : InMod)]).set c.fnReadQty m)[c.fnReadQty]? = some m := by
    intro m
    rw [List.getElem?_set_self (by simp [hin])]
  simp only [Port.readHook, Port.initRead, Port.initIn, hg, aget, hget, bind, Except.bind, aset, Option.map, pure,
    Except.pure, if_true, if_pos ha, hset]
  refine ⟨_, rfl, rfl, fun j => ?_⟩
  show elem (shrink (some _) c.fnReadQty) j = elem c.input j
  simp only [shrink, Option.map, List.set_set]
  by_cases hz : c.fnReadQty = 0
  · rw [if_pos hz]
    unfold elem
    cases hc : c.input with
    | none => rfl
    | some l =>
      rw [hc] at hin
      simp only [Option.getD] at hin
      have : l = [] := List.length_eq_zero_iff.1 (by omega)
      subst this
      rfl
  · rw [if_neg hz]
    cases hc : c.input with
    | none => rw [hc] at hin; simp at hin; omega
    | some l =>
      rw [hc] at hin
      simp only [Option.getD] at hin ⊢
      unfold elem
      simp only [Option.bind]
      rw [List.take_set_of_le (by omega), List.take_append_of_le_length (by omega),
        List.take_of_length_le (by omega)]

/-- Registering a write module of the shipped port with memory to spare: it gets the next number and eight outputs that
are off, and the modules already there are left alone. -/
theorem C81_write_registered (c : Ctx) (alloc k : Nat) (ha : 3 ≤ alloc) (hk : 3 ≤ k) (hq : c.fnWriteQty < 255)
    (hin : (c.output.getD []).length = c.fnWriteQty) :
    ∃ c', addWrite k c (some (Port.writeHook alloc)) = (true, c') ∧ c'.fnWriteQty = c.fnWriteQty + 1 ∧
      (∀ j, j < c.fnWriteQty → outMod c' j = outMod c j) ∧
      (∀ j, ((outMod c' c.fnWriteQty).bind fun o => elem o.Q j) = if j < 8 then some 0 else none) := by
  have hg : grow c.output c.fnWriteQty ({} : OutMod) = some (c.output.getD [] ++ [({} : OutMod)]) := take_snoc _ _ _ hin
  have hget : (c.output.getD [] ++ [({} : OutMod)])[c.fnWriteQty]? = some {} := by
    rw [List.getElem?_append_right (by omega)]
    simp [hin]
  let m : OutMod := { qQty := 8, qwQty := 8, Q := some (List.replicate 8 0), QW := some (List.replicate 8 0)
                      Qh := some (List.replicate 8 0) }
  let c' : Ctx := { c with
    write := grow c.write c.fnWriteQty true, initWrite := grow c.initWrite c.fnWriteQty true
    output := some ((c.output.getD [] ++ [({} : OutMod)]).set c.fnWriteQty m), fnWriteQty := c.fnWriteQty + 1 }
  have hadd : addWrite k c (some (Port.writeHook alloc)) = (true, c') := by
    unfold addWrite
    simp only []
    rw [if_neg (by omega), if_neg (by omega), if_neg (by omega), if_neg (by omega)]
    simp only [Port.writeHook, Port.initWrite, Port.initOut, hg, aget, hget, bind, Except.bind, aset, Option.map, pure,
      Except.pure, if_true, if_neg (show ¬ alloc < 3 by omega), Option.isSome_some]
    rfl
  have hmod : outMod c' c.fnWriteQty = some m := by
    show ((c.output.getD [] ++ [({} : OutMod)]).set c.fnWriteQty m)[c.fnWriteQty]? = some m
    rw [List.getElem?_set_self (by simp [hin])]
  refine ⟨c', hadd, rfl, fun j hj => ?_, fun j => ?_⟩
  · show ((c.output.getD [] ++ [({} : OutMod)]).set c.fnWriteQty m)[j]? = _
    rw [List.getElem?_set_ne (by omega), List.getElem?_append_left (by omega)]
    unfold outMod elem
    cases hc : c.output with
    | none => rw [hc] at hin; simp at hin; omega
    | some l => rfl
  · rw [hmod]
    show (List.replicate 8 (0 : Byte))[j]? = _
    rw [List.getElem?_replicate]

/-- A context with one module of the shipped port for each direction and enough registers for its screen. -/
def dummyCtx (nets : List Network) : Ctx :=
  { ctx nets with
    qty := { (ctx nets).qty with m := 18, c := 8, t := 8 }
    M := some (List.replicate 18 0), Td := some (List.replicate 8 0), Tr := some (List.replicate 8 0)
    timers := some (List.replicate 8 ⟨0, 0⟩), Cd := some (List.replicate 8 0), Cr := some (List.replicate 8 1)
    C := some (List.replicate 8 5)
    input := some [(Port.initIn 3 true {}).2], output := some [(Port.initOut 3 true {}).2] }

/-- Keys `a`, `3` waiting: input 3 changes.  Then `q`: the task is asked to stop. -/
example : (match Port.read [97, 51] 0 (dummyCtx []) with
    | .ok (c, shown) => decide (shown = [0, 0, 0, 1, 0, 0, 0, 0]) && decide (c.state = .running)
    | .error _ => false) = true := by decide

example : (match Port.read [51, 113] 0 (dummyCtx []) with
    | .ok (c, shown) => decide (shown = List.replicate 8 0) && decide (c.state = .exitTsk)
    | .error _ => false) = true := by decide

/-- The screen of a program with one closed contact. -/
example : (match Port.write 0 (dummyCtx [net [[ins .CONN [] true, ins .NOP []]]]) with
    | .ok s => decide (s.nets = [[[true, false]]]) && decide (s.counters = List.replicate 7 (false, true, 5))
    | .error _ => false) = true := by decide

/-- With the three flags of the demonstration context the screen reads past their block. -/
example : Port.write 0 { dummyCtx [] with M := some [1, 0, 1] } = .error .oob := rfl

/-! ### C83: clock and delay -/

theorem nap_eq : ∀ (signals : List Nat) (ns : Nat), Port.nap signals ns = ns
  | [], _ => rfl
  | s :: ss, ns => by
    unfold Port.nap
    split
    · rw [nap_eq ss]; omega
    · rfl

/-- The delay lasts exactly as long as asked, however often it is interrupted; a negative request returns at once. -/
theorem C83_delay (signals : List Nat) (msec : Int) : (Port.delay signals msec : Int) = max msec 0 * 1000000 := by
  unfold Port.delay
  split
  · omega
  · rw [nap_eq]
    have h : 0 ≤ msec := by omega
    rw [Int.tdiv_eq_ediv_of_nonneg h, Int.tmod_eq_emod_of_nonneg h]
    omega

/-- The clock shows whole milliseconds of the time of day, and is defined for any time of day up to the year 292 000. -/
theorem C83_millis (sec usec : Int) (h0 : 0 ≤ sec) (h1 : sec < 9 * 10^12) (h2 : 0 ≤ usec) (h3 : usec < 1000000) :
    ∃ t, Port.millis sec usec = .ok t ∧ (t.toNat : Int) * 1000 ≤ micros sec usec ∧
      micros sec usec < ((t.toNat : Int) + 1) * 1000 := by
  unfold Port.millis micros
  have a : Port.long (sec * 1000000) = .ok (sec * 1000000) := by unfold Port.long; rw [if_pos (by omega)]
  have b : Port.long (sec * 1000000 + usec) = .ok (sec * 1000000 + usec) := by unfold Port.long; rw [if_pos (by omega)]
  refine ⟨BitVec.ofInt 64 ((sec * 1000000 + usec).tdiv 1000), ?_, ?_⟩
  · simp only [ok_bind, ok_pure]
    exact ⟨_, a, _, b, rfl⟩
  · have hn : 0 ≤ sec * 1000000 + usec := by omega
    rw [Int.tdiv_eq_ediv_of_nonneg hn, BitVec.toNat_ofInt]
    have : ((sec * 1000000 + usec) / 1000 % ((2 ^ 64 : Nat) : Int)) = (sec * 1000000 + usec) / 1000 :=
      Int.emod_eq_of_lt (by omega) (by omega)
    rw [this]
    omega

/-- The clock does not go back when the time of day does not. -/
theorem C83_millis_monotone (sec usec sec' usec' : Int) (t t' : W64)
    (h0 : 0 ≤ sec) (h1 : sec < 9 * 10^12) (h2 : 0 ≤ usec) (h3 : usec < 1000000)
    (h0' : 0 ≤ sec') (h1' : sec' < 9 * 10^12) (h2' : 0 ≤ usec') (h3' : usec' < 1000000)
    (hle : micros sec usec ≤ micros sec' usec')
    (h : Port.millis sec usec = .ok t) (h' : Port.millis sec' usec' = .ok t') : t.toNat ≤ t'.toNat := by
  obtain ⟨u, hu, hu1, hu2⟩ := C83_millis sec usec h0 h1 h2 h3
  obtain ⟨u', hu', hu1', hu2'⟩ := C83_millis sec' usec' h0' h1' h2' h3'
  rw [h] at hu
  rw [h'] at hu'
  cases hu
  cases hu'
  omega

example : Port.delay [300000000, 900000000] 1500 = 1500000000 := by decide
example : Port.millis 1700000000 999999 = .ok 1700000000999 := rfl

end Ladder.Props
