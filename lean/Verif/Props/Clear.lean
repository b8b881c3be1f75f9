import Verif.Props.TaskFault
import Verif.Spec.Recover

/-
Clearing a fault, the memory and the program: C45 and C50.
-/

set_option autoImplicit false

namespace Ladder.Props

open Spec Op

variable {env : Env} {α : Type}

/-- An area with every element replaced by `z`. -/
def blank (z : α) (a : Arr α) : Arr α := a.map (·.map fun _ => z)

theorem afill_blank {a : Arr α} {n : Nat} {z : α} (hf : ∀ l, a = some l → l.length = n) (hs : a.isSome) :
    afill a n z = .ok (blank z a) := by
  cases a with
  | none => cases hs
  | some l =>
    have hl := hf l rfl
    simp [afill, blank, hl, List.map_const']

theorem blank_none {a : Arr α} {z : α} (hf : ∀ l, a = some l → l.length = 0) : blank z a = a := by
  cases a with
  | none => rfl
  | some l =>
    have : l = [] := List.length_eq_zero_iff.1 (hf l rfl)
    rw [this]; rfl

theorem blank_at (z : α) (a : Arr α) (i : Nat) : at? (blank z a) i = (at? a i).map fun _ => z := by
  cases a with
  | none => rfl
  | some l => simp [at?, blank]

theorem mapFirst_all {f : α → Except UB α} {g : α → α} : ∀ (l : List α), (∀ x ∈ l, f x = .ok (g x)) →
    mapFirst f l.length l = .ok (l.map g)
  | [], _ => rfl
  | x :: l, h => by
    simp only [List.length_cons, mapFirst, h x (by simp), mapFirst_all l fun y hy => h y (by simp [hy]), List.map_cons]

/-! ### Clearing a fault -/

theorem clearArea_eq {a : Arr α} {n : Nat} {z : α} {put : Arr α → Ctx → Ctx} {next : Op Bool} {w : World}
    (hf : ∀ l, a = some l → l.length = n) (hs : 0 < n → a.isSome) (hp : put a w.ctx = w.ctx) :
    clearArea env n a z put next w = next { w with ctx := put (blank z a) w.ctx } := by
  unfold clearArea
  by_cases hn : 0 < n
  · rw [if_neg (by simp [Option.isSome_iff_ne_none.1 (hs hn)]), if_pos hn, afill_blank hf (hs hn)]
    rfl
  · rw [if_neg (fun h => hn h.1), if_neg hn]
    have h0 : n = 0 := by omega
    subst h0
    rw [blank_none hf, hp]

theorem clearOut_eq {o : OutMod} (hf : OutFits o) (hh : (o.Qh.isSome → o.Q.isSome) ∧ (o.QWh.isSome → o.QW.isSome)) :
    clearOut o = .ok { o with Q := blank 0 o.Q, QW := blank 0 o.QW, Qh := blank 0 o.Qh, QWh := blank 0 o.QWh } := by
  have fillIf : ∀ {β : Type} {a : Arr β} {n : Nat} {z : β}, (∀ l, a = some l → l.length = n) →
      (if n > 0 ∧ a.isSome then afill a n z else .ok a) = .ok (blank z a) := by
    intro β a n z hl
    by_cases hs : a.isSome
    · by_cases hn : 0 < n
      · rw [if_pos ⟨hn, hs⟩, afill_blank hl hs]
      · rw [if_neg (fun h => hn h.1)]
        have h0 : n = 0 := by omega
        subst h0
        rw [blank_none hl]
    · rw [if_neg (fun h => hs h.2)]
      cases a with
      | none => rfl
      | some l => exact absurd rfl hs
  have copyIf : ∀ {β : Type} {d a : Arr β} {n : Nat} {z : β}, (∀ l, a = some l → l.length = n) →
      (∀ l, d = some l → l.length = n) → (d.isSome → a.isSome) →
      (if d.isSome ∧ (blank z a).isSome then acopy d (blank z a) n else .ok d) = .ok (blank z d) := by
    intro β d a n z ha hd hs
    cases d with
    | none => rfl
    | some d =>
      cases a with
      | none => cases hs rfl
      | some a =>
        have h1 := ha a rfl
        have h2 := hd d rfl
        simp [blank, acopy, h1, h2, List.map_const', List.take_replicate]
  unfold clearOut
  exact except_bind.2 ⟨_, fillIf hf.Q, except_bind.2 ⟨_, fillIf hf.QW, except_bind.2 ⟨_, copyIf hf.Q hf.Qh hh.1,
    except_bind.2 ⟨_, copyIf hf.QW hf.QWh hh.2, rfl⟩⟩⟩⟩

/-- The context after clearing, for a given new scan record. -/
def recovered (c : Ctx) : Ctx :=
  { c with
    timers := c.timers.map (·.map fun t => { t with acc := 0 }), Td := blank 0 c.Td, Tr := blank 0 c.Tr
    C := blank 0 c.C, Cd := blank 0 c.Cd, Cr := blank 0 c.Cr, D := blank 0 c.D, R := blank 0 c.R
    output := c.output.map (·.map fun o =>
      { o with Q := blank 0 o.Q, QW := blank 0 o.QW, Qh := blank 0 o.Qh, QWh := blank 0 o.QWh }) }

theorem clearRest_eq {w : World} (hf : Fits w.ctx) (hw : Whole w.ctx) : clearRest env w = .ok (true, { w with ctx :=
    { w.ctx with
      C := blank 0 w.ctx.C, Cd := blank 0 w.ctx.Cd, Cr := blank 0 w.ctx.Cr, D := blank 0 w.ctx.D, R := blank 0 w.ctx.R
      output := w.ctx.output.map (·.map fun o =>
        { o with Q := blank 0 o.Q, QW := blank 0 o.QW, Qh := blank 0 o.Qh, QWh := blank 0 o.QWh }) } }) := by
  unfold clearRest
  rw [bind_getCtx, clearArea_eq hf.C (fun h => (hw.counters h).1) rfl, clearArea_eq hf.Cd (fun h => (hw.counters h).2.1) rfl,
    clearArea_eq hf.Cr (fun h => (hw.counters h).2.2) rfl, clearArea_eq hf.D hw.D rfl, clearArea_eq hf.R hw.R rfl]
  have ho : amapFirst clearOut w.ctx.fnWriteQty w.ctx.output = .ok (w.ctx.output.map (·.map fun o =>
      { o with Q := blank 0 o.Q, QW := blank 0 o.QW, Qh := blank 0 o.Qh, QWh := blank 0 o.QWh })) := by
    cases h : w.ctx.output with
    | none => rfl
    | some l =>
      have hl := hf.output l h
      simp only [amapFirst]
      rw [← hl.1, mapFirst_all l fun o ho => clearOut_eq (hl.2 o ho) (hw.output l h o ho)]
      rfl
  exact bind_lift_eq_ok.2 ⟨_, ho, rfl⟩

theorem clearTimers_eq {w : World} (hf : Fits w.ctx) (hw : Whole w.ctx) :
    clearTimers env w = .ok (true, { w with ctx := recovered w.ctx }) := by
  unfold clearTimers
  rw [bind_getCtx]
  have hz : 0 < w.ctx.qty.t → zeroAcc w.ctx.qty.t w.ctx.timers = .ok (w.ctx.timers.map (·.map fun t => { t with acc := 0 })) := by
    intro ht
    cases h : w.ctx.timers with
    | none => simpa [h] using (hw.timers ht).1
    | some l =>
      have hl := hf.timers l h
      simp only [zeroAcc]
      rw [← hl, mapFirst_all l fun _ _ => rfl]
      rfl
  by_cases ht : 0 < w.ctx.qty.t
  · obtain ⟨h1, h2, h3⟩ := hw.timers ht
    rw [if_neg (by simp [Option.isSome_iff_ne_none.1 h1]), if_pos ht, hz ht, bind_lift_ok, afill_blank hf.Td h2, bind_lift_ok,
      afill_blank hf.Tr h3, bind_lift_ok, bind_modCtx]
    refine (clearRest_eq (w := { w with ctx := { w.ctx with
      timers := w.ctx.timers.map (·.map fun t => { t with acc := 0 }), Td := blank 0 w.ctx.Td, Tr := blank 0 w.ctx.Tr } })
      ?_ ⟨?_, hw.counters, hw.D, hw.R, hw.output⟩).trans rfl
    · refine { hf with Td := ?_, Tr := ?_, timers := ?_ }
      · intro l hl
        obtain ⟨l', h, rfl⟩ := Option.map_eq_some_iff.1 hl
        simpa using hf.Td _ h
      · intro l hl
        obtain ⟨l', h, rfl⟩ := Option.map_eq_some_iff.1 hl
        simpa using hf.Tr _ h
      · intro l hl
        obtain ⟨l', h, rfl⟩ := Option.map_eq_some_iff.1 hl
        simpa using hf.timers _ h
    · intro h
      simpa [blank] using hw.timers h
  · rw [if_neg (fun h => ht h.1), if_neg ht, clearRest_eq hf hw]
    have h0 : w.ctx.qty.t = 0 := by omega
    have e : recovered w.ctx = { w.ctx with
        C := blank 0 w.ctx.C, Cd := blank 0 w.ctx.Cd, Cr := blank 0 w.ctx.Cr, D := blank 0 w.ctx.D, R := blank 0 w.ctx.R
        output := w.ctx.output.map (·.map fun o =>
          { o with Q := blank 0 o.Q, QW := blank 0 o.QW, Qh := blank 0 o.Qh, QWh := blank 0 o.QWh }) } := by
      unfold recovered
      rw [blank_none (fun l h => (hf.Td l h).trans h0), blank_none (fun l h => (hf.Tr l h).trans h0)]
      congr 1
      cases h : w.ctx.timers with
      | none => rfl
      | some l =>
        have : l = [] := List.length_eq_zero_iff.1 ((hf.timers l h).trans h0)
        rw [this]; rfl
    rw [e]

theorem shell_recovered (c : Ctx) : shell (recovered c) = shell c := by
  simp only [shell, recovered, program]
  congr 1
  cases c.output <;> simp

theorem load_recovered (c : Ctx) (ℓ : Loc) :
    load (recovered c) ℓ = if Recovers ℓ then (load c ℓ).map fun _ => 0 else load c ℓ := by
  have out : ∀ m, at? (recovered c).output m = (at? c.output m).map fun o =>
      { o with Q := blank 0 o.Q, QW := blank 0 o.QW, Qh := blank 0 o.Qh, QWh := blank 0 o.QWh } := by
    intro m
    show at? (c.output.map _) m = _
    cases c.output <;> simp [at?]
  have tim : ∀ i, at? (recovered c).timers i = (at? c.timers i).map fun t => { t with acc := 0 } := by
    intro m
    show at? (c.timers.map _) m = _
    cases c.timers <;> simp [at?]
  cases ℓ
  case acc i => simp only [load, Recovers, tim, if_true]; cases at? c.timers i <;> rfl
  case stamp i => simp only [load, Recovers, tim]; cases at? c.timers i <;> rfl
  case Q m p => simp only [load, Recovers, out, if_true]; cases at? c.output m <;> simp [blank_at]; rfl
  case QW m p => simp only [load, Recovers, out, if_true]; cases at? c.output m <;> simp [blank_at]; rfl
  case Qh m p => simp only [load, Recovers, out, if_true]; cases at? c.output m <;> simp [blank_at]; rfl
  case QWh m p => simp only [load, Recovers, out, if_true]; cases at? c.output m <;> simp [blank_at]; rfl
  all_goals first | rfl | (simp [load, Recovers, recovered, blank_at]; try rfl)

/-- C45, the error state.  From the error state, with every area that has a quantity allocated, clearing succeeds; afterwards
the state is running, timers, counters, D and R registers, the outputs and their history are zero, every other location has its
old value, and program, configuration and error report are as before.  Without a clock the panic callback is called; it is
assumed to leave the context alone. -/
theorem C45_error (hp : ∀ t c, c.millis = false → env.panic t c = c) {w : World} (hf : Fits w.ctx) (hw : Whole w.ctx)
    (hs : w.ctx.state = .error) : ∃ w', faultClear env w = .ok (true, w') ∧ w'.ctx.state = .running ∧
      (∀ ℓ, load w'.ctx ℓ = if Recovers ℓ then (load w.ctx ℓ).map fun _ => 0 else load w.ctx ℓ) ∧
      w'.ctx.network = w.ctx.network ∧ shell w'.ctx = { shell w.ctx with state := .running, scan := w'.ctx.scan } := by
  unfold faultClear
  rw [bind_getCtx, if_neg (by simp [hs]), bind_modCtx]
  by_cases hm : w.ctx.millis = true
  · rw [if_neg (by simp [hm]), bind_ok (by rw [callMillis]; exact if_pos hm), bind_modCtx]
    refine ⟨_, clearTimers_eq ⟨hf.1, hf.2, hf.3, hf.4, hf.5, hf.6, hf.7, hf.8, hf.9, hf.10, hf.11, hf.12, hf.13, hf.14, hf.15,
      hf.16, hf.17, hf.18, hf.19⟩ ⟨hw.1, hw.2, hw.3, hw.4, hw.5⟩, rfl, fun ℓ => ?_, rfl, ?_⟩
    · rw [load_recovered]
      rfl
    · rw [shell_recovered]
      rfl
  · have hm' : w.ctx.millis = false := by simpa using hm
    rw [if_pos (by simp [hm']), bind_modCtx]
    have fin : ∀ v : World, v.ctx = { w.ctx with state := .running, scan := { w.ctx.scan with actualScanTime := 0, startTime := 0 } } →
        ∃ w', clearTimers env v = .ok (true, w') ∧ w'.ctx.state = .running ∧
          (∀ ℓ, load w'.ctx ℓ = if Recovers ℓ then (load w.ctx ℓ).map fun _ => 0 else load w.ctx ℓ) ∧
          w'.ctx.network = w.ctx.network ∧ shell w'.ctx = { shell w.ctx with state := .running, scan := w'.ctx.scan } := by
      rintro ⟨vc, vt, vr⟩ hv
      dsimp only at hv
      subst hv
      refine ⟨_, clearTimers_eq ⟨hf.1, hf.2, hf.3, hf.4, hf.5, hf.6, hf.7, hf.8, hf.9, hf.10, hf.11, hf.12, hf.13, hf.14, hf.15,
        hf.16, hf.17, hf.18, hf.19⟩ ⟨hw.1, hw.2, hw.3, hw.4, hw.5⟩, rfl, fun ℓ => ?_, rfl, ?_⟩
      · rw [load_recovered]
        rfl
      · rw [shell_recovered]
        rfl
    by_cases ho : w.ctx.on.panic = true
    · rw [bind_ok (by rw [callPanic]; exact if_pos ho)]
      exact fin _ (hp _ _ hm')
    · rw [bind_ok (by rw [callPanic]; exact if_neg ho)]
      exact fin _ rfl

/-- C45, other states.  From any other state the call fails and changes nothing at all. -/
theorem C45_other {w : World} (hs : w.ctx.state ≠ .error) : faultClear env w = .ok (false, w) := by
  unfold faultClear
  rw [bind_getCtx, if_pos hs]
  rfl

/-- C45, success.  Whatever the callbacks do, clearing only succeeds from the error state. -/
theorem C45_success {w w' : World} (h : faultClear env w = .ok (true, w')) : w.ctx.state = .error := by
  by_cases hs : w.ctx.state = .error
  · exact hs
  · rw [C45_other hs] at h
    cases h

/-! ### Clearing memory -/

theorem load_flags (c : Ctx) (ℓ : Loc) :
    load { c with M := blank 0 c.M, Mh := blank 0 c.Mh, Cd := blank 0 c.Cd, Cdh := blank 0 c.Cdh, Cr := blank 0 c.Cr
                  Crh := blank 0 c.Crh, Td := blank 0 c.Td, Tdh := blank 0 c.Tdh, Tr := blank 0 c.Tr, Trh := blank 0 c.Trh } ℓ =
      if Flag ℓ then (load c ℓ).map fun _ => 0 else load c ℓ := by
  cases ℓ
  all_goals first | rfl | (simp [load, Flag, blank_at]; try rfl)

/-- C50, memory.  With the flag areas allocated, clearing the memory zeroes the flags of program, counters and timers and their
history; every other location, the program, the configuration and the error report are as before. -/
theorem C50_memory {c : Ctx} (hf : Fits c) (hw : FlagsWhole c) : ∃ c', clearMemory c = .ok c' ∧
    (∀ ℓ, load c' ℓ = if Flag ℓ then (load c ℓ).map fun _ => 0 else load c ℓ) ∧ shell c' = shell c ∧
    c'.network = c.network := by
  refine ⟨{ c with
    M := blank 0 c.M, Mh := blank 0 c.Mh, Cd := blank 0 c.Cd, Cdh := blank 0 c.Cdh, Cr := blank 0 c.Cr
    Crh := blank 0 c.Crh, Td := blank 0 c.Td, Tdh := blank 0 c.Tdh, Tr := blank 0 c.Tr, Trh := blank 0 c.Trh },
    ?_, load_flags c, rfl, rfl⟩
  refine except_bind.2 ⟨{ c with M := blank 0 c.M, Mh := blank 0 c.Mh }, ?_, except_bind.2 ⟨{ c with
    M := blank 0 c.M, Mh := blank 0 c.Mh, Cd := blank 0 c.Cd, Cdh := blank 0 c.Cdh, Cr := blank 0 c.Cr
    Crh := blank 0 c.Crh }, ?_, ?_⟩⟩
  · unfold clearM
    by_cases hm : c.qty.m > 0
    · rw [if_pos hm]
      obtain ⟨h1, h2⟩ := hw.m hm
      exact except_bind.2 ⟨_, afill_blank hf.Mh h2, except_bind.2 ⟨_, afill_blank hf.M h1, rfl⟩⟩
    · have h0 : c.qty.m = 0 := by omega
      rw [if_neg hm, blank_none (fun l h => (hf.M l h).trans h0), blank_none (fun l h => (hf.Mh l h).trans h0)]
  · unfold clearC
    by_cases hm : c.qty.c > 0
    · rw [if_pos hm]
      obtain ⟨h1, h2, h3, h4⟩ := hw.c hm
      exact except_bind.2 ⟨_, afill_blank hf.Cdh h2, except_bind.2 ⟨_, afill_blank hf.Cd h1,
        except_bind.2 ⟨_, afill_blank hf.Crh h4, except_bind.2 ⟨_, afill_blank hf.Cr h3, rfl⟩⟩⟩⟩
    · have h0 : c.qty.c = 0 := by omega
      rw [if_neg hm, blank_none (fun l h => (hf.Cd l h).trans h0), blank_none (fun l h => (hf.Cdh l h).trans h0),
        blank_none (fun l h => (hf.Cr l h).trans h0), blank_none (fun l h => (hf.Crh l h).trans h0)]
  · unfold clearT
    by_cases hm : c.qty.t > 0
    · rw [if_pos hm]
      obtain ⟨h1, h2, h3, h4⟩ := hw.t hm
      exact except_bind.2 ⟨_, afill_blank hf.Tdh h2, except_bind.2 ⟨_, afill_blank hf.Td h1,
        except_bind.2 ⟨_, afill_blank hf.Trh h4, except_bind.2 ⟨_, afill_blank hf.Tr h3, rfl⟩⟩⟩⟩
    · have h0 : c.qty.t = 0 := by omega
      rw [if_neg hm, blank_none (fun l h => (hf.Td l h).trans h0), blank_none (fun l h => (hf.Tdh l h).trans h0),
        blank_none (fun l h => (hf.Tr l h).trans h0), blank_none (fun l h => (hf.Trh l h).trans h0)]

/-! ### Clearing the program -/

/-- C50, program.  With the networks allocated and every cell without an operand block having no operands, clearing the program
turns every cell into an empty one and changes nothing else: number, dimensions and enables of the networks, registers, flags,
inputs, outputs, configuration, state. -/
theorem C50_program {c : Ctx} (hf : Fits c) (hn : NetsWhole c)
    (hd : ∀ n r k cell, cell? c n r k = some cell → cell.data = none → cell.dataQty = 0) :
    clearProgram c = .ok { c with network := c.network.map (·.map emptied) } := by
  obtain ⟨nets, h, hl, hs⟩ := hn
  have cellEq : ∀ net ∈ nets, ∀ rows, net.cells = some rows → ∀ row ∈ rows, ∀ cell ∈ row, clearCell cell = .ok {} := by
    intro net hnet rows hrows row hrow cell hcell
    cases hdat : cell.data with
    | none =>
      obtain ⟨n, hi, e1⟩ := List.getElem_of_mem hnet
      obtain ⟨r, hr, e2⟩ := List.getElem_of_mem hrow
      obtain ⟨k, hk, e3⟩ := List.getElem_of_mem hcell
      have h0 := hd n r k cell (by
        simp only [cell?, at?, h, Option.bind_some, List.getElem?_eq_getElem hi, e1, hrows, List.getElem?_eq_getElem hr, e2,
          List.getElem?_eq_getElem hk, e3]) hdat
      simp [clearCell, hdat, h0]
    | some l =>
      have := (hf.network nets h net hnet).data rows hrows row hrow cell hcell l hdat
      simp [clearCell, hdat, this]
  have netEq : ∀ net ∈ nets, clearNetwork net = .ok (emptied net) := by
    intro net hnet
    obtain ⟨rows, hrows⟩ := Option.isSome_iff_exists.1 (hs net hnet)
    have h1 := (hf.network nets h net hnet).rows rows hrows
    have h2 := (hf.network nets h net hnet).cols rows hrows
    have e : mapFirst (mapFirst clearCell net.cols) net.rows rows = .ok (List.replicate net.rows (List.replicate net.cols {})) := by
      rw [← h1, mapFirst_all (g := fun _ => List.replicate net.cols {}) rows fun row hrow => by
        rw [← h2 row hrow, mapFirst_all (g := fun _ => {}) row fun cell hcell => cellEq net hnet rows hrows row hrow cell hcell,
          List.map_const']]
      simp [List.map_const']
    unfold clearNetwork emptied
    rw [hrows]
    simp only
    split
    · rename_i h0
      have : rows = List.replicate net.rows (List.replicate net.cols {}) := by
        refine List.eq_replicate_iff.2 ⟨h1, fun row hrow => ?_⟩
        rw [h0]
        exact List.length_eq_zero_iff.1 ((h2 row hrow).trans h0)
      rw [← this, ← hrows]
    · rw [e]
  unfold clearProgram
  rw [h]
  simp only
  rw [← hl, mapFirst_all nets netEq]
  split
  · rename_i h0
    have : nets = [] := List.length_eq_zero_iff.1 h0
    subst this
    simp only [List.map_nil, Option.map_some]
    rw [← h]
  · rfl

/-! ### Demonstrations -/

/-- A faulted context with one contact and one coil. -/
def clearDemo : World :=
  { Demo.world [Demo.net [[Demo.ins .NO [Demo.op .M 0], {}, Demo.ins .COIL [Demo.op .Q 0]]]] with
    ctx := { Demo.ctx [Demo.net [[Demo.ins .NO [Demo.op .M 0], {}, Demo.ins .COIL [Demo.op .Q 0]]]] with
      state := .error, timers := some [⟨100, 40⟩, ⟨0, 0⟩] } }

theorem clearDemo_whole : Whole clearDemo.ctx :=
  ⟨fun _ => ⟨rfl, rfl, rfl⟩, fun _ => ⟨rfl, rfl, rfl⟩, fun _ => rfl, fun _ => rfl, fun l hl o ho => by
    simp only [clearDemo, Demo.ctx, Option.some.injEq] at hl
    subst hl
    simp only [List.mem_singleton] at ho
    subst ho
    exact ⟨fun _ => rfl, fun _ => rfl⟩⟩

/-- C45: the demo context meets the hypotheses; its accumulator, counter and output are reset and its flag and input are kept. -/
example : ∃ w', faultClear Demo.env clearDemo = .ok (true, w') ∧ w'.ctx.state = .running ∧
    load clearDemo.ctx (.acc 0) = some 40 ∧ load w'.ctx (.acc 0) = some 0 ∧
    load clearDemo.ctx (.C 0) = some 4 ∧ load w'.ctx (.C 0) = some 0 ∧
    load clearDemo.ctx (.Q 0 1) = some 1 ∧ load w'.ctx (.Q 0 1) = some 0 ∧ load w'.ctx (.Qh 0 1) = some 0 ∧
    load w'.ctx (.M 0) = some 1 ∧ load w'.ctx (.I 0 0) = some 1 := by
  obtain ⟨w', h1, h2, h3, -⟩ := C45_error (env := Demo.env) (fun _ _ _ => rfl) (w := clearDemo) (Demo.fits_of rfl) clearDemo_whole rfl
  refine ⟨w', h1, h2, rfl, ?_, rfl, ?_, rfl, ?_, ?_, ?_, ?_⟩ <;> rw [h3] <;> rfl

/-- C50: the demo context meets the hypotheses of both theorems. -/
example : (∃ c', clearMemory clearDemo.ctx = .ok c' ∧ load clearDemo.ctx (.M 2) = some 1 ∧ load c' (.M 2) = some 0 ∧
      load c' (.Mh 2) = some 0 ∧ load c' (.C 0) = some 4) ∧
    clearProgram clearDemo.ctx = .ok { clearDemo.ctx with network := some [Demo.net [[{}, {}, {}]]] } := by
  constructor
  · obtain ⟨c', h1, h2, -⟩ := C50_memory (c := clearDemo.ctx) (Demo.fits_of rfl)
      ⟨fun _ => ⟨rfl, rfl⟩, fun _ => ⟨rfl, rfl, rfl, rfl⟩, fun _ => ⟨rfl, rfl, rfl, rfl⟩⟩
    refine ⟨c', h1, rfl, ?_, ?_, ?_⟩ <;> rw [h2] <;> rfl
  · refine (C50_program (c := clearDemo.ctx) (Demo.fits_of rfl) ⟨_, rfl, rfl, ?_⟩ ?_).trans rfl
    · intro net hnet
      simp only [List.mem_singleton] at hnet
      subst hnet
      rfl
    · intro n r k cell hc hd
      match n, r, k with
      | 0, 0, 0 => cases hc; cases hd
      | 0, 0, 1 => cases hc; rfl
      | 0, 0, 2 => cases hc; cases hd
      | 0, 0, k + 3 => cases hc
      | 0, r + 1, k => cases hc
      | n + 1, r, k => cases hc

end Ladder.Props
