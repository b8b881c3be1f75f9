import Verif.Lemmas.ScanChange
import Verif.Spec.Run
import Verif.Spec.Demo

/-
C31: a scan does not rewrite the program.  C27: networks that are not enabled are inert.
-/

set_option autoImplicit false

namespace Ladder.Props

open Spec Op

/-! ### Specification -/

/-- A cell without its power state and without the data word of its first operand. -/
def cellFrame (c : Cell) : Cell :=
  { c with state := false, data := c.data.map fun d => d.modify 0 fun v => { v with raw := 0 } }

/-- A network without power states and without the first data word of each cell. -/
def netFrame (n : Network) : Network := { n with cells := n.cells.map (·.map (·.map cellFrame)) }

/-- `b` holds the same program as `a`: the same networks with the same dimensions and enable flags, in enabled networks
the same cells apart from power states, and in the other networks the same cells apart from power states and the
data word of first operands. -/
structure SameProgram (a b : Ctx) : Prop where
  frames : b.network.map (·.map netFrame) = a.network.map (·.map netFrame)
  enabled : ∀ n net, at? a.network n = some net → net.enable = true →
    (at? b.network n).map netText = some (netText net)

/-- Power states of a network. -/
def states (net : Network) : Arr (List Bool) := net.cells.map (·.map (·.map (·.state)))

/-! ### C31 -/

theorem cellFrame_text (c : Cell) : cellFrame (cellText c) = cellFrame c := rfl

theorem netFrame_text (n : Network) : netFrame (netText n) = netFrame n := by
  cases n with
  | mk e r c cells =>
    cases cells with
    | none => rfl
    | some l => simp [netFrame, netText, cellFrame_text, Function.comp_def]

theorem SameProgram.of_program {a b : Ctx} (h : program b = program a) : SameProgram a b := by
  refine ⟨?_, ?_⟩
  · have : ∀ c : Ctx, c.network.map (·.map netFrame) = (program c).map (·.map netFrame) := by
      intro c
      cases hc : c.network with
      | none => simp [program, hc]
      | some l => simp [program, hc, netFrame_text, Function.comp_def]
    rw [this, this, h]
  · intro n net hn _
    rw [← at?_map]
    show at? (program b) n = _
    rw [h, program, at?_map, hn]; rfl

theorem SameProgram.refl (a : Ctx) : SameProgram a a := .of_program rfl

theorem SameProgram.trans {a b c : Ctx} (h : SameProgram a b) (h' : SameProgram b c) : SameProgram a c := by
  refine ⟨h'.frames.trans h.frames, fun n net hn he => ?_⟩
  have h1 := h.enabled n net hn he
  simp only [Option.map_eq_some_iff] at h1
  obtain ⟨net', hn', e⟩ := h1
  have he' : net'.enable = true := by rw [← he]; exact (congrArg Network.enable e :)
  rw [h'.enabled n net' hn' he', e]

theorem SameProgram.of_network {a b : Ctx} (h : b.network = a.network) : SameProgram a b :=
  .of_program (by simp [program, h])

theorem sameProgram_upd (ctx : Ctx) (ℓ : Loc) (x : Nat) : SameProgram ctx (upd ctx ℓ x) :=
  .of_program (congrArg Ctx.network (shell_upd ctx ℓ x) :)

theorem cellFrame_setRaw (cell : Cell) (v : Value) (x : W32) (h : at? cell.data 0 = some v) :
    cellFrame { cell with data := aset cell.data 0 { v with raw := x } } = cellFrame cell := by
  unfold cellFrame
  congr 1
  rw [aset_modify (f := fun v => { v with raw := x }) h]
  cases cell.data with
  | none => rfl
  | some d => cases d <;> rfl

theorem sameProgram_table {ctx : Ctx} {n r c : Nat} {net : Network} {cell : Cell} {v : Value} (x : W32)
    (hn : at? ctx.network n = some net) (en : net.enable = false) (hc : cell? ctx n r c = some cell)
    (hv : at? cell.data 0 = some v) :
    SameProgram ctx (ctx.modCell n r c fun cell => { cell with data := aset cell.data 0 { v with raw := x } }) := by
  obtain ⟨nets, hnets⟩ := Option.isSome_iff_exists.1 (isSome_of_at? hn)
  simp only [at?, hnets, Option.bind_some] at hn
  constructor
  · simp only [Ctx.modCell, hnets, Option.map_some, Option.some.injEq]
    apply List.ext_getElem?
    intro k
    rw [List.getElem?_map, List.getElem?_map, List.getElem?_modify]
    by_cases hk : n = k
    · subst hk
      simp only [hn, if_true, Option.map_some]
      simp only [cell?, at?, hnets, Option.bind_some, hn, Option.bind_eq_some_iff] at hc
      obtain ⟨row, ⟨rows, hrows, hrow⟩, hcell⟩ := hc
      unfold netFrame
      simp only [Option.map_eq_map, hrows, Option.map_some]
      congr 3
      apply List.ext_getElem?
      intro i
      rw [List.getElem?_map, List.getElem?_map, List.getElem?_modify]
      by_cases hi : r = i
      · subst hi
        simp only [Option.map_eq_map, hrow, if_true, Option.map_some, Option.some.injEq]
        apply List.ext_getElem?
        intro j
        rw [List.getElem?_map, List.getElem?_map, List.getElem?_modify]
        by_cases hj : c = j
        · subst hj
          simp only [Option.map_eq_map, hcell, if_true, Option.map_some, Option.some.injEq]
          exact cellFrame_setRaw cell v x hv
        · simp [hj]
      · simp [hi]
    · simp [hk]
  · intro k net' hk he
    simp only [Ctx.modCell, at?_modify]
    by_cases hkn : n = k
    · subst hkn
      simp only [at?, hnets, Option.bind_some, hn, Option.some.injEq] at hk
      subst hk
      rw [en] at he; cases he
    · simp [hkn, hk]

theorem sameProgram_change {env : Env} (hk : Hooks env fun c c' => program c' = program c) {w w' : World}
    (h : Change env w w') : SameProgram w.ctx w'.ctx := by
  cases h with
  | store => exact sameProgram_upd _ _ _
  | clock => exact .refl _
  | err => exact .of_network rfl
  | fault => exact .of_network rfl
  | panic => exact .of_program (hk.panic _ _)
  | foreign => exact .of_program (hk.foreign _ _ _ _ _)
  | table x hn en hc hv => exact sameProgram_table x hn en hc hv

theorem sameProgram_schange {env : Env} (hk : Hooks env fun c c' => program c' = program c) {K : Nat → Prop}
    {w w' : World} (h : SChange env K True w w') : SameProgram w.ctx w'.ctx := by
  cases h with
  | instr h => exact sameProgram_change hk h
  | last => exact .of_network rfl
  | inv => exact .of_network rfl
  | leave => exact .of_network rfl
  | enter => exact .of_network rfl
  | exec => exact .of_network rfl
  | ret => exact .of_network rfl
  | callback => exact .of_program (hk.instruction _ _)
  | scanEnd => exact .of_program (hk.scanEnd _ _)

theorem sameProgram_star {env : Env} (hk : Hooks env fun c c' => program c' = program c) {K : Nat → Prop}
    {w w' : World} (h : Star (SChange env K True) w w') : SameProgram w.ctx w'.ctx :=
  h.lift (S := fun w w' => SameProgram w.ctx w'.ctx) (fun _ => .refl _) (fun _ _ _ => .trans)
    (fun _ _ => sameProgram_schange hk)

/-- C31.  A scan leaves the program as it was (`SameProgram`), whatever the program, the data and the clock, provided the
callbacks do so. -/
theorem C31_scan_keeps_program {env : Env} (hk : Hooks env fun c c' => program c' = program c) {w w' : World}
    (h : scan env w = .ok ((), w')) : SameProgram w.ctx w'.ctx :=
  sameProgram_star hk (SChg.scan (K := fun _ => True) trivial (fun _ => trivial) _ _ _ h)

/-! ### C27 -/

/-- Events of executed cells name networks in `K`, and the trace only grows. -/
theorem trace_change {env : Env} {w w' : World} (h : Change env w w') :
    ∃ new, w'.trace = w.trace ++ new ∧ execs new = [] := by
  cases h with
  | panic => exact ⟨_, rfl, rfl⟩
  | foreign => exact ⟨_, rfl, rfl⟩
  | _ => exact ⟨[], by simp, rfl⟩

theorem execs_append (a b : List Event) : execs (a ++ b) = execs a ++ execs b := List.filterMap_append ..

theorem trace_star {env : Env} {K : Nat → Prop} {w w' : World} (h : Star (SChange env K True) w w') :
    ∃ new, w'.trace = w.trace ++ new ∧ ∀ e ∈ execs new, K e.1 := by
  induction h with
  | refl => exact ⟨[], by simp, by simp [execs]⟩
  | @step a b c h _ ih =>
    obtain ⟨n2, e2, k2⟩ := ih
    have : ∃ new, b.trace = a.trace ++ new ∧ ∀ e ∈ execs new, K e.1 := by
      cases h with
      | instr h => obtain ⟨n1, e1, k1⟩ := trace_change h; exact ⟨n1, e1, by simp [k1]⟩
      | exec m hm => exact ⟨_, rfl, by simp [execs, hm]⟩
      | ret => exact ⟨_, rfl, by simp [execs]⟩
      | callback => exact ⟨_, rfl, by simp [execs]⟩
      | scanEnd => exact ⟨_, rfl, by simp [execs]⟩
      | _ => exact ⟨[], by simp, by simp [execs]⟩
    obtain ⟨n1, e1, k1⟩ := this
    exact ⟨n1 ++ n2, by rw [e2, e1, List.append_assoc], by
      rw [execs_append]; intro e he
      rcases List.mem_append.1 he with h | h
      · exact k1 _ h
      · exact k2 _ h⟩

theorem news_of {w w' : World} {new : List Event} (h : w'.trace = w.trace ++ new) : news w w' = new := by
  simp [news, h]

/-- Network `n` is enabled. -/
def Enabled (ctx : Ctx) (n : Nat) : Prop := ∃ net, at? ctx.network n = some net ∧ net.enable = true

theorem SameProgram.enable {a b : Ctx} (h : SameProgram a b) {n : Nat} (he : Enabled b n) : Enabled a n := by
  obtain ⟨net, hn, he⟩ := he
  have e : (at? b.network n).map netFrame = (at? a.network n).map netFrame := by rw [← at?_map, ← at?_map, h.frames]
  rw [hn] at e
  simp only [Option.map_some] at e
  have e := e.symm
  rw [Option.map_eq_some_iff] at e
  obtain ⟨net', hn', e⟩ := e
  exact ⟨net', hn', by rw [← he]; exact (congrArg Network.enable e :)⟩

/-- The program is kept and only cells of enabled networks are executed. -/
def Inert (w w' : World) : Prop :=
  SameProgram w.ctx w'.ctx ∧ ∃ new, w'.trace = w.trace ++ new ∧ ∀ e ∈ execs new, Enabled w.ctx e.1

theorem Inert.refl (w : World) : Inert w w := ⟨.refl _, [], by simp, by simp [execs]⟩

theorem Inert.trans {a b c : World} (h : Inert a b) (h' : Inert b c) : Inert a c := by
  obtain ⟨p, n1, e1, k1⟩ := h
  obtain ⟨p', n2, e2, k2⟩ := h'
  refine ⟨p.trans p', n1 ++ n2, by rw [e2, e1, List.append_assoc], ?_⟩
  rw [execs_append]
  intro e he
  rcases List.mem_append.1 he with h | h
  · exact k1 _ h
  · exact p.enable (k2 _ h)

theorem Inert.of_star {env : Env} (hk : Hooks env fun c c' => program c' = program c) {K : Nat → Prop} {w w' : World}
    (h : Star (SChange env K True) w w') (hK : ∀ n, K n → Enabled w.ctx n) : Inert w w' := by
  obtain ⟨new, e, k⟩ := trace_star h
  exact ⟨sameProgram_star hk h, new, e, fun x hx => hK _ (k x hx)⟩

theorem inert_of {α : Type} {env : Env} (hk : Hooks env fun c c' => program c' = program c) {m : Op α}
    (h : SChg env (fun _ => False) True m) : Pres Inert m :=
  fun _ _ _ e => .of_star hk (h _ _ _ e) (fun _ h => h.elim)

theorem inert_network {env : Env} (hk : Hooks env fun c c' => program c' = program c) (n : Nat) :
    Pres Inert (scanNetwork env n) := by
  intro w a w' h
  by_cases he : Enabled w.ctx n
  · exact .of_star hk (SChg.scanNetwork (K := (· = n)) trivial n rfl _ _ _ h) (fun _ h => h ▸ he)
  · unfold scanNetwork at h
    rw [bind_getCtx] at h
    obtain ⟨net, hn, h⟩ := bind_lift_eq_ok.1 h
    rw [aget_eq_ok] at hn
    have hd : net.enable = false := by
      cases hb : net.enable with
      | false => rfl
      | true => exact absurd ⟨net, hn, hb⟩ he
    split at h
    · exact inert_of hk (SChg.bind SChg.fault fun _ => SChg.bind SChg.callPanic fun _ => SChg.pure _) _ _ _ h
    · simp only [hd, Bool.not_false, if_true, pure_apply, Except.ok.injEq, Prod.mk.injEq] at h
      rw [← h.2]; exact .refl _

theorem inert_loop {env : Env} (hk : Hooks env fun c c' => program c' = program c) : ∀ fuel n,
    Pres Inert (networkLoop env fuel n)
  | 0, _ => Pres.lift Inert.refl _
  | fuel + 1, n => by
    unfold networkLoop
    refine Pres.bind (fun _ _ _ => .trans) (Pres.getCtx Inert.refl) fun _ => ?_
    split
    · refine Pres.bind (fun _ _ _ => .trans) (inert_network hk n) fun b => ?_
      split
      · exact inert_loop hk fuel _
      · exact Pres.pure Inert.refl _
    · exact Pres.pure Inert.refl _

/-- C27.  Every cell executed by a scan belongs to a network that was enabled when the scan began. -/
theorem C27_executes_enabled_only {env : Env} (hk : Hooks env fun c c' => program c' = program c) {w w' : World}
    (h : scan env w = .ok ((), w')) :
    ∀ e ∈ execs (news w w'), Enabled w.ctx e.1 := by
  have : Pres Inert (scan env) := by
    unfold scan
    refine Pres.bind (fun _ _ _ => .trans) ?_ fun _ => Pres.bind (fun _ _ _ => .trans)
      (inert_of hk SChg.cronPhase) fun b => ?_
    · intro w a w' h
      simp at h
      rw [← h]
      exact ⟨.of_network rfl, [], by simp, by simp [execs]⟩
    · split
      · refine Pres.bind (fun _ _ _ => .trans) (Pres.getCtx Inert.refl) fun _ => ?_
        split
        · exact inert_of hk (SChg.bind SChg.fault fun _ => SChg.callPanic)
        · exact inert_loop hk _ _
      · exact Pres.pure Inert.refl _
  obtain ⟨-, new, e, k⟩ := this _ _ _ h
  rw [news_of e]
  exact k

/-- Network `n` is not enabled, not being executed and has the power states `s`. -/
def Asleep (n : Nat) (s : Arr (List Bool)) (w : World) : Prop :=
  w.ctx.exec ≠ some n ∧ ∃ net, at? w.ctx.network n = some net ∧ net.enable = false ∧ states net = s

theorem upd_network {ctx : Ctx} {ℓ : Loc} {x : Nat} (h : ∀ n r c, ℓ ≠ .cell n r c) :
    (upd ctx ℓ x).network = ctx.network := by
  cases ℓ <;> first | rfl | exact absurd rfl (h _ _ _)

theorem asleep_of_eq {n : Nat} {s : Arr (List Bool)} {w w' : World} (h : w'.ctx.network = w.ctx.network)
    (he : w'.ctx.exec = w.ctx.exec) (ha : Asleep n s w) : Asleep n s w' := by
  obtain ⟨h1, net, h2, h3⟩ := ha
  exact ⟨by rw [he]; exact h1, net, by rw [h]; exact h2, h3⟩

theorem states_modify (net : Network) (r c : Nat) (f : Cell → Cell) (hf : ∀ x, (f x).state = x.state) :
    states { net with cells := net.cells.map fun rows => rows.modify r fun row => row.modify c f } = states net := by
  unfold states
  cases net.cells with
  | none => rfl
  | some rows =>
    simp only [Option.map_some, Option.some.injEq]
    exact map_modify_eq (fun row : List Cell => row.map (·.state)) (fun row => row.modify c f)
      (fun row => map_modify_eq (fun x : Cell => x.state) f hf row c) rows r

theorem asleep_change {env : Env} (hk : Hooks env fun c c' => c'.network = c.network ∧ c'.exec = c.exec) {n : Nat}
    {s : Arr (List Bool)} {w w' : World} (h : Change env w w') (ha : Asleep n s w) : Asleep n s w' := by
  cases h with
  | @store ℓ x _ own ex lt =>
    by_cases hc : ∃ n' r c, ℓ = .cell n' r c
    · obtain ⟨n', r, c, rfl⟩ := hc
      obtain ⟨h1, net, h2, h3⟩ := ha
      have hne : n' ≠ n := by
        intro e; exact h1 (by rw [own _ _ _ rfl, e])
      refine ⟨by simpa using h1, net, ?_, h3⟩
      simp [upd, Ctx.modCell, at?_modify, hne, h2]
    · exact asleep_of_eq (upd_network (fun n r c e => hc ⟨n, r, c, e⟩)) (by simp) ha
  | clock => exact asleep_of_eq rfl rfl ha
  | err => exact asleep_of_eq rfl rfl ha
  | fault => exact asleep_of_eq rfl rfl ha
  | panic => exact asleep_of_eq (hk.panic _ _).1 (hk.panic _ _).2 ha
  | foreign => exact asleep_of_eq (hk.foreign _ _ _ _ _).1 (hk.foreign _ _ _ _ _).2 ha
  | @table k r c _ _ v x =>
    obtain ⟨h1, net, h2, h3, h4⟩ := ha
    refine ⟨h1, ?_⟩
    simp only [Ctx.modCell, at?_modify, h2, Option.map_some]
    split
    · refine ⟨_, rfl, h3, ?_⟩
      rw [← h4]
      exact states_modify net r c _ (fun _ => rfl)
    · exact ⟨_, rfl, h3, h4⟩

theorem asleep_schange {env : Env} (hk : Hooks env fun c c' => c'.network = c.network ∧ c'.exec = c.exec) {n : Nat}
    {K : Nat → Prop} {s : Arr (List Bool)} {w w' : World} (h : SChange env K True w w') (ha : Asleep n s w) :
    Asleep n s w' := by
  cases h with
  | instr h => exact asleep_change hk h ha
  | last => exact asleep_of_eq rfl rfl ha
  | inv => exact asleep_of_eq rfl rfl ha
  | exec => exact asleep_of_eq rfl rfl ha
  | ret => exact asleep_of_eq rfl rfl ha
  | leave => exact ⟨by simp, ha.2⟩
  | @enter m net _ hn en =>
    obtain ⟨_, net', h2, h3, h4⟩ := ha
    refine ⟨?_, net', h2, h3, h4⟩
    intro e
    simp only [Option.some.injEq] at e
    rw [e, h2, Option.some.injEq] at hn
    rw [← hn, h3] at en; cases en
  | callback => exact asleep_of_eq (hk.instruction _ _).1 (hk.instruction _ _).2 ha
  | scanEnd => exact asleep_of_eq (hk.scanEnd _ _).1 (hk.scanEnd _ _).2 ha

/-- C27.  A scan changes no power state of a network that is not enabled (and nothing else in it but data words, see
C31), provided the callbacks change neither the networks nor which one is being executed. -/
theorem C27_disabled_states {env : Env} (hk : Hooks env fun c c' => c'.network = c.network ∧ c'.exec = c.exec)
    {w w' : World} (h : scan env w = .ok ((), w')) {n : Nat} {net : Network} (hn : at? w.ctx.network n = some net)
    (he : net.enable = false) :
    ∃ net', at? w'.ctx.network n = some net' ∧ states net' = states net ∧ netFrame net' = netFrame net := by
  have h0 := h
  have hp : Hooks env fun c c' => program c' = program c :=
    ⟨fun t c => by simp [program, (hk.panic t c).1], fun t c => by simp [program, (hk.instruction t c).1],
     fun t c => by simp [program, (hk.scanEnd t c).1], fun t i a b c => by simp [program, (hk.foreign t i a b c).1]⟩
  unfold scan at h
  rw [bind_modCtx] at h
  have hs : Star (SChange env (fun _ => True) True) { w with ctx := { w.ctx with exec := none } } w' := by
    exact (show SChg env (fun _ => True) True _ from SChg.bind SChg.cronPhase fun _ => SChg.ite (SChg.bind SChg.getCtx fun _ =>
      SChg.ite (SChg.bind SChg.fault fun _ => SChg.callPanic) (SChg.networkLoop trivial (fun _ => trivial) _ _)) (SChg.pure _))
      _ _ _ h
  have := hs.inv (P := Asleep n (states net)) (fun _ _ => asleep_schange hk) ⟨by simp, net, hn, he, rfl⟩
  obtain ⟨-, net', h1, -, h3⟩ := this
  refine ⟨net', h1, h3, ?_⟩
  have e : (at? w'.ctx.network n).map netFrame = (at? w.ctx.network n).map netFrame := by
    rw [← at?_map, ← at?_map, (C31_scan_keeps_program hp h0).frames]
  rw [h1, hn] at e
  simpa using e

theorem loop_disabled {env : Env} : ∀ (fuel n : Nat) {w w' : World} {u : Unit},
    (∀ k < w.ctx.qty.networks, ∃ net, at? w.ctx.network k = some net ∧ net.enable = false ∧ net.cells.isSome) →
    networkLoop env fuel n w = .ok (u, w') → w' = w
  | 0, _, _, _, _, _, h => by simp [networkLoop] at h
  | fuel + 1, n, w, w', u, hd, h => by
    unfold networkLoop at h
    rw [bind_getCtx] at h
    split at h
    · rename_i hlt
      obtain ⟨net, hn, he, hc⟩ := hd n hlt
      have e : scanNetwork env n w = .ok (true, w) := by
        unfold scanNetwork
        rw [bind_getCtx, aget_eq_ok.2 hn, bind_lift_ok]
        obtain ⟨l, hl⟩ := Option.isSome_iff_exists.1 hc
        simp [hl, he]
      rw [bind_ok e] at h
      exact loop_disabled fuel (n + 1) hd h
    · simp at h; exact h.symm

/-- What the cron phase does. -/
theorem cronPhase_effect {env : Env} {w w' : World} {b : Bool} (h : cronPhase env w = .ok (b, w')) :
    (∃ m s t, w' = { w with ctx := { w.ctx with M := m, state := s }, tick := t }) ∧
    (w.ctx.cron = none → b = true ∧ w' = w) := by
  unfold cronPhase at h
  rw [bind_getCtx] at h
  cases hc : w.ctx.cron with
  | none =>
    simp only [hc, pure_apply, Except.ok.injEq, Prod.mk.injEq] at h
    exact ⟨⟨_, _, _, h.2.symm⟩, fun _ => ⟨h.1.symm, h.2.symm⟩⟩
  | some cr =>
    refine ⟨?_, by simp⟩
    simp only [hc] at h
    obtain ⟨m, hm, h⟩ := bind_lift_eq_ok.1 h
    rw [bind_modCtx] at h
    obtain ⟨e, w2, h3, h⟩ := bind_eq_ok.1 h
    have h4 : ∃ m' t', w2 = { w with ctx := { w.ctx with M := m' }, tick := t' } := by
      unfold cronEval at h3
      simp only [hc] at h3
      split at h3
      · simp only [Except.ok.injEq, Prod.mk.injEq] at h3; exact ⟨_, _, by rw [← hc] at h3; exact h3.2.symm⟩
      · split at h3
        · simp only [Except.ok.injEq, Prod.mk.injEq] at h3; exact ⟨_, _, by rw [← hc] at h3; exact h3.2.symm⟩
        · split at h3
          · simp at h3
          · simp only [Except.ok.injEq, Prod.mk.injEq] at h3; exact ⟨_, _, by rw [← hc] at h3; exact h3.2.symm⟩
    obtain ⟨m', t', rfl⟩ := h4
    split at h
    · simp only [bind_modCtx, pure_apply, Except.ok.injEq, Prod.mk.injEq] at h
      exact ⟨_, _, _, h.2.symm⟩
    · simp only [pure_apply, Except.ok.injEq, Prod.mk.injEq] at h
      exact ⟨_, _, _, h.2.symm⟩

/-- C27.  When no network is enabled, a scan changes no location at all except flags written by cron jobs, and without
cron it changes nothing. -/
theorem C27_all_disabled {env : Env} {w w' : World} (h : scan env w = .ok ((), w'))
    (hn : w.ctx.network.isSome)
    (hd : ∀ k < w.ctx.qty.networks, ∃ net, at? w.ctx.network k = some net ∧ net.enable = false ∧ net.cells.isSome) :
    (∀ ℓ, (∀ i, ℓ ≠ .M i) → load w'.ctx ℓ = load w.ctx ℓ) ∧
    (w.ctx.cron = none → w' = { w with ctx := { w.ctx with exec := none } }) := by
  unfold scan at h
  rw [bind_modCtx] at h
  obtain ⟨b, w1, h1, h2⟩ := bind_eq_ok.1 h
  obtain ⟨⟨m, s, t, e1⟩, hno⟩ := cronPhase_effect h1
  rw [e1] at h2 hno
  have hw : w' = { w with ctx := { w.ctx with exec := none, M := m, state := s }, tick := t } := by
    split at h2
    · rw [bind_getCtx] at h2
      have hnn : w.ctx.network.isNone = false := by simpa using hn
      rw [if_neg (by simp only [hnn]; decide)] at h2
      exact loop_disabled u32Fuel 0 hd h2
    · simp only [pure_apply, Except.ok.injEq, Prod.mk.injEq, true_and] at h2
      exact h2.symm
  refine ⟨?_, ?_⟩
  · intro ℓ hℓ
    rw [hw]
    cases ℓ <;> first | rfl | exact absurd rfl (hℓ _)
  · intro hc
    rw [hw]
    exact (hno hc).2

/-! ### The hypotheses can be met -/

/-- An enabled rung `I0 — (M1)` copying a table, a disabled rung, and two disabled tables. -/
def frameDemo : List Network :=
  [Demo.net [[Demo.ins .NO [Demo.op .I 0], Demo.ins .COIL [Demo.op .M 1]],
     [Demo.ins .TMOVE [Demo.op .NONE 2, Demo.op .NONE 0, Demo.op .NONE 3, Demo.op .NONE 0, Demo.op .NONE 1], {}]],
   Demo.net [[Demo.ins .NC [Demo.op .M 0] true, Demo.ins .COIL [Demo.op .M 2]]] false,
   Demo.net [[Demo.ins .NOP [Demo.op .D 5]]] false,
   Demo.net [[Demo.ins .NOP [Demo.op .D 9]]] false]

theorem demoHooks (P : Ctx → Ctx → Prop) (h : ∀ c, P c c) : Hooks Demo.env P :=
  ⟨fun _ c => h c, fun _ c => h c, fun _ c => h c, fun _ _ _ _ c => h c⟩

/-- The scan of this program ends, runs the four cells of network 0, sets M1 and copies 9 over 5 in network 2. -/
example : ∃ w', scan Demo.env (Demo.world frameDemo) = .ok ((), w') ∧
    (execs (news (Demo.world frameDemo) w') = [(0, 0, 0, .NO), (0, 0, 1, .COIL), (0, 1, 0, .TMOVE), (0, 1, 1, .NOP)] ∧
     load w'.ctx (.M 1) = some 1 ∧ operand? w'.ctx 2 0 0 0 = some (Demo.op .D 9)) ∧
    SameProgram (Demo.ctx frameDemo) w'.ctx := by
  have : ended (scan Demo.env (Demo.world frameDemo)) (fun w' => decide
      (execs (news (Demo.world frameDemo) w') = [(0, 0, 0, .NO), (0, 0, 1, .COIL), (0, 1, 0, .TMOVE), (0, 1, 1, .NOP)] ∧
        load w'.ctx (.M 1) = some 1 ∧ operand? w'.ctx 2 0 0 0 = some (Demo.op .D 9))) = true := by decide +kernel
  obtain ⟨w', h, hp⟩ := of_ended this
  exact ⟨w', h, by simpa using hp, C31_scan_keeps_program (demoHooks _ fun _ => rfl) h⟩

end Ladder.Props
