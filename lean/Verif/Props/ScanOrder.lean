import Verif.Props.ScanError
import Verif.Spec.Schedule

/-
C26: the execution order is fixed by the program text.  C29: a scan does a bounded amount of work.
-/

set_option autoImplicit false

namespace Ladder.Props

open Spec Op

/-! ### The text of a network -/

theorem cell_ok {net : Network} {r c : Nat} {x : Cell} : net.cell r c = .ok x ↔ look net r c = some x := by
  unfold Network.cell look at?
  cases net.cells with
  | none => simp
  | some rows =>
    simp only [Option.bind_some]
    cases rows[r]? with
    | none => simp
    | some row =>
      simp only [Option.bind_some]
      cases row[c]? <;> simp

theorem text_code {net : Network} {r c : Nat} {x : Cell} (h : look net r c = some x) : (text net).code r c = x.code := by
  simp [text, h]

theorem text_bar {net : Network} {r c : Nat} {x : Cell} (h : look net r c = some x) : (text net).bar r c = x.bar := by
  simp [text, h]

theorem look_frame (net : Network) (r c : Nat) : look (netFrame net) r c = (look net r c).map cellFrame := by
  unfold look netFrame
  rw [at?_map]
  cases at? net.cells r with
  | none => rfl
  | some row => simp

theorem text_frame (net : Network) : text (netFrame net) = text net := by
  unfold text
  simp only [look_frame, Option.map_map]
  rfl

theorem text_of_frame {a b : Network} (h : netFrame a = netFrame b) : text a = text b := by
  rw [← text_frame a, h, text_frame]

theorem SameProgram.text {a b : Ctx} (h : SameProgram a b) {n : Nat} {net : Network} (hn : at? a.network n = some net) :
    ∃ net', at? b.network n = some net' ∧ Spec.text net' = Spec.text net ∧ net'.enable = net.enable ∧
      net'.cells.isSome = net.cells.isSome := by
  have e : (at? b.network n).map netFrame = (at? a.network n).map netFrame := by rw [← at?_map, ← at?_map, h.frames]
  rw [hn, Option.map_some, Option.map_eq_some_iff] at e
  obtain ⟨net', hn', e⟩ := e
  refine ⟨net', hn', text_of_frame e, (congrArg Network.enable e :), ?_⟩
  have := (congrArg (fun n : Network => n.cells.isSome) e :)
  simpa [netFrame] using this

theorem groupEnd_spec {net : Network} {c : Nat} : ∀ (fuel g : Nat) {ge : Nat}, net.rows - (g + 1) ≤ fuel →
    groupEnd net c fuel g = .ok ge →
    g ≤ ge ∧ List.range' g (ge + 1 - g) = (text net).group c g ∧ (ge + 1 < net.rows → (text net).bar (ge + 1) c = false)
  | 0, g, ge, hf, h => by
    simp only [groupEnd, Except.ok.injEq] at h
    subst h
    have : net.rows - (g + 1) = 0 := by omega
    refine ⟨Nat.le_refl _, ?_, fun h => by omega⟩
    simp [Text.group, text, this]
  | fuel + 1, g, ge, hf, h => by
    unfold groupEnd at h
    by_cases hlt : g + 1 < net.rows
    · rw [if_pos hlt] at h
      cases hc : net.cell (g + 1) c with
      | error e => simp [hc] at h
      | ok x =>
        simp only [hc] at h
        have hl := cell_ok.1 hc
        have hr : net.rows - (g + 1) = (net.rows - (g + 1 + 1)) + 1 := by omega
        by_cases hb : x.bar = true
        · rw [if_pos hb] at h
          obtain ⟨h1, h2, h3⟩ := groupEnd_spec fuel (g + 1) (by omega) h
          refine ⟨by omega, ?_, h3⟩
          have e1 : ge + 1 - g = (ge + 1 - (g + 1)) + 1 := by omega
          rw [e1, List.range'_succ, h2]
          show _ = g :: (List.range' (g + 1) (net.rows - (g + 1))).takeWhile _
          rw [hr, List.range'_succ, List.takeWhile_cons, text_bar hl, if_pos hb]
          rfl
        · rw [if_neg hb] at h
          simp only [Except.ok.injEq] at h
          subst h
          have hb' : (text net).bar (g + 1) c = false := by rw [text_bar hl]; simpa using hb
          refine ⟨Nat.le_refl _, ?_, fun _ => hb'⟩
          show _ = g :: (List.range' (g + 1) (net.rows - (g + 1))).takeWhile _
          rw [hr, List.range'_succ, List.takeWhile_cons, hb']
          simp
    · rw [if_neg hlt] at h
      simp only [Except.ok.injEq] at h
      subst h
      have : net.rows - (g + 1) = 0 := by omega
      refine ⟨Nat.le_refl _, ?_, fun h => by omega⟩
      simp [Text.group, text, this]

theorem isLower_spec {net : Network} {r : Nat} : ∀ (n c : Nat) {b : Bool}, isLower net r c n = .ok b →
    b = (List.range' c n).any fun c => (text net).bar r c && !(decide (r + 1 < net.rows) && (text net).code (r + 1) c == .MULTI)
  | 0, c, b, h => by simp only [isLower, Except.ok.injEq] at h; simp [← h]
  | n + 1, c, b, h => by
    unfold isLower at h
    rw [List.range'_succ, List.any_cons]
    cases hc : net.cell r c with
    | error e => simp [hc] at h
    | ok x =>
      simp only [hc] at h
      rw [text_bar (cell_ok.1 hc)]
      by_cases hb : x.bar = true
      · rw [if_pos hb] at h
        by_cases hlt : r + 1 < net.rows
        · rw [if_pos hlt] at h
          cases hd : net.cell (r + 1) c with
          | error e => simp [hd] at h
          | ok y =>
            simp only [hd] at h
            rw [text_code (cell_ok.1 hd)]
            by_cases hm : y.code = .MULTI
            · rw [if_pos hm] at h
              rw [isLower_spec n (c + 1) h]
              simp [hm, hlt]
            · rw [if_neg hm] at h
              simp only [Except.ok.injEq] at h
              simp [hb, hlt, hm, ← h]
        · rw [if_neg hlt] at h
          simp only [Except.ok.injEq] at h
          simp [hb, hlt, ← h]
      · rw [if_neg hb] at h
        rw [isLower_spec n (c + 1) h]
        simp [hb]

theorem starts_inside (T : Text) : ∀ (n r : Nat),
    T.starts true r n = T.starts false (r + ((List.range' r n).takeWhile (T.bar · 0)).length)
      (n - ((List.range' r n).takeWhile (T.bar · 0)).length)
  | 0, r => by simp [Text.starts]
  | n + 1, r => by
    rw [List.range'_succ, List.takeWhile_cons]
    by_cases hb : T.bar r 0 = true
    · rw [if_pos hb, Text.starts, if_pos (by simp [hb]), starts_inside T n (r + 1), List.length_cons]
      congr 1 <;> omega
    · rw [if_neg hb, Text.starts, if_neg (by simp [hb])]
      simp [Text.starts]

/-! ### What stays the same while a network is executed -/

/-- The world is executing network `k`, whose text is `T`, with the given scan limit and panic handler. -/
structure At (k : Nat) (T : Text) (max : Nat) (pan : Bool) (w : World) : Prop where
  exec : w.ctx.exec = some k
  text : ∃ net, at? w.ctx.network k = some net ∧ Spec.text net = T
  limit : w.ctx.scan.maxScanCycles = max
  panic : w.ctx.on.panic = pan

/-- Things that stay the same during a whole scan. -/
structure Kept (w w' : World) : Prop where
  program : SameProgram w.ctx w'.ctx
  limit : w'.ctx.scan.maxScanCycles = w.ctx.scan.maxScanCycles
  networks : w'.ctx.qty.networks = w.ctx.qty.networks
  panic : w'.ctx.on.panic = w.ctx.on.panic

theorem Kept.refl (w : World) : Kept w w := ⟨.refl _, rfl, rfl, rfl⟩

theorem Kept.trans {a b c : World} (h : Kept a b) (h' : Kept b c) : Kept a c :=
  ⟨h.program.trans h'.program, h'.limit.trans h.limit, h'.networks.trans h.networks, h'.panic.trans h.panic⟩

theorem hooks_program {env : Env} (hk : Hooks env Steady) : Hooks env fun c c' => program c' = program c :=
  ⟨fun _ _ => (hk.panic _ _).program, fun _ _ => (hk.instruction _ _).program, fun _ _ => (hk.scanEnd _ _).program,
   fun _ _ _ _ _ => (hk.foreign _ _ _ _ _).program⟩

theorem Kept.of_steady {env : Env} (hk : Hooks env Steady) {K : Nat → Prop} {E : Prop} {w w' : World}
    (h : Star (SChange env K E) w w') : Kept w w' := by
  refine h.lift Kept.refl (fun _ _ _ => .trans) ?_
  intro w w' h
  have hp : SameProgram w.ctx w'.ctx := by
    have h2 : SChange env K True w w' := by
      cases h with
      | instr h => exact .instr h
      | last l => exact .last l
      | inv => exact .inv
      | leave => exact .leave trivial
      | enter _ a b => exact .enter trivial a b
      | exec m a b c => exact .exec m a b c
      | ret a b c d e => exact .ret a b c d e
      | callback a => exact .callback a
      | scanEnd a => exact .scanEnd a
    exact sameProgram_schange (hooks_program hk) h2
  have hs : ∀ {c c' : Ctx}, Steady c c' → c'.scan.maxScanCycles = c.scan.maxScanCycles ∧
      c'.qty.networks = c.qty.networks ∧ c'.on.panic = c.on.panic := fun h => ⟨h.limit, h.networks, h.panic⟩
  have : w'.ctx.scan.maxScanCycles = w.ctx.scan.maxScanCycles ∧ w'.ctx.qty.networks = w.ctx.qty.networks ∧
      w'.ctx.on.panic = w.ctx.on.panic := by
    cases h with
    | instr h =>
      cases h with
      | @store ℓ x => cases ℓ <;> exact ⟨rfl, rfl, rfl⟩
      | panic => exact hs (hk.panic _ _)
      | foreign => exact hs (hk.foreign _ _ _ _ _)
      | _ => exact ⟨rfl, rfl, rfl⟩
    | callback => exact hs (hk.instruction _ _)
    | scanEnd => exact hs (hk.scanEnd _ _)
    | _ => exact ⟨rfl, rfl, rfl⟩
  exact ⟨hp, this.1, this.2.1, this.2.2⟩

theorem exec_star {env : Env} (hk : Hooks env Steady) {K : Nat → Prop} {w w' : World}
    (h : Star (SChange env K False) w w') : w'.ctx.exec = w.ctx.exec := by
  refine h.lift (S := fun w w' => w'.ctx.exec = w.ctx.exec) (fun _ => rfl) (by intro a b c h h'; exact h'.trans h) ?_
  intro w w' h
  cases h with
  | instr h =>
    cases h with
    | @store ℓ x => cases ℓ <;> rfl
    | panic => exact (hk.panic _ _).exec
    | foreign => exact (hk.foreign _ _ _ _ _).exec
    | _ => rfl
  | leave h => exact h.elim
  | enter h => exact h.elim
  | callback => exact (hk.instruction _ _).exec
  | scanEnd => exact (hk.scanEnd _ _).exec
  | _ => rfl

theorem At.star {env : Env} (hk : Hooks env Steady) {k : Nat} {T : Text} {max : Nat} {pan : Bool} {K : Nat → Prop}
    {w w' : World} (ha : At k T max pan w) (h : Star (SChange env K False) w w') : At k T max pan w' := by
  have hp := Kept.of_steady hk h
  obtain ⟨net, hn, ht⟩ := ha.text
  obtain ⟨net', hn', ht', -⟩ := hp.program.text hn
  exact ⟨by rw [exec_star hk h, ha.exec], ⟨net', hn', by rw [ht', ht]⟩, by rw [hp.limit, ha.limit],
    by rw [hp.panic, ha.panic]⟩

theorem At.of {env : Env} (hk : Hooks env Steady) {k : Nat} {T : Text} {max : Nat} {pan : Bool} {α : Type} {m : Op α}
    {a : α} {w w' : World} (ha : At k T max pan w) (hm : SChg env (· = k) False m) (h : m w = .ok (a, w')) :
    At k T max pan w' := ha.star hk (hm _ _ _ h)

theorem At.net {k : Nat} {T : Text} {max : Nat} {pan : Bool} {w w' : World} {net : Network} (ha : At k T max pan w)
    (h : curNet w = .ok (net, w')) : w' = w ∧ Spec.text net = T ∧ at? w.ctx.network k = some net := by
  rw [curNet, bind_getCtx, ha.exec] at h
  obtain ⟨hn, e⟩ := lift_eq_ok.1 h
  rw [aget_eq_ok] at hn
  obtain ⟨net', hn', ht⟩ := ha.text
  rw [hn] at hn'
  cases hn'
  exact ⟨e, ht, hn⟩

theorem At.cell {k : Nat} {T : Text} {max : Nat} {pan : Bool} {w w' : World} {r c : Nat} {x : Cell} (ha : At k T max pan w)
    (h : curCell r c w = .ok (x, w')) : w' = w ∧ T.code r c = x.code ∧ w.ctx.execCell r c = .ok x := by
  rw [curCell, bind_getCtx] at h
  obtain ⟨hc, e⟩ := lift_eq_ok.1 h
  refine ⟨e, ?_, hc⟩
  obtain ⟨n, he, hcell⟩ := Chg.exnet_ok hc
  rw [ha.exec] at he
  cases he
  obtain ⟨net, hn, ht⟩ := ha.text
  rw [← ht]
  apply text_code
  simpa [cell?, hn, look] using hcell

/-! ### Outcomes -/

/-- The events between the worlds execute exactly these cells of network `k`. -/
def Ran (k : Nat) (T : Text) (w w' : World) (l : List (Nat × Nat)) : Prop :=
  ∃ new, w'.trace = w.trace ++ new ∧ execs new = l.map fun p => (k, p.1, p.2, T.code p.1 p.2)

theorem Ran.refl (k : Nat) (T : Text) (w : World) : Ran k T w w [] := ⟨[], by simp, rfl⟩

theorem Ran.trans {k : Nat} {T : Text} {a b c : World} {l l' : List (Nat × Nat)} (h : Ran k T a b l) (h' : Ran k T b c l') :
    Ran k T a c (l ++ l') := by
  obtain ⟨n1, e1, k1⟩ := h
  obtain ⟨n2, e2, k2⟩ := h'
  exact ⟨n1 ++ n2, by rw [e2, e1, List.append_assoc], by rw [execs_append, k1, k2, List.map_append]⟩

/-- Operations that execute no cell. -/
theorem Ran.idle {env : Env} {k : Nat} {T : Text} {α : Type} {m : Op α} (hm : SChg env (fun _ => False) True m)
    {w w' : World} {a : α} (h : m w = .ok (a, w')) : Ran k T w w' [] := by
  obtain ⟨new, e, hx⟩ := trace_star (hm _ _ _ h)
  refine ⟨new, e, ?_⟩
  cases hn : execs new with
  | nil => rfl
  | cons x l => exact (hx x (by simp [hn])).elim

/-- Some instruction failed between the worlds. -/
def Failed (w w' : World) : Prop := ∃ n r c e, e ≠ Err.ok ∧ .ret n r c e ∈ news w w'

/-- The scan limit was hit: error state, overflow error, and the panic handler, if there is one, called last. -/
structure Overflow (w : World) : Prop where
  state : w.ctx.state = .error
  err : w.ctx.last.err = .overflow
  panic : w.ctx.on.panic = true → w.trace.getLast? = some .panic

/-- Result of part of a scan of network `k`, starting with step count `cnt`, that should execute `l` in `s` steps. -/
inductive Res (k : Nat) (T : Text) (max : Nat) (w w' : World) (l : List (Nat × Nat)) (cnt s : Nat) : Bool → Prop
  | done (hr : Ran k T w w' l) (hs : cnt ≤ max → cnt + s ≤ max) : Res k T max w w' l cnt s true
  | stop {l' l'' : List (Nat × Nat)} (hl : l = l' ++ l'') (hr : Ran k T w w' l')
      (hs : Failed w w' ∨ (max < cnt + s ∧ Overflow w')) : Res k T max w w' l cnt s false

theorem Failed.after {k : Nat} {T : Text} {a b c : World} {l l' : List (Nat × Nat)} (h : Ran k T a b l)
    (h2 : Ran k T b c l') (h' : Failed b c) : Failed a c := by
  obtain ⟨n1, e1, k1⟩ := h
  obtain ⟨n2, e2, k2⟩ := h2
  obtain ⟨n, r, cc, e, he, hm⟩ := h'
  refine ⟨n, r, cc, e, he, ?_⟩
  rw [news_of e2] at hm
  rw [news_of (e2.trans (by rw [e1, List.append_assoc]))]
  exact List.mem_append_right _ hm

theorem Res.seq {k : Nat} {T : Text} {max : Nat} {a b c : World} {l l' : List (Nat × Nat)} {cnt s s' : Nat} {x : Bool}
    (h : Res k T max a b l cnt s true) (h' : Res k T max b c l' (cnt + s) s' x) :
    Res k T max a c (l ++ l') cnt (s + s') x := by
  cases h with
  | done hr hs =>
    cases h' with
    | done hr' hs' => exact .done (hr.trans hr') (fun h => by have := hs' (hs h); omega)
    | stop hl hr' hs' =>
      refine .stop (by rw [hl, ← List.append_assoc]) (hr.trans hr') ?_
      rcases hs' with hs' | ⟨h1, h2⟩
      · exact .inl (hs'.after hr hr')
      · exact .inr ⟨by omega, h2⟩

theorem Res.halt {k : Nat} {T : Text} {max : Nat} {a b : World} {l : List (Nat × Nat)} (l' : List (Nat × Nat))
    {cnt s : Nat} (s' : Nat) (h : Res k T max a b l cnt s false) : Res k T max a b (l ++ l') cnt (s + s') false := by
  cases h with
  | stop hl hr hs =>
    refine .stop (by rw [hl, List.append_assoc]) hr (hs.imp id fun ⟨h1, h2⟩ => ⟨by omega, h2⟩)

theorem Res.idle {k : Nat} {T : Text} {max : Nat} {a b c : World} {l : List (Nat × Nat)} {cnt s : Nat} {x : Bool}
    (h : Ran k T a b []) (h' : Res k T max b c l cnt s x) : Res k T max a c l cnt s x := by
  have := Res.seq (.done (cnt := cnt) (s := 0) (max := max) h (fun h => h)) h'
  simpa using this

/-! ### The parts of a scan -/

variable {env : Env} {k : Nat} {T : Text} {max : Nat} {pan : Bool}

theorem panic_overflow (hk : Hooks env Steady) {w w' : World} {u : Unit} (hs : w.ctx.state = .error)
    (he : w.ctx.last.err = .overflow) (h : callPanic env w = .ok (u, w')) : Overflow w' := by
  unfold callPanic at h
  split at h
  · rename_i hp
    simp only [external_apply, Except.ok.injEq, Prod.mk.injEq] at h
    rw [← h.2]
    exact ⟨by rw [(hk.panic _ _).state, hs], by rw [(hk.panic _ _).err, he], fun _ => by simp⟩
  · rename_i hp
    simp only [Except.ok.injEq, Prod.mk.injEq] at h
    rw [← h.2]
    exact ⟨hs, he, fun h => absurd h hp⟩

theorem watch_spec (hk : Hooks env Steady) {cnt : Nat} {w w' : World} {b : Bool} (ha : At k T max pan w)
    (h : watch env cnt w = .ok (b, w')) : (b = true ↔ max < cnt) ∧ (b = true → Overflow w') := by
  have key : ∀ {w1 : World}, At k T max pan w1 → (do
      let ctx ← getCtx
      if ctx.scan.maxScanCycles < cnt then do
        modCtx fun ctx => { ctx with state := .error, last := { ctx.last with err := .overflow } }
        callPanic env
        pure true
      else pure false : Op Bool) w1 = .ok (b, w') → (b = true ↔ max < cnt) ∧ (b = true → Overflow w') := by
    intro w1 ha1 h
    rw [bind_getCtx, ha1.limit] at h
    split at h
    · rename_i hlt
      rw [bind_modCtx] at h
      obtain ⟨u, w2, h2, h⟩ := bind_eq_ok.1 h
      simp only [pure_apply, Except.ok.injEq, Prod.mk.injEq] at h
      rw [← h.1, ← h.2]
      exact ⟨by simp [hlt], fun _ => panic_overflow hk rfl rfl h2⟩
    · rename_i hlt
      simp only [pure_apply, Except.ok.injEq, Prod.mk.injEq] at h
      rw [← h.1]
      exact ⟨by simp [hlt], by simp⟩
  unfold watch at h
  rw [bind_getCtx] at h
  split at h
  · obtain ⟨u, w1, h1, h⟩ := bind_eq_ok.1 h
    exact key (ha.of hk SChg.callPanic h1) h
  · exact key ha h

/-- The row is skipped when there is no power. -/
abbrev quiet (T : Text) (c i : Nat) : Bool := !Text.acts (T.code i c)

theorem sideEffects_spec {code : Ins} {b : Bool} (h : sideEffects code = .ok b) : Text.acts code = b := by
  cases code <;> simp [sideEffects] at h <;> subst h <;> rfl

/-- Steps of the skip loop over the rows `l`. -/
def skipCost (T : Text) (c : Nat) (l : List Nat) : Nat := min l.length ((l.takeWhile (quiet T c)).length + 1)

theorem skipCost_quiet {T : Text} {c i : Nat} {l : List Nat} (h : quiet T c i = true) :
    skipCost T c (i :: l) = skipCost T c l + 1 := by
  simp only [skipCost, List.takeWhile_cons, h, if_true, List.length_cons]; omega

theorem skipCost_acts {T : Text} {c i : Nat} {l : List Nat} (h : quiet T c i = false) : skipCost T c (i :: l) = 1 := by
  simp [skipCost, h]

theorem skipLoop_spec (hk : Hooks env Steady) {col : Nat} : ∀ (n gr cnt : Nat) {w w' : World} {o : SkipRes},
    At k T max pan w → skipLoop env col gr n cnt w = .ok (o, w') →
    match o with
    | none => max < cnt + skipCost T col (List.range' gr n) ∧ Overflow w'
    | some p => p.2 = cnt + skipCost T col (List.range' gr n) ∧ p.1 = (List.range' gr n).all (quiet T col) ∧
        (cnt ≤ max → p.2 ≤ max)
  | 0, gr, cnt, w, w', o, ha, h => by
    simp only [skipLoop, pure_apply, Except.ok.injEq, Prod.mk.injEq] at h
    rw [← h.1]
    simp [skipCost]
  | n + 1, gr, cnt, w, w', o, ha, h => by
    unfold skipLoop at h
    obtain ⟨b, w1, h1, h⟩ := bind_eq_ok.1 h
    obtain ⟨hb, ho⟩ := watch_spec hk ha h1
    have ha1 := ha.of hk (SChg.watch _) h1
    rw [List.range'_succ]
    split at h
    · rename_i hbt
      simp only [pure_apply, Except.ok.injEq, Prod.mk.injEq] at h
      rw [← h.1, ← h.2]
      refine ⟨?_, ho hbt⟩
      have := hb.1 hbt
      have : 1 ≤ skipCost T col (gr :: List.range' (gr + 1) n) := by simp [skipCost]
      omega
    · rename_i hbf
      have hle : cnt + 1 ≤ max := by
        have := mt hb.2 hbf; omega
      obtain ⟨x, w2, h2, h⟩ := bind_eq_ok.1 h
      obtain ⟨e2, hcode, -⟩ := ha1.cell h2
      rw [e2] at h
      split at h
      · rename_i hm
        simp only [pure_apply, Except.ok.injEq, Prod.mk.injEq] at h
        have hq : quiet T col gr = false := by simp [quiet, hcode, hm, Text.acts]
        rw [← h.1]
        exact ⟨by rw [skipCost_acts hq], by simp only [List.all_cons, hq, Bool.false_and], fun _ => hle⟩
      · obtain ⟨se, hse, h⟩ := bind_lift_eq_ok.1 h
        have hq : quiet T col gr = !se := by simp [quiet, hcode, sideEffects_spec hse]
        split at h
        · rename_i hs
          subst hs
          simp only [pure_apply, Except.ok.injEq, Prod.mk.injEq] at h
          rw [← h.1]
          exact ⟨by rw [skipCost_acts hq], by simp only [List.all_cons, hq, Bool.not_true, Bool.false_and], fun _ => hle⟩
        · rename_i hs
          have hs : se = false := by simpa using hs
          subst hs
          have ih := skipLoop_spec hk n (gr + 1) (cnt + 1) ha1 h
          rw [skipCost_quiet hq]
          cases o with
          | none => exact ⟨by have := ih.1; omega, ih.2⟩
          | some p =>
            refine ⟨by rw [ih.1]; omega, ?_, fun _ => ih.2.2 hle⟩
            rw [ih.2.1, List.all_cons, hq]; rfl

/-- The cells of these rows that are executed. -/
def cellsOf (T : Text) (c : Nat) (l : List Nat) : List (Nat × Nat) :=
  (l.filter fun i => T.code i c ≠ .MULTI).map fun i => (i, c)

theorem execLoop_spec (hk : Hooks env Steady) {col : Nat} : ∀ (n gr : Nat) {w w' : World} {b : Bool},
    At k T max pan w → execLoop env k col gr n w = .ok (b, w') →
    Res k T max w w' (cellsOf T col (List.range' gr n)) 0 0 (!b)
  | 0, gr, w, w', b, ha, h => by
    simp only [execLoop, pure_apply, Except.ok.injEq, Prod.mk.injEq] at h
    rw [← h.1, ← h.2]
    exact .done (.refl _ _ _) id
  | n + 1, gr, w, w', b, ha, h => by
    unfold execLoop at h
    obtain ⟨x, w1, h1, h⟩ := bind_eq_ok.1 h
    obtain ⟨e1, hcode, hcell⟩ := ha.cell h1
    rw [e1, bind_modCtx] at h
    have ha1 := ha.star hk (.one (.last (K := (· = k)) { instr := x.code, network := k, col := col, row := gr }))
    rw [List.range'_succ]
    split at h
    · rename_i hinv
      rw [bind_modCtx, bind_emit] at h
      simp only [pure_apply, Except.ok.injEq, Prod.mk.injEq] at h
      rw [← h.1, ← h.2]
      refine .stop (l' := []) rfl ⟨[.ret k gr col .fail], rfl, rfl⟩ (.inl ⟨k, gr, col, .fail, by simp, ?_⟩)
      rw [news_of (new := [.ret k gr col .fail]) rfl]; simp
    · split at h
      · rename_i hm
        have ih := execLoop_spec hk n (gr + 1) ha1 h
        have : cellsOf T col (gr :: List.range' (gr + 1) n) = cellsOf T col (List.range' (gr + 1) n) := by
          simp [cellsOf, hcode, hm]
        rw [this]
        exact .idle (show Ran k T w { w with ctx := { w.ctx with last := _ } } [] from ⟨[], by simp, rfl⟩) ih
      · rename_i hm
        have hl : cellsOf T col (gr :: List.range' (gr + 1) n) = [(gr, col)] ++ cellsOf T col (List.range' (gr + 1) n) := by
          simp [cellsOf, hcode, hm]
        rw [hl]
        rw [bind_emit] at h
        obtain ⟨err, w2, h2, h⟩ := bind_eq_ok.1 h
        have hs : SChg env (· = k) False (execIns env x.code gr col) := SChg.of (Chg.execIns _ _ _)
        obtain ⟨m, he, hc⟩ := Chg.exnet_ok hcell
        have ha2 := (ha1.star hk (.one (.exec (K := (· = k)) k rfl he hc))).of hk hs h2
        have hr2 := Ran.idle (k := k) (T := T) (SChg.of (Chg.execIns _ _ _)) h2
        rw [bind_emit, bind_modCtx] at h
        have hr : Ran k T w { w2 with
            ctx := { w2.ctx with last := { w2.ctx.last with err := err } }
            trace := w2.trace ++ [.ret k gr col err] } [(gr, col)] := by
          have r1 : Ran k T w { w with
              ctx := { w.ctx with last := { instr := x.code, network := k, col := col, row := gr } }
              trace := w.trace ++ [.exec k gr col x.code] } [(gr, col)] := ⟨_, rfl, by simp [execs, hcode]⟩
          have r3 : Ran k T w2 { w2 with
              ctx := { w2.ctx with last := { w2.ctx.last with err := err } }
              trace := w2.trace ++ [.ret k gr col err] } [] := ⟨_, rfl, rfl⟩
          have := (Ran.trans r1 hr2).trans r3
          simpa using this
        have ha3 := (ha2.star hk (.one (.ret (K := (· = k)) k gr col err rfl))).star hk
          (.one (.instr (K := (· = k)) (.err err)))
        split at h
        · rename_i hne
          simp only [pure_apply, Except.ok.injEq, Prod.mk.injEq] at h
          rw [← h.1, ← h.2]
          refine .stop rfl hr (.inl ⟨k, gr, col, err, hne, ?_⟩)
          obtain ⟨new, e, -⟩ := hr
          rw [news_of e]
          have e' : w2.trace ++ [Event.ret k gr col err] = w.trace ++ new := e
          have hlast := congrArg List.getLast? e'
          obtain ⟨new2, e2, -⟩ := hr2
          have e2 : w2.trace = w.trace ++ [Event.exec k gr col x.code] ++ new2 := e2
          rw [e2, List.append_assoc, List.append_assoc] at e'
          rw [← List.append_cancel_left e']
          simp
        · obtain ⟨u, w4, h4, h⟩ := bind_eq_ok.1 h
          have ha4 := ha3.of hk SChg.callInstruction h4
          have ih := execLoop_spec hk n (gr + 1) ha4 h
          exact Res.seq (cnt := 0) (s := 0) (.done hr (fun h => h)) (.idle (.idle SChg.callInstruction h4) ih)

theorem scanColumn_spec (hk : Hooks env Steady) {gs col cnt : Nat} {w w' : World} {o : Option Nat}
    (ha : At k T max pan w) (h : scanColumn env k gs (!T.lower gs) col cnt w = .ok (o, w')) :
    Res k T max w w' (T.column gs col) cnt (T.columnCost gs col) o.isSome ∧
      (∀ cnt', o = some cnt' → cnt' = cnt + T.columnCost gs col) := by
  unfold scanColumn at h
  obtain ⟨net, w1, h1, h⟩ := bind_eq_ok.1 h
  obtain ⟨e1, ht, -⟩ := ha.net h1
  rw [e1] at h
  obtain ⟨ge, hge, h⟩ := bind_lift_eq_ok.1 h
  obtain ⟨-, hg, -⟩ := groupEnd_spec _ _ (by omega) hge
  rw [ht] at hg
  obtain ⟨o2, w2, h2, h⟩ := bind_eq_ok.1 h
  have hsk := skipLoop_spec hk _ _ _ ha h2
  have ha2 := ha.of hk (SChg.skipLoop _ _ _ _) h2
  have hr2 := Ran.idle (k := k) (T := T) (SChg.skipLoop _ _ _ _) h2
  have hcost : skipCost T col (List.range' gs (ge + 1 - gs)) = T.columnCost gs col := by rw [hg]; rfl
  rw [hcost] at hsk
  cases o2 with
  | none =>
    simp only [pure_apply, Except.ok.injEq, Prod.mk.injEq] at h
    rw [← h.1, ← h.2]
    exact ⟨.stop (l' := []) rfl hr2 (.inr hsk), by simp⟩
  | some p =>
    obtain ⟨safe, cnt'⟩ := p
    simp only at hsk h
    obtain ⟨hc, hsafe, hle⟩ := hsk
    have hd : Res k T max w w2 [] cnt (T.columnCost gs col) true := .done hr2 (fun h => by rw [← hc]; exact hle h)
    have hcol : T.column gs col =
        if T.lower gs && safe then [] else cellsOf T col (List.range' gs (ge + 1 - gs)) := by
      rw [hsafe, hg]; rfl
    split at h
    · rename_i hsk
      simp only [pure_apply, Except.ok.injEq, Prod.mk.injEq] at h
      rw [← h.1, ← h.2, hcol, if_pos (by simpa using hsk)]
      exact ⟨hd, by simp [hc]⟩
    · rename_i hsk
      rw [hcol, if_neg (by simpa using hsk)]
      obtain ⟨b, w3, h3, h⟩ := bind_eq_ok.1 h
      have hx := execLoop_spec hk _ _ ha2 h3
      split at h
      · rename_i hb
        rw [bind_modCtx] at h
        simp only [pure_apply, Except.ok.injEq, Prod.mk.injEq] at h
        rw [← h.1, ← h.2]
        rw [hb] at hx
        refine ⟨?_, by simp⟩
        cases hx with
        | stop hl hr hs =>
          rcases hs with hs | ⟨h1, -⟩
          · have hr' := Ran.trans hr2 hr
            rw [List.nil_append] at hr'
            exact .stop hl hr' (.inl (Failed.after hr2 hr hs))
          · omega
      · rename_i hb
        have hb : b = false := by simpa using hb
        subst hb
        obtain ⟨out, w4, h4, h⟩ := bind_eq_ok.1 h
        obtain ⟨u, w5, h5, h⟩ := bind_eq_ok.1 h
        simp only [pure_apply, Except.ok.injEq, Prod.mk.injEq] at h
        rw [← h.1, ← h.2]
        refine ⟨?_, by simp [hc]⟩
        cases hx with | done hr _ => ?_
        have := Res.seq hd (.done (cnt := cnt + T.columnCost gs col) (s := 0) (max := max)
          (hr.trans <| (Ran.idle (env := env) (SChg.orStates _ _ _ _) h4).trans
            (.idle (env := env) (SChg.setStates _ _ _ _) h5)) (fun h => h))
        simpa using this

theorem columnLoop_spec (hk : Hooks env Steady) {gs : Nat} : ∀ (fuel col cnt : Nat) {w w' : World} {o : Option Nat},
    At k T max pan w → columnLoop env k gs (!T.lower gs) fuel col cnt w = .ok (o, w') →
    Res k T max w w' ((List.range' col (T.cols - col)).flatMap (T.column gs)) cnt
      ((List.range' col (T.cols - col)).map (T.columnCost gs)).sum o.isSome ∧
      (∀ cnt', o = some cnt' → cnt' = cnt + ((List.range' col (T.cols - col)).map (T.columnCost gs)).sum)
  | 0, _, _, _, _, _, _, h => by simp [columnLoop] at h
  | fuel + 1, col, cnt, w, w', o, ha, h => by
    unfold columnLoop at h
    obtain ⟨net, w1, h1, h⟩ := bind_eq_ok.1 h
    obtain ⟨e1, ht, -⟩ := ha.net h1
    rw [e1] at h
    have hcols : net.cols = T.cols := by rw [← ht]; rfl
    rw [hcols] at h
    split at h
    · rename_i hlt
      obtain ⟨o2, w2, h2, h⟩ := bind_eq_ok.1 h
      obtain ⟨hr, hc⟩ := scanColumn_spec hk ha h2
      have ha2 := ha.of hk (SChg.scanColumn (K := (· = k)) _ _ rfl _ _ _) h2
      have hrange : List.range' col (T.cols - col) = col :: List.range' (col + 1) (T.cols - (col + 1)) := by
        rw [← List.range'_succ]; congr 1; omega
      rw [hrange, List.flatMap_cons, List.map_cons, List.sum_cons]
      cases o2 with
      | none =>
        simp only [pure_apply, Except.ok.injEq, Prod.mk.injEq] at h
        rw [← h.1, ← h.2]
        exact ⟨hr.halt _ _, by simp⟩
      | some cnt2 =>
        have hcnt := hc _ rfl
        obtain ⟨hr', hc'⟩ := columnLoop_spec hk fuel (col + 1) cnt2 ha2 h
        subst hcnt
        exact ⟨hr.seq hr', fun c hc => by rw [hc' c hc]; omega⟩
    · rename_i hlt
      have : T.cols - col = 0 := by omega
      simp only [pure_apply, Except.ok.injEq, Prod.mk.injEq] at h
      rw [this, ← h.1, ← h.2]
      exact ⟨.done (.refl _ _ _) (fun h => h), by simp⟩

theorem rowLoop_spec (hk : Hooks env Steady) : ∀ (fuel row cnt : Nat) {w w' : World} {b : Bool},
    At k T max pan w → rowLoop env k fuel row cnt w = .ok (b, w') →
    Res k T max w w' ((T.starts false row (T.rows - row)).flatMap T.rung) cnt
      ((T.starts false row (T.rows - row)).map T.rungCost).sum b
  | 0, _, _, _, _, _, _, h => by simp [rowLoop] at h
  | fuel + 1, row, cnt, w, w', b, ha, h => by
    unfold rowLoop at h
    obtain ⟨net, w1, h1, h⟩ := bind_eq_ok.1 h
    obtain ⟨e1, ht, -⟩ := ha.net h1
    rw [e1] at h
    have hrows : net.rows = T.rows := by rw [← ht]; rfl
    rw [hrows] at h
    split at h
    · rename_i hlt
      have hst : T.starts false row (T.rows - row) =
          row :: T.starts (T.code row 0 ≠ .MULTI) (row + 1) (T.rows - (row + 1)) := by
        rw [show T.rows - row = (T.rows - (row + 1)) + 1 by omega, Text.starts, if_neg (by simp)]
      rw [hst, List.flatMap_cons, List.map_cons, List.sum_cons]
      obtain ⟨o, w2, h2, h⟩ := bind_eq_ok.1 h
      have hrow : Res k T max w w2 (T.rung row) cnt (T.rungCost row) o.isSome ∧
          ∀ p, o = some p → p.2 = cnt + T.rungCost row ∧
            T.starts (T.code row 0 ≠ .MULTI) (row + 1) (T.rows - (row + 1)) = T.starts false p.1 (T.rows - p.1) := by
        unfold scanRow at h2
        obtain ⟨b3, w3, h3, h2⟩ := bind_eq_ok.1 h2
        obtain ⟨hb, ho⟩ := watch_spec hk ha h3
        have ha3 := ha.of hk (SChg.watch _) h3
        have hr3 := Ran.idle (k := k) (T := T) (SChg.watch _) h3
        split at h2
        · rename_i hbt
          simp only [pure_apply, Except.ok.injEq, Prod.mk.injEq] at h2
          rw [← h2.1, ← h2.2]
          refine ⟨.stop (l' := []) rfl hr3 (.inr ⟨?_, ho hbt⟩), by simp⟩
          have := hb.1 hbt
          have : 1 ≤ T.rungCost row := by simp [Text.rungCost]
          omega
        · rename_i hbf
          have hle : cnt + 1 ≤ max := by
            have := mt hb.2 hbf; omega
          obtain ⟨x, w4, h4, h2⟩ := bind_eq_ok.1 h2
          obtain ⟨e4, hcode, -⟩ := ha3.cell h4
          rw [e4] at h2
          have hd : Res k T max w w3 [] cnt 1 true := .done hr3 (fun _ => hle)
          split at h2
          · rename_i hm
            simp only [pure_apply, Except.ok.injEq, Prod.mk.injEq] at h2
            rw [← h2.1, ← h2.2]
            have hm' : T.code row 0 = .MULTI := by rw [hcode, hm]
            refine ⟨by simpa [Text.rung, Text.rungCost, hm'] using hd, ?_⟩
            intro p hp
            cases hp
            simp [Text.rungCost, hm']
          · rename_i hm
            have hm' : T.code row 0 ≠ .MULTI := by rw [hcode]; exact hm
            obtain ⟨net2, w5, h5, h2⟩ := bind_eq_ok.1 h2
            obtain ⟨e5, ht2, -⟩ := ha3.net h5
            rw [e5] at h2
            obtain ⟨ge, hge, h2⟩ := bind_lift_eq_ok.1 h2
            obtain ⟨lw, hlw, h2⟩ := bind_lift_eq_ok.1 h2
            have hlow : lw = T.lower row := by
              rw [isLower_spec _ _ hlw, ht2]
              unfold Text.lower
              rw [List.range_eq_range', ← ht2]
              rfl
            rw [hlow] at h2
            obtain ⟨o6, w6, h6, h2⟩ := bind_eq_ok.1 h2
            obtain ⟨hr6, hc6⟩ := columnLoop_spec hk _ _ _ ha3 h6
            rw [Nat.sub_zero, ← List.range_eq_range'] at hr6 hc6
            have hrc : T.rungCost row = 1 + ((List.range T.cols).map (T.columnCost row)).sum := by
              simp [Text.rungCost, hm']
            have hrg : T.rung row = (List.range T.cols).flatMap (T.column row) := by simp [Text.rung, hm']
            have hall := hd.seq hr6
            rw [List.nil_append, ← hrc, ← hrg] at hall
            obtain ⟨hg1, hg2, hg3⟩ := groupEnd_spec _ _ (by omega) hge
            rw [ht2] at hg2 hg3
            cases o6 with
            | none =>
              simp only [pure_apply, Except.ok.injEq, Prod.mk.injEq] at h2
              rw [← h2.1, ← h2.2]
              exact ⟨hall, by simp⟩
            | some cnt6 =>
              obtain ⟨u, w7, h7, h2⟩ := bind_eq_ok.1 h2
              simp only [pure_apply, Except.ok.injEq, Prod.mk.injEq] at h2
              rw [← h2.1, ← h2.2]
              refine ⟨?_, ?_⟩
              · have := Res.seq hall (.done (cnt := cnt + T.rungCost row) (s := 0) (max := max)
                  (Ran.idle (k := k) (T := T) SChg.callScanEnd h7) (fun h => h))
                simpa using this
              · intro p hp
                simp only [Option.some.injEq] at hp
                rw [← hp]
                refine ⟨by simp only; rw [hc6 _ rfl, hrc]; omega, ?_⟩
                rw [decide_eq_true hm', starts_inside]
                have hlen : ((List.range' (row + 1) (T.rows - (row + 1))).takeWhile (T.bar · 0)).length = ge - row := by
                  have := congrArg List.length hg2
                  simp only [List.length_range', Text.group, List.length_cons] at this
                  omega
                rw [hlen]
                congr 1 <;> omega
      have ha2 := ha.of hk (SChg.scanRow (K := (· = k)) _ rfl _ _) h2
      cases o with
      | none =>
        simp only [pure_apply, Except.ok.injEq, Prod.mk.injEq] at h
        rw [← h.1, ← h.2]
        exact hrow.1.halt _ _
      | some p =>
        obtain ⟨hp1, hp2⟩ := hrow.2 p rfl
        have ih := rowLoop_spec hk fuel p.1 p.2 ha2 h
        rw [hp1] at ih
        rw [hp2]
        exact hrow.1.seq ih
    · rename_i hlt
      have : T.rows - row = 0 := by omega
      simp only [pure_apply, Except.ok.injEq, Prod.mk.injEq] at h
      rw [this, ← h.1, ← h.2]
      exact .done (.refl _ _ _) (fun h => h)

/-! ### Whole scans -/

/-- The events between the worlds execute exactly these cells. -/
def Exe (w w' : World) (l : List (Nat × Nat × Nat × Ins)) : Prop :=
  ∃ new, w'.trace = w.trace ++ new ∧ execs new = l

theorem Exe.refl (w : World) : Exe w w [] := ⟨[], by simp, rfl⟩

theorem Exe.trans {a b c : World} {l l' : List (Nat × Nat × Nat × Ins)} (h : Exe a b l) (h' : Exe b c l') :
    Exe a c (l ++ l') := by
  obtain ⟨n1, e1, k1⟩ := h
  obtain ⟨n2, e2, k2⟩ := h'
  exact ⟨n1 ++ n2, by rw [e2, e1, List.append_assoc], by rw [execs_append, k1, k2]⟩

theorem Exe.news {w w' : World} {l : List (Nat × Nat × Nat × Ins)} (h : Exe w w' l) : execs (Spec.news w w') = l := by
  obtain ⟨new, e, hx⟩ := h
  rw [news_of e, hx]

theorem Failed.later {a b c : World} {l l' : List (Nat × Nat × Nat × Ins)} (h : Exe a b l) (h2 : Exe b c l')
    (h' : Failed b c) : Failed a c := by
  obtain ⟨n1, e1, k1⟩ := h
  obtain ⟨n2, e2, k2⟩ := h2
  obtain ⟨n, r, cc, e, he, hm⟩ := h'
  refine ⟨n, r, cc, e, he, ?_⟩
  rw [news_of e2] at hm
  rw [news_of (e2.trans (by rw [e1, List.append_assoc]))]
  exact List.mem_append_right _ hm

/-- The counted steps of an enabled network are more than `max`. -/
def Heavy (ctx : Ctx) (max n : Nat) : Prop :=
  n < ctx.qty.networks ∧ ∃ net, at? ctx.network n = some net ∧ net.enable = true ∧ max < (text net).work

/-- Every network below the count has its cells. -/
def Built (ctx : Ctx) : Prop :=
  ctx.network.isSome = true ∧
  ∀ n < ctx.qty.networks, ∃ net, at? ctx.network n = some net ∧ net.cells.isSome = true

/-- Outcome of a scan that should execute `l`. -/
inductive Outcome (ctx : Ctx) (max : Nat) (p : Nat → Prop) (w w' : World) (l : List (Nat × Nat × Nat × Ins)) : Bool → Prop
  | done (hx : Exe w w' l) (hs : ∀ n, p n → ¬ Heavy ctx max n) : Outcome ctx max p w w' l true
  | stop {l' l'' : List (Nat × Nat × Nat × Ins)} (hl : l = l' ++ l'') (hx : Exe w w' l')
      (hs : Failed w w' ∨ (∃ n, Heavy ctx max n) ∧ Overflow w') : Outcome ctx max p w w' l false

theorem netPlan_same {a b : Ctx} (h : SameProgram a b) (n : Nat) : netPlan b n = netPlan a n := by
  unfold netPlan
  cases hn : at? a.network n with
  | some net =>
    obtain ⟨net', hn', ht, he, -⟩ := h.text hn
    simp only [hn', ht, he]
  | none =>
    have e : (at? b.network n).map netFrame = (at? a.network n).map netFrame := by rw [← at?_map, ← at?_map, h.frames]
    rw [hn] at e
    simp only [Option.map_none, Option.map_eq_none_iff] at e
    simp [e]

theorem scanNetwork_spec (hk : Hooks env Steady) {ctx : Ctx} {n : Nat} {w w' : World} {b : Bool}
    (hp : SameProgram ctx w.ctx) (hlt : n < ctx.qty.networks) (hb : Built ctx)
    (h : scanNetwork env n w = .ok (b, w')) :
    Outcome ctx w.ctx.scan.maxScanCycles (· = n) w w' (netPlan ctx n) b := by
  obtain ⟨net0, hn0, hc0⟩ := hb.2 n hlt
  obtain ⟨net, hn, ht, he, hc⟩ := hp.text hn0
  unfold scanNetwork at h
  rw [bind_getCtx, aget_eq_ok.2 hn, bind_lift_ok] at h
  rw [hc0] at hc
  rw [if_neg (by simp [Option.isNone_iff_eq_none, Option.isSome_iff_ne_none.1 hc])] at h
  unfold netPlan
  rw [hn0]
  simp only
  by_cases hen : net.enable = true
  · rw [if_neg (by simp [hen]), bind_modCtx] at h
    rw [he] at hen
    rw [if_pos hen, ← ht]
    obtain ⟨u, w2, h2, h⟩ := bind_eq_ok.1 h
    have ha : At n (text net) w.ctx.scan.maxScanCycles w.ctx.on.panic { w with ctx := { w.ctx with exec := some n } } :=
      ⟨rfl, ⟨net, hn, rfl⟩, rfl, rfl⟩
    have ha2 := ha.of hk (SChg.clearColumns _ _ _) h2
    have hres := Res.idle (Ran.idle (env := env) (SChg.clearColumns _ _ _) h2) (rowLoop_spec hk _ _ _ ha2 h)
    rw [Nat.sub_zero] at hres
    cases hres with
    | done hr hs =>
      obtain ⟨new, e, hx⟩ := hr
      refine .done ⟨new, e, hx⟩ ?_
      rintro m rfl ⟨-, net1, hn1, -, hm⟩
      rw [hn0] at hn1
      cases hn1
      have := hs (Nat.zero_le _)
      rw [Nat.zero_add] at this
      rw [← ht] at hm
      exact Nat.not_lt.2 this hm
    | @stop l' l'' hl hr hs =>
      obtain ⟨new, e, hx⟩ := hr
      have e0 : (text net).plan = l' ++ l'' := hl
      refine .stop (l' := l'.map _) (l'' := l''.map _) (by rw [e0, List.map_append]) ⟨new, e, hx⟩ ?_
      rcases hs with hs | ⟨h1, h2⟩
      · exact .inl hs
      · exact .inr ⟨⟨n, hlt, net0, hn0, hen, by rw [← ht]; rw [Nat.zero_add] at h1; exact h1⟩, h2⟩
  · rw [if_pos (by simp [hen])] at h
    rw [he] at hen
    rw [if_neg hen]
    simp only [pure_apply, Except.ok.injEq, Prod.mk.injEq] at h
    rw [← h.1, ← h.2]
    refine .done (.refl _) ?_
    rintro m rfl ⟨-, net1, hn1, hen1, -⟩
    rw [hn0] at hn1
    cases hn1
    exact hen hen1

theorem networkLoop_spec (hk : Hooks env Steady) {ctx : Ctx} (hb : Built ctx) : ∀ (fuel n : Nat) {w w' : World} {u : Unit},
    SameProgram ctx w.ctx → w.ctx.qty.networks = ctx.qty.networks →
    networkLoop env fuel n w = .ok (u, w') →
    ∃ b, Outcome ctx w.ctx.scan.maxScanCycles (n ≤ ·) w w'
      ((List.range' n (ctx.qty.networks - n)).flatMap (netPlan ctx)) b
  | 0, _, _, _, _, _, _, h => by simp [networkLoop] at h
  | fuel + 1, n, w, w', u, hp, hq, h => by
    unfold networkLoop at h
    rw [bind_getCtx, hq] at h
    split at h
    · rename_i hlt
      obtain ⟨b, w2, h2, h⟩ := bind_eq_ok.1 h
      have ho := scanNetwork_spec hk hp hlt hb h2
      have hkp := Kept.of_steady hk (SChg.scanNetwork (K := fun _ => True) (E := True) trivial n trivial _ _ _ h2)
      have hrange : List.range' n (ctx.qty.networks - n) = n :: List.range' (n + 1) (ctx.qty.networks - (n + 1)) := by
        rw [← List.range'_succ]; congr 1; omega
      rw [hrange, List.flatMap_cons]
      cases ho with
      | done hx hs =>
        obtain ⟨b, ih⟩ := networkLoop_spec hk hb fuel (n + 1) (hp.trans hkp.program) (hkp.networks.trans hq) h
        rw [hkp.limit] at ih
        cases ih with
        | done hx' hs' =>
          refine ⟨_, .done (hx.trans hx') fun m hm => ?_⟩
          rcases Nat.eq_or_lt_of_le hm with rfl | hm
          · exact hs _ rfl
          · exact hs' _ hm
        | stop hl hx' hs' =>
          refine ⟨_, .stop (by rw [hl, ← List.append_assoc]) (hx.trans hx') ?_⟩
          rcases hs' with hs' | hs'
          · exact .inl (hs'.later hx hx')
          · exact .inr hs'
      | stop hl hx hs =>
        rw [if_neg (by simp)] at h
        simp only [pure_apply, Except.ok.injEq, Prod.mk.injEq, true_and] at h
        rw [← h]
        exact ⟨_, .stop (by rw [hl, List.append_assoc]) hx hs⟩
    · rename_i hlt
      have : ctx.qty.networks - n = 0 := by omega
      simp only [pure_apply, Except.ok.injEq, Prod.mk.injEq, true_and] at h
      rw [this, ← h]
      refine ⟨_, .done (.refl _) ?_⟩
      rintro m hm ⟨h1, -⟩
      omega

/-- The outcomes of a scan. -/
theorem scan_outcome (hk : Hooks env Steady) {w w' : World} (hb : Built w.ctx) (h : scan env w = .ok ((), w')) :
    (∃ b, Outcome w.ctx w.ctx.scan.maxScanCycles (fun _ => True) w w' (schedule w.ctx) b) ∨
    (news w w' = [] ∧ w'.ctx.state = .inv ∧ w.ctx.cron.isSome = true) := by
  unfold scan at h
  rw [bind_modCtx] at h
  obtain ⟨b, w1, h1, h⟩ := bind_eq_ok.1 h
  obtain ⟨⟨m, s, t, e1⟩, hno⟩ := cronPhase_effect h1
  have hinv : b = false → w1.ctx.state = .inv ∧ w.ctx.cron.isSome = true := by
    intro hbf
    unfold cronPhase at h1
    rw [bind_getCtx] at h1
    cases hc : w.ctx.cron with
    | none =>
      have := (hno hc).1
      rw [hbf] at this; cases this
    | some cr =>
      simp only [hc] at h1
      obtain ⟨m, hm, h1⟩ := bind_lift_eq_ok.1 h1
      rw [bind_modCtx] at h1
      obtain ⟨e, w2, h3, h1⟩ := bind_eq_ok.1 h1
      split at h1
      · simp only [bind_modCtx, pure_apply, Except.ok.injEq, Prod.mk.injEq] at h1
        rw [← h1.2]; exact ⟨rfl, rfl⟩
      · simp only [pure_apply, Except.ok.injEq, Prod.mk.injEq] at h1
        rw [hbf] at h1; cases h1.1
  split at h
  · left
    rw [e1, bind_getCtx] at h
    have hnn : w.ctx.network.isNone = false := by simpa using hb.1
    rw [if_neg (by simp only [hnn]; decide)] at h
    obtain ⟨b, ho⟩ := networkLoop_spec (ctx := w.ctx) (w := { w with
      ctx := { w.ctx with exec := none, M := m, state := s }, tick := t }) hk hb _ _ (.of_network rfl) rfl h
    rw [Nat.sub_zero, ← List.range_eq_range'] at ho
    refine ⟨b, ?_⟩
    cases ho with
    | done hx hs => exact .done hx fun n _ => hs n (Nat.zero_le _)
    | stop hl hx hs => exact .stop hl hx hs
  · rename_i hbf
    obtain ⟨hst, hcr⟩ := hinv (by simpa using hbf)
    simp only [pure_apply, Except.ok.injEq, Prod.mk.injEq, true_and] at h
    rw [← h]
    refine .inr ⟨?_, hst, hcr⟩
    rw [e1]
    simp [news]

/-! ### C26 -/

/-- C26.  A scan that ends neither in the invalid nor in the error state has executed exactly the cells the program text
prescribes (`schedule`), in that order: enabled networks by index, rungs from top to bottom, columns from left to right.
Register values, inputs and the clock play no role. -/
theorem C26_order_fixed (hk : Hooks env Steady) {w w' : World} (hb : Built w.ctx) (h : scan env w = .ok ((), w'))
    (hi : w'.ctx.state ≠ .inv) (he : w'.ctx.state ≠ .error) : execs (news w w') = schedule w.ctx := by
  rcases scan_outcome hk hb h with ⟨b, ho⟩ | ⟨-, hs, -⟩
  · cases ho with
    | done hx => exact hx.news
    | stop _ _ hs =>
      rcases hs with ⟨n, r, c, e, hne, hm⟩ | ⟨-, hs⟩
      · exact absurd (C30_failure_stops_scan h hne hm).2.1 hi
      · exact absurd hs.state he
  · exact absurd hs hi

/-- C26.  A scan that is cut short has executed a prefix of the prescribed cells. -/
theorem C26_order_prefix (hk : Hooks env Steady) {w w' : World} (hb : Built w.ctx) (h : scan env w = .ok ((), w')) :
    execs (news w w') <+: schedule w.ctx := by
  rcases scan_outcome hk hb h with ⟨b, ho⟩ | ⟨hn, -⟩
  · cases ho with
    | done hx => rw [hx.news]; exact List.prefix_rfl
    | stop hl hx => rw [hx.news, hl]; exact List.prefix_append _ _
  · rw [hn]; exact List.nil_prefix

/-- C26.  In a network without branches (no bars, no continuation cells) the prescribed order is every cell exactly once,
row by row and from left to right. -/
theorem C26_no_branches {T : Text} (hbar : ∀ r c, T.bar r c = false) (hm : ∀ r c, T.code r c ≠ .MULTI) :
    T.plan = (List.range T.rows).flatMap fun r => (List.range T.cols).map fun c => (r, c) := by
  have hst : ∀ n r b, T.starts b r n = List.range' r n := by
    intro n
    induction n with
    | zero => intro r b; rfl
    | succ n ih =>
      intro r b
      rw [Text.starts, if_neg (by simp [hbar]), ih, List.range'_succ]
  have hg : ∀ c r, T.group c r = [r] := by
    intro c r
    unfold Text.group
    cases List.range' (r + 1) (T.rows - (r + 1)) with
    | nil => rfl
    | cons x l => simp [hbar]
  have hlow : ∀ r, T.lower r = false := by intro r; simp [Text.lower, hbar]
  unfold Text.plan
  rw [hst, ← List.range_eq_range']
  congr 1
  funext r
  simp only [Text.rung, if_neg (hm r 0)]
  rw [show T.column r = fun c => [(r, c)] by funext c; simp [Text.column, hlow, hg, hm]]
  rw [List.map_eq_flatMap]

/-! ### C29 -/

/-- C29.  In a scan that ends neither in the invalid nor in the error state no enabled network needed more counted steps
than the limit. -/
theorem C29_steps_within_limit (hk : Hooks env Steady) {w w' : World} (hb : Built w.ctx) (h : scan env w = .ok ((), w'))
    (hi : w'.ctx.state ≠ .inv) (he : w'.ctx.state ≠ .error) {n : Nat} {net : Network} (hn : n < w.ctx.qty.networks)
    (hnet : at? w.ctx.network n = some net) (hen : net.enable = true) :
    (text net).work ≤ w.ctx.scan.maxScanCycles := by
  rcases scan_outcome hk hb h with ⟨b, ho⟩ | ⟨-, hs, -⟩
  · cases ho with
    | done _ hs =>
      apply Nat.not_lt.1
      intro hlt
      exact hs n trivial ⟨hn, net, hnet, hen, hlt⟩
    | stop _ _ hs =>
      rcases hs with ⟨n, r, c, e, hne, hm⟩ | ⟨-, hs⟩
      · exact absurd (C30_failure_stops_scan h hne hm).2.1 hi
      · exact absurd hs.state he
  · exact absurd hs hi

/-- C29.  If an enabled network needs more counted steps than the limit and nothing else stops the scan (no instruction
failed, no cron failure), the scan ends in the error state with the overflow error, and the panic callback, if there is
one, is its last event: nothing is executed afterwards. -/
theorem C29_overflow_aborts (hk : Hooks env Steady) {w w' : World} (hb : Built w.ctx) (h : scan env w = .ok ((), w'))
    (hi : w'.ctx.state ≠ .inv) {n : Nat} {net : Network} (hn : n < w.ctx.qty.networks)
    (hnet : at? w.ctx.network n = some net) (hen : net.enable = true)
    (hlt : w.ctx.scan.maxScanCycles < (text net).work) :
    w'.ctx.state = .error ∧ w'.ctx.last.err = .overflow ∧
    (w.ctx.on.panic = true → w'.trace.getLast? = some .panic) := by
  rcases scan_outcome hk hb h with ⟨b, ho⟩ | ⟨-, hs, -⟩
  · cases ho with
    | done _ hs => exact absurd ⟨hn, net, hnet, hen, hlt⟩ (hs n trivial)
    | stop _ _ hs =>
      rcases hs with ⟨n, r, c, e, hne, hm⟩ | ⟨-, hs⟩
      · exact absurd (C30_failure_stops_scan h hne hm).2.1 hi
      · have hkp := Kept.of_steady hk (SChg.scan (K := fun _ => True) (E := True) trivial (fun _ => trivial) _ _ _ h)
        exact ⟨hs.state, hs.err, fun hp => hs.panic (by rw [hkp.panic, hp])⟩
  · exact absurd hs hi

/-! ### The hypotheses can be met -/

/-- A branch in network 0 (row 1 joined to row 0 in the first column), a disabled network, and a network with an output
that acts without power on a joined row. -/
def orderDemo : List Network :=
  [Demo.net [[Demo.ins .NO [Demo.op .I 0], Demo.ins .COIL [Demo.op .M 1]],
     [Demo.ins .NO [Demo.op .M 2] false true, Demo.ins .CONN []],
     [Demo.ins .NC [Demo.op .M 2], Demo.ins .COIL [Demo.op .M 2]]],
   Demo.net [[Demo.ins .CONN [], Demo.ins .COIL [Demo.op .M 0]]] false,
   Demo.net [[Demo.ins .CONN [], Demo.ins .COIL [Demo.op .M 0]]]]

theorem orderDemo_built : Built (Demo.ctx orderDemo) :=
  ⟨rfl, fun n hn => by
    have : n < 3 := hn
    match n, this with
    | 0, _ => exact ⟨_, rfl, rfl⟩
    | 1, _ => exact ⟨_, rfl, rfl⟩
    | 2, _ => exact ⟨_, rfl, rfl⟩⟩

/-- The scan of this program completes and executes the prescribed cells. -/
example : ∃ w', scan Demo.env (Demo.world orderDemo) = .ok ((), w') ∧ Built (Demo.ctx orderDemo) ∧
    execs (news (Demo.world orderDemo) w') = schedule (Demo.ctx orderDemo) ∧
    schedule (Demo.ctx orderDemo) = [(0, 0, 0, .NO), (0, 1, 0, .NO), (0, 0, 1, .COIL), (0, 2, 0, .NC), (0, 2, 1, .COIL),
      (2, 0, 0, .CONN), (2, 0, 1, .COIL)] := by
  have : ended (scan Demo.env (Demo.world orderDemo)) (fun w' => decide (w'.ctx.state = .running)) = true := by
    decide +kernel
  obtain ⟨w', h, hp⟩ := of_ended this
  simp only [decide_eq_true_eq] at hp
  exact ⟨w', h, orderDemo_built,
    C26_order_fixed (demoHooks _ Steady.refl) orderDemo_built h (by rw [hp]; decide) (by rw [hp]; decide),
    by decide +kernel⟩

/-- The same program with a limit of five steps per network and a panic handler. -/
def tightDemo : World :=
  { Demo.world orderDemo with ctx := { Demo.ctx orderDemo with
      scan := { (Demo.ctx orderDemo).scan with maxScanCycles := 5 }, on := { panic := true } } }

/-- Network 0 needs six steps. -/
example : ∃ w' net, scan Demo.env tightDemo = .ok ((), w') ∧ w'.ctx.state ≠ .inv ∧
    at? tightDemo.ctx.network 0 = some net ∧ net.enable = true ∧ tightDemo.ctx.scan.maxScanCycles < (text net).work ∧
    w'.ctx.last.err = .overflow ∧ w'.trace.getLast? = some .panic := by
  have : ended (scan Demo.env tightDemo) (fun w' => decide (w'.ctx.state = .error)) = true := by decide +kernel
  obtain ⟨w', h, hp⟩ := of_ended this
  simp only [decide_eq_true_eq] at hp
  have hb : Built tightDemo.ctx := orderDemo_built
  have hi : w'.ctx.state ≠ .inv := by rw [hp]; decide
  have hw : 5 < (text (orderDemo[0]'(by decide))).work := by decide +kernel
  have := C29_overflow_aborts (demoHooks _ Steady.refl) hb h hi (n := 0) (by decide) rfl rfl hw
  exact ⟨w', _, h, hi, rfl, rfl, hw, this.2.1, this.2.2 rfl⟩

end Ladder.Props
