import Verif.Props.ScanFrame

/-
C30: the first failing instruction stops the scan and is reported.
-/

set_option autoImplicit false

namespace Ladder.Props

open Spec Op

/-! ### Specification -/

/-- No instruction reported an error. -/
def AllOk (l : List Event) : Prop := ∀ n r c e, Event.ret n r c e ∈ l → e = .ok

/-- The last-executed record apart from its error field. -/
def lastPlace (ctx : Ctx) : Last := { ctx.last with err := .ok }

/-! ### Lemmas -/

theorem AllOk.nil : AllOk [] := fun _ _ _ _ h => by cases h

theorem AllOk.append {a b : List Event} (h : AllOk a) (h' : AllOk b) : AllOk (a ++ b) := by
  intro n r c e hm
  rcases List.mem_append.1 hm with hm | hm
  · exact h _ _ _ _ hm
  · exact h' _ _ _ _ hm

/-- Nothing failed between the two worlds. -/
def Clean (w w' : World) : Prop := ∃ new, w'.trace = w.trace ++ new ∧ AllOk new

theorem Clean.refl (w : World) : Clean w w := ⟨[], by simp, .nil⟩

theorem Clean.trans {a b c : World} (h : Clean a b) (h' : Clean b c) : Clean a c := by
  obtain ⟨n1, e1, k1⟩ := h
  obtain ⟨n2, e2, k2⟩ := h'
  exact ⟨n1 ++ n2, by rw [e2, e1, List.append_assoc], k1.append k2⟩

/-- Something failed, right before the second world. -/
def Broken (env : Env) (w w' : World) : Prop :=
  ∃ pre n r c code e, w'.trace = w.trace ++ pre ++ [.ret n r c e] ∧ e ≠ .ok ∧ AllOk pre ∧ w'.ctx.last.err = e ∧
    (code = .INV ∨ ∃ a b, pre = a ++ .exec n r c code :: b ∧ execs b = []) ∧
    (Hooks env (fun c c' => lastPlace c' = lastPlace c) →
      w'.ctx.last = { instr := code, network := n, col := c, row := r, err := e })

theorem Broken.after {env : Env} {a b c : World} (h : Clean a b) (h' : Broken env b c) : Broken env a c := by
  obtain ⟨n1, e1, k1⟩ := h
  obtain ⟨pre, n, r, cc, code, e, ht, he, hp, hl, hx, hr⟩ := h'
  refine ⟨n1 ++ pre, n, r, cc, code, e, by rw [ht, e1]; simp [List.append_assoc], he, k1.append hp, hl, ?_, hr⟩
  rcases hx with hx | ⟨x, y, hx, hy⟩
  · exact .inl hx
  · exact .inr ⟨n1 ++ x, y, by rw [hx]; simp, hy⟩

/-- Runs of the operation contain no failure, or end right after one and return a value in `stop`. -/
def Flow {α : Type} (env : Env) (S : World → Prop) (m : Op α) (stop : α → Prop) : Prop :=
  ∀ w a w', m w = .ok (a, w') → Clean w w' ∨ (stop a ∧ Broken env w w' ∧ S w')

theorem clean_change {env : Env} {w w' : World} (h : Change env w w') : Clean w w' := by
  cases h with
  | panic => exact ⟨_, rfl, by intro n r c e h; simp at h⟩
  | foreign => exact ⟨_, rfl, by intro n r c e h; simp at h⟩
  | _ => exact ⟨[], by simp, .nil⟩

theorem clean_of {α : Type} {env : Env} {m : Op α} (h : SChg env (fun _ => False) True m) : Pres Clean m := by
  intro w a w' e
  refine (h _ _ _ e).lift Clean.refl (fun _ _ _ => .trans) ?_
  intro w w' h
  cases h with
  | instr h => exact clean_change h
  | exec m hm => exact hm.elim
  | ret _ _ _ _ hm => exact hm.elim
  | callback => exact ⟨_, rfl, by intro n r c e h; simp at h⟩
  | scanEnd => exact ⟨_, rfl, by intro n r c e h; simp at h⟩
  | _ => exact ⟨[], by simp, .nil⟩

theorem Flow.clean {α : Type} {env : Env} {S : World → Prop} {m : Op α} {stop : α → Prop}
    (h : SChg env (fun _ => False) True m) : Flow env S m stop := fun _ _ _ e => .inl (clean_of h _ _ _ e)

theorem Flow.pure {α : Type} {env : Env} {S : World → Prop} {stop : α → Prop} (a : α) :
    Flow env S (pure a : Op α) stop := .clean (SChg.pure a)

theorem Flow.bind {α β : Type} {env : Env} {S : World → Prop} {m : Op α} {f : α → Op β} {stop : β → Prop}
    (hm : SChg env (fun _ => False) True m) (hf : ∀ a, Flow env S (f a) stop) : Flow env S (m >>= f) stop := by
  intro w b w'' h
  obtain ⟨a, w', h1, h2⟩ := bind_eq_ok.1 h
  have hc := clean_of hm _ _ _ h1
  rcases hf a _ _ _ h2 with h | ⟨h, hb, hs⟩
  · exact .inl (hc.trans h)
  · exact .inr ⟨h, hb.after hc, hs⟩

theorem Flow.seq {α β : Type} {env : Env} {S : World → Prop} {m : Op α} {f : α → Op β} {s : α → Prop} {stop : β → Prop}
    (hm : Flow env S m s) (hf : ∀ a, Flow env S (f a) stop) (hs : ∀ a, s a → ∃ b, f a = Pure.pure b ∧ stop b) :
    Flow env S (m >>= f) stop := by
  intro w b w'' h
  obtain ⟨a, w', h1, h2⟩ := bind_eq_ok.1 h
  rcases hm _ _ _ h1 with hc | ⟨ha, hb, hS⟩
  · rcases hf a _ _ _ h2 with h | ⟨h, hb, hs⟩
    · exact .inl (hc.trans h)
    · exact .inr ⟨h, hb.after hc, hs⟩
  · obtain ⟨b', e, hb'⟩ := hs a ha
    rw [e] at h2
    simp only [pure_apply, Except.ok.injEq, Prod.mk.injEq] at h2
    rw [← h2.1, ← h2.2]
    exact .inr ⟨hb', hb, hS⟩

theorem Flow.ite {α : Type} {env : Env} {S : World → Prop} {stop : α → Prop} {p : Prop} [Decidable p] {a b : Op α}
    (ha : Flow env S a stop) (hb : Flow env S b stop) : Flow env S (if p then a else b) stop := by
  split <;> assumption

theorem lastPlace_change {env : Env} (hk : Hooks env (fun c c' => lastPlace c' = lastPlace c)) {w w' : World}
    (h : Change env w w') : lastPlace w'.ctx = lastPlace w.ctx := by
  cases h with
  | @store ℓ x => cases ℓ <;> rfl
  | panic => exact hk.panic _ _
  | foreign => exact hk.foreign _ _ _ _ _
  | _ => rfl

theorem flow_execLoop {env : Env} (network col : Nat) : ∀ n gr,
    Flow env (fun _ => True) (execLoop env network col gr n) (· = true)
  | 0, _ => .pure _
  | n + 1, gr => by
    intro w a w' h
    unfold execLoop at h
    obtain ⟨cell, w1, h1, h⟩ := bind_eq_ok.1 h
    rw [curCell, bind_getCtx] at h1
    obtain ⟨hcell, e1⟩ := lift_eq_ok.1 h1
    rw [e1, bind_modCtx] at h
    split at h
    · rename_i hinv
      rw [bind_modCtx, bind_emit] at h
      simp only [pure_apply, Except.ok.injEq, Prod.mk.injEq] at h
      rw [← h.1, ← h.2]
      exact .inr ⟨rfl, ⟨[], network, gr, col, .INV, .fail, by simp, by simp, .nil, rfl, .inl rfl, fun _ => by simp [hinv]⟩,
        trivial⟩
    · split at h
      · rcases flow_execLoop network col n _ _ _ _ h with h | h
        · exact .inl h
        · exact .inr h
      · rw [bind_emit] at h
        obtain ⟨err, w2, h2, h⟩ := bind_eq_ok.1 h
        have hs := Chg.execIns _ _ _ _ _ _ h2
        have hc := hs.lift Clean.refl (fun _ _ _ => .trans) (fun _ _ => clean_change)
        have ht : ∃ new, w2.trace = w.trace ++ [.exec network gr col cell.code] ++ new ∧ AllOk new ∧ execs new = [] := by
          refine (hs.lift (S := fun a b => ∃ new, b.trace = a.trace ++ new ∧ AllOk new ∧ execs new = []) ?_ ?_ ?_)
          · exact fun a => ⟨[], by simp, .nil, rfl⟩
          · rintro a b c ⟨x, hx, kx, lx⟩ ⟨y, hy, ky, ly⟩
            exact ⟨x ++ y, by rw [hy, hx, List.append_assoc], kx.append ky, by rw [execs_append, lx, ly]; rfl⟩
          · intro a b h
            cases h with
            | panic => exact ⟨_, rfl, by intro n r c e h; simp at h, rfl⟩
            | foreign => exact ⟨_, rfl, by intro n r c e h; simp at h, rfl⟩
            | _ => exact ⟨[], by simp, .nil, rfl⟩
        obtain ⟨new, ht, hok, hx⟩ := ht
        rw [bind_emit, bind_modCtx] at h
        split at h
        · rename_i hne
          simp only [pure_apply, Except.ok.injEq, Prod.mk.injEq] at h
          rw [← h.1, ← h.2]
          refine .inr ⟨rfl, ⟨.exec network gr col cell.code :: new, network, gr, col, cell.code, err, ?_, hne, ?_, rfl,
            .inr ⟨[], new, rfl, hx⟩, ?_⟩, trivial⟩
          · simp [ht]
          · exact AllOk.append (a := [_]) (by intro n r c e h; simp at h) hok
          · intro hk
            have := hs.lift (S := fun w w' => lastPlace w'.ctx = lastPlace w.ctx) (fun _ => rfl)
              (by intro a b c h h'; exact h'.trans h) (fun _ _ => lastPlace_change hk)
            have e := (congrArg (fun l : Last => ({ l with err := err } : Last)) this :)
            exact e
        · rename_i hne
          have hne : err = .ok := by simpa using hne
          have hc' : Clean w { w2 with
              ctx := { w2.ctx with last := { w2.ctx.last with err := err } }
              trace := w2.trace ++ [.ret network gr col err] } := by
            refine ⟨.exec network gr col cell.code :: (new ++ [.ret network gr col err]), by simp [ht], ?_⟩
            refine AllOk.append (a := [_]) (by intro n r c e h; simp at h) (hok.append ?_)
            intro n r c e h
            simp only [List.mem_singleton, Event.ret.injEq] at h
            rw [h.2.2.2, hne]
          rcases Flow.bind SChg.callInstruction (fun _ => flow_execLoop network col n _) _ _ _ h with h | ⟨h, hb, hs⟩
          · exact .inl (hc'.trans h)
          · exact .inr ⟨h, hb.after hc', hs⟩

/-- The context is in the invalid state. -/
abbrev Invalid (w : World) : Prop := w.ctx.state = .inv

theorem flow_scanColumn {env : Env} (network gs : Nat) (power : Bool) (col cnt : Nat) :
    Flow env Invalid (scanColumn env network gs power col cnt) (· = none) := by
  unfold scanColumn
  refine .bind SChg.curNet fun _ => .bind (SChg.lift _) fun _ => .bind (SChg.skipLoop _ _ _ _) fun o => ?_
  cases o with
  | none => exact .pure _
  | some p =>
    refine .ite (.pure _) ?_
    intro w a w' h
    obtain ⟨b, w1, h1, h⟩ := bind_eq_ok.1 h
    rcases flow_execLoop network col _ _ _ _ _ h1 with hc | ⟨hb, hbr, -⟩
    · have := Flow.ite (env := env) (S := Invalid) (p := b = true) (stop := (· = none))
        (.bind SChg.inv fun _ => .pure none)
        (.bind (SChg.orStates col _ gs false) fun out => .bind (SChg.setStates col out _ gs) fun _ => .pure (some p.2))
        _ _ _ h
      rcases this with h | ⟨h, hb, hs⟩
      · exact .inl (hc.trans h)
      · exact .inr ⟨h, hb.after hc, hs⟩
    · rw [if_pos hb, bind_modCtx] at h
      simp only [pure_apply, Except.ok.injEq, Prod.mk.injEq] at h
      rw [← h.1, ← h.2]
      exact .inr ⟨rfl, hbr, rfl⟩

theorem flow_columnLoop {env : Env} (network gs : Nat) (power : Bool) : ∀ fuel col cnt,
    Flow env Invalid (columnLoop env network gs power fuel col cnt) (· = none)
  | 0, _, _ => .clean (SChg.lift _)
  | fuel + 1, _, _ => by
    unfold columnLoop
    refine .bind SChg.curNet fun _ => .ite (.seq (flow_scanColumn _ _ _ _ _) (fun o => ?_) (fun o ho => ?_)) (.pure _)
    · cases o with
      | none => exact .pure _
      | some cnt => exact flow_columnLoop network gs power fuel _ _
    · subst ho; exact ⟨_, rfl, rfl⟩

theorem flow_scanRow {env : Env} (network row cnt : Nat) : Flow env Invalid (scanRow env network row cnt) (· = none) := by
  unfold scanRow
  refine .bind (SChg.watch _) fun _ => .ite (.pure _) (.bind (SChg.curCell _ _) fun _ => .ite (.pure _)
    (.bind SChg.curNet fun _ => .bind (SChg.lift _) fun _ => .bind (SChg.lift _) fun _ =>
      .seq (flow_columnLoop _ _ _ _ _ _) (fun o => ?_) (fun o ho => ?_)))
  · cases o with
    | none => exact .pure _
    | some cnt => exact .bind SChg.callScanEnd fun _ => .pure _
  · subst ho; exact ⟨_, rfl, rfl⟩

theorem flow_rowLoop {env : Env} (network : Nat) : ∀ fuel row cnt,
    Flow env Invalid (rowLoop env network fuel row cnt) (· = false)
  | 0, _, _ => .clean (SChg.lift _)
  | fuel + 1, _, _ => by
    unfold rowLoop
    refine .bind SChg.curNet fun _ => .ite (.seq (flow_scanRow _ _ _) (fun o => ?_) (fun o ho => ?_)) (.pure _)
    · cases o with
      | none => exact .pure _
      | some p => exact flow_rowLoop network fuel _ _
    · subst ho; exact ⟨_, rfl, rfl⟩

theorem flow_scanNetwork {env : Env} (n : Nat) : Flow env Invalid (scanNetwork env n) (· = false) := by
  unfold scanNetwork
  intro w a w' h
  rw [bind_getCtx] at h
  obtain ⟨net, hn, h⟩ := bind_lift_eq_ok.1 h
  split at h
  · exact .inl (clean_of (SChg.bind SChg.fault fun _ => SChg.bind SChg.callPanic fun _ => SChg.pure _) _ _ _ h)
  · split at h
    · exact .inl (clean_of (SChg.pure (env := env) _) _ _ _ h)
    · rw [bind_modCtx] at h
      rcases Flow.bind (SChg.clearColumns _ _ _) (fun _ => flow_rowLoop n _ _ _) _ _ _ h with h | ⟨h, hb, hs⟩
      · exact .inl h
      · exact .inr ⟨h, hb, hs⟩

theorem flow_networkLoop {env : Env} : ∀ fuel n, Flow env Invalid (networkLoop env fuel n) (fun _ => True)
  | 0, _ => .clean (SChg.lift _)
  | fuel + 1, n => by
    unfold networkLoop
    refine .bind SChg.getCtx fun _ => .ite (.seq (flow_scanNetwork n) (fun b => ?_) (fun b hb => ?_)) (.pure _)
    · exact .ite (flow_networkLoop fuel _) (.pure _)
    · subst hb; exact ⟨_, rfl, trivial⟩

theorem flow_scan {env : Env} : Flow env Invalid (scan env) (fun _ => True) := by
  unfold scan
  have hl : SChg env (fun _ => False) True (modCtx fun ctx => { ctx with exec := none }) := by
    intro w a w' h; simp at h; rw [← h]; exact .one (.leave trivial)
  exact .bind hl fun _ => .bind SChg.cronPhase fun _ => .ite (.bind SChg.getCtx fun _ =>
    .ite (.clean (SChg.bind SChg.fault fun _ => SChg.callPanic)) (flow_networkLoop _ _)) (.pure _)

/-! ### C30 -/

/-- A failure in the new events is the last event. -/
theorem broken_of_mem {env : Env} {w w' : World} (h : scan env w = .ok ((), w')) {n r c : Nat} {e : Err} (he : e ≠ .ok)
    (hm : .ret n r c e ∈ news w w') :
    Broken env w w' ∧ w'.ctx.state = .inv ∧ ∃ pre, news w w' = pre ++ [.ret n r c e] ∧ AllOk pre := by
  rcases flow_scan _ _ _ h with ⟨new, ht, hok⟩ | ⟨-, hb, hs⟩
  · rw [news_of ht] at hm; exact absurd (hok _ _ _ _ hm) he
  · refine ⟨hb, hs, ?_⟩
    obtain ⟨pre, n', r', c', code, e', ht, he', hp, -⟩ := hb
    rw [List.append_assoc] at ht
    rw [news_of ht] at hm ⊢
    rcases List.mem_append.1 hm with hm | hm
    · exact absurd (hp _ _ _ _ hm) he
    · rw [List.mem_singleton] at hm
      exact ⟨pre, by rw [hm], hp⟩

/-- C30.  If any instruction of a scan reports an error, that report is the very last event of the scan (so no further
instruction, of any network, and no callback follows), no instruction before it failed, and the context is left in the
invalid state with this error recorded.  No assumption on program, data or callbacks. -/
theorem C30_failure_stops_scan {env : Env} {w w' : World} (h : scan env w = .ok ((), w')) {n r c : Nat} {e : Err}
    (he : e ≠ .ok) (hm : .ret n r c e ∈ news w w') :
    (∃ pre, news w w' = pre ++ [.ret n r c e] ∧ ∀ n' r' c' e', .ret n' r' c' e' ∈ pre → e' = .ok) ∧
    w'.ctx.state = .inv ∧ w'.ctx.last.err = e := by
  obtain ⟨hb, hs, pre, hn, hp⟩ := broken_of_mem h he hm
  refine ⟨⟨pre, hn, hp⟩, hs, ?_⟩
  obtain ⟨pre', n', r', c', code, e', ht, -, -, hl, -⟩ := hb
  rw [List.append_assoc] at ht
  rw [news_of ht] at hn
  have := List.append_inj_right' hn rfl
  simp only [List.cons.injEq, Event.ret.injEq, and_true] at this
  rw [hl, this.2.2.2]

/-- C30.  The last-executed record then names the failing instruction (unless a callback overwrote the record): its
network, row, column, error and code, the code being that of the last instruction started or an invalid code. -/
theorem C30_failure_reported {env : Env} (hk : Hooks env fun c c' => lastPlace c' = lastPlace c) {w w' : World}
    (h : scan env w = .ok ((), w')) {n r c : Nat} {e : Err} (he : e ≠ .ok) (hm : .ret n r c e ∈ news w w') :
    ∃ code, w'.ctx.last = { instr := code, network := n, row := r, col := c, err := e } ∧
      (code = .INV ∨ (execs (news w w')).getLast? = some (n, r, c, code)) := by
  obtain ⟨hb, hs, pre, hn, hp⟩ := broken_of_mem h he hm
  obtain ⟨pre', n', r', c', code, e', ht, -, -, -, hx, hl⟩ := hb
  rw [List.append_assoc] at ht
  rw [news_of ht] at hn
  have h1 := List.append_inj_right' hn rfl
  simp only [List.cons.injEq, Event.ret.injEq, and_true] at h1
  obtain ⟨rfl, rfl, rfl, rfl⟩ := h1
  refine ⟨code, hl hk, hx.imp id ?_⟩
  rintro ⟨a, b, rfl, hb⟩
  rw [news_of ht]
  simp only [execs_append, List.append_assoc]
  have : execs (.exec n' r' c' code :: b) = [(n', r', c', code)] := by
    show (n', r', c', code) :: execs b = _
    rw [hb]
  rw [this, show execs [Event.ret n' r' c' e'] = [] from rfl]
  simp

/-! ### The hypotheses can be met -/

/-- A move from an integer to a float register in network 0, row 1, between other instructions. -/
def errDemo : List Network :=
  [Demo.net [[Demo.ins .NO [Demo.op .I 0], Demo.ins .COIL [Demo.op .M 1]],
     [Demo.ins .CONN [], Demo.ins .MOVE [Demo.op .D 0, Demo.op .R 0]],
     [Demo.ins .CONN [], Demo.ins .COIL [Demo.op .M 2]]],
   Demo.net [[Demo.ins .CONN [], Demo.ins .COIL [Demo.op .M 0]]]]

/-- The scan of this program stops in the failing move. -/
example : ∃ w' e, scan Demo.env (Demo.world errDemo) = .ok ((), w') ∧ e ≠ .ok ∧
    .ret 0 1 1 e ∈ news (Demo.world errDemo) w' ∧
    execs (news (Demo.world errDemo) w') = [(0, 0, 0, .NO), (0, 0, 1, .COIL), (0, 1, 0, .CONN), (0, 1, 1, .MOVE)] ∧
    w'.ctx.last = { instr := .MOVE, network := 0, row := 1, col := 1, err := e } := by
  have : ended (scan Demo.env (Demo.world errDemo)) (fun w' => decide
      (.ret 0 1 1 w'.ctx.last.err ∈ news (Demo.world errDemo) w' ∧ w'.ctx.last.err ≠ .ok ∧
       execs (news (Demo.world errDemo) w') = [(0, 0, 0, .NO), (0, 0, 1, .COIL), (0, 1, 0, .CONN), (0, 1, 1, .MOVE)] ∧
       w'.ctx.last.instr = .MOVE)) = true := by decide +kernel
  obtain ⟨w', h, hp⟩ := of_ended this
  simp only [decide_eq_true_eq] at hp
  obtain ⟨code, hl, -⟩ := C30_failure_reported (demoHooks _ fun _ => rfl) h hp.2.1 hp.1
  refine ⟨w', w'.ctx.last.err, h, hp.2.1, hp.1, hp.2.2.1, ?_⟩
  have hi := hp.2.2.2
  rw [hl] at hi
  simp only at hi
  subst hi
  exact hl

end Ladder.Props
