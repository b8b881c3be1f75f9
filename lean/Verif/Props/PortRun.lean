import Verif.Lemmas.Stay
import Verif.Props.TaskSafe
import Verif.Props.Port
import Verif.Spec.PortRun

/-
C84: tasks that run with the shipped port and the shipped foreign function.
-/

set_option autoImplicit false

namespace Ladder.Props

open Spec Op

/-! ### What the callbacks do -/

/-- A change of the state. -/
theorem state_alike {B c : Ctx} (s : St) (h : Alike B c) (h' : Flags c) :
    Alike B { c with state := s } ∧ Flags { c with state := s } := by
  have := Resting.ctx (z := false) (B := B) (w := ⟨c, 0, []⟩) ⟨h, h', fun _ _ _ _ h => (by cases h), by simp, by simp⟩
    s c.last c.exec (by simp)
  exact ⟨this.alike, this.flags⟩

theorem set_eq_modify {α : Type} (l : List α) (i : Nat) (a : α) (f : α → α) (h : l[i]? = some a) :
    l.set i (f a) = l.modify i f := by
  apply List.ext_getElem?
  intro j
  rw [List.getElem?_set, List.getElem?_modify]
  by_cases e : i = j
  · subst e
    obtain ⟨hl, -⟩ := List.getElem?_eq_some_iff.1 h
    rw [h]; simp [hl]
  · simp [e]

/-- Toggling an input stores 0 or 1 in it. -/
theorem toggle_upd {ch id : Nat} {c c' : Ctx} (h : Port.toggle ch id c = .ok c') :
    c' = c ∨ ∃ k x, x ≤ 1 ∧ c' = upd c (.I id k) x := by
  unfold Port.toggle at h
  split at h
  · simp only [ok_bind, ok_aget, ok_pure] at h
    obtain ⟨m, hm, v, hv, rfl⟩ := h
    right
    refine ⟨ch - 48, if v.toNat > 0 then 0 else 1, by split <;> omega, ?_⟩
    unfold elem at hm
    simp only [upd, Ctx.modIn, aset]
    cases hi : c.input with
    | none => simp [hi] at hm
    | some l =>
      simp only [hi, Option.bind] at hm
      simp only [Option.map_some]
      congr 2
      have : (if v.toNat > 0 then 0 else 1 : Byte) = BitVec.ofNat 8 (if v.toNat > 0 then 0 else 1) := by split <;> rfl
      rw [← set_eq_modify l id m _ hm, this]
  · cases h; exact .inl rfl

/-- `dummy_read` on a context alike to a fitted one. -/
theorem read_gentle {B : Ctx} {typed : List Byte} {n : Nat} {c : Ctx} (hI : ∀ k, k < 8 → Owns B (.I n k)) (ha : Alike B c)
    (hf : Flags c) (hs : Unhurt B c) : ∃ r, Port.read typed n c = .ok r ∧ Alike B r.1 ∧ Flags r.1 ∧ r.1.exec = c.exec ∧
      Unhurt B r.1 := by
  have hd : ∃ r, Port.read typed n c = .ok r := by
    rw [C81_read_defined]
    have each : ∀ k, k < 8 → ∃ m b, elem c.input n = some m ∧ elem m.I k = some b := by
      intro k hk
      have := ha.has (hI k hk)
      simp only [load, Option.isSome_iff_exists, Option.bind_eq_some_iff] at this
      obtain ⟨b, m, hm, hb⟩ := this
      obtain ⟨b, hb, -⟩ := Option.map_eq_some_iff.1 hb
      exact ⟨m, b, hm, hb⟩
    obtain ⟨m, _, hm, -⟩ := each 0 (by omega)
    refine ⟨m, hm, (holds_iff (by omega)).2 fun k hk => ?_⟩
    obtain ⟨m', b, hm', hb⟩ := each k hk
    rw [hm] at hm'; cases hm'
    exact ⟨b, hb⟩
  obtain ⟨⟨c', shown⟩, h⟩ := hd
  refine ⟨_, h, ?_⟩
  unfold Port.read at h
  simp only [ok_bind, ok_aget, ok_pure] at h
  obtain ⟨c2, h2, _, _, _, _, e⟩ := h
  cases e
  have key : ∀ c1, c1 = c ∨ c1 = { c with state := .exitTsk } →
      Alike B c1 ∧ Flags c1 ∧ c1.exec = c.exec ∧ Unhurt B c1 := by
    rintro c1 (rfl | rfl)
    · exact ⟨ha, hf, rfl, hs⟩
    · obtain ⟨h1, h2⟩ := state_alike .exitTsk ha hf
      exact ⟨h1, h2, rfl, .inr rfl, hs.limit, hs.watchdog, hs.delay⟩
  obtain ⟨h1, h3, h4, h5⟩ := key (if (Port.key typed).toNat = 81 ∨ (Port.key typed).toNat = 113 then { c with state := .exitTsk } else c)
    (by split <;> simp)
  rcases toggle_upd h2 with rfl | ⟨k, x, hx, rfl⟩
  · exact ⟨h1, h3, h4, h5⟩
  · exact ⟨h1.upd (.I n k) x, h3.upd fun _ => hx, Eq.trans (congrArg Ctx.exec (shell_upd _ (.I n k) x) :) h4, h5.upd (.I n k) x⟩

theorem has_elem {α : Type} {a : Arr α} {i : Nat} {f : α → Nat} (h : ((at? a i).map f).isSome) : ∃ x, elem a i = some x := by
  rw [Option.isSome_map, Option.isSome_iff_exists] at h
  exact h

theorem booleans_of {a : Arr Byte} {n : Nat} (h : ∀ k b, at? a k = some b → b.toNat ≤ 1) : Booleans a n := by
  intro k _ b hb
  have := h k b hb
  have : b.toNat = 0 ∨ b.toNat = 1 := by omega
  rcases this with e | e
  · left; exact BitVec.eq_of_toNat_eq e
  · right; exact BitVec.eq_of_toNat_eq e

/-- A program alike to a well-formed one can be drawn. -/
theorem drawn_of {B c : Ctx} (hW : Well B) (ha : Alike B c) : Drawn c := by
  intro n hn
  rw [ha.networks] at hn
  obtain ⟨net, h1, h2, -⟩ := hW.nets n hn
  obtain ⟨net', h3, h4⟩ := ha.net h1
  refine ⟨net', h3, fun r hr k hk => ?_⟩
  obtain ⟨l, hl, hm⟩ := mem_of_at? h3
  have hg := ha.fits.network l hl net' hm
  have hc : net'.cells.isSome := by
    have := congrArg (·.cells.isSome) h4
    simpa [netText, h2] using this
  obtain ⟨g, hg'⟩ := Option.isSome_iff_exists.1 hc
  have hr' : r < g.length := by rw [hg.rows g hg']; exact hr
  have hk' : k < (g[r]).length := by rw [hg.cols g hg' _ (List.getElem_mem _)]; exact hk
  exact ⟨g[r][k], by simp [cellAt, elem, hg', hr', hk']⟩

/-- `dummy_write` on a context alike to a fitted one. -/
theorem write_defined {B : Ctx} {n : Nat} {c : Ctx} (hW : Well B) (hF : Fitted B) (hn : n < B.fnWriteQty) (ha : Alike B c) (hf : Flags c)
    (hd : c.delay = true) : ∃ s, Port.write n c = .ok s := by
  rw [C81_write_defined]
  have each : ∀ k, k < 8 → ∃ o b, elem c.output n = some o ∧ elem o.Q k = some b := by
    intro k hk
    have := ha.has (hF.outputs n hn k hk)
    simp only [load, Option.isSome_iff_exists, Option.bind_eq_some_iff] at this
    obtain ⟨b, m, hm, hb⟩ := this
    obtain ⟨b, hb, -⟩ := Option.map_eq_some_iff.1 hb
    exact ⟨m, b, hm, hb⟩
  obtain ⟨o, _, ho, -⟩ := each 0 (by omega)
  have flag : ∀ (ℓ : Nat → Loc) (a : Arr Byte), (∀ k, isFlag (ℓ k) = true) → (∀ k, load c (ℓ k) = (at? a k).map (·.toNat)) → Booleans a 7 :=
    fun ℓ a h1 h2 => booleans_of fun k b hb => hf (ℓ k) _ (h1 k) (by rw [h2, hb]; rfl)
  refine ⟨(holds_iff (by omega)).2 fun k hk => has_elem (ha.has (hF.markers k hk)),
    ⟨o, ho, (holds_iff (by omega)).2 fun k hk => ?_⟩,
    ⟨(holds_iff (by omega)).2 fun k hk => has_elem (ha.has (hF.timers k hk).2.1), flag .Td _ (fun _ => rfl) fun _ => rfl,
      (holds_iff (by omega)).2 fun k hk => has_elem (ha.has (hF.timers k hk).2.2), flag .Tr _ (fun _ => rfl) fun _ => rfl,
      (holds_iff (by omega)).2 fun k hk => has_elem (ha.has (hF.timers k hk).1)⟩,
    ⟨(holds_iff (by omega)).2 fun k hk => has_elem (ha.has (hF.counters k hk).2.1), flag .Cd _ (fun _ => rfl) fun _ => rfl,
      (holds_iff (by omega)).2 fun k hk => has_elem (ha.has (hF.counters k hk).2.2), flag .Cr _ (fun _ => rfl) fun _ => rfl,
      (holds_iff (by omega)).2 fun k hk => has_elem (ha.has (hF.counters k hk).1)⟩,
    drawn_of hW ha, hd⟩
  obtain ⟨o', b, ho', hb⟩ := each k hk
  rw [ho] at ho'; cases ho'
  exact ⟨b, hb⟩

/-- The shipped callbacks are called only where they are defined, and keep what the library relies on. -/
theorem port_calls {B : Ctx} (hW : Well B) (hF : Fitted B) (hz : Untroubled B) (wild : Ctx → Ctx) (clock : Nat → W64)
    (keys : Nat → List Byte) {localtime : Nat → Tm} (ht : ∀ t, Calendar (localtime t)) :
    TaskCalls true B (Port.env wild clock keys localtime) where
  panic := fun h => by cases h
  instruction := fun _ _ h1 h2 h3 _ => ⟨h1, h2, rfl, h3⟩
  scanEnd := fun _ _ h1 h2 h3 _ => ⟨h1, h2, rfl, h3⟩
  foreign := fun n id col row h1 h2 => by
    have key : ∀ c, Alike B c → Flags c → (true = true → Unhurt B c) → c.exec = some n → ∃ w', Port.foreignExec col row ⟨c, 0, []⟩ = .ok (.ok, w') ∧
        Sound true B n w' := by
      intro c ha hf hs he
      have hw : Sound true B n ⟨c, 0, []⟩ := ⟨ha, hf, he, fun _ _ _ _ h => (by cases h), hs, by simp⟩
      have hs : Safe (Sound true B n) (Port.foreignExec col row) (· = .ok) :=
        (Sound.getLeft h2).bind fun b _ => (Sound.setState h1 b).bind fun _ _ => .pure rfl
      obtain ⟨e, w', h, hw', rfl⟩ := hs _ hw
      exact ⟨w', h, hw'⟩
    refine ⟨fun t c ha hf hs he => ?_, fun t c ha hf hs he => ?_⟩ <;> obtain ⟨w', h, hw'⟩ := key c ha hf hs he <;>
      simp only [Port.env, h]
    exact ⟨hw'.alike, hw'.flags, hw'.exec.trans he.symm, fun _ => hw'.still rfl⟩
  localtime := ht
  before := fun _ _ h1 h2 h3 _ => ⟨h1, h2, rfl, h3⟩
  after := fun _ _ h1 h2 h3 _ => ⟨h1, h2, rfl, h3⟩
  endTask := fun _ _ h1 h2 h3 _ => ⟨h1, h2, rfl, h3⟩
  delay := fun _ _ h1 h2 h3 _ => ⟨h1, h2, rfl, h3⟩
  read := fun n hn t c ha hf hs _ => by
    obtain ⟨r, h, h1, h2, h3, h4⟩ := read_gentle (typed := keys t) (hF.inputs n hn) ha hf (hs rfl)
    simp only [Port.env, h]
    exact ⟨h1, h2, h3, fun _ => h4⟩
  write := fun n hn t c ha hf hs _ => by
    obtain ⟨s, h⟩ := write_defined hW hF hn ha hf ((hs rfl).delay.trans hz.delay)
    simp only [Port.env, h]
    exact ⟨ha, hf, trivial, fun _ => hs rfl⟩

theorem getLeft_iff {r c : Nat} {w w' : World} {b : Bool} : getLeft r c w = .ok (b, w') ↔
    w' = w ∧ (c = 0 ∧ b = true ∨ c ≠ 0 ∧ ∃ n, w.ctx.exec = some n ∧ leftPower w.ctx n r c = some b) := by
  unfold Ladder.getLeft
  split
  · rename_i h
    rw [pure_apply]
    constructor
    · intro h'; cases h'; exact ⟨rfl, .inl ⟨h, rfl⟩⟩
    · rintro ⟨rfl, ⟨-, rfl⟩ | ⟨h', -⟩⟩
      · rfl
      · exact absurd h h'
  · rename_i h
    constructor
    · intro h'
      unfold getState at h'
      rw [bind_getCtx, bind_lift_eq_ok] at h'
      obtain ⟨cell, h2, h'⟩ := h'
      cases h'
      obtain ⟨n, hn, hc⟩ := Chg.exnet_ok h2
      exact ⟨rfl, .inr ⟨h, n, hn, by simp [leftPower, h, hc]⟩⟩
    · rintro ⟨rfl, ⟨h', -⟩ | ⟨-, n, hn, hc⟩⟩
      · exact absurd h' h
      · have := getLeft_ok hn hc
        unfold Ladder.getLeft at this
        rwa [if_neg h] at this

/-- **C84** (foreign function): `dummy_exec` copies the power left of its cell (`true` in column 0) to the cell and does nothing else;
it is defined exactly when both cells exist. -/
theorem C84_foreign (col row : Nat) (w : World) :
    ((∃ r, Port.foreignExec col row w = .ok r) ↔
      ∃ n, w.ctx.exec = some n ∧ (leftPower w.ctx n row col).isSome ∧ (load w.ctx (.cell n row col)).isSome) ∧
    ∀ e w', Port.foreignExec col row w = .ok (e, w') → e = .ok ∧ w'.tick = w.tick ∧ w'.trace = w.trace ∧
      ∃ n b, w.ctx.exec = some n ∧ leftPower w.ctx n row col = some b ∧ load w'.ctx (.cell n row col) = some b.toNat ∧
        Only w.ctx w'.ctx [.cell n row col] := by
  have key : ∀ e w', Port.foreignExec col row w = .ok (e, w') → e = .ok ∧ ∃ n b, w.ctx.exec = some n ∧
      leftPower w.ctx n row col = some b ∧ (load w.ctx (.cell n row col)).isSome ∧ w' = w.upd (.cell n row col) b.toNat := by
    intro e w' h
    unfold Port.foreignExec at h
    obtain ⟨b, w1, h1, h⟩ := bind_eq_ok.1 h
    obtain ⟨u, w2, h2, h⟩ := bind_eq_ok.1 h
    cases h
    obtain ⟨rfl, h1⟩ := getLeft_iff.1 h1
    obtain ⟨n, hn, hc, rfl⟩ := Chg.setState_eq h2
    refine ⟨rfl, n, b, hn, ?_, hc, rfl⟩
    rcases h1 with ⟨rfl, rfl⟩ | ⟨h0, n', hn', h⟩
    · simp [leftPower]
    · rw [hn] at hn'; cases hn'; exact h
  refine ⟨⟨?_, ?_⟩, ?_⟩
  · rintro ⟨⟨e, w'⟩, h⟩
    obtain ⟨-, n, b, h1, h2, h3, -⟩ := key e w' h
    exact ⟨n, h1, by simp [h2], h3⟩
  · rintro ⟨n, h1, h2, h3⟩
    obtain ⟨b, h2⟩ := Option.isSome_iff_exists.1 h2
    unfold Port.foreignExec
    rw [bind_ok (getLeft_ok h1 h2), bind_ok (setState_ok h1 h3)]
    exact ⟨_, rfl⟩
  · intro e w' h
    obtain ⟨h0, n, b, h1, h2, h3, rfl⟩ := key e w' h
    exact ⟨h0, rfl, rfl, n, b, h1, h2, load_upd_self _ _ _ h3 (by cases b <;> simp [Loc.size]), Only.upd _ _ _⟩

theorem bench_upd (c : Ctx) (ℓ : Loc) (x : Nat) :
    (bench (upd c ℓ x), (upd c ℓ x).scan.scanCount) = (bench c, c.scan.scanCount) :=
  (congrArg (fun c => (bench c, c.scan.scanCount)) (shell_upd c ℓ x) :)

/-- The shipped callbacks leave the table of modules and the number of scans alone. -/
theorem port_hooks {wild : Ctx → Ctx} (hw : Wild wild) (clock : Nat → W64) (keys : Nat → List Byte) (localtime : Nat → Tm) :
    TaskHooks (Port.env wild clock keys localtime) fun c c' => (bench c', c'.scan.scanCount) = (bench c, c.scan.scanCount) := by
  have hw' : ∀ c, (bench (wild c), (wild c).scan.scanCount) = (bench c, c.scan.scanCount) := fun c => by
    obtain ⟨h1, h2, h3, h4, h5⟩ := hw c
    simp [bench, h1, h2, h3, h4, h5]
  constructor
  case toHooks =>
    constructor
    case panic => intro t c; simp only [Port.env]; split <;> first | rfl | exact hw' c
    case instruction => intro _ _; rfl
    case scanEnd => intro _ _; rfl
    case foreign =>
      intro t id col row c
      simp only [Port.env]
      split
      · rename_i e w h
        obtain ⟨-, -, -, n, b, -, -, -, ho⟩ := (C84_foreign col row _).2 e w h
        exact (congrArg (fun c => (bench c, c.scan.scanCount)) ho.1 :)
      · exact hw' c
  case read =>
    intro t n c
    simp only [Port.env]
    split
    · rename_i r h
      unfold Port.read at h
      simp only [ok_bind, ok_aget, ok_pure] at h
      obtain ⟨c2, h2, _, _, _, _, rfl⟩ := h
      rcases toggle_upd h2 with rfl | ⟨k, x, hx, rfl⟩
      · split <;> rfl
      · rw [bench_upd]; split <;> rfl
    · exact hw' c
  case write => intro t n c; simp only [Port.env]; split <;> first | rfl | exact hw' c
  all_goals (intro _ _; rfl)

/-! ### The task -/

/-- **C84**: a task with the callbacks of the shipped port and the shipped foreign function.  The program is well-formed (see C32), its
networks are small enough for the limit of the scan, the watchdog is off, and the configuration has the memory the port shows.  Then,
whatever is typed, whatever the clock and the calendar say, and for any number of iterations: neither the library nor a callback has
undefined behaviour (see `C84_defined`), no instruction reports an error,
panic is never called, and unless the task refuses to start its state is still "running" or "exit". -/
theorem C84_task {B : Ctx} (hW : Well B) (hB : Equipped B) (hz : Untroubled B) (hF : Fitted B) {wild : Ctx → Ctx} (hw : Wild wild)
    (clock : Nat → W64) (keys : Nat → List Byte) {localtime : Nat → Tm} (ht : ∀ t, Calendar (localtime t)) {w : World}
    (ha : Alike B w.ctx) (hf : Flags w.ctx) (hs : Unhurt B w.ctx) (hb : bench w.ctx = bench B) (hc : Clean w.trace)
    (hp : Event.panic ∉ w.trace) (n : Nat) (hn : w.ctx.scan.scanCount.toNat + n < 2^32) :
    ∃ r w', task (Port.env wild clock keys localtime) n w = .ok (r, w') ∧ Clean w'.trace ∧ Event.panic ∉ w'.trace ∧
      Alike B w'.ctx ∧ Flags w'.ctx ∧ bench w'.ctx = bench B ∧ w'.ctx.delay = true ∧ (r ≠ .refused → Unhurt B w'.ctx) := by
  obtain ⟨r, w', h1, h2, h3, h4, h5, -, h6⟩ := task_safe hW hB (port_calls hW hF hz wild clock keys ht) (fun _ => hz)
    (port_hooks hw clock keys localtime) ha hf hc (fun _ => ⟨hs, hp⟩) hb n hn
  obtain ⟨h7, h8, h9⟩ := h6 rfl
  exact ⟨r, w', h1, h2, h7, h3, h4, h5, h8.trans hz.delay, h9⟩

/-- The context in which a callback had undefined behaviour, marked by the missing pointer to the delay function. -/
def crash (c : Ctx) : Ctx := { c with delay := false }

theorem crash_wild : Wild crash := fun _ => ⟨rfl, rfl, rfl, rfl, rfl⟩

/-- **C84** (the mark stays): neither the library nor the shipped callbacks set the pointer to the delay function. -/
theorem C84_mark (clock : Nat → W64) (keys : Nat → List Byte) (localtime : Nat → Tm) (n : Nat) {w w' : World} {r : TaskRes}
    (h : task (Port.env crash clock keys localtime) n w = .ok (r, w')) (hd : w.ctx.delay = false) : w'.ctx.delay = false := by
  refine stay_task (f := fun c => c.delay = false) (fun a b e => ?_) (env := Port.env crash clock keys localtime) ?_ (fun _ _ => id) n h hd
  · have : a.delay = b.delay := (congrArg Ctx.delay e :)
    simp only [this]
  constructor
  case toHooks =>
    constructor
    case panic => intro t c; simp only [Port.env]; split <;> intro h <;> first | exact h | rfl
    case instruction => intro _ _; exact id
    case scanEnd => intro _ _; exact id
    case foreign =>
      intro t id col row c
      simp only [Port.env]
      split
      · rename_i e w h
        obtain ⟨-, -, -, n, b, -, -, -, ho⟩ := (C84_foreign col row _).2 e w h
        exact To.of (congrArg (fun c => c.delay = false) ho.1 :)
      · intro _; rfl
  case read =>
    intro t n c
    simp only [Port.env]
    split
    · rename_i r h
      unfold Port.read at h
      simp only [ok_bind, ok_aget, ok_pure] at h
      obtain ⟨c2, h2, _, _, _, _, rfl⟩ := h
      rcases toggle_upd h2 with rfl | ⟨k, x, hx, rfl⟩
      · split <;> exact id
      · refine To.trans (To.of (congrArg (fun c => c.delay = false) (shell_upd _ (.I n k) x) :)) ?_
        split <;> exact id
    · intro _; rfl
  case write => intro t n c; simp only [Port.env]; split <;> intro h <;> first | exact h | rfl
  all_goals (intro _ _; exact id)

/-- **C84** (no callback is undefined): with the callbacks that mark undefined behaviour, the mark is not set after any number of
iterations; and it cannot have been set and taken away (`C84_mark`). -/
theorem C84_defined {B : Ctx} (hW : Well B) (hB : Equipped B) (hz : Untroubled B) (hF : Fitted B) (clock : Nat → W64)
    (keys : Nat → List Byte) {localtime : Nat → Tm} (ht : ∀ t, Calendar (localtime t)) {w : World}
    (ha : Alike B w.ctx) (hf : Flags w.ctx) (hs : Unhurt B w.ctx) (hb : bench w.ctx = bench B) (hc : Clean w.trace)
    (hp : Event.panic ∉ w.trace) (n : Nat) (hn : w.ctx.scan.scanCount.toNat + n < 2^32) :
    ∃ r w', task (Port.env crash clock keys localtime) n w = .ok (r, w') ∧ w'.ctx.delay = true := by
  obtain ⟨r, w', h, -, -, -, -, -, h8, -⟩ := C84_task hW hB hz hF crash_wild clock keys ht ha hf hs hb hc hp n hn
  exact ⟨r, w', h, h8⟩

end Ladder.Props
