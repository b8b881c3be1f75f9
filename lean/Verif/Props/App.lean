import Verif.Model.App
import Verif.Lemmas.WellOk
import Verif.Props.PortRun
import Verif.Props.Schema
import Verif.Props.TaskEnd

/-
C85: the application that comes with the library starts and its task has no undefined behaviour.
-/

set_option autoImplicit false

namespace Ladder

namespace Props

open Spec Op Ladder.Demo Demo

namespace Shipped

/-- The context before the program is loaded. -/
def bare : Ctx :=
  match App.prepare (initCtx App.args) with
  | .ok (some c) => c
  | _ => initCtx App.args

/-- The context when the task starts. -/
def ready : Ctx :=
  match loadProgram ⟨fun _ => 0, fun _ => "", some 0⟩ bare App.doc with
  | .ok (_, c) => c
  | _ => bare

theorem prepare_eq (old : Ctx) : App.prepare old = .ok (some bare) := rfl

set_option maxRecDepth 100000 in
theorem load_eq (f : String → W32) (g : W32 → String) : loadProgram ⟨f, g, some 0⟩ bare App.doc = .ok (.ok, ready) := rfl

/-- A computation that succeeds. -/
def succeeds {α : Type} : Except UB α → Bool
  | .ok _ => true
  | .error _ => false

theorem of_succeeds {α : Type} {e : Except UB α} (h : succeeds e = true) : ∃ a, e = .ok a := by
  cases e with
  | ok a => exact ⟨a, rfl⟩
  | error u => cases h

set_option maxRecDepth 100000 in
theorem save_eq (f : String → W32) (g : W32 → String) :
    saveProgram ⟨f, g, some 0⟩ ready = saveProgram ⟨fun _ => 0, fun _ => "", some 0⟩ ready := rfl

theorem save_ok : succeeds (saveProgram ⟨fun _ => 0, fun _ => "", some 0⟩ ready) = true := by decide +kernel

/-- The check finds no error. -/
def passes : Except UB (Option ChkStatus) → Bool
  | .ok (some s) => decide (s.error = .ok)
  | _ => false

theorem check_ok : ∃ s, programCheck ready = .ok (some s) ∧ s.error = .ok := by
  have : passes (programCheck ready) = true := by decide +kernel
  revert this
  cases programCheck ready with
  | error u => intro h; cases h
  | ok o =>
    cases o with
    | none => intro h; cases h
    | some s => exact fun h => ⟨s, rfl, of_decide_eq_true h⟩

/-! ### The program has the form the schema asks for -/

theorem item_form {name type value : String} {ts : List String} (h : type ∈ ts) : OperandForm (name, ts) (App.item name type value) := by
  refine ⟨_, type, value, rfl, .here _, .there (by decide) (.here _), h, .there (by decide) (.there (by decide) (.here _)), ?_⟩
  intro k v hm
  simp only [List.mem_cons, Prod.mk.injEq, List.not_mem_nil, or_false] at hm
  rcases hm with ⟨rfl, -⟩ | ⟨rfl, -⟩ | ⟨rfl, -⟩ <;> exact ⟨_, by simp, rfl⟩

theorem cell_form {s : String} {b : Bool} {l : List Json} {f : List (String × List String)} (hf : formOf s = some f)
    (hl : l.length = f.length) (h : ∀ (i : Nat) p x, f[i]? = some p → l[i]? = some x → OperandForm p x) :
    CellForm (App.cellOf s b l) := by
  refine ⟨_, s, b, l, f, rfl, .here _, hf, .there (by decide) (.here _), .there (by decide) (.there (by decide) (.here _)), ?_, hl, h⟩
  intro k v hm
  simp only [List.mem_cons, Prod.mk.injEq, List.not_mem_nil, or_false] at hm
  rcases hm with ⟨rfl, -⟩ | ⟨rfl, -⟩ | ⟨rfl, -⟩ <;> exact ⟨_, by simp, rfl⟩

theorem cell_form0 {s : String} {b : Bool} (hf : formOf s = some []) : CellForm (App.cellOf s b []) :=
  cell_form hf rfl fun i p x hp => by simp at hp

theorem cell_form1 {s n t v : String} {b : Bool} {ts : List String} (hf : formOf s = some [(n, ts)]) (ht : t ∈ ts) :
    CellForm (App.cellOf s b [App.item n t v]) :=
  cell_form hf rfl fun i p x hp hx => by
    match i with
    | 0 => cases hp; cases hx; exact item_form ht
    | i + 1 => simp at hp

theorem cell_form2 {s n t v n' t' v' : String} {b : Bool} {ts ts' : List String} (hf : formOf s = some [(n, ts), (n', ts')])
    (ht : t ∈ ts) (ht' : t' ∈ ts') : CellForm (App.cellOf s b [App.item n t v, App.item n' t' v']) :=
  cell_form hf rfl fun i p x hp hx => by
    match i with
    | 0 => cases hp; cases hx; exact item_form ht
    | 1 => cases hp; cases hx; exact item_form ht'
    | i + 2 => simp at hp

theorem net_form {id rows cols : Nat} {data : List (List Json)} (h1 : id < 2^31) (h2 : rows < 2^31) (h3 : cols < 2^31)
    (h : ∀ row ∈ data, ∀ x ∈ row, CellForm x) : NetForm (App.netOf id rows cols data) := by
  refine ⟨_, data.map .arr, rfl, ⟨id, .here _, by omega, by omega⟩, ⟨rows, .there (by decide) (.here _), by omega, by omega⟩,
    ⟨cols, .there (by decide) (.there (by decide) (.here _)), by omega, by omega⟩,
    .there (by decide) (.there (by decide) (.there (by decide) (.here _))), ?_, ?_⟩
  · intro k v hm
    simp only [List.mem_cons, Prod.mk.injEq, List.not_mem_nil, or_false] at hm
    rcases hm with ⟨rfl, -⟩ | ⟨rfl, -⟩ | ⟨rfl, -⟩ | ⟨rfl, -⟩ <;> exact ⟨_, by simp, rfl⟩
  · intro row hrow
    obtain ⟨cells, hc, rfl⟩ := List.mem_map.1 hrow
    exact ⟨cells, rfl, h cells hc⟩

theorem nop_form : CellForm App.nop := cell_form0 rfl
theorem conn_form : CellForm App.conn := cell_form0 rfl
theorem occupied_form : CellForm App.occupied := cell_form0 rfl

/-- Every cell of a row satisfies a property. -/
theorem row_all {p : Json → Prop} {a b c d e : Json} (ha : p a) (hb : p b) (hc : p c) (hd : p d) (he : p e) :
    ∀ x ∈ [a, b, c, d, e], p x := by
  simp only [List.mem_cons, List.not_mem_nil, or_false]
  rintro x (rfl | rfl | rfl | rfl | rfl) <;> assumption

theorem rows_all {p : List Json → Prop} {a b c d e f g : List Json} (ha : p a) (hb : p b) (hc : p c) (hd : p d) (he : p e) (hf : p f)
    (hg : p g) : ∀ x ∈ [a, b, c, d, e, f, g], p x := by
  simp only [List.mem_cons, List.not_mem_nil, or_false]
  rintro x (rfl | rfl | rfl | rfl | rfl | rfl | rfl) <;> assumption

theorem doc_form : ProgramForm App.doc := by
  refine ⟨_, rfl, fun x hx => ?_⟩
  simp only [List.mem_cons, List.not_mem_nil, or_false] at hx
  rcases hx with rfl | rfl | rfl <;>
    (refine net_form (by decide) (by decide) (by decide) (rows_all ?_ ?_ ?_ ?_ ?_ ?_ ?_) <;> refine row_all ?_ ?_ ?_ ?_ ?_ <;>
      first
        | exact nop_form
        | exact conn_form
        | exact occupied_form
        | exact cell_form0 rfl
        | exact cell_form1 rfl (by decide)
        | exact cell_form2 rfl (by decide) (by decide))

theorem boot_eq {L : Lib} (hL : Exact L) (f : String → W32) (g : W32 → String) (old : Ctx) :
    App.boot L ⟨f, g, some 0⟩ old = .ok (some ready) := by
  obtain ⟨d, hd⟩ := of_succeeds save_ok
  obtain ⟨s, hs, he⟩ := check_ok
  simp only [App.boot, prepare_eq, App.load, (C78_accepts hL _).2 doc_form, load_eq, save_eq, hd, hs, he, if_true]

/-! ### The task can run it -/

/-- The jobs of the application. -/
def crons : List CronJob :=
  match ready.cron with
  | some cr => (cr.ctx.getD []).take cr.used
  | none => []

theorem crons_length : crons.length = 3 := by decide +kernel

theorem jobs_of {jobs : List CronJob} (h : Jobs ready jobs) : jobs = crons := by
  obtain ⟨cr, all, h1, h2, h3, -⟩ := h.table
  simp only [crons, h1, h2, Option.getD_some, h3]

/-- Tests `Jobs`. -/
def jobsOk (c : Ctx) : Bool :=
  match c.cron with
  | none => false
  | some cr =>
    match cr.ctx with
    | none => false
    | some all => decide (cr.used ≤ all.length) && (all.take cr.used).all fun j =>
        decide (j.cron.sec.length = 8) && decide (j.cron.min.length = 8) && decide (j.cron.hour.length = 3) &&
        decide (j.cron.mday.length = 4) && decide (j.cron.mon.length = 2) && decide (j.cron.wday.length = 1) &&
        decide (j.cron.year.length = 13) && (at? c.M j.enableReg).isSome && (at? c.M j.flagReg).isSome

theorem jobs_ok {c : Ctx} (h : jobsOk c = true) : ∃ jobs, Jobs c jobs := by
  unfold jobsOk at h
  split at h
  · cases h
  · rename_i cr hcr
    split at h
    · cases h
    · rename_i all hall
      simp only [Bool.and_eq_true, decide_eq_true_eq, List.all_eq_true] at h
      obtain ⟨hu, h⟩ := h
      refine ⟨all.take cr.used, ⟨cr, all, hcr, hall, rfl, by simp; omega⟩, fun j hj => ?_, fun j hj => ?_⟩
      · obtain ⟨⟨⟨⟨⟨⟨⟨⟨h1, h2⟩, h3⟩, h4⟩, h5⟩, h6⟩, h7⟩, -⟩, -⟩ := h j hj
        exact ⟨h1, h2, h3, h4, h5, h6, h7⟩
      · obtain ⟨⟨-, h8⟩, h9⟩ := h j hj
        exact ⟨h8, h9⟩

theorem ready_well : Well ready := well_of (by decide +kernel) (.inr (jobs_ok (by decide +kernel)))

theorem ready_reads : ready.fnReadQty = 1 ∧ ready.read = some [true] := by decide +kernel
theorem ready_writes : ready.fnWriteQty = 1 ∧ ready.write = some [true] := by decide +kernel

/-- Tests `Owns`. -/
theorem ready_owns : Owns ready (.M 0) ∧ Owns ready (.Mh 0) ∧ Owns ready (.Cd 0) ∧ Owns ready (.Cdh 0) ∧ Owns ready (.Cr 0) ∧
    Owns ready (.Crh 0) ∧ Owns ready (.Td 0) ∧ Owns ready (.Tdh 0) ∧ Owns ready (.Tr 0) ∧ Owns ready (.Trh 0) := by
  unfold Owns; decide +kernel

theorem ready_equipped : Equipped ready := by
  obtain ⟨h1, h2, h3, h4, h5, h6, h7, h8, h9, h10⟩ := ready_owns
  exact ⟨⟨by rw [ready_reads.1]; decide, fun l hl => by rw [ready_reads.2] at hl; cases hl; rw [ready_reads.1]; decide⟩,
    ⟨by rw [ready_writes.1]; decide, fun l hl => by rw [ready_writes.2] at hl; cases hl; rw [ready_writes.1]; decide⟩,
    ⟨h1, h2⟩, ⟨h3, h4⟩, ⟨h5, h6⟩, ⟨h7, h8⟩, ⟨h9, h10⟩⟩

theorem ready_fitted : Fitted ready := by
  have h1 : ∀ n, n < 1 → ∀ k, k < 8 → (load ready (.I n k)).isSome = true := by decide +kernel
  have h2 : ∀ n, n < 1 → ∀ k, k < 8 → (load ready (.Q n k)).isSome = true := by decide +kernel
  have h3 : ∀ k, k < 18 → (load ready (.M k)).isSome = true := by decide +kernel
  have h4 : ∀ k, k < 7 → (load ready (.acc k)).isSome = true ∧ (load ready (.Td k)).isSome = true ∧ (load ready (.Tr k)).isSome = true := by
    decide +kernel
  have h5 : ∀ k, k < 7 → (load ready (.C k)).isSome = true ∧ (load ready (.Cd k)).isSome = true ∧ (load ready (.Cr k)).isSome = true := by
    decide +kernel
  exact ⟨by rw [ready_reads.1]; exact h1, by rw [ready_writes.1]; exact h2, h3, h4, h5⟩

theorem ready_untroubled : Untroubled ready := by
  refine ⟨⟨?_, ?_⟩, by decide +kernel, by decide +kernel, by decide +kernel, ?_, ?_, ?_, ?_⟩
  · intro n net hn _
    obtain ⟨l, hl, hm⟩ := mem_of_at? hn
    have : ∀ net ∈ ready.network.getD [], 5 * (net.rows * (1 + net.cols * net.rows)) ≤ 4 * ready.scan.maxScanCycles := by decide +kernel
    rw [hl] at this
    exact this net hm
  · intro jobs hj h
    have := crons_length
    rw [← jobs_of hj, h] at this
    cases this
  · rw [ready_reads.1, ready_reads.2]; decide
  · rw [ready_writes.1, ready_writes.2]; decide
  · exact fun _ => ready_fitted.inputs 0 (by rw [ready_reads.1]; decide) 0 (by decide)
  · exact fun _ => ready_fitted.outputs 0 (by rw [ready_writes.1]; decide) 0 (by decide)

theorem ready_alike : Alike ready ready := ⟨fits_of (by decide +kernel), rfl, fun _ => rfl, rfl, rfl, rfl, rfl, rfl⟩

theorem ready_flags : Flags ready := by
  refine flags_of fun a ha i b hb => ?_
  have : ∀ a : Arr Byte, a ∈ [ready.Cd, ready.Cr, ready.Td, ready.Tr, ready.Cdh, ready.Crh, ready.Tdh, ready.Trh] →
      ∀ b ∈ a.getD [], b.toNat ≤ 1 := by decide +kernel
  obtain ⟨l, hl, hm⟩ := mem_of_at? hb
  exact this a ha b (by rw [hl]; exact hm)

theorem ready_unhurt : Unhurt ready ready := ⟨.inl (by decide +kernel), rfl, rfl, rfl⟩

theorem ready_accepted : taskRefuses ready = .ok false := rfl

end Shipped

open Shipped

/-- A task that has been started does not say that it refused. -/
theorem taskLoop_started (env : Env) (n : Nat) {w w' : World} {r : TaskRes} (h : taskLoop env n w = .ok (r, w')) : r ≠ .refused := by
  induction n generalizing w with
  | zero => cases h; decide
  | succ n ih =>
    rw [taskLoop, bind_getCtx, ite_apply] at h
    split at h
    · obtain ⟨_, _, -, h⟩ := bind_eq_ok.1 h
      cases h; decide
    · obtain ⟨a, w1, -, h⟩ := bind_eq_ok.1 h
      cases a with
      | again => exact ih h
      | leave => cases h; decide
      | exit =>
        obtain ⟨_, _, -, h⟩ := bind_eq_ok.1 h
        cases h; decide

/-- **C85**: the application that comes with the library.  Whatever the context held before, if the byte behind the table of
instructions is zero, the application initialises the library, validates, loads, saves and checks its program, and starts the task;
whatever is typed, whatever the clock and the calendar say, and for fewer than 2³² iterations: neither the library nor a callback has
undefined behaviour, no instruction reports an error, panic is never called, the task is still running or has been asked to end, and
the program is the one that was loaded. -/
theorem C85_run_partial {L : Lib} (hL : Exact L) {H : Host} (hH : H.beyond = some 0) (old : Ctx) (clock : Nat → W64)
    (keys : Nat → List Byte) {localtime : Nat → Tm} (ht : ∀ t, Calendar (localtime t)) (n : Nat) (hn : n < 2^32) :
    ∃ c r w', App.boot L H old = .ok (some c) ∧ task (Port.env crash clock keys localtime) n ⟨c, 0, []⟩ = .ok (r, w') ∧
      r ≠ .refused ∧ Clean w'.trace ∧ Event.panic ∉ w'.trace ∧ w'.ctx.delay = true ∧
      (w'.ctx.state = .running ∨ w'.ctx.state = .exitTsk) ∧ program w'.ctx = program c := by
  obtain ⟨f, g, b⟩ := H
  cases hH
  have h0 : ready.scan.scanCount.toNat = 0 := by decide +kernel
  obtain ⟨r, w', h, h1, h2, h3, -, -, h4, h5⟩ := C84_task ready_well ready_equipped ready_untroubled ready_fitted crash_wild clock keys ht
    (w := ⟨ready, 0, []⟩) ready_alike ready_flags ready_unhurt rfl (fun _ _ _ _ h => by cases h) (by simp) n (by simp only [h0]; omega)
  have hr : r ≠ .refused := by
    have h' := h
    rw [task, bind_getCtx, ready_accepted, bind_lift_ok] at h'
    exact taskLoop_started _ n h'
  exact ⟨ready, r, w', boot_eq hL f g old, h, hr, h1, h2, h4, (h5 hr).state, h3.text⟩

set_option maxRecDepth 100000 in
theorem load_strict (f : String → W32) (g : W32 → String) : loadProgram ⟨f, g, none⟩ bare App.doc = .error .oob := rfl

set_option maxRecDepth 100000 in
theorem load_stray (f : String → W32) (g : W32 → String) (k : Nat) : ∃ e c, e ≠ .ok ∧ loadProgram ⟨f, g, some (k + 1)⟩ bare App.doc = .ok (e, c) :=
  ⟨_, _, by decide, rfl⟩

/-- **C85 is violated**: the program that comes with the library has continuation cells, for which the loader reads past the end of the
table of instructions. -/
theorem C85_refuted {L : Lib} (hL : Exact L) {H : Host} (hH : H.beyond = none) (old : Ctx) : App.boot L H old = .error .oob := by
  obtain ⟨f, g, b⟩ := H
  cases hH
  simp only [App.boot, prepare_eq, App.load, (C78_accepts hL _).2 doc_form, load_strict]

/-- **C85** (what the start depends on): the application starts the task exactly if the byte behind the table of instructions is zero;
otherwise it ends with a message. -/
theorem C85_starts {L : Lib} (hL : Exact L) {H : Host} {k : Nat} (hH : H.beyond = some k) (old : Ctx) :
    (k = 0 → ∃ c, App.boot L H old = .ok (some c)) ∧ (k ≠ 0 → App.boot L H old = .ok none) := by
  obtain ⟨f, g, b⟩ := H
  cases hH
  match k with
  | 0 => exact ⟨fun _ => ⟨_, boot_eq hL f g old⟩, fun h => absurd rfl h⟩
  | k + 1 =>
    refine ⟨fun h => (by cases h), fun _ => ?_⟩
    obtain ⟨e, c, he, h⟩ := load_stray f g k
    simp only [App.boot, prepare_eq, App.load, (C78_accepts hL _).2 doc_form, h]
    cases e <;> first | rfl | exact absurd rfl he

end Props
end Ladder
