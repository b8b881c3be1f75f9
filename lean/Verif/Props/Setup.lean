import Verif.Model.General
import Verif.Spec.Setup
import Verif.Spec.Demo

/-
Initialisation and registration: C46, C47 and C48.
-/

set_option autoImplicit false

namespace Ladder.Props

open Spec Op

variable {α : Type}

/-! ### C46 -/

/-- C46, range.  With memory available, initialisation returns true exactly for 1 to 32 rows, at least one column and network and
at least one element of each area. -/
theorem C46_range (old : Ctx) (a : InitArgs) : (∃ c, ctxInit true old a = .returns true c) ↔
    (1 ≤ a.rows ∧ a.rows ≤ 32) ∧ 1 ≤ a.cols ∧ 1 ≤ a.networks ∧ 1 ≤ a.m ∧ 1 ≤ a.c ∧ 1 ≤ a.t ∧ 1 ≤ a.d ∧ 1 ≤ a.r := by
  have hv : a.valid = true ↔
      (1 ≤ a.rows ∧ a.rows ≤ 32) ∧ 1 ≤ a.cols ∧ 1 ≤ a.networks ∧ 1 ≤ a.m ∧ 1 ≤ a.c ∧ 1 ≤ a.t ∧ 1 ≤ a.d ∧ 1 ≤ a.r := by
    unfold InitArgs.valid
    rw [decide_eq_true_iff, show maxRows = 32 from rfl]
    omega
  rw [← hv]
  unfold ctxInit
  cases a.valid <;> simp

/-- C46, refusal.  Out of range (whether or not there is memory), the call returns false and the context is untouched. -/
theorem C46_refused (alloc : Bool) (old : Ctx) (a : InitArgs)
    (h : ¬ ((1 ≤ a.rows ∧ a.rows ≤ 32) ∧ 1 ≤ a.cols ∧ 1 ≤ a.networks ∧ 1 ≤ a.m ∧ 1 ≤ a.c ∧ 1 ≤ a.t ∧ 1 ≤ a.d ∧ 1 ≤ a.r)) :
    ctxInit alloc old a = .returns false old := by
  have hv : a.valid = false := by
    unfold InitArgs.valid
    rw [decide_eq_false_iff_not, show maxRows = 32 from rfl]
    omega
  simp [ctxInit, hv]

/-- C46, content.  After a successful initialisation, whatever the memory held before, the state is stopped, all areas have the
requested size and are zero, there are no modules or foreign functions, and (when requested) there are as many networks as asked
for, disabled, of the requested dimensions, whose cells are all empty NOPs. -/
theorem C46_content {alloc : Bool} {old c : Ctx} {a : InitArgs} (h : ctxInit alloc old a = .returns true c) :
    c.state = .stopped ∧
    (c.qty.m = a.m ∧ c.qty.c = a.c ∧ c.qty.t = a.t ∧ c.qty.d = a.d ∧ c.qty.r = a.r ∧ c.qty.networks = a.networks) ∧
    (Filled c.M a.m 0 ∧ Filled c.Mh a.m 0) ∧
    (Filled c.C a.c 0 ∧ Filled c.Cd a.c 0 ∧ Filled c.Cdh a.c 0 ∧ Filled c.Cr a.c 0 ∧ Filled c.Crh a.c 0) ∧
    (Filled c.timers a.t ⟨0, 0⟩ ∧ Filled c.Td a.t 0 ∧ Filled c.Tdh a.t 0 ∧ Filled c.Tr a.t 0 ∧ Filled c.Trh a.t 0) ∧
    (Filled c.D a.d 0 ∧ Filled c.R a.r 0) ∧ Readers c [] [] [] ∧ Writers c [] [] [] ∧
    (c.foreignQty = 0 ∧ c.foreign = none) ∧
    (a.initNetwork = true → ∃ nets, c.network = some nets ∧ nets.length = a.networks ∧ ∀ net ∈ nets,
      net.enable = false ∧ net.rows = a.rows ∧ net.cols = a.cols ∧
      ∃ rows, net.cells = some rows ∧ rows.length = a.rows ∧ ∀ row ∈ rows, row.length = a.cols ∧
        ∀ cell ∈ row, cell = { code := .NOP, bar := false, state := false, dataQty := 0, data := none }) := by
  unfold ctxInit at h
  split at h
  · cases h
  split at h
  · cases h
  simp only [InitRes.returns.injEq, true_and] at h
  subst h
  have fl : ∀ {β : Type} (n : Nat) (x : β), Filled (some (List.replicate n x)) n x := fun n x =>
    ⟨_, rfl, by simp, fun y hy => (List.mem_replicate.1 hy).2⟩
  refine ⟨rfl, ⟨rfl, rfl, rfl, rfl, rfl, rfl⟩, ⟨fl _ _, fl _ _⟩, ⟨fl _ _, fl _ _, fl _ _, fl _ _, fl _ _⟩,
    ⟨fl _ _, fl _ _, fl _ _, fl _ _, fl _ _⟩, ⟨fl _ _, fl _ _⟩, ⟨rfl, rfl, rfl, rfl, rfl, rfl⟩, ⟨rfl, rfl, rfl, rfl, rfl, rfl⟩,
    ⟨rfl, rfl⟩, fun hn => ?_⟩
  refine ⟨_, by simp only [initCtx, hn, if_true]; rfl, by simp, fun net hnet => ?_⟩
  rw [(List.mem_replicate.1 hnet).2]
  refine ⟨rfl, rfl, rfl, _, rfl, by simp, fun row hrow => ?_⟩
  rw [(List.mem_replicate.1 hrow).2]
  exact ⟨by simp, fun cell hcell => (List.mem_replicate.1 hcell).2⟩

/-- C46, settings.  After a successful initialisation the settings are those asked for (a waiting time of 0 becomes 1), nothing is being
executed, there are no callbacks, no clock and no cron jobs, and the statistics are those of no scans: nothing counted or summed up, and
a minimum that no scan time exceeds. -/
theorem C46_settings {alloc : Bool} {old c : Ctx} {a : InitArgs} (h : ctxInit alloc old a = .returns true c) :
    (c.qty.delayNotRun = max a.delayNotRun 1 ∧ c.qty.watchdogMs = a.watchdogMs ∧ c.writeOnFault = a.writeOnFault ∧
      c.scan.maxScanCycles = a.maxScanCycles ∧ c.scan.targetScanMs = a.targetScanMs) ∧
    (c.exec = none ∧ c.cron = some { ctx := none, qty := 0, used := 0 } ∧ c.on = {} ∧ c.millis = false ∧ c.delay = false ∧ c.last = {}) ∧
    c.scan.scanCount = 0 ∧ c.scan.totalScanTime = 0 ∧ c.scan.avgScanTime = 0 ∧ c.scan.maxScanTime = 0 ∧ c.scan.overrun = false ∧
    (c.scan.actualScanTime = 0 ∧ c.scan.startTime = 0) ∧ ∀ d : W64, d.toNat ≤ c.scan.minScanTime.toNat := by
  unfold ctxInit at h
  split at h
  · cases h
  split at h
  · cases h
  simp only [InitRes.returns.injEq, true_and] at h
  subst h
  refine ⟨⟨?_, rfl, rfl, rfl, rfl⟩, ⟨rfl, rfl, rfl, rfl, rfl, rfl⟩, rfl, rfl, rfl, rfl, rfl, ⟨rfl, rfl⟩, fun d => ?_⟩
  · simp only [initCtx]
    split <;> omega
  · have : (initCtx a).scan.minScanTime.toNat = 2 ^ 64 - 1 := by simp [initCtx]
    have := d.isLt
    omega

/-! ### C47 -/

theorem grow_table {a : Arr α} {l : List α} (h : Table a l) (x : α) : grow a l.length x = some (l ++ [x]) := by
  unfold Table at h
  subst h
  split
  · rename_i h; subst h; rfl
  · simp [grow]

theorem table_snoc {l : List α} (x : α) : Table (some (l ++ [x])) (l ++ [x]) := by
  simp [Table]

theorem shrink_table {l : List α} (x : α) : Table (shrink (some (l ++ [x])) l.length) l := by
  unfold shrink Table
  cases l <;> simp

theorem set_snoc (l : List α) (x y : α) : (l ++ [x]).set l.length y = l ++ [y] := by
  induction l with
  | nil => rfl
  | cons a l ih => simp

/-- C47, reading.  Given the registered read modules, a registration (of a module whose init hook keeps to its own slot) either
returns true and appends one module, keeping the others, or returns false and leaves the registered modules as they were.  The
latter happens exactly at the limit of 255, without memory, or when the hook fails. -/
theorem C47_read {c : Ctx} {fns hooks : List Bool} {ports : List InMod} (hr : Readers c fns hooks ports) (alloc : Nat)
    (init : Option InitHook) (hi : ∀ h, init = some h → OwnInput h) :
    ((addRead alloc c init).1 = true ∧ ports.length < 255 ∧ 3 ≤ alloc ∧
      (∀ h, init = some h → ∃ c', c'.input = some (ports ++ [({} : InMod)]) ∧ (h ports.length true c').1 = true) ∧
      ∃ o, Readers (addRead alloc c init).2 (fns ++ [true]) (hooks ++ [init.isSome]) (ports ++ [o])) ∨
    ((addRead alloc c init).1 = false ∧ Readers (addRead alloc c init).2 fns hooks ports ∧
      (255 ≤ ports.length ∨ alloc < 3 ∨ ∃ h c', init = some h ∧ c'.input = some (ports ++ [({} : InMod)]) ∧
        (h ports.length true c').1 = false)) := by
  obtain ⟨hq, hf, hh, h1, h2, h3⟩ := hr
  have g1 : grow c.read ports.length true = some (fns ++ [true]) := by rw [← hf]; exact grow_table h1 _
  have g2 : ∀ b, grow c.initRead ports.length b = some (hooks ++ [b]) := fun b => by rw [← hh]; exact grow_table h2 b
  have g3 : ∀ x, grow c.input ports.length x = some (ports ++ [x]) := fun x => grow_table h3 x
  have t1 : Table (shrink (some (fns ++ [true])) ports.length) fns := by rw [← hf]; exact shrink_table _
  have t2 : ∀ b, Table (shrink (some (hooks ++ [b])) ports.length) hooks := fun b => by rw [← hh]; exact shrink_table _
  have t3 : ∀ x, Table (shrink (some (ports ++ [x])) ports.length) ports := fun x => shrink_table _
  unfold addRead
  simp only [hq, g1, g2, g3]
  split
  · rename_i hn
    exact .inr ⟨rfl, ⟨rfl, hf, hh, h1, h2, h3⟩, .inl hn⟩
  split
  · exact .inr ⟨rfl, ⟨rfl, hf, hh, h1, h2, h3⟩, .inr (.inl (by omega))⟩
  split
  · exact .inr ⟨rfl, ⟨rfl, hf, hh, t1, h2, h3⟩, .inr (.inl (by omega))⟩
  split
  · exact .inr ⟨rfl, ⟨rfl, hf, hh, t1, t2 _, h3⟩, .inr (.inl (by omega))⟩
  cases init with
  | none =>
    exact .inl ⟨rfl, by omega, by omega, fun h hh => (by cases hh), {}, by simp, by simp [hf], by simp [hh], table_snoc _, table_snoc _, table_snoc _⟩
  | some h =>
    dsimp only
    generalize e0 : ({ c with fnReadQty := ports.length, read := some (fns ++ [true]), initRead := some (hooks ++ [(some h).isSome])
                              input := some (ports ++ [{}]) } : Ctx) = c0
    have k0 := hi h rfl ports.length true c0
    split
    · rename_i hok
      obtain ⟨-, a1, a2, o, a3⟩ := k0
      refine .inl ⟨rfl, by omega, by omega, fun h' hh' => ⟨c0, by rw [← e0], by cases hh'; exact hok⟩, o, by simp, by simp [hf], by simp [hh], ?_, ?_, ?_⟩
      · show Table (h _ _ _).2.read _
        rw [a1, ← e0]; exact table_snoc _
      · show Table (h _ _ _).2.initRead _
        rw [a2, ← e0]; exact table_snoc _
      · show Table (h _ _ _).2.input _
        rw [a3, ← e0]
        simp only [Option.map_some, set_snoc]
        exact table_snoc _
    · rename_i hok
      have k1 := hi h rfl ports.length false (h ports.length true c0).2
      obtain ⟨a0, a1, a2, o, a3⟩ := k0
      obtain ⟨b0, b1, b2, p, b3⟩ := k1
      refine .inr ⟨rfl, ⟨?_, hf, hh, ?_, ?_, ?_⟩, .inr (.inr ⟨h, c0, rfl, by rw [← e0], by simpa using hok⟩)⟩
      · show (h _ _ _).2.fnReadQty = _
        rw [b0, a0, ← e0]
      · show Table (shrink (h _ _ _).2.read _) _
        rw [b1, a1, ← e0]; exact t1
      · show Table (shrink (h _ _ _).2.initRead _) _
        rw [b2, a2, ← e0]; exact t2 _
      · show Table (shrink (h _ _ _).2.input _) _
        rw [b3, a3, ← e0]
        simp only [Option.map_some, set_snoc]
        exact t3 _

/-- C47, reading, the rest.  If the init hook leaves everything but the read modules and the error report alone, so does the
registration. -/
theorem C47_read_rest {c : Ctx} (alloc : Nat) (init : Option InitHook)
    (hi : ∀ h, init = some h → ∀ n b c, sansReaders (h n b c).2 = sansReaders c) :
    sansReaders (addRead alloc c init).2 = sansReaders c := by
  unfold addRead
  dsimp only
  split
  · rfl
  split
  · rfl
  split
  · rfl
  split
  · rfl
  cases init with
  | none => rfl
  | some h =>
    dsimp only
    split
    · exact (hi h rfl _ _ _).trans rfl
    · exact (hi h rfl _ _ _).trans ((hi h rfl _ _ _).trans rfl)

/-- Registrations one after the other: the results and the final context. -/
def addReads : Ctx → List (Nat × Option InitHook) → List Bool × Ctx
  | c, [] => ([], c)
  | c, (alloc, init) :: rest =>
    let (ok, c) := addRead alloc c init
    let (oks, c) := addReads c rest
    (ok :: oks, c)

/-- C47, reading, histories.  After any sequence of registrations there are at most 255 modules; they are the ones registered
before, followed by one for each accepted registration, in order. -/
theorem C47_read_history : ∀ (reqs : List (Nat × Option InitHook)) {c : Ctx} {fns hooks : List Bool} {ports : List InMod},
    Readers c fns hooks ports → ports.length ≤ 255 → (∀ q ∈ reqs, ∀ h, q.2 = some h → OwnInput h) →
    ∃ fns' hooks' ports', Readers (addReads c reqs).2 (fns ++ fns') (hooks ++ hooks') (ports ++ ports') ∧
      (ports ++ ports').length ≤ 255 ∧ ports'.length = ((addReads c reqs).1.filter id).length ∧
      hooks' = (reqs.zip (addReads c reqs).1).filterMap fun q => if q.2 then some q.1.2.isSome else none
  | [], c, fns, hooks, ports, hr, hl, _ => ⟨[], [], [], by simpa [addReads] using hr, by simpa using hl, rfl, rfl⟩
  | (alloc, init) :: reqs, c, fns, hooks, ports, hr, hl, hh => by
    have ih := @C47_read_history reqs (addRead alloc c init).2
    rcases C47_read hr alloc init (hh (alloc, init) (by simp)) with ⟨h1, h2, -, -, o, h3⟩ | ⟨h1, h2, -⟩
    · obtain ⟨f', k', p', e1, e2, e3, e4⟩ := ih h3 (by simp; omega) fun q hq => hh q (by simp [hq])
      refine ⟨true :: f', init.isSome :: k', o :: p', ?_, ?_, ?_, ?_⟩
      · simpa [addReads] using e1
      · simpa using e2
      · simp [addReads, h1, e3]
      · simp [addReads, h1, e4]
    · obtain ⟨f', k', p', e1, e2, e3, e4⟩ := ih h2 hl fun q hq => hh q (by simp [hq])
      refine ⟨f', k', p', ?_, e2, ?_, ?_⟩
      · simpa [addReads] using e1
      · simp [addReads, h1, e3]
      · simp [addReads, h1, e4]

/-- C47, writing.  Given the registered write modules, a registration (of a module whose init hook keeps to its own slot) either
returns true and appends one module, keeping the others, or returns false and leaves the registered modules as they were.  The
latter happens exactly at the limit of 255, without memory, or when the hook fails. -/
theorem C47_write {c : Ctx} {fns hooks : List Bool} {ports : List OutMod} (hr : Writers c fns hooks ports) (alloc : Nat)
    (init : Option InitHook) (hi : ∀ h, init = some h → OwnOutput h) :
    ((addWrite alloc c init).1 = true ∧ ports.length < 255 ∧ 3 ≤ alloc ∧
      (∀ h, init = some h → ∃ c', c'.output = some (ports ++ [({} : OutMod)]) ∧ (h ports.length true c').1 = true) ∧
      ∃ o, Writers (addWrite alloc c init).2 (fns ++ [true]) (hooks ++ [init.isSome]) (ports ++ [o])) ∨
    ((addWrite alloc c init).1 = false ∧ Writers (addWrite alloc c init).2 fns hooks ports ∧
      (255 ≤ ports.length ∨ alloc < 3 ∨ ∃ h c', init = some h ∧ c'.output = some (ports ++ [({} : OutMod)]) ∧
        (h ports.length true c').1 = false)) := by
  obtain ⟨hq, hf, hh, h1, h2, h3⟩ := hr
  have g1 : grow c.write ports.length true = some (fns ++ [true]) := by rw [← hf]; exact grow_table h1 _
  have g2 : ∀ b, grow c.initWrite ports.length b = some (hooks ++ [b]) := fun b => by rw [← hh]; exact grow_table h2 b
  have g3 : ∀ x, grow c.output ports.length x = some (ports ++ [x]) := fun x => grow_table h3 x
  have t1 : Table (shrink (some (fns ++ [true])) ports.length) fns := by rw [← hf]; exact shrink_table _
  have t2 : ∀ b, Table (shrink (some (hooks ++ [b])) ports.length) hooks := fun b => by rw [← hh]; exact shrink_table _
  have t3 : ∀ x, Table (shrink (some (ports ++ [x])) ports.length) ports := fun x => shrink_table _
  unfold addWrite
  simp only [hq, g1, g2, g3]
  split
  · rename_i hn
    exact .inr ⟨rfl, ⟨rfl, hf, hh, h1, h2, h3⟩, .inl hn⟩
  split
  · exact .inr ⟨rfl, ⟨rfl, hf, hh, h1, h2, h3⟩, .inr (.inl (by omega))⟩
  split
  · exact .inr ⟨rfl, ⟨rfl, hf, hh, t1, h2, h3⟩, .inr (.inl (by omega))⟩
  split
  · exact .inr ⟨rfl, ⟨rfl, hf, hh, t1, t2 _, h3⟩, .inr (.inl (by omega))⟩
  cases init with
  | none =>
    exact .inl ⟨rfl, by omega, by omega, fun h hh => (by cases hh), {}, by simp, by simp [hf], by simp [hh], table_snoc _, table_snoc _, table_snoc _⟩
  | some h =>
    dsimp only
    generalize e0 : ({ c with fnWriteQty := ports.length, write := some (fns ++ [true]), initWrite := some (hooks ++ [(some h).isSome])
                              output := some (ports ++ [{}]) } : Ctx) = c0
    have k0 := hi h rfl ports.length true c0
    split
    · rename_i hok
      obtain ⟨-, a1, a2, o, a3⟩ := k0
      refine .inl ⟨rfl, by omega, by omega, fun h' hh' => ⟨c0, by rw [← e0], by cases hh'; exact hok⟩, o, by simp, by simp [hf], by simp [hh], ?_, ?_, ?_⟩
      · show Table (h _ _ _).2.write _
        rw [a1, ← e0]; exact table_snoc _
      · show Table (h _ _ _).2.initWrite _
        rw [a2, ← e0]; exact table_snoc _
      · show Table (h _ _ _).2.output _
        rw [a3, ← e0]
        simp only [Option.map_some, set_snoc]
        exact table_snoc _
    · rename_i hok
      have k1 := hi h rfl ports.length false (h ports.length true c0).2
      obtain ⟨a0, a1, a2, o, a3⟩ := k0
      obtain ⟨b0, b1, b2, p, b3⟩ := k1
      refine .inr ⟨rfl, ⟨?_, hf, hh, ?_, ?_, ?_⟩, .inr (.inr ⟨h, c0, rfl, by rw [← e0], by simpa using hok⟩)⟩
      · show (h _ _ _).2.fnWriteQty = _
        rw [b0, a0, ← e0]
      · show Table (shrink (h _ _ _).2.write _) _
        rw [b1, a1, ← e0]; exact t1
      · show Table (shrink (h _ _ _).2.initWrite _) _
        rw [b2, a2, ← e0]; exact t2 _
      · show Table (shrink (h _ _ _).2.output _) _
        rw [b3, a3, ← e0]
        simp only [Option.map_some, set_snoc]
        exact t3 _

/-- C47, writing, the rest.  If the init hook leaves everything but the write modules and the error report alone, so does the
registration. -/
theorem C47_write_rest {c : Ctx} (alloc : Nat) (init : Option InitHook)
    (hi : ∀ h, init = some h → ∀ n b c, sansWriters (h n b c).2 = sansWriters c) :
    sansWriters (addWrite alloc c init).2 = sansWriters c := by
  unfold addWrite
  dsimp only
  split
  · rfl
  split
  · rfl
  split
  · rfl
  split
  · rfl
  cases init with
  | none => rfl
  | some h =>
    dsimp only
    split
    · exact (hi h rfl _ _ _).trans rfl
    · exact (hi h rfl _ _ _).trans ((hi h rfl _ _ _).trans rfl)

/-- Registrations one after the other: the results and the final context. -/
def addWrites : Ctx → List (Nat × Option InitHook) → List Bool × Ctx
  | c, [] => ([], c)
  | c, (alloc, init) :: rest =>
    let (ok, c) := addWrite alloc c init
    let (oks, c) := addWrites c rest
    (ok :: oks, c)

/-- C47, writing, histories.  After any sequence of registrations there are at most 255 modules; they are the ones registered
before, followed by one for each accepted registration, in order. -/
theorem C47_write_history : ∀ (reqs : List (Nat × Option InitHook)) {c : Ctx} {fns hooks : List Bool} {ports : List OutMod},
    Writers c fns hooks ports → ports.length ≤ 255 → (∀ q ∈ reqs, ∀ h, q.2 = some h → OwnOutput h) →
    ∃ fns' hooks' ports', Writers (addWrites c reqs).2 (fns ++ fns') (hooks ++ hooks') (ports ++ ports') ∧
      (ports ++ ports').length ≤ 255 ∧ ports'.length = ((addWrites c reqs).1.filter id).length ∧
      hooks' = (reqs.zip (addWrites c reqs).1).filterMap fun q => if q.2 then some q.1.2.isSome else none
  | [], c, fns, hooks, ports, hr, hl, _ => ⟨[], [], [], by simpa [addWrites] using hr, by simpa using hl, rfl, rfl⟩
  | (alloc, init) :: reqs, c, fns, hooks, ports, hr, hl, hh => by
    have ih := @C47_write_history reqs (addWrite alloc c init).2
    rcases C47_write hr alloc init (hh (alloc, init) (by simp)) with ⟨h1, h2, -, -, o, h3⟩ | ⟨h1, h2, -⟩
    · obtain ⟨f', k', p', e1, e2, e3, e4⟩ := ih h3 (by simp; omega) fun q hq => hh q (by simp [hq])
      refine ⟨true :: f', init.isSome :: k', o :: p', ?_, ?_, ?_, ?_⟩
      · simpa [addWrites] using e1
      · simpa using e2
      · simp [addWrites, h1, e3]
      · simp [addWrites, h1, e4]
    · obtain ⟨f', k', p', e1, e2, e3, e4⟩ := ih h2 hl fun q hq => hh q (by simp [hq])
      refine ⟨f', k', p', ?_, e2, ?_, ?_⟩
      · simpa [addWrites] using e1
      · simp [addWrites, h1, e3]
      · simp [addWrites, h1, e4]

/-! ### C48 -/

/-- One request: memory, init hook and quantity. -/
structure ForeignReq where
  alloc : Bool
  init : Foreign → Bool × Foreign
  qty : Nat

/-- C48, one registration.  Either it returns true and appends one function, what its init hook made of the fresh descriptor
with id equal to the number of functions so far; or it returns false and nothing but the error report changes. -/
theorem C48_step {c : Ctx} {fns : List Foreign} (hc : Foreigners c fns) (q : ForeignReq) :
    ((addForeign q.alloc c q.init q.qty).1 = true ∧ (q.init (fresh fns.length)).1 = true ∧
      Foreigners (addForeign q.alloc c q.init q.qty).2 (fns ++ [(q.init (fresh fns.length)).2]) ∧
      sansForeign (addForeign q.alloc c q.init q.qty).2 = sansForeign c ∧
      0 < q.qty ∧ (fns.length + q.qty) % 2^32 ≤ 100) ∨
    ((addForeign q.alloc c q.init q.qty).1 = false ∧
      ∃ e, (addForeign q.alloc c q.init q.qty).2 = { c with last := { c.last with err := e } }) := by
  obtain ⟨hq, ht⟩ := hc
  unfold addForeign
  dsimp only
  split
  · exact .inr ⟨rfl, _, rfl⟩
  rename_i hn
  split
  · exact .inr ⟨rfl, c.last.err, rfl⟩
  rename_i h1
  split
  · exact .inr ⟨rfl, c.last.err, rfl⟩
  refine .inl ⟨rfl, ?_, ⟨?_, ?_⟩, rfl, ?_⟩
  · rw [← hq]; simpa [fresh] using h1
  · simp [hq]
  · show Table (grow c.foreign c.foreignQty _) _
    rw [hq, grow_table ht]
    exact table_snoc _
  · rw [hq] at hn
    omega

/-- Registrations one after the other. -/
def addForeigns : Ctx → List ForeignReq → List Bool × Ctx
  | c, [] => ([], c)
  | c, q :: rest =>
    let (ok, c) := addForeign q.alloc c q.init q.qty
    let (oks, c) := addForeigns c rest
    (ok :: oks, c)

/-- The requests that were accepted. -/
def accepted (reqs : List ForeignReq) (oks : List Bool) : List ForeignReq :=
  (reqs.zip oks).filterMap fun q => if q.2 then some q.1 else none

/-- C48, histories.  After any sequence of registrations the table consists of the previous functions followed by one per
accepted registration in order, and the i-th entry is what its init hook made of the descriptor with id i. -/
theorem C48_ids : ∀ (reqs : List ForeignReq) {c : Ctx} {fns : List Foreign}, Foreigners c fns →
    ∃ fns', Foreigners (addForeigns c reqs).2 (fns ++ fns') ∧
      fns'.length = (accepted reqs (addForeigns c reqs).1).length ∧
      ∀ (i : Nat) (q : ForeignReq), (accepted reqs (addForeigns c reqs).1)[i]? = some q →
        (q.init (fresh (fns.length + i))).1 = true ∧ fns'[i]? = some (q.init (fresh (fns.length + i))).2
  | [], c, fns, hc => ⟨[], by simpa [addForeigns] using hc, rfl, fun i q h => by simp [accepted] at h⟩
  | q :: reqs, c, fns, hc => by
    have ih := @C48_ids reqs (addForeign q.alloc c q.init q.qty).2
    rcases C48_step hc q with ⟨h1, h2, h3, -⟩ | ⟨h1, e, h2⟩
    · obtain ⟨f', e1, e2, e3⟩ := ih h3
      refine ⟨(q.init (fresh fns.length)).2 :: f', by simpa [addForeigns] using e1, ?_, fun i p hp => ?_⟩
      · simp only [addForeigns, accepted, h1, List.zip_cons_cons, List.filterMap_cons, if_true, List.length_cons]
        rw [e2]; rfl
      · simp only [addForeigns, accepted, h1, List.zip_cons_cons, List.filterMap_cons, if_true] at hp
        cases i with
        | zero =>
          simp only [List.getElem?_cons_zero, Option.some.injEq] at hp
          subst hp
          exact ⟨h2, rfl⟩
        | succ i =>
          rw [List.getElem?_cons_succ] at hp ⊢
          have := e3 i p hp
          rw [List.length_append, List.length_singleton, show fns.length + 1 + i = fns.length + (i + 1) by omega] at this
          exact this
    · have hc' : Foreigners (addForeign q.alloc c q.init q.qty).2 fns := by
        rw [h2]; exact ⟨hc.qty, hc.table⟩
      obtain ⟨f', e1, e2, e3⟩ := ih hc'
      refine ⟨f', by simpa [addForeigns] using e1, ?_, ?_⟩
      · simp only [addForeigns, accepted, h1, List.zip_cons_cons, List.filterMap_cons]
        exact e2
      · simp only [addForeigns, accepted, h1, List.zip_cons_cons, List.filterMap_cons]
        exact e3

/-- C48, limit.  If no request asks for a number of functions close to 2^32, at most 100 functions are ever registered.  (Missing:
larger quantities, for which the sum in the check wraps around, see `C48_refuted`.) -/
theorem C48_limit_partial : ∀ (reqs : List ForeignReq) {c : Ctx} {fns : List Foreign}, Foreigners c fns → fns.length ≤ 100 →
    (∀ q ∈ reqs, q.qty ≤ 2^32 - 101) → (addForeigns c reqs).2.foreignQty ≤ 100
  | [], c, fns, hc, hl, _ => by simpa [addForeigns, hc.qty] using hl
  | q :: reqs, c, fns, hc, hl, hq => by
    have ih := @C48_limit_partial reqs (addForeign q.alloc c q.init q.qty).2
    have hb := hq q (by simp)
    rcases C48_step hc q with ⟨h1, h2, h3, -, h4, h5⟩ | ⟨h1, e, h2⟩
    · have := ih h3 (by simp; omega) fun p hp => hq p (by simp [hp])
      simpa [addForeigns] using this
    · have hc' : Foreigners (addForeign q.alloc c q.init q.qty).2 fns := by
        rw [h2]; exact ⟨hc.qty, hc.table⟩
      have := ih hc' hl fun p hp => hq p (by simp [hp])
      simpa [addForeigns] using this

/-- C48, defect.  The sum in the check is computed modulo 2^32: with 100 functions registered, a request for 2^32 - 50 is accepted
and there are 101. -/
theorem C48_refuted : ∃ (c : Ctx) (fns : List Foreign) (q : ForeignReq), Foreigners c fns ∧ fns.length = 100 ∧ q.qty < 2^32 ∧
    (addForeign q.alloc c q.init q.qty).1 = true ∧ (addForeign q.alloc c q.init q.qty).2.foreignQty = 101 :=
  ⟨{ Demo.ctx [] with foreignQty := 100, foreign := some ((List.range 100).map fresh) }, (List.range 100).map fresh,
    ⟨true, fun f => (true, f), 2^32 - 50⟩, ⟨by simp, by simp [Table]⟩, by simp, by decide, by decide, by decide⟩

/-! ### Demonstrations -/

/-- Typical arguments. -/
def demoArgs : InitArgs :=
  { cols := 3, rows := 4, networks := 2, m := 5, c := 2, t := 2, d := 3, r := 1, delayNotRun := 0, watchdogMs := 100
    initNetwork := true, writeOnFault := false, maxScanCycles := 10, targetScanMs := 0 }

/-- C46: arguments in range and out of range (33 rows). -/
example : (∃ c, ctxInit true (Demo.ctx []) demoArgs = .returns true c) ∧
    ctxInit true (Demo.ctx []) { demoArgs with rows := 33 } = .returns false (Demo.ctx []) :=
  ⟨(C46_range _ _).2 (by decide), C46_refused _ _ _ (by decide)⟩

/-- An init hook that gives its module two digital inputs and fails for slot 1. -/
def inHook : InitHook := fun n b c =>
  (decide (n ≠ 1), { c with input := c.input.map (·.set n (if b then { iQty := 2, I := some [0, 0], Ih := some [0, 0] } else {})) })

theorem inHook_own : OwnInput inHook := fun _ _ _ => ⟨rfl, rfl, rfl, _, rfl⟩

/-- C47: from an initialised context a module is accepted, a second one with this hook fails and leaves the first, one without
hook is appended. -/
example : (addReads (initCtx demoArgs) [(3, some inHook), (3, some inHook), (3, none), (1, none)]).1 = [true, false, true, false] ∧
    (addReads (initCtx demoArgs) [(3, some inHook), (3, some inHook), (3, none), (1, none)]).2.input =
      some [{ iQty := 2, I := some [0, 0], Ih := some [0, 0] }, {}] ∧
    ∃ fns hooks ports, Readers (addReads (initCtx demoArgs) [(3, some inHook), (3, some inHook), (3, none), (1, none)]).2
      fns hooks ports ∧ ports.length = 2 := by
  refine ⟨by decide, by decide, ?_⟩
  obtain ⟨f, k, p, h, -, e, -⟩ := C47_read_history [(3, some inHook), (3, some inHook), (3, none), (1, none)]
    (c := initCtx demoArgs) (fns := []) (hooks := []) (ports := []) ⟨rfl, rfl, rfl, rfl, rfl, rfl⟩ (by simp)
    (by intro q hq h hh
        simp only [List.mem_cons, List.not_mem_nil, or_false] at hq
        rcases hq with rfl | rfl | rfl | rfl <;> cases hh <;> exact inHook_own)
  exact ⟨_, _, _, h, e.trans (by decide)⟩

/-- An init hook that gives its module one digital output. -/
def outHook : InitHook := fun n b c =>
  (true, { c with output := c.output.map (·.set n (if b then { qQty := 1, Q := some [0], Qh := some [0] } else {})) })

/-- C47: a write module is accepted and, without memory, a second one is not. -/
example : OwnOutput outHook ∧ Writers (initCtx demoArgs) [] [] [] ∧
    (addWrites (initCtx demoArgs) [(3, some outHook), (2, none)]).1 = [true, false] ∧
    (addWrites (initCtx demoArgs) [(3, some outHook), (2, none)]).2.output = some [{ qQty := 1, Q := some [0], Qh := some [0] }] :=
  ⟨fun _ _ _ => ⟨rfl, rfl, rfl, _, rfl⟩, ⟨rfl, rfl, rfl, rfl, rfl, rfl⟩, by decide, by decide⟩

/-- C48: two functions are accepted, one fails in its hook in between. -/
example : (addForeigns (initCtx demoArgs) [⟨true, fun f => (true, f), 1⟩, ⟨true, fun f => (false, f), 1⟩,
      ⟨true, fun f => (true, { f with desc := ⟨1, 1, 2, 1⟩ }), 3⟩]).1 = [true, false, true] ∧
    (addForeigns (initCtx demoArgs) [⟨true, fun f => (true, f), 1⟩, ⟨true, fun f => (false, f), 1⟩,
      ⟨true, fun f => (true, { f with desc := ⟨1, 1, 2, 1⟩ }), 3⟩]).2.foreign = some [⟨0, ⟨0, 0, 0, 0⟩, false⟩, ⟨1, ⟨1, 1, 2, 1⟩, false⟩] ∧
    Foreigners (initCtx demoArgs) [] :=
  ⟨by decide, by decide, rfl, rfl⟩

end Ladder.Props
