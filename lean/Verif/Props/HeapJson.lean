import Verif.Props.Teardown
import Verif.Props.Json
import Verif.Lemmas.HeapSame

/-
C91: loading a program from a file, and the other functions on files, neither misuse the heap nor leave blocks behind.
-/

namespace Ladder.Props

open Ladder.Heap
open Spec (Member Number Ranged ProgramDoc Sizes)
open Demo (ctx)

theorem blank_of_bare {x : Heap.Ctx} (hb : ArrOk x.networks BareNet x.nets) {n r c : Nat} {cell : Heap.Cell}
    (hc : x.cell n r c = some cell) : cell.data = none := by
  unfold Heap.Ctx.cell at hc
  obtain ⟨⟨b, ns⟩, h1, h2⟩ := Option.bind_eq_some_iff.1 hc
  obtain ⟨net, h3, h4⟩ := Option.bind_eq_some_iff.1 h2
  rw [h1] at hb
  have hnet := hb.2 net (List.mem_of_getElem? h3)
  unfold Heap.Net.cell at h4
  obtain ⟨⟨b2, rows⟩, h5, h6⟩ := Option.bind_eq_some_iff.1 h4
  obtain ⟨row, h7, h8⟩ := Option.bind_eq_some_iff.1 h6
  obtain ⟨⟨b3, cells⟩, h9, h10⟩ := Option.bind_eq_some_iff.1 h8
  unfold BareNet at hnet
  rw [h5] at hnet
  have hrow := hnet.2 row (List.mem_of_getElem? h7)
  rw [h9] at hrow
  exact hrow.2 cell (List.mem_of_getElem? h10)

/-- C91: whatever was done with the context before, loading a file whose networks have the rows they announce misuses no block,
whichever requests for memory are refused, except those for row tables.  If it fails, the program is unchanged or empty.  A
teardown then frees every block allocated since before the initialisation, and no other. -/
theorem C91_load_partial {p : Policy} (hs : ∀ k, p.shrink k = true) {a : Heap.InitArgs} (hn : a.initNetwork = true)
    {h0 : Store} (s0 : h0.Sound) {x : Heap.Ctx} {h : Store} (b : Built p a h0 x h) {t : Policy}
    (ht : ∀ k, t.grow k = true) {host : Host} {file : File} (hf : FirmFile host file) :
    ∃ ok y h', loadFile p t host file x h = .ok ((ok, y), h') ∧
      (ok = false → y = x ∨ ∀ n r c cell, y.cell n r c = some cell → cell.data = none) ∧
      ∃ z h'', Heap.deinit y h' = .ok (z, h'') ∧ h''.live.Perm h0.live := by
  obtain ⟨cok, f⟩ := built_ok hs hn s0 b
  obtain ⟨⟨ok, y⟩, h', e, ⟨hy, hfail⟩, f'⟩ := loadFile_runs p ht hf cok f
  obtain ⟨z, h'', e', -, -, -, -, f''⟩ := deinit_runs hy f'
  refine ⟨ok, y, h', e, fun h1 => ?_, z, h'', e', List.perm_iff_count.2 f''.live⟩
  rcases hfail h1 with h2 | h2
  · exact .inl h2
  · exact .inr fun n r c cell hc => blank_of_bare h2 hc

/-- C91: a well-formed program whose dimensions are in range is such a file. -/
theorem C91_wellformed {host : Host} {n : Nat} {doc : Json} (hd : ProgramDoc host n doc)
    (hr : ∀ l, doc = .arr l → ∀ j ∈ l, Sizes j) : FirmFile host (.tree doc) := by
  intro l e j hj ms em
  cases e
  obtain ⟨l', el, hnets⟩ := hd
  cases el
  obtain ⟨ms', id, rows, cols, rs, em', hid, hid0, hidn, hrows, hcols, hdata, hlen, hc0, hrs⟩ := hnets j hj
  rw [em] at em'
  cases em'
  obtain ⟨s1, s2, s3⟩ := hr l rfl j hj ms em
  refine ⟨s1, s2, s3, ?_, ?_⟩
  · intro q hq _
    exact ⟨⟨cols, hcols⟩, rs, hdata, by rw [hlen]; exact Number.unique hrows hq⟩
  · intro l2 row cells x hl2 hrow ec hx xs ex hsym
    have e2 : (.arr l2 : Json) = .arr rs := by
      have h1 := has_member.1 hl2
      have h2 := has_member.1 hdata
      rw [h1] at h2
      exact Option.some.inj h2
    cases e2
    obtain ⟨cl, ecl, -, hcells⟩ := hrs row hrow
    rw [ec] at ecl
    cases ecl
    obtain ⟨ms3, s, code, bar, dl, e3, hsym', hs, -, -, hm, -, -⟩ := hcells x hx
    rw [ex] at e3
    cases e3
    have h1 := has_member.1 hsym
    rw [has_member.1 hsym'] at h1
    cases h1
    have hall : ∀ q ∈ Spec.symbols, q.1 = "occupied" → q.2 = .MULTI := by decide +kernel
    have : code = .MULTI := hall _ hs rfl
    rw [hm this]
    simp

/-- C91: when no request is refused, what the loader decides and the shape of the program it leaves are those of the model of the
JSON form, to which C58, C59 and C66 to C68 apply. -/
theorem C91_agrees {p t : Policy} (hp : ∀ k, p.grow k = true) (hs : ∀ k, p.shrink k = true) (ht : ∀ k, t.grow k = true)
    {a : Heap.InitArgs} (hn : a.initNetwork = true) {h0 : Store} (s0 : h0.Sound) {x : Heap.Ctx} {h : Store}
    (b : Built p a h0 x h) {host : Host} {doc : Json} (hf : FirmFile host (.tree doc)) {c c' : Ladder.Ctx} {e : JsonErr}
    (hc : Twin x c) (hl : loadProgram host c doc = .ok (e, c')) :
    ∃ ok y h', loadFile p t host (.tree doc) x h = .ok ((ok, y), h') ∧ (ok = true ↔ e = .ok) ∧ Twin y c' := by
  obtain ⟨cok, f⟩ := built_ok hs hn s0 b
  obtain ⟨⟨ok, y⟩, h', e1, -, -⟩ := loadFile_runs p ht hf cok f
  exact ⟨ok, y, h', e1, loadFile_post hp ht host doc hc hl _ _ _ e1⟩

/-- C91: compacting a file leaves the heap as it was, whatever the file contains and whichever requests are refused. -/
theorem C91_compact (p : Policy) (writable : Bool) (file : File) {h : Store} (s : h.Sound) :
    ∃ ok h', compactFile p writable file h = .ok (ok, h') ∧ h'.live.Perm h.live := by
  obtain ⟨ok, h', e, f⟩ := compactFile_runs p writable file (sound_fits s)
  exact ⟨ok, h', e, List.perm_iff_count.2 f.live⟩

/-- C91: so does validating a file. -/
theorem C91_validate (p : Policy) (verdict : Json → Json → Bool) (file schema : File) {h : Store} (s : h.Sound) :
    ∃ ok h', validateFile p verdict file schema h = .ok (ok, h') ∧ h'.live.Perm h.live := by
  obtain ⟨ok, h', e, f⟩ := validateFile_runs p verdict file schema (sound_fits s)
  exact ⟨ok, h', e, List.perm_iff_count.2 f.live⟩

/-! ### Where it fails -/

/-- An allocator that refuses everything. -/
def denyAll : Policy := ⟨fun _ => false, fun _ => true⟩

/-- Initialisation, a list of loads, and teardown: the results of the loads and the number of blocks left, or the misuse. -/
def loads (p t : Policy) (host : Host) (files : List File) : Except Misuse (List Bool × Nat) :=
  let rec go : List File → Heap.Ctx → H (List Bool)
    | [], x => do
      let _ ← Heap.deinit x
      pure []
    | file :: files, x => do
      let (ok, x) ← loadFile p t host file x
      let oks ← go files x
      pure (ok :: oks)
  match (do
    let (_, x) ← Heap.ctxInit p {} smallInit
    go files x : H (List Bool)) {} with
  | .ok (oks, h) => .ok (oks, h.live.length)
  | .error e => .error e

/-- A contact with an operand and a text on one network of one row. -/
def textDoc : Json :=
  .arr [.obj [("id", .num (.fin 0)), ("rows", .num (.fin 1)), ("cols", .num (.fin 1)), ("networkData", .arr [.arr [
    .obj [("symbol", .str "NO"), ("bar", .bool false), ("data", .arr [oneOperand "CSTR" "tag"])]]])]]

/-- Tests for the result. -/
def crashed : Except Misuse (List Bool × Nat) → Bool
  | .error .nullDeref => true
  | _ => false

def leaving (oks : List Bool) (k : Nat) : Except Misuse (List Bool × Nat) → Bool
  | .ok r => r.1 == oks && r.2 == k
  | .error _ => false

theorem crashed_iff {r : Except Misuse (List Bool × Nat)} (h : crashed r = true) : r = .error .nullDeref := by
  unfold crashed at h
  split at h
  · rfl
  · cases h

/-- C91 fails when the request for a row table is refused: the program that is then deleted has rows but no row table. -/
theorem C91_refuted_table : loads granting denyAll kindHost [.tree textDoc] = .error .nullDeref :=
  crashed_iff (by decide +kernel)

/-- C91 fails for a network that announces rows and columns and has no rows. -/
theorem C91_refuted_no_rows : loads granting granting kindHost
    [.tree (.arr [.obj [("id", .num (.fin 0)), ("rows", .num (.fin 1)), ("cols", .num (.fin 1))]])] = .error .nullDeref :=
  crashed_iff (by decide +kernel)

/-- A network that announces rows but no columns. -/
def noColumns : Json := .arr [.obj [("id", .num (.fin 0)), ("rows", .num (.fin 1))]]

/-- C91 fails for a network that announces rows but no columns: the load ends with an error, but the teardown accesses memory
through a null pointer. -/
theorem C91_refuted_no_columns :
    (match (do
      let (_, x) ← Heap.ctxInit granting {} smallInit
      let (ok, _) ← loadFile granting granting kindHost (.tree noColumns) x
      pure ok : H Bool) {} with
    | .ok (ok, _) => ok == false
    | .error _ => false) = true ∧
    loads granting granting kindHost [.tree noColumns] = .error .nullDeref :=
  ⟨by decide +kernel, crashed_iff (by decide +kernel)⟩

/-! ### The hypotheses can be met -/

theorem firm_oneCell {H : Host} {ms : List (String × Json)} (h : ¬ Member "symbol" (.str "occupied") ms) :
    FirmFile H (.tree (oneCell ms)) := by
  intro l e j hj ms' em
  cases e
  obtain ⟨h1, h2, h3, -, h5⟩ := sturdy_oneCell (H := H) h _ rfl j hj ms' em
  refine ⟨h1, h2, h3, ?_, h5⟩
  rw [List.mem_singleton] at hj
  subst hj
  cases em
  rintro rows ⟨x, hr, hx⟩ _
  rw [has_member] at hr; cases hr; cases hx
  exact ⟨⟨1, _, has_member.2 rfl, rfl⟩, _, has_member.2 rfl, rfl⟩

/-- A contact with a text is loaded, twice, with every request granted; and nothing is left. -/
example : FirmFile kindHost (.tree textDoc) := by
  unfold textDoc
  exact firm_oneCell (by rw [has_member]; simp [member])
example : leaving [true, false, false, true] 0
    (loads granting granting kindHost [.tree textDoc, .broken, .missing, .tree textDoc]) = true := by decide +kernel

/-- With each of its requests refused in turn. -/
example : [20, 21, 23, 24, 25].all (fun k => leaving [false] 0 (loads (refusing k) granting kindHost [.tree textDoc])) = true := by
  decide +kernel

local instance : DecidableEq (Ins × Nat × Option (List Bool)) := inferInstance
local instance : DecidableEq (List (Ins × Nat × Option (List Bool))) := inferInstance
local instance : DecidableEq (List (Option (List (Ins × Nat × Option (List Bool))))) := inferInstance
local instance : DecidableEq (Nat × Nat × Option (List (Option (List (Ins × Nat × Option (List Bool)))))) := inferInstance

/-- A context just initialised is described by the two models. -/
example : ∃ x h, Built granting smallInit {} x h ∧ Twin x (ctx [Demo.net [[{}, {}], [{}, {}], [{}, {}]]]) := by
  have t : (playFrom granting smallInit []).any (fun r => decide (r.1.networks = 1) &&
      decide ((r.1.nets.map fun a : Nat × List Heap.Net => a.2.map Net.view) =
        some ([Demo.net [[{}, {}], [{}, {}], [{}, {}]]].map netShadow))) = true := by decide +kernel
  obtain ⟨⟨x, h⟩, e, hl⟩ := (Option.any_eq_true _ _).1 t
  simp only [Bool.and_eq_true, decide_eq_true_eq] at hl
  exact ⟨x, h, playFrom_built e, hl.1, hl.2⟩

end Ladder.Props
