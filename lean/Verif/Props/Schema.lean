import Verif.Lemmas.FormLoad
import Verif.Lemmas.SchemaCheck
import Verif.Props.Json

/-
The validator of documents and the schema that comes with the library: C77 (the validator decides JSON Schema), C78 (a valid document
can be loaded) and C79 (a saved program is valid).
-/

set_option autoImplicit false

namespace Ladder.Props

open Spec Demo

/-! ### C77: the validator decides JSON Schema -/

/-- C77 for the schemas of the subset (`Supported`) and documents with numbers in the range of `int`, texts of one byte per character
and names that agree with those of the schema in case (`Modest`, `Spelled`): the validator has a defined result, and it is positive
exactly for the documents that satisfy the schema.  Missing: the schemas and documents of the refutations below. -/
theorem C77_decides_partial {L : Lib} (hL : Exact L) {s j : Json} (hs : Supported s) (hj : Modest j) (hn : Spelled s j) :
    ∃ b, validate L s j = .ok b ∧ (b = true ↔ Valid s j) :=
  validate_decides hL hs hj hn

/-- C77 for the schema that comes with the library, which is in the subset. -/
theorem C77_shipped_partial {L : Lib} (hL : Exact L) {j : Json} (hj : Modest j) (hn : Spelled shipped j) :
    ∃ b, validate L shipped j = .ok b ∧ (b = true ↔ Valid shipped j) :=
  validate_decides hL shipped_supported hj hn

/-- A comparison that recognises the scalars. -/
def plainLib : Lib where
  compare
    | .null, .null => true
    | .bool a, .bool b => a == b
    | .str a, .str b => a == b
    | _, _ => false

theorem exact_plain : Exact plainLib := by
  intro j v hv
  cases hv <;> cases j <;> simp [plainLib]

/-- A schema with several keywords, and a document that satisfies it. -/
def sampleSchema : Json :=
  .obj [("type", .str "object"), ("properties", .obj [("kind", .obj [("enum", .arr [.str "a", .str "b"])]),
    ("size", .obj [("type", .str "integer"), ("minimum", .num (.fin 2))])]), ("required", .arr [.str "kind"]),
    ("additionalProperties", .bool false)]

/-- The document. -/
def sampleDocument (k : Int) : Json := .obj [("size", .num (.fin k)), ("kind", .str "b")]

/-- The document meets the hypothesis about documents. -/
theorem sample_modest (k : Int) (h : -2 ^ 31 ≤ k ∧ k < 2 ^ 31) : Modest (sampleDocument k) := by
  refine .obj _ fun n v hv => ?_
  simp only [List.mem_cons, Prod.mk.injEq, List.not_mem_nil, or_false] at hv
  rcases hv with ⟨-, rfl⟩ | ⟨-, rfl⟩
  · refine .num _ ?_ ?_
    · have e : (-2 ^ 31 - 1 : Rat) = ((-2147483649 : Int) : Rat) := by decide +kernel
      rw [e, Rat.intCast_lt_intCast]
      omega
    · have e : (2 ^ 31 : Rat) = ((2147483648 : Int) : Rat) := by decide +kernel
      rw [e, Rat.intCast_lt_intCast]
      omega
  · exact .str _ (by decide)

/-- Result of the validator as a test. -/
def accepts (r : Except UB Bool) : Bool :=
  match r with
  | .ok b => b
  | _ => false

theorem accepts_iff {r : Except UB Bool} : accepts r = true ↔ r = .ok true := by
  cases r <;> simp [accepts]

example : Supported sampleSchema ∧ accepts (validate plainLib sampleSchema (sampleDocument 2)) = true ∧
    accepts (validate plainLib sampleSchema (sampleDocument 1)) = false :=
  ⟨supported_of (n := 5) (by decide +kernel), by decide +kernel, by decide +kernel⟩

/-- C77 fails for a schema with a conditional: the keywords beside it are ignored. -/
theorem C77_refuted_conditional (L : Lib) :
    validate L (.obj [("if", .bool true), ("then", .bool true), ("type", .str "string")]) (.num (.fin 1)) = .ok true ∧
      ¬ Valid (.obj [("if", .bool true), ("then", .bool true), ("type", .str "string")]) (.num (.fin 1)) := by
  refine ⟨by rw [validate_cond rfl rfl]; simp [validate_bool], fun h => ?_⟩
  rw [Valid] at h
  have := h.1.type "string" (.there (by decide) (.there (by decide) (.here _)))
  simp [HasType] at this

/-- C77 fails for `else`, which is ignored. -/
theorem C77_refuted_else (L : Lib) :
    validate L (.obj [("if", .bool false), ("then", .bool true), ("else", .bool false)]) .null = .ok true ∧
      ¬ Valid (.obj [("if", .bool false), ("then", .bool true), ("else", .bool false)]) .null := by
  refine ⟨by rw [validate_cond rfl rfl]; simp [validate_bool], fun h => ?_⟩
  rw [Valid] at h
  have := h.2.2.2.2.2.1 _ _ (.here _) (.there (by decide) (.there (by decide) (.here _))) (by rw [Valid]; decide)
  rw [Valid] at this
  cases this

/-- C77 fails for `not`, which is ignored. -/
theorem C77_refuted_not (L : Lib) (j : Json) :
    validate L (.obj [("not", .bool true)]) j = .ok true ∧ ¬ Valid (.obj [("not", .bool true)]) j := by
  refine ⟨?_, fun h => ?_⟩
  · rw [validate_obj (.inl rfl)]
    cases j <;> rfl
  · rw [Valid] at h
    exact h.2.2.2.1 _ (.here _) (by rw [Valid])

/-- C77 fails for `anyOf`, which is ignored. -/
theorem C77_refuted_anyOf (L : Lib) (j : Json) :
    validate L (.obj [("anyOf", .arr [])]) j = .ok true ∧ ¬ Valid (.obj [("anyOf", .arr [])]) j := by
  refine ⟨?_, fun h => ?_⟩
  · rw [validate_obj (.inl rfl)]
    cases j <;> rfl
  · rw [Valid] at h
    obtain ⟨s, hs, -⟩ := h.2.2.1 _ (.here _)
    cases hs

/-- C77 fails for a list of types, which is ignored. -/
theorem C77_refuted_types (L : Lib) :
    validate L (.obj [("type", .arr [.str "string", .str "null"])]) (.bool true) = .ok true ∧
      ¬ Valid (.obj [("type", .arr [.str "string", .str "null"])]) (.bool true) := by
  refine ⟨by rw [validate_obj (.inl rfl)]; rfl, fun h => ?_⟩
  rw [Valid] at h
  obtain ⟨t, ht, h⟩ := h.1.types _ (.here _)
  simp [HasType] at ht h
  subst h
  simp at ht

/-- C77 fails for required members that `properties` does not list. -/
theorem C77_refuted_required (L : Lib) :
    validate L (.obj [("required", .arr [.str "id"])]) (.obj []) = .ok true ∧
      ¬ Valid (.obj [("required", .arr [.str "id"])]) (.obj []) := by
  refine ⟨by rw [validate_obj (.inl rfl)]; rfl, fun h => ?_⟩
  rw [Valid] at h
  obtain ⟨v, hv⟩ := h.1.required _ _ "id" rfl (.here _) (by simp)
  cases hv

/-- C77 fails for a schema of additional members, which is ignored. -/
theorem C77_refuted_additional (L : Lib) :
    validate L (.obj [("additionalProperties", .obj [("type", .str "string")])]) (.obj [("a", .null)]) = .ok true ∧
      ¬ Valid (.obj [("additionalProperties", .obj [("type", .str "string")])]) (.obj [("a", .null)]) := by
  refine ⟨by rw [validate_obj (.inl rfl)]; rfl, fun h => ?_⟩
  rw [Valid] at h
  have := h.2.2.2.2.2.2.2.2.2.2 _ _ rfl (.here _) "a" .null (by simp) fun ps w hp => by
    rw [has_member] at hp
    simp [member] at hp
  rw [Valid] at this
  have := this.1.type "string" (.here _)
  simp [HasType] at this

/-- C77 fails for the names of additional members, which are compared without regard to case. -/
theorem C77_refuted_case (L : Lib) :
    validate L (.obj [("properties", .obj [("id", .bool true)]), ("additionalProperties", .bool false)]) (.obj [("ID", .null)]) = .ok true ∧
      ¬ Valid (.obj [("properties", .obj [("id", .bool true)]), ("additionalProperties", .bool false)]) (.obj [("ID", .null)]) := by
  refine ⟨by rw [validate_obj (.inl rfl)]; rfl, fun h => ?_⟩
  rw [Valid] at h
  have := h.2.2.2.2.2.2.2.2.2.2 _ _ rfl (.there (by decide) (.here _)) "ID" .null (by simp) fun ps w hp => by
    rw [has_member] at hp
    simp [member] at hp
    subst hp
    simp
  rw [Valid] at this
  cases this

/-- C77 fails for an integer out of the range of `int`: the conversion in the test is undefined. -/
theorem C77_refuted_integer (L : Lib) :
    validate L (.obj [("type", .str "integer")]) (.num (.fin 2147483648)) = .error .floatCast ∧
      Valid (.obj [("type", .str "integer")]) (.num (.fin 2147483648)) := by
  refine ⟨by rw [validate_obj (.inl rfl)]; rfl, ?_⟩
  rw [valid_obj (by simp [keywords]) (regular_of (by decide +kernel))]
  simp only [has_member, member, Kind]
  simp
  exact .inr (.inr (.inr (.inl ⟨rfl, 2147483648, by congr⟩)))

/-- C77 fails for the length of a text, which is counted in bytes. -/
theorem C77_refuted_length (L : Lib) :
    validate L (.obj [("maxLength", .num (.fin 1))]) (.str "é") = .ok false ∧
      Valid (.obj [("maxLength", .num (.fin 1))]) (.str "é") := by
  refine ⟨by rw [validate_obj (.inl rfl)]; rfl, ?_⟩
  rw [valid_obj (by simp [keywords]) (regular_of (by decide +kernel))]
  have : ("é" : String).length = 1 := by decide +kernel
  simp [Kind, Number, has_member, member, Num.trunc, this]

/-! ### C78: a valid document can be loaded -/

/-- C78, what the validator accepts under the schema that comes with the library: exactly the documents of the form described in
`ProgramForm`. -/
theorem C78_accepts {L : Lib} (hL : Exact L) (j : Json) : validate L shipped j = .ok true ↔ ProgramForm j :=
  shipped_true hL

/-- C78 for documents whose values are written in the usual way: a document that the validator accepts is loaded exactly if every
network is consistent (`Consistent`): its number is one of the configured ones, its dimensions are those of its rows, and it uses
none of the divergent symbols.  Missing: the other valid documents are rejected or make the loader undefined, see below. -/
theorem C78_loads_partial {L : Lib} (hL : Exact L) {H : Host} {c : Ctx} {l : List Json} (hv : validate L shipped (.arr l) = .ok true)
    (hr : ∀ j ∈ l, LegibleNet j) (hc : Receptive c) :
    (∃ c', loadProgram H c (.arr l) = .ok (.ok, c')) ↔ ∀ j ∈ l, Consistent H c.qty.networks j := by
  obtain ⟨l', e, hf⟩ := (shipped_true hL).1 hv
  cases e
  constructor
  · rintro ⟨c', h⟩ j hj
    obtain ⟨l', e, hd⟩ := C59_accepted_wellformed h
    cases e
    exact (netDoc_iff (hf j hj)).1 (hd j hj)
  · intro h
    refine loadProgram_ok hc ⟨l, rfl, fun j hj => (netDoc_iff (hf j hj)).2 (h j hj)⟩ ?_
    intro l' e j hj
    cases e
    exact ⟨sizes_of (hf j hj) (h j hj), hr j hj⟩

/-- C78 fails for every document with a divergent symbol: it may be valid, but it is never loaded. -/
theorem C78_refuted_divergent {L : Lib} (hL : Exact L) {H : Host} {c c' : Ctx} {l : List Json}
    (hv : validate L shipped (.arr l) = .ok true) {j : Json} (hj : j ∈ l) {ms : List (String × Json)} (e : j = .obj ms)
    {rows cells : List Json} (hd : Member "networkData" (.arr rows) ms) (hr : .arr cells ∈ rows) {os : List (String × Json)}
    (ho : .obj os ∈ cells) {s : String} (hs : Member "symbol" (.str s) os) (hx : s ∈ divergent) :
    loadProgram H c (.arr l) ≠ .ok (.ok, c') := by
  intro h
  obtain ⟨l', e', hf⟩ := (shipped_true hL).1 hv
  cases e'
  obtain ⟨l', e', hd'⟩ := C59_accepted_wellformed h
  cases e'
  obtain ⟨ms', id, r, k, rows', e', -, -, -, h4, -, -, -, -, h9⟩ := (netDoc_iff (hf j hj)).1 (hd' j hj)
  rw [e] at e'
  cases e'
  cases same_member hd h4
  exact ((h9 cells hr).2 os s ho hs).1 hx

/-- An operand with a name. -/
def namedOperand (name ty v : String) : Json := .obj [("name", .str name), ("type", .str ty), ("value", .str v)]

/-- A document with an off-delay timer, in the spelling of the schema. -/
def tofDoc : Json :=
  oneCell [("symbol", .str "TOF"), ("bar", .bool false), ("data", .arr [namedOperand "timer" "T" "0", namedOperand "basetime" "SEC" "5"])]

/-- C78 fails for the off-delay timer: its name in the schema is `TOF`, in the loader `TOFF`. -/
theorem C78_refuted_tof (H : Host) :
    validate plainLib shipped tofDoc = .ok true ∧ ∃ c', loadProgram H (ctx [net [[{}]]]) tofDoc = .ok (.fail, c') :=
  ⟨accepts_iff.1 (by decide +kernel), _, rfl⟩

/-- One network with one empty cell, with any number and dimensions. -/
def emptyDoc (id rows cols : Rat) : Json :=
  .arr [.obj [("id", .num (.fin id)), ("rows", .num (.fin rows)), ("cols", .num (.fin cols)),
    ("networkData", .arr [.arr [.obj [("symbol", .str "NOP"), ("bar", .bool false), ("data", .arr [])]]])]]

/-- C78 fails for dimensions that are not those of the rows: the loader rejects the document or accesses a null pointer. -/
theorem C78_refuted_dimensions (H : Host) :
    validate plainLib shipped (emptyDoc 0 2 1) = .ok true ∧ loadProgram H (ctx [net [[{}]]]) (emptyDoc 0 2 1) = .error .nullDeref ∧
    validate plainLib shipped (emptyDoc 0 1 2) = .ok true ∧ ∃ c', loadProgram H (ctx [net [[{}]]]) (emptyDoc 0 1 2) = .ok (.fail, c') :=
  ⟨accepts_iff.1 (by decide +kernel), rfl, accepts_iff.1 (by decide +kernel), _, rfl⟩

/-- C78 fails for a negative network number: the conversion in the loader is undefined. -/
theorem C78_refuted_negative (H : Host) :
    validate plainLib shipped (emptyDoc (-1) 1 1) = .ok true ∧ loadProgram H (ctx [net [[{}]]]) (emptyDoc (-1) 1 1) = .error .floatCast :=
  ⟨accepts_iff.1 (by decide +kernel), rfl⟩

/-- A document that satisfies the hypotheses of `C78_loads_partial`, with a contact on `M3`. -/
def contactDoc : List Json :=
  [.obj [("id", .num (.fin 0)), ("rows", .num (.fin 1)), ("cols", .num (.fin 1)),
    ("networkData", .arr [.arr [.obj [("symbol", .str "NO"), ("bar", .bool true), ("data", .arr [namedOperand "value" "M" "3"])]]])]]

theorem contact_readable : ∀ j ∈ contactDoc, LegibleNet j := by
  intro j hj ms l cells x e hm hc hx
  simp only [contactDoc, List.mem_singleton] at hj
  subst hj
  cases e
  rw [has_member] at hm
  simp [member] at hm
  subst hm
  simp only [List.mem_singleton, Json.arr.injEq] at hc
  subst hc
  rw [List.mem_singleton] at hx
  subst hx
  intro os s code data e hs hsym hd
  cases e
  rw [has_member] at hs hd
  simp [member] at hs hd
  subst hs; subst hd
  intro d y hy
  match d, hy with
  | 0, hy =>
    cases hy
    intro os ty w e ht hw
    cases e
    rw [has_member] at ht hw
    simp [member] at ht hw
    subst ht; subst hw
    exact ⟨fun _ => ⟨3, by decide, by decide⟩, fun _ t ht => ⟨fun h => by
      rcases h with rfl | rfl <;> simp [typeTable, types, baseTable] at ht, fun _ => ⟨3, by decide, by decide⟩⟩⟩
  | d + 1, hy => cases hy

example : validate plainLib shipped (.arr contactDoc) = .ok true ∧ ∀ j ∈ contactDoc, Consistent strictHost 1 j :=
  have h : validate plainLib shipped (.arr contactDoc) = .ok true := accepts_iff.1 (by decide +kernel)
  ⟨h, (C78_loads_partial exact_plain (c := ctx [net [[{}]]]) h contact_readable (receptive_ctx rfl)).1 ⟨_, rfl⟩⟩

/-- C59, the other direction: a well-formed document whose numbers are in range and whose values are written in the usual way is
accepted. -/
theorem C59_wellformed_accepted {H : Host} {c : Ctx} {doc : Json} (hc : Receptive c) (hd : ProgramDoc H c.qty.networks doc)
    (hz : ∀ l, doc = .arr l → ∀ j ∈ l, Sizes j ∧ LegibleNet j) : ∃ c', loadProgram H c doc = .ok (.ok, c') :=
  loadProgram_ok hc hd hz

/-! ### C79: a saved program is valid -/

/-- C79, exactly which programs are saved as a valid document: those made of instructions that are written with the names of the
schema (`Portable`), with dimensions in the range of `int`. -/
theorem C79_valid_iff {L : Lib} (hL : Exact L) {H : Host} {c : Ctx} {doc : Json} (h : saveProgram H c = .ok doc) :
    validate L shipped doc = .ok true ↔ ProgramPortable c := by
  rw [shipped_true hL, saveProgram_form h]

/-- C79 for the instructions that are written with the names of the schema.  Missing: see the refutations. -/
theorem C79_saved_valid_partial {L : Lib} (hL : Exact L) {H : Host} {c : Ctx} {doc : Json} (h : saveProgram H c = .ok doc)
    (hp : ProgramPortable c) : validate L shipped doc = .ok true :=
  (C79_valid_iff hL h).2 hp

/-- C79 fails for every program with a move, an off-delay timer, a negation, a rotation or a foreign instruction: it is saved, but
never as a valid document. -/
theorem C79_refuted_instructions {L : Lib} (hL : Exact L) {H : Host} {c : Ctx} {doc : Json} (h : saveProgram H c = .ok doc)
    {n r k : Nat} {net : Network} {row : List Cell} {x : Cell} (hn : n < c.qty.networks) (e : at? c.network n = some net)
    (hr : r < net.rows) (hk : k < net.cols) (e1 : at? net.cells r = some row) (e2 : row[k]? = some x)
    (hx : x.code ∈ [Ins.MOVE, .TOF, .NEG, .ROL, .ROR, .FOREIGN, .INV]) : validate L shipped doc ≠ .ok true := by
  intro hv
  obtain ⟨-, hp⟩ := (C79_valid_iff hL h).1 hv
  obtain ⟨ks, hks, -⟩ := (hp n net hn e).2.2 r k row x hr hk e1 e2
  simp only [List.mem_cons, List.not_mem_nil, or_false] at hx
  rcases hx with h | h | h | h | h | h | h <;> rw [h] at hks <;> cases hks

/-- A program that is saved, and a test of its document. -/
def savedValid (c : Ctx) : Option Bool :=
  match saveProgram kindHost c with
  | .ok doc => some (accepts (validate plainLib shipped doc))
  | .error _ => none

/-- A program with contacts, a timer, a counter, an addition, a comparison and continuation cells is saved as a valid document. -/
example : savedValid (ctx [net [[ins .NO [op .I 256] true true, ins .TON [op .T 1, op .Q 250], ins .CTU [op .C 0, op .NONE 7]],
    [{}, { code := .MULTI }, { code := .MULTI, state := true }]],
    net [[ins .EQ [op .D 0, op .D 1], ins .ADD [op .D 0, op .D 1, op .D 2]]]]) = some true := by
  decide +kernel

/-- C79 fails for a move and for an off-delay timer, which the schema knows under other names. -/
theorem C79_refuted_names :
    savedValid (ctx [net [[ins .MOVE [op .D 0, op .D 1]]]]) = some false ∧
      savedValid (ctx [net [[ins .TOF [op .T 0, op .I 5]]]]) = some false := by
  constructor <;> decide +kernel

/-- C79 fails for constants, which are saved with a type `K` that the schema does not know, and for a timer with base 1 ms. -/
theorem C79_refuted_constants :
    savedValid (ctx [net [[ins .ADD [op .D 0, op .NONE 1, op .D 1]]]]) = some false ∧
      savedValid (ctx [net [[ins .TON [op .T 0, op .NONE 5]]]]) = some false := by
  constructor <;> decide +kernel

/-- C79 fails for flags of timers and counters, which the schema does not admit in contacts. -/
theorem C79_refuted_flags :
    savedValid (ctx [net [[ins .NO [op .Td 0]]]]) = some false ∧ savedValid (ctx [net [[ins .NC [op .Cd 0]]]]) = some false := by
  constructor <;> decide +kernel

/-- A document with a move. -/
def moveDoc : Json :=
  oneCell [("symbol", .str "MOV"), ("bar", .bool false), ("data", .arr [namedOperand "from" "D" "0", namedOperand "to" "D" "1"])]

/-- C79 fails even for programs that were loaded from a valid document: a move is valid, loaded and saved as an invalid document. -/
theorem C79_refuted_cycle (H : Host) :
    validate plainLib shipped moveDoc = .ok true ∧ ∃ c' doc, loadProgram H (ctx [net [[{}]]]) moveDoc = .ok (.ok, c') ∧
      saveProgram H c' = .ok doc ∧ validate plainLib shipped doc ≠ .ok true := by
  refine ⟨accepts_iff.1 (by decide +kernel), _, _, rfl, rfl, ?_⟩
  exact C79_refuted_instructions exact_plain (H := H) (c := ctx [net [[ins .MOVE [op .D 0, op .D 1]]]]) (n := 0) (r := 0) (k := 0)
    rfl (by decide) rfl (by decide) (by decide) rfl rfl (by decide)

end Ladder.Props
