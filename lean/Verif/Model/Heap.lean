import Verif.Model.Types

/-
Allocation behaviour of the library: which heap blocks the functions of ladder_general.c and ladderlib_cron.c allocate,
use and free.  This is a second model of the same functions, at the level of pointers; the contents of the blocks are
kept only as far as they hold other pointers or steer the allocations.

Not kept: register values, cell states, vertical bars, error codes, hooks.  Blocks that belong to the user (module port
arrays allocated by the `_io_init` hooks, data of the foreign functions) are not part of this model.
Block numbers are never reused, so a block freed twice or used after it was freed is always noticed.
-/

namespace Ladder.Heap

open Ladder (Ins Iocd)

/-- What a program can do wrong with the heap. -/
inductive Misuse where
  | nullDeref | useAfterFree | doubleFree | outOfBounds
  | undefined  -- undefined behaviour that does not concern the heap
  deriving DecidableEq, Repr

/-- A pointer to a heap block; `none` is NULL. -/
abbrev Ptr := Option Nat

/-- The heap: the blocks in use, the number of the next block, the number of requests made so far. -/
structure Store where
  live  : List Nat := []
  next  : Nat := 0
  tries : Nat := 0
  deriving Repr

/-- The allocator: whether the `k`-th request is granted.  `shrink` decides for requests that make a block smaller. -/
structure Policy where
  grow   : Nat → Bool
  shrink : Nat → Bool

/-- A C function body on the heap. -/
def H (α : Type) : Type := Store → Except Misuse (α × Store)

namespace H

protected def pure {α : Type} (a : α) : H α := fun h => .ok (a, h)

protected def bind {α β : Type} (x : H α) (f : α → H β) : H β := fun h =>
  match x h with
  | .ok (a, h') => f a h'
  | .error e => .error e

instance : Monad H where
  pure := H.pure
  bind := H.bind

end H

def fault {α : Type} (e : Misuse) : H α := fun _ => .error e

/-- `malloc`, `calloc`, `strdup`. -/
def alloc (p : Policy) : H Ptr := fun h =>
  if p.grow h.tries then
    .ok (some h.next, { live := h.next :: h.live, next := h.next + 1, tries := h.tries + 1 })
  else .ok (none, { h with tries := h.tries + 1 })

/-- `free`. -/
def free : Ptr → H Unit
  | none => fun h => .ok ((), h)
  | some b => fun h =>
    if b ∈ h.live then .ok ((), { h with live := h.live.erase b }) else .error .doubleFree

/-- Use of the block a pointer points to. -/
def touch : Ptr → H Unit
  | none => fault .nullDeref
  | some b => fun h => if b ∈ h.live then .ok ((), h) else .error .useAfterFree

/-- `realloc` of the block `b`: a new block replaces it if the request is granted, else it is left alone. -/
def moveBlock (b : Nat) (granted : Bool) : H Ptr := fun h =>
  if b ∈ h.live then
    if granted then
      .ok (some h.next, { live := h.next :: h.live.erase b, next := h.next + 1, tries := h.tries + 1 })
    else .ok (none, { h with tries := h.tries + 1 })
  else .error .useAfterFree

/-- `realloc` to a larger size. -/
def enlarge (p : Policy) : Ptr → H Ptr
  | none => alloc p
  | some b => fun h => moveBlock b (p.grow h.tries) h

/-- `realloc` back to `n` entries.  Size 0 frees the block and returns NULL (glibc). -/
def reduce (p : Policy) (n : Nat) : Ptr → H Ptr
  | none => alloc p
  | some b => fun h =>
    if n = 0 then (do free (some b); pure none : H Ptr) h else moveBlock b (p.shrink h.tries) h

/-- The pointers of the context other than the network array. -/
inductive Slot where
  | M | Cr | Cd | Tr | Td | Mh | Crh | Cdh | Trh | Tdh | C | D | R | timers
  | foreign | read | write | initRead | initWrite | input | output | cron
  deriving DecidableEq, Repr

/-- A cell, ladder.h:262-268.  `data` is the operand array: its block and, for each operand, the block of its text (NULL
unless the operand is of type S and has a text). -/
structure Cell where
  code : Ins := .NOP
  qty  : Nat := 0
  data : Option (Nat × List Ptr) := none
  deriving Repr

/-- A row of cells: its block and content. -/
abbrev Row := Option (Nat × List Cell)

/-- A network, ladder.h:275-280. -/
structure Net where
  rows  : Nat := 0
  cols  : Nat := 0
  cells : Option (Nat × List Row) := none
  deriving Repr

/-- The pointers of `ladder_ctx_t` and the quantities that bound the loops over them.  `jobs` is the `ctx` member of
the cron block. -/
structure Ctx where
  slot     : Slot → Ptr := fun _ => none
  jobs     : Ptr := none
  nets     : Option (Nat × List Net) := none
  networks : Nat := 0
  m : Nat := 0
  c : Nat := 0
  t : Nat := 0
  foreigns : Nat := 0
  reads    : Nat := 0
  writes   : Nat := 0

def Ctx.set (x : Ctx) (s : Slot) (q : Ptr) : Ctx :=
  { x with slot := fun s' => if s' = s then q else x.slot s' }

/-- The block of an array. -/
def ptrOf {α : Type} (a : Option (Nat × α)) : Ptr := a.map Prod.fst

/-- `for (i = 0; i < n; i++) … a[i] …` over the elements of an array. -/
def walk {α : Type} (f : α → H α) : Nat → List α → H (List α)
  | 0, xs => pure xs
  | _ + 1, [] => fault .outOfBounds
  | n + 1, x :: xs => do
    let y ← f x
    let ys ← walk f n xs
    pure (y :: ys)

/-- The same loop through the pointer to the array: each turn uses its block. -/
def each {α : Type} (f : α → H α) (n : Nat) (a : Option (Nat × List α)) : H (Option (Nat × List α)) :=
  if n = 0 then pure a
  else match a with
    | none => fault .nullDeref
    | some (b, xs) => do
      let ys ← walk (fun x => do touch (some b); f x) n xs
      pure (some (b, ys))

/-- Freeing of the texts and of the operand array of a cell, the block shared by ladder_general.c:261-272, 482-492 and
789-800. -/
def dropData (x : Cell) : H Cell :=
  match x.data with
  | none => pure x
  | some d => do
    let _ ← each (fun q => do free q; pure none) x.qty (some d)
    free (ptrOf (some d))
    pure { x with data := none, qty := 0 }

/-- `memset` of members of the context. -/
def touchSlots : List Slot → Ctx → H Unit
  | [], _ => pure ()
  | s :: ss, x => do touch (x.slot s); touchSlots ss x

/-- `ladder_clear_memory`, ladder_general.c:233-252. -/
def clearMemory (x : Ctx) : H Unit := do
  touchSlots (if x.m > 0 then [.Mh, .M] else []) x
  touchSlots (if x.c > 0 then [.Cdh, .Cd, .Crh, .Cr] else []) x
  touchSlots (if x.t > 0 then [.Tdh, .Td, .Trh, .Tr] else []) x

/-- One cell in `ladder_clear_program`, ladder_general.c:258-272. -/
def clearCell (x : Cell) : H Cell := do
  let y ← dropData x
  pure { y with code := .NOP }

/-- One network in `ladder_clear_program`, ladder_general.c:256-274.  Without columns the rows are not looked at. -/
def clearNet (x : Net) : H Net := do
  if x.cols = 0 then pure x
  else
    let cells ← each (fun row => each clearCell x.cols row) x.rows x.cells
    pure { x with cells := cells }

/-- `ladder_clear_program`, ladder_general.c:254-276. -/
def clearProgram (x : Ctx) : H Ctx := do
  let nets ← each clearNet x.networks x.nets
  pure { x with nets := nets }

/-- One network in `ladder_ctx_deinit`, ladder_general.c:472-492: operands, rows, cell array.  The pointers to the freed
rows and to the freed array stay where they are. -/
def freeNet (x : Net) : H Net := do
  let cells ← each (fun row => do
    let row ← each dropData x.cols row
    free (ptrOf row)
    pure row) x.rows x.cells
  free (ptrOf cells)
  pure { x with cells := cells }

/-- The network array in `ladder_ctx_deinit`, ladder_general.c:470-494.  `network` is not set to NULL. -/
def freeNets (x : Ctx) : H Ctx := do
  if x.nets.isSome then
    let nets ← each freeNet x.networks x.nets
    free (ptrOf nets)
    pure { x with nets := nets }
  else pure x

/-- `free(p); p = NULL;` for each of a list of members. -/
def freeSlots : List Slot → Ctx → H Ctx
  | [], x => pure x
  | s :: ss, x => do
    free (x.slot s)
    freeSlots ss (x.set s none)

/-- The members freed in ladder_general.c:496-526, in order. -/
def memSlots : List Slot := [.M, .Cr, .Cd, .Tr, .Td, .Mh, .Crh, .Cdh, .Trh, .Tdh, .C, .D, .R, .timers]

/-- The members freed in ladder_general.c:547-558, in order. -/
def ioSlots : List Slot := [.read, .write, .initRead, .initWrite, .input, .output]

/-- `n` uses of a block, one for each turn of a loop over its entries. -/
def touches : Nat → Ptr → H Unit
  | 0, _ => pure ()
  | n + 1, q => do touch q; touches n q

/-- The cron part of `ladder_ctx_deinit` with `ladderlib_cron_deinit`, ladder_general.c:560-566 and
ladderlib_cron.c:56-61. -/
def freeCron (x : Ctx) : H Ctx := do
  if (x.slot .cron).isSome then
    touch (x.slot .cron)
    free x.jobs
  free (x.slot .cron)
  pure { x.set .cron none with jobs := none }

/-- `ladder_ctx_deinit`, ladder_general.c:466-575.  The hooks called for the foreign functions and the modules do not
touch the blocks of the library. -/
def deinit (x : Ctx) : H Ctx := do
  clearMemory x
  let x ← clearProgram x
  let x ← freeNets x
  let x ← freeSlots memSlots x
  touches x.foreigns (x.slot .foreign)
  let x ← freeSlots [.foreign] x
  touches x.reads (x.slot .initRead)
  touches x.writes (x.slot .initWrite)
  let x ← freeSlots ioSlots x
  freeCron x

/-- The rows of a new network, ladder_general.c:330-345.  After a refused request the rest stays NULL. -/
def newRows (p : Policy) (cols : Nat) : Nat → H (Bool × List Row)
  | 0 => pure (true, [])
  | n + 1 => do
    match ← alloc p with
    | none => pure (false, List.replicate (n + 1) none)
    | some b =>
      let (ok, rest) ← newRows p cols n
      pure (ok, some (b, List.replicate cols {}) :: rest)

/-- The networks of a new context, ladder_general.c:322-355.  After a refused request the rest stays zero. -/
def newNets (p : Policy) (rows cols : Nat) : Nat → H (Bool × List Net)
  | 0 => pure (true, [])
  | n + 1 => do
    match ← alloc p with
    | none => pure (false, { rows := rows, cols := cols } :: List.replicate n {})
    | some b =>
      let (ok, rs) ← newRows p cols rows
      let net : Net := { rows := rows, cols := cols, cells := some (b, rs) }
      if ok then
        let (ok, rest) ← newNets p rows cols n
        pure (ok, net :: rest)
      else pure (false, net :: List.replicate n {})

/-- Allocation of members one after the other until one is refused, ladder_general.c:358-446. -/
def newSlots (p : Policy) : List Slot → Ctx → H (Bool × Ctx)
  | [], x => pure (true, x)
  | s :: ss, x => do
    match ← alloc p with
    | none => pure (false, x)
    | some b => newSlots p ss (x.set s (some b))

/-- The members allocated in ladder_general.c:358-446, in order. -/
def initSlots : List Slot := [.Mh, .M, .Crh, .Cr, .Cdh, .Cd, .Trh, .Tr, .Tdh, .Td, .C, .timers, .D, .R, .cron]

/-- The arguments of `ladder_ctx_init` that matter here. -/
structure InitArgs where
  cols : Nat
  rows : Nat
  networks : Nat
  m : Nat
  c : Nat
  t : Nat
  d : Nat
  r : Nat
  initNetwork : Bool

/-- Accepted arguments, ladder_general.c:282-286 (LADDER_MAX_ROWS is 32). -/
def InitArgs.valid (a : InitArgs) : Bool :=
  decide (a.rows ≤ 32 ∧ 1 ≤ a.cols ∧ 1 ≤ a.rows ∧ 1 ≤ a.networks ∧ 1 ≤ a.m ∧ 1 ≤ a.c ∧ 1 ≤ a.t ∧ 1 ≤ a.d ∧ 1 ≤ a.r)

/-- The networks of `ladder_ctx_init`, ladder_general.c:318-356, on a cleared context. -/
def initNets (p : Policy) (a : InitArgs) : H (Bool × Ctx) := do
  if a.initNetwork then
    match ← alloc p with
    | none => pure (false, {})
    | some b =>
      let (ok, nets) ← newNets p a.rows a.cols a.networks
      pure (ok, { nets := some (b, nets) })
  else pure (true, {})

/-- `cleanup:` in `ladder_ctx_init`, ladder_general.c:460-463. -/
def cleanup (x : Ctx) : H (Bool × Ctx) := do
  let x ← deinit x
  pure (false, x)

/-- `ladder_ctx_init`, ladder_general.c:278-464, for a non-NULL context with content `old`.  The quantities are assigned
only after the last allocation (446-451).  The `SIZE_MAX` tests cannot fail on a 64-bit machine. -/
def ctxInit (p : Policy) (old : Ctx) (a : InitArgs) : H (Bool × Ctx) := do
  if !a.valid then pure (false, old)
  else
    let (ok, x) ← initNets p a
    if !ok then cleanup x
    else
      let (ok, x) ← newSlots p initSlots x
      if !ok then cleanup x
      else pure (true, { x with networks := a.networks, m := a.m, c := a.c, t := a.t })

/-- A table of modules: the slots of its three arrays. -/
structure Table where
  fn   : Slot
  init : Slot
  vals : Slot

def readTable : Table := ⟨.read, .initRead, .input⟩
def writeTable : Table := ⟨.write, .initWrite, .output⟩

/-- Body of `ladder_add_read_fn` and `ladder_add_write_fn` after the argument checks, ladder_general.c:591-638 and
655-702, for a table of `n` modules.  `hook` says whether the `_io_init` function is missing or succeeds. -/
def addModule (p : Policy) (tb : Table) (n : Nat) (hook : Bool) (x : Ctx) : H (Bool × Ctx) := do
  match ← enlarge p (x.slot tb.fn) with
  | none => pure (false, x)
  | some b =>
    let x := x.set tb.fn (some b)
    match ← enlarge p (x.slot tb.init) with
    | none =>
      let q ← reduce p n (x.slot tb.fn)
      pure (false, x.set tb.fn q)
    | some b =>
      let x := x.set tb.init (some b)
      match ← enlarge p (x.slot tb.vals) with
      | none =>
        let q ← reduce p n (x.slot tb.fn)
        let x := x.set tb.fn q
        let q ← reduce p n (x.slot tb.init)
        pure (false, x.set tb.init q)
      | some b =>
        let x := x.set tb.vals (some b)
        touch (x.slot tb.fn)
        touch (x.slot tb.init)
        touch (x.slot tb.vals)
        if hook then pure (true, x)
        else
          let q ← reduce p n (x.slot tb.fn)
          let x := x.set tb.fn q
          let q ← reduce p n (x.slot tb.init)
          let x := x.set tb.init q
          let q ← reduce p n (x.slot tb.vals)
          pure (false, x.set tb.vals q)

/-- `ladder_add_read_fn`, ladder_general.c:577-639. -/
def addRead (p : Policy) (hook : Bool) (x : Ctx) : H (Bool × Ctx) := do
  if x.reads ≥ 255 then pure (false, x)
  else
    let (ok, x) ← addModule p readTable x.reads hook x
    pure (ok, if ok then { x with reads := x.reads + 1 } else x)

/-- `ladder_add_write_fn`, ladder_general.c:641-703. -/
def addWrite (p : Policy) (hook : Bool) (x : Ctx) : H (Bool × Ctx) := do
  if x.writes ≥ 255 then pure (false, x)
  else
    let (ok, x) ← addModule p writeTable x.writes hook x
    pure (ok, if ok then { x with writes := x.writes + 1 } else x)

/-- `ladder_add_foreign`, ladder_general.c:705-742.  `hook` is the result of `fn_init`.  The first function is put into
a block from `malloc`, whatever `foreign.fn` holds. -/
def addForeign (p : Policy) (qty : Nat) (hook : Bool) (x : Ctx) : H (Bool × Ctx) := do
  if qty = 0 ∨ x.foreigns + qty > 100 then pure (false, x)
  else if !hook then pure (false, x)
  else
    let q ← if x.foreigns = 0 then alloc p else enlarge p (x.slot .foreign)
    match q with
    | none => pure (false, x)
    | some b => do
      touch (some b)
      pure (true, { x.set .foreign (some b) with foreigns := x.foreigns + 1 })

/-- Access to element `i` of an array through the pointer to it. -/
def at_ {α β : Type} (f : α → H (β × α)) (i : Nat) (a : Option (Nat × List α)) : H (β × Option (Nat × List α)) :=
  match a with
  | none => fault .nullDeref
  | some (b, xs) => do
    touch (some b)
    match xs[i]? with
    | none => fault .outOfBounds
    | some x => do
      let (r, y) ← f x
      pure (r, some (b, xs.set i y))

/-- Access to `network[n]`. -/
def onNet {β : Type} (n : Nat) (f : Net → H (β × Net)) (x : Ctx) : H (β × Ctx) := do
  let (r, nets) ← at_ f n x.nets
  pure (r, { x with nets := nets })

/-- Access to `network[n].cells[r][c]`. -/
def onCell {β : Type} (n r c : Nat) (f : Cell → H (β × Cell)) (x : Ctx) : H (β × Ctx) :=
  onNet n (fun net => do
    let (b, cells) ← at_ (fun row => at_ f c row) r net.cells
    pure (b, { net with cells := cells })) x

/-- Test that `k` cells from row `r` on are unoccupied, ladder_general.c:783-789. -/
def spanFree (n c : Nat) : Nat → Nat → Ctx → H Bool
  | 0, _, _ => pure true
  | k + 1, r, x => do
    let (code, _) ← onCell n r c (fun cell => pure (cell.code, cell)) x
    if code ≠ Ins.NOP then pure false else spanFree n c k (r + 1) x

/-- A change of `k` cells from row `r` on. -/
def spanDo (n c : Nat) (f : Cell → H Cell) : Nat → Nat → Ctx → H Ctx
  | 0, _, x => pure x
  | k + 1, r, x => do
    let (_, x) ← onCell n r c (fun cell => do let y ← f cell; pure ((), y)) x
    spanDo n c f k (r + 1) x

/-- `ladder_fn_cell`, ladder_general.c:744-841, after the instruction description `d` has been found (for FOREIGN in the
block of the foreign functions).  Vertical bars are not kept. -/
def place (p : Policy) (d : Iocd) (code : Ins) (n r c : Nat) (x : Ctx) : H (Bool × Ctx) := do
  let (rows, _) ← onNet n (fun net => pure (net.rows, net)) x
  if d.cells > rows - r then pure (false, x)
  else if !(← spanFree n c d.cells r x) then pure (false, x)
  else
    let x ← spanDo n c dropData d.cells r x
    let (_, x) ← onCell n r c (fun cell => pure ((), { cell with code := code, qty := d.dataQty })) x
    if d.dataQty = 0 then
      let (_, x) ← onCell n r c (fun cell => pure ((), { cell with data := none })) x
      pure (true, x)
    else
      match ← alloc p with
      | none =>
        let x ← spanDo n c (fun _ => pure { code := .INV, qty := 0, data := none }) d.cells r x
        pure (false, x)
      | some b =>
        let (_, x) ← onCell n r c
          (fun cell => pure ((), { cell with data := some (b, List.replicate d.dataQty none) })) x
        let x ← spanDo n c (fun cell => pure { cell with code := .MULTI }) (d.cells - 1) (r + 1) x
        pure (true, x)

/-- `ladder_fn_cell` with its range checks, ladder_general.c:750-775. -/
def fnCell (p : Policy) (d : Iocd) (code : Ins) (fid n r c : Nat) (x : Ctx) : H (Bool × Ctx) := do
  if n ≥ x.networks then pure (false, x)
  else
    let ((rows, cols), _) ← onNet n (fun net => pure ((net.rows, net.cols), net)) x
    if r ≥ rows then pure (false, x)
    else if c ≥ cols then pure (false, x)
    else if code = .FOREIGN then
      if fid ≥ x.foreigns then pure (false, x)
      else do
        touch (x.slot .foreign)
        place p d code n r c x
    else place p d code n r c x

/-- Program construction by the user: operand `i` of a cell gets a text of its own (`type = S`, `cstr = strdup(…)`); an
operand that has a text already is left alone. -/
def setText (p : Policy) (n r c i : Nat) (x : Ctx) : H (Bool × Ctx) :=
  onCell n r c (fun cell => do
    let (ok, data) ← at_ (fun q => match q with
      | some b => pure (false, some b)
      | none => do
        let q ← alloc p
        pure (q.isSome, q)) i cell.data
    pure (ok, { cell with data := data })) x

/-- `ladderlib_cron_init`, ladderlib_cron.c:42-54.  The result of `calloc` is used without a test. -/
def cronInit (p : Policy) (qty : Nat) (x : Ctx) : H (Bool × Ctx) := do
  touch (x.slot .cron)
  if x.jobs.isSome then pure (false, x)
  else
    let q ← alloc p
    if qty > 0 then touch q
    pure (true, { x with jobs := q })

end Ladder.Heap
