import Verif.Model.Data
import Verif.Model.General
import Verif.Model.Heap

/-
The shipped port, port/dummy/port_dummy.c, and the shipped foreign function, foreign_functions/fn_dummy/fn_dummy.c.

Kept: what the callbacks read, write and print.  Not kept: the layout of the printed text, the terminal attributes, the
order in which the arguments of one `printf` are evaluated.
-/

namespace Ladder

/-- Numeric value of a state (enum value), ladder.h:125-132. -/
def St.code : St → Nat
  | .stopped => 0 | .running => 1 | .error => 2 | .exitTsk => 3 | .nullFn => 4 | .inv => 5

/-- Numeric value of an instruction error (enum value), ladder.h:139-153. -/
def Err.code : Err → Nat
  | .ok => 0 | .getPrevVal => 1 | .getDataVal => 2 | .setDataVal => 3 | .noForeign => 4 | .noTable => 5
  | .outOfRange => 6 | .divByZero => 7 | .typeMismatch => 8 | .overflow => 9 | .null => 10 | .fail => 11

namespace Port

/-- `_ladder_status_str`, port_dummy.c:52-59. -/
def statusNames : List String := ["STOPPED", "RUNNING", "ERROR", "EXIT_TSK", "NULLFN", "INVALID"]

/-- `_fn_str`, port_dummy.c:61-99. -/
def insNames : List String :=
  ["NOP", "CONN", "NEG", "NO", "NC", "RE", "FE", "COIL", "COILL", "COILU", "TON", "TOF", "TP", "CTU", "CTD", "MOVE",
   "SUB", "ADD", "MUL", "DIV", "MOD", "SHL", "SHR", "ROL", "ROR", "AND", "OR", "XOR", "NOT", "EQ", "GT", "GE", "LT",
   "LE", "NE", "FOREIGN", "TMOVE"]

/-- `_fn_err_str`, port_dummy.c:101-112. -/
def errNames : List String :=
  ["OK", "GETPREVVAL", "GETDATAVAL", "SETDATAVAL", "NOFOREIGN", "NOTABLE", "OUTOFRANGE", "DIVBYZERO", "FAIL"]

/-- What `dummy_on_panic` prints. -/
structure Report where
  state   : String × Nat
  instr   : String × Nat
  network : Nat
  cell    : Nat × Nat
  err     : String × Nat
  deriving DecidableEq, Repr

/-- `dummy_on_panic`, port_dummy.c:272-280. -/
def onPanic (ctx : Ctx) : Except UB Report := do
  let s ← aget (some statusNames) ctx.state.code
  let i ← aget (some insNames) ctx.last.instr.code
  let e ← aget (some errNames) ctx.last.err.code
  pure {
    state := (s, ctx.state.code), instr := (i, ctx.last.instr.code), network := ctx.last.network
    cell := (ctx.last.row, ctx.last.col), err := (e, ctx.last.err.code) }

/-- Total time slept, in nanoseconds, by `do { res = nanosleep(&ts, &ts); } while (res && errno == EINTR)`,
port_dummy.c:126-128: a list entry is how long a call lasted before a signal ended it. -/
def nap : List Nat → Nat → Nat
  | [], ns => ns
  | s :: ss, ns => if s < ns then s + nap ss (ns - s) else ns

/-- `dummy_delay`, port_dummy.c:114-131: time slept in nanoseconds. -/
def delay (signals : List Nat) (msec : Int) : Nat :=
  if msec < 0 then 0
  else nap signals ((msec.tdiv 1000).toNat * 1000000000 + ((msec.tmod 1000) * 1000000).toNat)

/-- A `long` (64 bits). -/
def long (x : Int) : Except UB Int := if -2^63 ≤ x ∧ x < 2^63 then .ok x else .error .signedOverflow

/-- `dummy_millis`, port_dummy.c:133-137, for the time given by `gettimeofday`. -/
def millis (sec usec : Int) : Except UB W64 := do
  let a ← long (sec * 1000000)
  let b ← long (a + usec)
  pure (BitVec.ofInt 64 (b.tdiv 1000))

/-- The character `dummy_read` acts upon, port_dummy.c:140-157: the last one waiting, 0 if there is none.
`typed` are the characters delivered by its calls of `read`. -/
def key (typed : List Byte) : Byte := typed.getLast?.getD 0

/-- The input named by a digit changes, port_dummy.c:162-163. -/
def toggle (ch id : Nat) (ctx : Ctx) : Except UB Ctx :=
  if 47 < ch ∧ ch < 56 then do
    let m ← aget ctx.input id
    let v ← aget m.I (ch - 48)
    pure { ctx with input := aset ctx.input id { m with I := aset m.I (ch - 48) (if v.toNat > 0 then 0 else 1) } }
  else .ok ctx

/-- `dummy_read`, port_dummy.c:139-174: the context and the eight inputs printed. -/
def read (typed : List Byte) (id : Nat) (ctx : Ctx) : Except UB (Ctx × List Byte) := do
  let ch := (key typed).toNat
  let ctx := if ch = 81 ∨ ch = 113 then { ctx with state := .exitTsk } else ctx
  let ctx ← toggle ch id ctx
  let m ← aget ctx.input id
  let shown ← (List.range 8).mapM (aget m.I)
  pure (ctx, shown)

/-- What `dummy_write` prints. -/
structure Screen where
  m        : List Byte
  m10      : List Byte
  q        : List Byte
  timers   : List (Bool × Bool × W32)
  counters : List (Bool × Bool × W32)
  nets     : List (List (List Bool))
  deriving DecidableEq, Repr

/-- A line of the timer table, port_dummy.c:204-210. -/
def timerLine (ctx : Ctx) (n : Nat) : Except UB (Bool × Bool × W32) := do
  let d ← aget ctx.Td n
  let d ← boolOf d
  let r ← aget ctx.Tr n
  let r ← boolOf r
  let t ← aget ctx.timers n
  pure (d, r, t.acc)

/-- A line of the counter table, port_dummy.c:216-222. -/
def counterLine (ctx : Ctx) (n : Nat) : Except UB (Bool × Bool × W32) := do
  let d ← aget ctx.Cd n
  let d ← boolOf d
  let r ← aget ctx.Cr n
  let r ← boolOf r
  let c ← aget ctx.C n
  pure (d, r, c)

/-- The picture of a network, port_dummy.c:230-237. -/
def netPicture (net : Network) : Except UB (List (List Bool)) :=
  (List.range net.rows).mapM fun r => (List.range net.cols).mapM fun c => do
    let cell ← net.cell r c
    pure cell.state

/-- `dummy_write`, port_dummy.c:176-254, built with OPTIONAL_CRON. -/
def write (id : Nat) (ctx : Ctx) : Except UB Screen := do
  let m ← (List.range 8).mapM (aget ctx.M)
  let m10 ← (List.range 8).mapM fun n => aget ctx.M (10 + n)
  let o ← aget ctx.output id
  let q ← (List.range 8).mapM (aget o.Q)
  let timers ← (List.range 7).mapM (timerLine ctx)
  let counters ← (List.range 7).mapM (counterLine ctx)
  let nets ← (List.range ctx.qty.networks).mapM fun nt => do
    let net ← aget ctx.network nt
    netPicture net
  if ctx.delay then pure { m, m10, q, timers, counters, nets } else .error .nullDeref

/-- `dummy_init_read` on the module record, port_dummy.c:285-355.  `alloc` is the number of the three `calloc` calls
that succeed (3 or more: all). -/
def initIn (alloc : Nat) (init : Bool) (m : InMod) : Bool × InMod :=
  let m := { m with I := none, IW := none, Ih := none }
  if init then
    if alloc < 3 then (false, { m with iQty := 0, iwQty := 0 })
    else (true, { m with
      iQty := 8, iwQty := 8, I := some (List.replicate 8 0), IW := some (List.replicate 8 0)
      Ih := some (List.replicate 8 0) })
  else (true, { m with iQty := 0, iwQty := 0 })

/-- `dummy_init_write` on the module record, port_dummy.c:357-419. -/
def initOut (alloc : Nat) (init : Bool) (m : OutMod) : Bool × OutMod :=
  let m := { m with Q := none, QW := none, Qh := none }
  if init then
    if alloc < 3 then (false, { m with qQty := 0, qwQty := 0 })
    else (true, { m with
      qQty := 8, qwQty := 8, Q := some (List.replicate 8 0), QW := some (List.replicate 8 0)
      Qh := some (List.replicate 8 0) })
  else (true, { m with qQty := 0, qwQty := 0 })

/-- `dummy_init_read`, port_dummy.c:285-355. -/
def initRead (alloc : Nat) (id : Nat) (init : Bool) (ctx : Ctx) : Except UB (Bool × Ctx) := do
  let m ← aget ctx.input id
  let (ok, m) := initIn alloc init m
  pure (ok, { ctx with input := aset ctx.input id m })

/-- `dummy_init_write`, port_dummy.c:357-419. -/
def initWrite (alloc : Nat) (id : Nat) (init : Bool) (ctx : Ctx) : Except UB (Bool × Ctx) := do
  let m ← aget ctx.output id
  let (ok, m) := initOut alloc init m
  pure (ok, { ctx with output := aset ctx.output id m })

/-- `dummy_init_read` as it is registered.  It is only called for slots that exist. -/
def readHook (alloc : Nat) : InitHook := fun id init ctx =>
  match initRead alloc id init ctx with | .ok r => r | .error _ => (false, ctx)

/-- `dummy_init_write` as it is registered.  It is only called for slots that exist. -/
def writeHook (alloc : Nat) : InitHook := fun id init ctx =>
  match initWrite alloc id init ctx with | .ok r => r | .error _ => (false, ctx)

/-- `dummy_init` of the foreign function, fn_dummy.c:43-58, on the zeroed descriptor. -/
def foreignInit (f : Foreign) : Bool × Foreign := (true, { f with desc := ⟨3, 3, 3, 3⟩, hasDeinit := true })

/-- `dummy_exec` of the foreign function, fn_dummy.c:60-64. -/
def foreignExec (col row : Nat) : Op Err := do
  let b ← getLeft row col
  setState row col b
  pure .ok

/-- The callbacks of the shipped port as the library sees them: `dummy_on_panic`, `dummy_read`, `dummy_write`, `dummy_exec`
above, and the callbacks that do nothing to the context, port_dummy.c:114-131, 256-270 and 282-283.  `keys t` are the
characters waiting at the external call number `t`.  A callback whose behaviour is undefined leaves the context `wild c`. -/
def env (wild : Ctx → Ctx) (clock : Nat → W64) (keys : Nat → List Byte) (localtime : Nat → Tm) : Env where
  clock := clock
  panic := fun _ c => match onPanic c with | .ok _ => c | .error _ => wild c
  instruction := fun _ c => c
  scanEnd := fun _ c => c
  before := fun _ c => c
  after := fun _ c => c
  endTask := fun _ c => c
  delay := fun _ c => c
  read := fun t n c => match read (keys t) n c with | .ok r => r.1 | .error _ => wild c
  write := fun _ n c => match write n c with | .ok _ => c | .error _ => wild c
  foreign := fun _ _ col row c => match foreignExec col row ⟨c, 0, []⟩ with | .ok (e, w) => (e, w.ctx) | .error _ => (.ok, wild c)
  localtime := localtime

end Port

/-
The port on the heap: the arrays of a module and the data of the foreign function.
-/

namespace Heap

/-- The arrays of a module: `I`, `IW`, `Ih` of ladder.h:491-499 or `Q`, `QW`, `Qh` of ladder.h:506-514. -/
structure Ports where
  a : Ptr := none
  b : Ptr := none
  c : Ptr := none
  deriving Repr, DecidableEq

/-- `if (p != NULL) free(p);`. -/
def freeSome (q : Ptr) : H Unit := if q.isSome then free q else pure ()

/-- `if (p != NULL) { free(p); p = NULL; }` for the three arrays, port_dummy.c:287-298, 338-349, 359-370, 403-414. -/
def Ports.close (x : Ports) : H Ports := do
  freeSome x.a
  freeSome x.b
  freeSome x.c
  pure {}

def touchAll : List Ptr → H Unit
  | [] => pure ()
  | q :: qs => do
    touch q
    touchAll qs

/-- `dummy_init_read(ctx, id, true)`, port_dummy.c:286-336 (`wipe`: the loops that clear the arrays, 330-336) and
`dummy_init_write(ctx, id, true)`, port_dummy.c:358-401. -/
def Ports.open (p : Policy) (wipe : Bool) (x : Ports) : H (Bool × Ports) := do
  let _ ← x.close
  let a ← alloc p
  if a.isNone then pure (false, {})
  else
    let b ← alloc p
    if b.isNone then
      free a
      pure (false, {})
    else
      let c ← alloc p
      if c.isNone then
        free a
        free b
        pure (false, {})
      else
        touchAll (if wipe then [a, c, b] else [])
        pure (true, { a, b, c })

/-- What the application holds in the shipped port: the arrays of its read and write modules and the data of the
registered foreign functions. -/
structure Rack where
  reads   : List Ports := []
  writes  : List Ports := []
  foreign : List Ptr := []
  deriving Repr

/-- A module handed to `ladder_add_read_fn` or `ladder_add_write_fn`, ladder_general.c:577-639 and 641-703: the record
is cleared, the hook opens it, and a hook that fails is called once more to close it.  `tables` tells whether the
library could enlarge its own tables. -/
def plugIn (p : Policy) (wipe tables : Bool) (xs : List Ports) : H (List Ports) := do
  if tables then
    let (ok, x) ← Ports.open p wipe {}
    if ok then pure (xs ++ [x])
    else
      let _ ← x.close
      pure xs
  else pure xs

/-- `ladder_add_foreign` with `dummy_init` and `dummy_deinit`, ladder_general.c:715-741 and fn_dummy.c:45-70. -/
def addDummy (p : Policy) (tables : Bool) (xs : List Ptr) : H (List Ptr) := do
  let d ← alloc p
  if tables then pure (xs ++ [d])
  else
    free d
    pure xs

/-- Opening the module at a place again. -/
def reopen (p : Policy) (wipe : Bool) : Nat → List Ports → H (List Ports)
  | _, [] => pure []
  | 0, x :: xs => do
    let (_, y) ← Ports.open p wipe x
    pure (y :: xs)
  | n + 1, x :: xs => do
    let ys ← reopen p wipe n xs
    pure (x :: ys)

/-- What the application does with the port. -/
inductive RackAct where
  | addRead (tables : Bool)
  | addWrite (tables : Bool)
  | addForeign (tables : Bool)
  | initRead (id : Nat)
  | initWrite (id : Nat)

def RackAct.run (p : Policy) : RackAct → Rack → H Rack
  | .addRead t, k => do
    let xs ← plugIn p true t k.reads
    pure { k with reads := xs }
  | .addWrite t, k => do
    let xs ← plugIn p false t k.writes
    pure { k with writes := xs }
  | .addForeign t, k => do
    let xs ← addDummy p t k.foreign
    pure { k with foreign := xs }
  | .initRead id, k => do
    let xs ← reopen p true id k.reads
    pure { k with reads := xs }
  | .initWrite id, k => do
    let xs ← reopen p false id k.writes
    pure { k with writes := xs }

def runActs (p : Policy) : List RackAct → Rack → H Rack
  | [], k => pure k
  | x :: xs, k => do
    let k ← x.run p k
    runActs p xs k

def freeAll : List Ptr → H Unit
  | [] => pure ()
  | d :: ds => do
    free d
    freeAll ds

def closeAll : List Ports → H Unit
  | [] => pure ()
  | x :: xs => do
    let _ ← x.close
    closeAll xs

/-- The hooks called by `ladder_ctx_deinit`, ladder_general.c:528-546. -/
def Rack.teardown (k : Rack) : H Unit := do
  freeAll k.foreign
  closeAll k.reads
  closeAll k.writes

end Heap

end Ladder
