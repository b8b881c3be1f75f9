# Formal model of ladderlib (Lean 4)

This directory contains a machine-checked model of the C library in `/repo`
(hiperiondev/ladderlib, pinned commit) and proofs of the properties in `properties.jsonl`.
The C code was read as text; it was neither built nor run.

## Layout

* `lean/Verif/Model/*`  – the model, function by function. Each definition cites file and lines.
* `lean/Verif/Spec/*`   – small independent specifications used in theorem statements.
* `lean/Verif/Lemmas/*` – helper lemmas (no property is claimed here).
* `lean/Verif/Props/*`  – the property theorems, with concrete `example`s meeting their hypotheses.
* `properties.jsonl`    – the properties, in words.
* `MANIFEST.json`       – property id -> status, theorem names, what is missing.
* `seeded/LOG.jsonl`    – mutation log: bugs seeded in a scratch copy of the model and which theorems failed, that is, whose proof no longer went through (by itself this does not show that the claim became false). Where a module could not be checked on the edited model (memory, time), the line says so under `not_checked`; such an attempt says nothing about the theorems of that module.

Naming: `Cxx_…` is a theorem about property `Cxx`. `Cxx_…_partial` proves the property under an extra
restriction that the property does not mention; the docstring says what is missing. `Cxx_refuted…` proves that the
*code* violates the property, with a concrete witness (or, where possible, for all inputs of a class). Every
`partial` property is partial because a refutation exists; the refutation and the partial theorem together
delimit what holds.

## How the code is modelled

* **Operations** are functions `World -> Except UB (a × World)` (`Op a`). `UB` is a *distinct outcome*, one of:
  NULL dereference, access outside a block, signed overflow, division by zero or INT_MIN / -1, shift by >= 32,
  float-to-integer cast out of range, reading a `bool` whose byte is neither 0 nor 1, use of an uninitialised
  value, and `diverges` (a loop of the C code that does not end).
  A theorem that says `f w = .ok …` therefore also says that no undefined behaviour occurs.
* **World** = the context (`Ctx`, one field per field of `ladder_ctx_t`), a counter of external calls (`tick`)
  and the trace of observable events: callbacks (with the outputs visible to a write callback) and, as *ghost*
  events without counterpart in the code, each executed instruction (`exec`) and its result (`ret`), each
  counted scan step, and start and end of the scan. No modelled function reads the trace.
* **Pointers to arrays** are `Option (List _)`: `none` is NULL, `some l` a block of `l.length` elements.
  Accesses are checked against the block, not against the quantity fields.
* **Callbacks, foreign functions, the clock and the calendar** are an arbitrary `Env`: functions of the call number
  (so they may behave differently at each call) and of the context, which they may change arbitrarily. `delay` may
  also change the context: this stands for other threads and interrupt handlers acting while the task sleeps.
  Theorems that need callbacks to keep their hands off some part of the context say so as a hypothesis.
* **Integers** are `BitVec 8/32/64` where wrap-around matters; quantities and dimensions are `Nat`, reduced
  modulo 2^32 where the code computes with them.
* **Loops** whose bound can be changed by callbacks use fuel 2^32 (the loop variable is a strictly increasing
  `uint32_t`, so the C loop cannot run longer); loops that can really run forever end in `diverges`.
* **The heap** is modelled separately (`Model/Heap.lean`, for C60): a store of live blocks, an arbitrary allocator
  that may refuse each request, and the pointer operations of `ladder_general.c` and `ladderlib_cron.c`; misuse
  (double free, free of a foreign pointer, use after free, NULL dereference) is a distinct outcome.
* **JSON** documents are trees (`Model/Json.lean`), as cJSON delivers them.

## What is modelled

| source | model |
|---|---|
| `ladder.h`, `source/include/ladder_internals.h` (types, tables) | `Model/Types.lean` |
| `source/include/ladder_fn_commons.h`, `source/instructions/fn_commons.c` (operand access) | `Model/Data.lean` |
| `source/instructions/fn_*.c` (all 37 instructions) | `Model/Instr.lean` |
| `source/ladder_scan.c` | `Model/Scan.lean` |
| `source/ladder_task.c` (task, timing, history, fault paths) | `Model/Task.lean` |
| `source/ladder_general.c` (init, registration, placement, clearing) | `Model/General.lean`; allocations also in `Model/Heap.lean` |
| `source/ladder_general.c` deinit, all allocations and frees | `Model/Heap.lean` |
| `optional/cron/ladderlib_cron.c` | `Model/Cron.lean` |
| `optional/cron/lwdtc/*` (parser, matcher, next-time search) | `Model/Lwdtc.lean` |
| `utils/ladder_program_check.c` | `Model/Check.lean` |
| `utils/ladder_program_json.c`: `ladder_json_to_program`, `ladder_program_to_json` between tree and context | `Model/Json.lean` |
| `utils/ladder_program_json.c`: `validate_json` (the validator behind `ladder_validate_json_file`) | `Model/Schema.lean` |
| `ladder_networks_schema.json`, as a tree | `Model/Shipped.lean` |
| `port/dummy/port_dummy.c` (all callbacks, init hooks, clock and delay) and `foreign_functions/fn_dummy/fn_dummy.c`; their heap blocks | `Model/Port.lean` |
| `utils/ladder_print.c` (`ladder_print`, `fn_to_str`, `ftos` for two decimals with exact IEEE-754 single arithmetic, `powf(10, 2)` taken as 100) | `Model/Print.lean` |
| `test/ladderlib_test.c` (`main` up to the start of the task) and `ladder_networks.json` | `Model/App.lean` |
| `utils/ladder_program_json.c`: the blocks that `ladder_json_to_program`, `ladder_compact_json_file`, `ladder_validate_json_file`, `read_file` and `write_file` allocate, use and free (a cJSON tree is one block) | `Model/HeapJson.lean` |
| `utils/ladder_program_json.c`: the blocks that `ladder_program_to_json` allocates, uses and frees, node by node, and the open file (an operand is a text exactly if it has one) | `Model/HeapSave.lean` |
| `test/ladderlib_test_functions.c` (the 37 tests of the instructions at the start of the application, without what they print) | `Model/SelfTest.lean` |
| `test/ladderlib_test.c` (`main` from the self-test to the exit status, composed of the models of its parts) | `Model/Main.lean` |
| `test/ladderlib_test_functions.c` (what the same tests allocate and release; `ladder_task` and the assignments to operands do neither) | `Model/HeapSelfTest.lean` |
| `test/ladderlib_test.c` (what `main` allocates and releases from the self-test to `ladder_ctx_deinit`; the buffers of `ladder_print` included, the hooks of the port left out) | `Model/HeapMain.lean` |
Not modelled: the decimals of `ftos`, the content of the files behind `ladder_validate_json_file` and `ladder_compact_json_file`, file I/O, cJSON text parsing and
printing, the terminal attributes and the text layout of the shipped port, float arithmetic other than the float-to-int cast and the text of floats
(`ladder_get_data_float` is unused), log output (`ESP_LOG`).


## Trusted base

* The Lean 4.33.0 kernel. The only axioms are `propext`, `Classical.choice` and `Quot.sound`; the table at the end
  gives those of each theorem. There are no own axioms, no `sorry`, no `native_decide`, no `bv_decide`.
* The reading of the C code recorded in the comments of `Verif/Model`.
* Simplifications, repeated in the comments of the definitions concerned:
  - enum-typed fields hold one of their enumerators;
  - `value` unions hold 32 raw bits (integer / float / module+port, little endian) plus a separate string slot;
  - rows of a non-NULL cell matrix are non-NULL;
  - the 80 % warning threshold is computed exactly (C uses `double`);
  - callbacks do not themselves cause undefined behaviour and do not free the context;
  - memory allocation is a Boolean oracle per call where failure is modelled (registration, placement, heap model),
    otherwise it succeeds (JSON loader, cron table outside the heap model); a `realloc` that shrinks succeeds;
  - function pointers are identified by their position of registration, not by their address;
  - `row + cells` in the checker does not wrap around 2^32;
  - a failed cron parse leaves the unused slot unchanged; `localtime` does not return NULL;
  - JSON arrays have fewer than 2^31 elements; `%u` in `sscanf` behaves as in glibc (truncation of numbers above
    2^32 − 1) and `strtoul` returns 64 bits (LP64); `strtof` and `%f` are parameters (`Host`), as is the byte behind
    the instruction table that the loader reads for continuation cells.

## Vocabulary of the hypotheses

Memory and program: `Fits` (every allocated block has the configured size), `Full` (everything configured is allocated),
`Kept` (histories are allocated), `Stored`/`Solid`/`Grids`/`NetsWhole` (networks and operands are stored as declared),
`Whole`/`FlagsWhole` (areas with a quantity are allocated), `Wired` (clock and module functions exist), `Ready` (all
memory, clock, orderly cron table), `Idle` (a running context without modules and hooks), `Jobs` (the registered cron
jobs), `Tiled` (the grid consists of blocks), `Receptive` (networks can receive a program).

Callbacks: `Steady` (keep program, cursor, state, limits), `Blind` (do not look at power states of other networks),
`Mild`/`MildEnv` (may change register contents, state and report only; foreign functions succeed), `Hooks`/`TaskHooks`/
`Quiet`/`Ports` (every callback relates the contexts before and after by a given relation), `OwnInput`/`OwnOutput` (an
init hook keeps to its own slot), `Stopper` (a callback requests a stop).

Programs: `Well` (operands exist and arithmetic cannot overflow), `Accepts` (the checker's verdict), `Complete`, `Wide`,
`Tame` (what the checker does not look at), `LaidOut`, `Valid`, `ProgramExpressible` (what the JSON form can express),
`Sturdy` (documents that cannot make the loader misbehave).

Time and cron: `Calendar`, `HalfHour`, `Documented` (cron expressions as in the documentation).

## Violations of the properties found in the code

Each is a theorem with a concrete witness (or for a whole class of inputs).

* `C05_refuted` – C05 is false as stated: reading input port 2 of a module with two ports leaves the block.
* `C06_refuted` – C06 is false as stated: the previous value of flag M3 in a context with three flags is read past the block, and that of M(-1) before it.
* `C10_refuted` – C10 fails in both orders: with the latch coil first, a powered latch and an unpowered unlatch leave the flag reset; with the unlatch coil first, a powered unlatch and an unpowered latch leave it set.
* `C11_refuted` – C11 is false as stated: adding 1 to the largest integer is undefined behaviour.
* `C12_refuted` – C12 is false as stated: MOD by zero, and the smallest number DIV -1, are undefined behaviour.
* `C14_refuted` – C14 is false as stated: rotating by 0 (or 32) is undefined behaviour.
* `C15_refuted` – C15 is false as stated: 12 AND 10 stores 0 instead of 8.
* `C17_refuted` – C17 is false as stated: an unpowered MOVE copies, and an unpowered SHL shifts.
* `C20_refuted` – C20 fails: a TP of 25 ms is triggered (on), loses power (off, 40 ms later) and is triggered again: it stays off.
* `C20_refuted_never_again` – The second half of C20 fails for every run: once the first pulse is over, the output stays off whatever the input does (the trigger test reads the accumulator, which keeps the preset).
* `C22_refuted` – C22 fails for the start value 0: the first transition takes the count to 4294967295, and the counter is not done.
* `C24_refuted` – C24 does not hold in general: a move whose last destination word is not a data word reports an error after having overwritten the first ones, and a move naming a table that does not exist reads outside the network array.
* `C25_refuted` – C25 does not hold: with three functions registered, FOREIGN with id 2 calls function 0; and with id 7, which does not exist, it calls function 0 as well instead of reporting an error.
* `C29_refuted` – C29 fails in the code as a bound on executed instructions: with a limit of 2 steps this scan completes normally after executing 3 instructions.
* `C32_refuted_flag` – C32 is violated by bit logic on the `bool` areas: a logic instruction stores any byte in them, and the next contact on that register reads an invalid `bool`.
* `C32_refuted_float` – C32 is violated by float registers: comparing an existing float register that holds no number (or one too large) is undefined behaviour, although its index is within the configured quantity.
* `C35_refuted_analog` – C35 is false for analog outputs of modules without digital ones, in both modes: the port held 5, the scan wrote 7 and faulted, and 7 is handed to the callback.
* `C35_refuted_overflow` – C35 and C36 are false for scans that fault by exceeding the scan limit: the half-computed output is written (it was 0), the memory is not rolled back and the task goes on.
* `C39_refuted` – C39 is false as stated: a task that sees the exit request while waiting returns without calling the end hook.
* `C40_refuted` – C40 is false as stated: a missing read function other than the first is not refused, and callbacks are called.
* `C44_refuted` – C44 is false as stated: the history of an analog input of a module without digital inputs is not recorded.
* `C44_refuted_analog_edge` – The analog history is not even consulted: a rising-edge contact on an analog input that is 300 and was 0 does not conduct.
* `C48_refuted` – C48, defect. The sum in the check is computed modulo 2^32: with 100 functions registered, a request for 2^32 - 50 is accepted and there are 101.
* `C49_refuted_memory` – C49, defect. When memory runs out, the call fails but the cells of the span are left as invalid instructions.
* `C49_refuted_outside` – C49, defect. A foreign function that declares no cell but has an operand makes the call write above the first row, and placing the continuation marker reads past the descriptor table.
* `C49_refuted_overwrite` – C49, defect. A foreign function that declares no cell is not checked against occupied cells and replaces the instruction there.
* `C49_refuted_span` – C49, defect. A foreign function of two cells without operands only takes its first cell, and another instruction is then placed on its second cell.
* `C51_refuted_float` – C51 is refuted for float registers: a program that moves the missing register R200 is accepted.
* `C51_refuted_timer` – C51 is refuted for surplus operands of timers: a timer with input 9.9 (there is only module 0) as third operand is accepted.
* `C52_refuted` – C52 is refuted: with a single input module, checking a contact on module 1 reads outside the module table.
* `C52_refuted_empty` – C52 is refuted for programs without networks: the status returned is uninitialised.
* `C53_refuted_around_step` – C53 is violated: the stepped range 50 … 10 goes on with 1, neither in step (50, 57, 64 = 4) nor anew from 0.
* `C53_refuted_maximum` – C53 is violated: the number 2^64 - 1 is accepted, alone (no value at all) and as the end of a range.
* `C53_refuted_number` – C53 is violated: a number of 20 digits is taken modulo 2^64, so a number far outside of the range is accepted.
* `C53_refuted_outside` – C53 is violated: a huge step goes backwards and sets day 0, which is outside of the range 1 … 31.
* `C53_refuted_start` – C53 is violated: with a step, a start outside of the range is accepted.
* `C53_refuted_step_zero` – C53 is violated: a step of 0 does not return.
* `C54_refuted_year` – C54 is violated: in 1999 and in 2104 the test reads outside of the bit map.
* `C55_refuted_zone` – C55 is violated in time zones that are not a multiple of half an hour off (Nepal, 5 h 45 min): the search steps from 00:00 UTC (05:45 local time) to 00:30 UTC (06:15) and misses 06:00:00, which matches; it returns 06:30:00.
* `C56_refuted_no_flags` – C56 is violated when the context has no flags (`m = 0`, which `ladder_ctx_init` refuses but nothing else checks): the range check wraps, so that any register is accepted, and the phase then accesses memory that does not exist.
* `C56_refuted_no_job` – C56 is violated with no job registered: the phase puts the context into the fault state (for every context with a cron structure, whether or not its table has been allocated).
* `C57_refuted` – C57 is violated for all parameters: a context just initialised, with clock and delay set and set to running (without adding a cron job), faults in its first cycle and the task ends.
* `C58_refuted_constant` – C58 fails for constants: they are saved with the type name `K`, which the loader does not know.
* `C58_refuted_disabled` – C58 fails for disabled networks: they come back enabled.
* `C58_refuted_foreign` – C58 fails for foreign functions with operands: the loader expects none.
* `C58_refuted_millisecond` – C58 fails for timers with a base of 1 ms: they are saved with the type name `K`, too.
* `C58_refuted_occupied` – C58 fails for every instruction of more than one row: the loader looks up its continuation cells behind the end of the table of instructions.
* `C58_refuted_real` – C58 fails for floats whose form with six decimals is not exact: the smallest one comes back as zero.
* `C58_refuted_text` – C58 fails for texts: saving reads a buffer that was never written.
* `C59_refuted_base_as_type` – C59 fails for the names of time bases: the operand of a contact may have the type `SEC`, which is taken for a digital input.
* `C59_refuted_fewer_rows` – C59 fails for a document with fewer rows than it announces.
* `C59_refuted_negative` – C59 fails for numbers out of range: a negative one is converted to an unsigned integer, which is undefined.
* `C59_refuted_next_document` – C59, a document without a number of columns is rejected, but the next one, which is well-formed, makes the loader access the rows through a null pointer.
* `C59_refuted_no_rows` – C59 fails for a document that announces rows and columns but has none: instead of an error there is an access through a null pointer.
* `C59_refuted_number` – C59: an operand without a number is accepted as number 0, and a number too large for 32 bits as its remainder.
* `C60_refuted_cron` – C60 fails when the request for the cron table is refused: the result of `calloc` is used without a test.
* `C60_refuted_failed_init` – C60 fails otherwise: an initialisation that fails after the second request leaves blocks behind that nothing points to any more.
* `C60_refuted_failed_init_teardown` – C60 fails when the caller tears down a context whose initialisation failed: the network array is freed twice.
* `C60_refuted_no_cell` – C60 fails for a foreign function that claims no cell: placed on a cell that has operands, it overwrites the only pointer to them.
* `C60_refuted_no_networks` – C60 fails for a context initialised without networks: its teardown dereferences NULL, always.
* `C60_refuted_shrink` – C60 fails when a request to make a block smaller is refused: the only pointer to the table of read functions is overwritten with NULL, and teardown leaves the block behind.
* `C60_refuted_twice` – C60 fails for a second teardown: it dereferences NULL, always.
* `C61_refuted` – C61 fails when the count input is on as well: after the reset the counter counts in the same execution.
* `C62_refuted` – C62 is violated: a coil whose flag does not exist stores nothing and reports success.
* `C62_refuted_silent` – The extent of the violation: coils, arithmetic and bit logic never report any error at all.
* `C63_refuted` – C63 is violated: the exit requested by a read callback is overwritten by the watchdog; the cycle ends in the error state and the task goes on (waiting) instead of ending.
* `C64_refuted` – C64 is refuted for foreign functions that cover no cell: the continuation marker below one is accepted, but belongs to nothing.
* `C65_refuted` – C65 is refuted: a timer of 50 times 10 ms is rejected when there are only three flags.
* `C69_refuted_move` – C69 is violated by moves: an accepted one from a constant is refused when executed, and the program stops with an error.
* `C69_refuted_operands` – C69 is violated by missing operands: a coil without any is accepted, and executing it reads through a null pointer.
* `C69_refuted_overflow` – C69 is violated by arithmetic: an accepted addition of a register and a constant overflows.
* `C69_refuted_remainder` – C69 is violated by remainders: an accepted remainder by the constant 0 divides by zero.
* `C69_refuted_rotation` – C69 is violated by rotations: an accepted rotation by the constant 0 shifts by 32.
* `C69_refuted_table` – C69 is violated by table moves: an accepted one names a network that does not exist.
* `C69_refuted_width` – C69 is violated by networks without columns: one is accepted (beside another network), and executing it writes outside its rows.
* `C70_refuted_overflow` – C70 is violated by arithmetic: a document with an addition of two registers is loaded and accepted, and its first scan overflows when the registers hold large numbers.
* `C70_refuted_width` – C70 is violated by a network without columns, beside another one.
* `C71_refuted_branch` – C71 is violated by branches that do not start at the left rail: `M1, connection, coil Q0.0` with the branch `M0, connection` joined behind the second column. Flag 0 is set, so the diagram switches the output on; the code does not supply the lower row with power and leaves it off. The checker accepts the program.
* `C71_refuted_hung` – C71 is violated by latches on rows that hang from a rung: `M0, connection, coil M1` and below the coil, behind the same connection, the latch Q0.0. Flag 0 is set, so the diagram sets flag 1 and switches the output on; the code sets the flag and never executes the latch. The checker accepts the program.
* `C72_refuted_counter` – C72 is violated by long runs: after 2³² − 1 scans the next one divides by zero, whatever the program.
* `C72_refuted_null` – C72 is violated by configurations without markers: the task accepts them, but after a failed scan it copies from and to a NULL pointer (a block of length 0, which the C standard does not allow either).
* `C73_refuted_history` – C73 is violated by modules with analog inputs only: their history is never taken, so instructions that compare with the previous value see the one of the start for ever (here 300, though the input was and is 7; the first cycle begins at instant 1).
* `C75_refuted` – C75 is violated, concretely: the row of the reset input passes power up to the cell left of the counter, and the counter, which the checker accepts, keeps count and done flag.
* `C75_refuted_for_ever` – C75 is violated by every program in which the reset input of a counter is a row of its own: whatever happens to the other registers and to the inputs between the scans, once the counter is done it stays done, at the same count, for any number of scans.
* `C77_refuted_additional` – C77 fails for a schema of additional members, which is ignored.
* `C77_refuted_anyOf` – C77 fails for `anyOf`, which is ignored.
* `C77_refuted_case` – C77 fails for the names of additional members, which are compared without regard to case.
* `C77_refuted_conditional` – C77 fails for a schema with a conditional: the keywords beside it are ignored.
* `C77_refuted_else` – C77 fails for `else`, which is ignored.
* `C77_refuted_integer` – C77 fails for an integer out of the range of `int`: the conversion in the test is undefined.
* `C77_refuted_length` – C77 fails for the length of a text, which is counted in bytes.
* `C77_refuted_not` – C77 fails for `not`, which is ignored.
* `C77_refuted_required` – C77 fails for required members that `properties` does not list.
* `C77_refuted_types` – C77 fails for a list of types, which is ignored.
* `C78_refuted_dimensions` – C78 fails for dimensions that are not those of the rows: the loader rejects the document or accesses a null pointer.
* `C78_refuted_divergent` – C78 fails for every document with a divergent symbol: it may be valid, but it is never loaded.
* `C78_refuted_negative` – C78 fails for a negative network number: the conversion in the loader is undefined.
* `C78_refuted_tof` – C78 fails for the off-delay timer: its name in the schema is `TOF`, in the loader `TOFF`.
* `C79_refuted_constants` – C79 fails for constants, which are saved with a type `K` that the schema does not know, and for a timer with base 1 ms.
* `C79_refuted_cycle` – C79 fails even for programs that were loaded from a valid document: a move is valid, loaded and saved as an invalid document.
* `C79_refuted_flags` – C79 fails for flags of timers and counters, which the schema does not admit in contacts.
* `C79_refuted_instructions` – C79 fails for every program with a move, an off-delay timer, a negation, a rotation or a foreign instruction: it is saved, but never as a valid document.
* `C79_refuted_names` – C79 fails for a move and for an off-delay timer, which the schema knows under other names.
* `C80_refuted_name` – An operand of the wrong type is reported as a failure: the name printed is the name of another error.
* `C80_refuted_scan` – The watchdog of a scan calls the panic callback of the shipped port where it is undefined.
* `C80_refuted_watchdog` – Whenever the watchdog of the scan stops a program, the panic callback of the shipped port reads past its table.
* `C85_refuted` – C85 is violated: the program that comes with the library has continuation cells, for which the loader reads past the end of the table of instructions.
* `C86_refuted_float` – C86 is violated: a move of a float that is not a number is accepted, and the drawing converts it to an integer.
* `C86_refuted_operands` – C86 is violated: an addition with a single operand is accepted, and the drawing reads the other two behind it.
* `C86_refuted_text` – C86 is violated: a move of a string that is not there is accepted, and the drawing prints a null pointer.
* `C87_refuted_aligned` – C87 is violated (alignment): a preset of five digits is wider than its box, and the rest of its line is moved to the right.
* `C87_refuted_registers` – C87 is violated (float registers): the number of a float register is drawn as if its bits were a float. The tiny floats whose bits are 0 and 1 have the same text, so a move from one register and a move from another have the same drawing.
* `C88_refuted_sign` – C88 is violated (sign): floats between -0.99 and 0 are drawn without their sign; for example -0.5 is drawn as 0.50.
* `C90_refuted_counter` – C90 is violated by counters in the first column: the diagram says that such a counter starts anew in each cycle and counts one, and without a request it does; but in the cycle in which a stop is requested it goes on counting, from 4 to 5.
* `C91_refuted_no_columns` – C91 fails for a network that announces rows but no columns: the load ends with an error, but the teardown accesses memory through a null pointer.
* `C91_refuted_no_rows` – C91 fails for a network that announces rows and columns and has no rows.
* `C91_refuted_table` – C91 fails when the request for a row table is refused: the program that is then deleted has rows but no row table.
* `C92_refuted_members` – C92 fails if the memory for a member is refused: here request 27, for the number of columns, is refused; the member is left out of the file and the writer says that it has succeeded. That the request is made is seen from the effect of a later one.
* `C92_refuted_names` – C92 fails if the names of the arrays are refused: the writer does not notice, says that it has succeeded, and the arrays that were to be attached stay allocated for ever.
* `C92_refuted_text` – C92 fails for a program with a text: the buffer that is added as its value has not been written.
* `C93_refuted_outputs` – C93, outputs: a task that ends because of its watchdog leaves the outputs switched on. Unlike after an invalid instruction nothing is reset: output 0.1 is on in the last command its module gets, and in the context when the task has ended.
* `C93_refuted_stop` – C93, stop: a request to stop is lost in a cycle that takes too long. The hardware requests the end whenever a module is read; without a watchdog the task has ended after two iterations, with one it is in state ERROR and still runs after two iterations, having waited 1000 times.
* `C94_refuted_forever` – C94 is violated: the rungs of C73, begun with all counters at zero, divide by zero in their cycle number 2³², after some fifty days at one cycle per millisecond; until then their behaviour is defined.
* `C96_refuted` – On a host where an external call takes 5 ms the self-test fails, with an implementation of the instructions that is as it should be.
* `C97_refuted` – C97 (refuted). The test of the instructions does not give back all it allocates.
* `C98_refuted` – C98 is violated (slow hosts): where an external call takes 5 ms the application ends before it has looked at its program, with an implementation of the instructions that is as it should be.
* `C98_refuted_status` – C98 is violated (the status): where the byte behind the table of instructions is not zero the application reports success without having run its program, on every host with a quick clock.
* `C98_refuted_ub` – C98 is violated (undefined behaviour): where reading the byte behind the table of instructions has no meaning, neither has the application, on every host with a quick clock.
* `C99_refuted` – C99 (refuted). The application does not give back all it allocates, even with its own program file and every request granted.
* `C99_refuted_abandoned` – C99 (refuted, abandoned). If the very last request of the setup (that for the foreign functions) is refused, `main` ends without releasing the context: 47 blocks remain.
* `C99_refuted_claim` – C99 (refuted, as claimed).
* `C99_refuted_jobs` – C99 (refuted, jobs). If the request for the table of scheduled jobs is refused while all others are granted and the test of the instructions passes, the application dereferences NULL - whatever its files.
* `C99_refuted_names` – C99 (refuted, names). If the requests for the names of the arrays of the saved file are refused, `main` releases its context and yet 626 blocks remain, with a program of one coil.
* `C99_refuted_rows` – C99 (refuted, rows). If the request for the table of rows of a network of the program file is refused, NULL is dereferenced.
* `C99_refuted_text` – C99 (refuted, texts). If the program file has an operand that is a text, saving it is undefined behaviour.


## Properties

Axioms: p = `propext`, c = `Classical.choice`, q = `Quot.sound`, – = none.

### C01 – Reading an operand never changes the process image (proved)

When an instruction reads the current value of one of its operands, no register, flag, timer, counter, input, output, history value or program cell changes. The only things a read may touch are the context's error/state report and, when a register area is missing, one panic callback.

*What is proved:* Any context, also inconsistent ones; the panic callback itself is user code and may do anything.

* `C01_read_no_side_effect` [pq]
* `C01_prev_no_side_effect` [p]
* `C01_read_frame` [pq]

### C02 – A write through an operand changes exactly the addressed location (proved)

When an instruction writes a result through an operand and the write is accepted, exactly the addressed register element changes; every other element of every register area, all history, all inputs/outputs other than the addressed one, and the program are left as they were.

*What is proved:* Any context, also inconsistent ones.

* `C02_write_frame` [pcq]

### C03 – Read-after-write coherence of registers (proved)

After an accepted write of value v through an operand, reading the same operand returns v for 32-bit registers (D, C, IW, QW), and the low byte of v for byte-wide flags (M, Q, I).

* `C03_read_after_write` [pcq]

### C04 – A bad destination is rejected without touching memory (proved)

Writing through an operand whose register kind is not writable, whose index is negative or not below the configured quantity, or whose module/port does not exist reports an error and changes nothing; it never accesses memory outside the configured areas.

*What is proved:* Given memory blocks of the configured sizes (Fits).

* `C04_bad_destination_rejected` [pq]
* `C04_good_destination_accepted` [pq]

### C05 – Operand reads never leave the configured areas (partial)

Reading the current value of any operand (any register kind, any index/module/port) yields a value without accessing memory outside the configured areas.

*What is proved:* Ports of I/IW/Q/QW are not checked by the code: C05_refuted shows an out-of-bounds read; proved for all other kinds and for existing ports.

* `C05_reads_in_bounds_partial` [pcq]
* `C05_refuted` [pq]
* `C05_missing_operand` [pq]

### C06 – History reads never leave the configured areas (partial)

Reading the previous-scan value of any operand yields a value without accessing memory outside the configured areas.

*What is proved:* Indices of flags are not checked by the code: C06_refuted; proved for inputs/outputs and for indices in range.

* `C06_missing_operand` [pq]
* `C06_prev_in_bounds_partial` [pq]
* `C06_refuted` [pq]

### C07 – Contacts conduct exactly on their condition (proved)

A normally-open contact conducts iff it is powered and its operand is non-zero; a normally-closed contact conducts iff powered and its operand is zero; so with the same operand and power exactly one of both conducts, and neither changes anything but its own cell.

* `C07_NO` [pcq]
* `C07_NC` [pcq]
* `C07_complementary` [pcq]

### C08 – Edge contacts fire exactly once per transition (proved)

Over any run of the task, a rising-edge contact on a digital input conducts in a cycle iff it is powered and the input is non-zero in this cycle and was zero in the previous one; falling-edge dually. Hence it conducts for exactly one cycle per transition.

*What is proved:* One execution: C08_RE, C08_FE. Over cycles: C08_rising/C08_falling, for any two consecutive scans of a task and any point of the second scan. The previous value is the one at the end of the previous scan (a program may itself write inputs). Assumes callbacks outside of scans other than reads leave the inputs alone and read and scan callbacks leave the input history alone.

* `C08_RE` [pcq]
* `C08_FE` [pcq]
* `C08_rising` [pcq]
* `C08_falling` [pcq]

### C09 – A coil copies its power to its register every scan (proved)

After a coil executes, its register holds 1 if the coil was powered and 0 otherwise, and the power continues unchanged to the right.

* `C09_coil` [pcq]

### C10 – Latch / unlatch pair remembers the last command (partial)

Over any number of scans, a flag driven by one latch coil and one unlatch coil is set in a scan where the latch is powered and the unlatch is not, reset when the unlatch is powered, and otherwise keeps its value, wherever the two coils stand in the program.

*What is proved:* The coils act on the previous-scan value, so the one executed last in a scan alone decides: C10_refuted fails in both orders; proved for all runs what the last coil does.

* `C10_COILL` [pcq]
* `C10_COILU` [pcq]
* `C10_latch_last_partial` [pcq]
* `C10_unlatch_last_partial` [pcq]
* `C10_refuted` [pq]

### C11 – ADD, SUB and MUL compute the exact integer result (partial)

When powered, ADD/SUB/MUL store the mathematically exact sum/difference/product of their 32-bit signed operands whenever it is representable, and the operation is well defined for every pair of operands.

*What is proved:* Exact whenever representable; otherwise signed overflow, undefined behaviour: C11_refuted.

* `C11_ADD_partial` [pcq]
* `C11_MUL_partial` [pcq]
* `C11_SUB_partial` [pcq]
* `C11_refuted` [pq]

### C12 – DIV and MOD satisfy the Euclidean identity and are total (partial)

When powered, DIV stores the quotient truncated toward zero and MOD the matching remainder, a = q*b + r with |r| < |b| and r having the sign of a; division by zero is handled without crashing.

*What is proved:* MOD by zero and INT_MIN/-1 are undefined behaviour: C12_refuted; proved for all other operands.

* `C12_DIV_MOD_partial` [pcq]
* `C12_DIV_zero` [pcq]
* `C12_refuted` [pq]

### C13 – Shifts are logical and total (proved)

SHL multiplies the 32-bit value by 2^k modulo 2^32 and SHR divides it (unsigned) by 2^k, with k the amount reduced modulo 32 into 0..31, for every value and every (also negative) amount, without undefined behaviour.

* `C13_SHL` [pcq]
* `C13_SHR` [pcq]

### C14 – Rotations are inverse of each other and total (partial)

ROL/ROR rotate the 32-bit value by the amount reduced modulo 32; rotating left and then right by the same amount restores the value; both are well defined for every amount.

*What is proved:* Undefined behaviour for amounts that are multiples of 32: C14_refuted; proved for all other amounts.

* `C14_ROL_partial` [pcq]
* `C14_ROR_partial` [pcq]
* `C14_inverse_partial` [pcq]
* `C14_refuted` [pq]

### C15 – AND, OR, XOR, NOT are bitwise (partial)

When powered, AND/OR/XOR/NOT store, for every bit position, the Boolean function of the corresponding operand bits.

*What is proved:* AND maps every operand other than 0 and 1 to 0: C15_refuted; OR, XOR, NOT proved for all operands, AND for 0/1.

* `C15_OR_partial` [pcq]
* `C15_XOR_partial` [pcq]
* `C15_NOT_partial` [pcq]
* `C15_AND_partial` [pcq]
* `C15_refuted` [pq]

### C16 – Comparisons implement the signed order (proved)

A powered comparison conducts iff the relation holds between the signed values of its operands, so exactly one of LT/EQ/GT conducts, GE is the negation of LT, LE of GT and NE of EQ; an unpowered comparison never conducts; comparisons change nothing but their own cell.

* `C16_comparison` [pcq]
* `C16_trichotomy` [pcq]

### C17 – An unpowered computation has no effect (partial)

A data instruction (arithmetic, bitwise, shift/rotate, move, table move) whose rung is not powered leaves every register unchanged and passes no power.

*What is proved:* MOVE, SHL, SHR, ROL, ROR and TMOVE ignore the rung power: C17_refuted; proved for arithmetic and bit logic.

* `C17_unpowered_partial` [pcq]
* `C17_refuted` [pq]

### C18 – On-delay timer: never early, never lost (proved)

Over any sequence of scans, the done output of a TON becomes true exactly at the first scan at which the time since the first scan of the current powered period has reached the preset, stays true while powered, and is false (with accumulator and flags cleared) in every unpowered scan.

*What is proved:* Starting with a cleared timer; the clock may return anything (differences are taken modulo 2^64).

* `C18_TON_done` [pcq]
* `C18_TON_unpowered` [pcq]
* `C18_TON_frame` [pcq]

### C19 – Off-delay timer holds for exactly the preset (proved)

The output of a TOF is true whenever it is powered, remains true after power is lost until the preset has elapsed since the first unpowered scan, and is false from then on until powered again.

*What is proved:* Starting with a cleared timer; an unpowered period at the very beginning counts as a loss of power, so the output is on from the first execution.

* `C19_TOF` [pcq]
* `C19_TOF_frame` [pcq]

### C20 – Pulse timer emits one pulse of the preset length per trigger (partial)

Each time a TP is triggered by its input its output is true until the preset has elapsed, regardless of the input, and a new trigger after the pulse starts a new pulse.

*What is proved:* Only the first pulse: the trigger test reads the accumulator, so after the first pulse a TP never fires again (C20_refuted_never_again for all runs, C20_refuted a concrete run).

* `C20_TP_partial` [pcq]
* `C20_refuted_never_again` [pcq]
* `C20_refuted` [pq]

### C21 – Up-counter counts rising edges and saturates (proved)

Over any sequence of scans without reset, a CTU's count equals the number of false-to-true transitions of its input, stopping at the preset; its done output is true exactly when the preset has been reached.

*What is proved:* Column 1 and later with reset input off; in column 0, where the input is always on and the counter is reset in every scan of a running program, C21_CTU_first_column. The presets are unsigned.

* `C21_CTU` [pcq]
* `C21_CTU_first_column` [pcq]

### C22 – Down-counter counts rising edges down to zero (partial)

Over any sequence of scans without reset, a CTD's count equals its start value minus the number of false-to-true transitions of its input, never below zero; done is true exactly when it has reached zero.

*What is proved:* Positive start values; from 0 the first transition takes the count to 4294967295: C22_refuted.

* `C22_CTD_partial` [pcq]
* `C22_refuted` [pq]

### C23 – MOVE copies bit-exactly or fails without effect (proved)

MOVE between compatible registers makes the destination's 32 bits equal to the source's (a timer accumulator above INT32_MAX is read as INT32_MAX); an incompatible pair is reported as an error and no register changes.

*What is proved:* Timer accumulators above INT32_MAX are read as INT32_MAX.

* `C23_MOVE_int` [pcq]
* `C23_MOVE_real` [pcq]
* `C23_MOVE_incompatible` [pcq]
* `C23_MOVE_bad_destination` [pcq]

### C24 – TMOVE is an all-or-nothing block copy (partial)

A table move either copies exactly the requested words from source table to destination table (as if through a temporary buffer, so overlapping ranges are correct), or reports an error and leaves every table unchanged; it never touches anything outside the addressed range.

*What is proved:* Proved as a dichotomy when both table numbers exist and the destination table consists of data words; C24_refuted: otherwise a late write error leaves a partial copy, and a table number out of range is an out-of-bounds access.

* `C24_TMOVE_partial` [pcq]
* `C24_all_or_nothing_partial` [pcq]
* `C24_refuted` [pq]

### C25 – FOREIGN calls the function it names (partial)

A FOREIGN instruction with id k calls exactly the k-th registered foreign function when it exists, and otherwise reports an error without calling anything.

*What is proved:* Ids 0 and 1 only; every other id calls function 0: C25_refuted.

* `C25_FOREIGN_partial` [pcq]
* `C25_FOREIGN_missing` [pcq]
* `C25_refuted` [pq]

### C26 – Execution order is fixed by the program text (proved)

In a scan that completes, every enabled network is executed in index order, rungs top to bottom and columns left to right; in a network without branches every cell is executed exactly once, in row-major order, whatever the register values are.

*What is proved:* Callbacks assumed to keep program, cursor, run state, error record and limits (Steady). The prescribed order is a function of the program text alone; for branches it records the code's grouping, for branchless networks it is row-major order.

* `C26_order_fixed` [pcq]
* `C26_order_prefix` [pcq]
* `C26_no_branches` [pq]

### C27 – Disabled networks are inert (proved)

A scan never executes an instruction of a disabled network nor changes its cells' states; with all networks disabled a scan changes no register.

*What is proved:* Callbacks assumed to leave the program and the execution cursor alone (disabled-states part only); with all networks disabled the scan's only effect is the cron flags.

* `C27_executes_enabled_only` [pcq]
* `C27_disabled_states` [pcq]
* `C27_all_disabled` [pq]

### C28 – Rows joined by a vertical bar carry the OR of their outputs (proved)

After a branch group has been evaluated in a column, every row of the group carries the same power, which is the disjunction of the outputs the rows computed.

*What is proved:* Callbacks assumed Steady; stated for the evaluation of one column of one rung, from the state left by the group's instructions.

* `C28_group_output` [pcq]

### C29 – A scan does a bounded amount of work (partial)

A scan of any program terminates; no network runs more loop steps than the configured limit. Exceeding the limit puts the context in the error state with the overflow error, calls panic and aborts the scan at once.

*What is proved:* Proved: termination for every program and callback behaviour, counted steps within the limit, overflow aborts at once, executed instructions at most limit times rows. C29_refuted: executions in a column are not counted after the first acting row, so more instructions than the limit can run.

* `C29_terminates` [pcq]
* `C29_executed_bound` [pcq]
* `C29_refuted` [pq]
* `C29_steps_within_limit` [pcq]
* `C29_overflow_aborts` [pcq]

### C30 – The first failing instruction stops the scan and is reported (proved)

If an instruction reports an error, no further instruction of any network is executed in that scan, the context is put in the invalid state and the last-executed record names the failing network, row, column and error.

*What is proved:* No assumption for the stop, the state and the error; for the position in the last-executed record the callbacks must not overwrite it.

* `C30_failure_stops_scan` [pcq]
* `C30_failure_reported` [pcq]

### C31 – A scan never rewrites the program (proved)

A scan changes no instruction code, no vertical bar, no operand and no network dimension or enable flag; the single exception is the data word of cells in disabled networks written by a table move.

*What is proved:* Callbacks assumed to keep the program; the exception for the data words of disabled networks is part of the statement.

* `C31_scan_keeps_program` [pcq]

### C32 – A well-formed logic program never faults (partial)

A program whose operands lie within the configured quantities and that uses only contacts, coils, edges, comparisons, bit logic, timers and counters away from the left rail executes any number of scans without undefined behaviour and without an instruction error, whatever the inputs and clock.

*What is proved:* Any number of scans of any well-formed program (also counters at the left rail, shifts, cron jobs), with registers, inputs, clock and callbacks changing anything but program, configuration and the 0/1-ness of bools. Excluded operands that do fault although in range: float registers (C32_refuted_float, undefined cast) and bit logic storing into the bool areas Cd/Cr/Td/Tr (C32_refuted_flag).

* `C32_never_faults_partial` [pcq]
* `C32_refuted_float` [pq]
* `C32_refuted_flag` [pq]

### C33 – Power flow is recomputed from scratch every scan (proved)

The outcome of a scan (registers, outputs, cell states, events) does not depend on the cell states left over in the enabled networks from before the scan.

*What is proved:* Two-run theorem over all contexts and programs. Callbacks are assumed not to read or change power states of networks not being executed and to keep program, run state and limits (Blind, Steady); cells must be allocated as announced (Grids). If the scan is given up (state INV or ERROR), leftover states of enabled networks after the last one entered remain, which the theorem states exactly.

* `C33_scan_fresh` [pcq]

### C34 – Each cycle is read, then scan, then write (proved)

In every cycle of a running task the callbacks occur in the order: before hook, one read per input module in registration order, instruction/rung callbacks of the scan, one write per output module in registration order, after hook. No output is written before all inputs have been read and the scan has ended.

*What is proved:* Order of events (phases) of every cycle and of every run with no assumption on callbacks; completeness (before hook, every read and write in index order, after hook exactly once) for wired contexts whose wiring callbacks keep.

* `C34_cycle_phased` [pcq]
* `C34_run_phased` [pcq]
* `C34_cycle_complete` [pcq]

### C35 – A faulted scan never leaks half-computed outputs (partial)

When a scan faults, the outputs handed to the write callbacks are those held before the scan (hold mode) or all zero (clear mode), for digital and analog outputs of every module.

*What is proved:* Holds for scans that left state INV: C35_hold_partial, C35_clear_partial (digital ports, and analog ports of modules that also have digital ones). False as stated: C35_refuted_analog (analog-only modules, both modes), C35_refuted_overflow (scan limit exceeded: state ERROR, half-computed outputs written).

* `C35_hold_partial` [pcq]
* `C35_clear_partial` [pcq]
* `C35_refuted_overflow` [pq]
* `C35_refuted_analog` [pq]

### C36 – A faulted scan rolls memory back and ends the task (partial)

When a scan faults, flags M, Cd, Cr, Td, Tr return to their values at the end of the previous cycle, counters, timer accumulators, D and R are zeroed, the after hook and then the end hook are called once and the task returns.

*What is proved:* Holds for scans that left state INV: C36_memory_partial, C36_previous_partial (flags equal the end of the previous cycle's scan), C36_after_partial, C36_ends. False for faults by exceeding the scan limit: C35_refuted_overflow (memory kept, task goes on).

* `C36_memory_partial` [pcq]
* `C36_previous_partial` [pcq]
* `C36_after_partial` [pcq]
* `C36_ends` [pq]

### C37 – A stopped task waits a bounded time (proved)

A task that is not in the running state performs at most 1000 waits of the configured delay; if the state has not become running by then it reports panic in the error state and terminates with the exit state. No input is read and no output is written while waiting.

*What is proved:* The wait is observed through the delay callback: start at the first RUNNING, leave on EXIT, give up after exactly 1000 waits, and the bound for arbitrary callbacks.

* `C37_starts` [pq]
* `C37_leaves` [pq]
* `C37_timeout` [pq]
* `C37_wait_length` [p]
* `C37_bounded` [pq]

### C38 – A stop request ends the task without another cycle (proved)

If the state is the exit state when a cycle ends, the task performs no further read, scan or write and calls the end hook exactly once.

*What is proved:* A stop request (state EXIT_TSK at the end of an iteration) ends the task before the next cycle; the end hook is called if registered.

* `C38_exit` [pq]
* `C38_stop` [pq]

### C39 – The end hook runs exactly once on every termination (partial)

Whenever the task function returns after having passed its start-up checks, the end-of-task hook has been called exactly once, as the last callback.

*What is proved:* Proved when neither delay nor panic callbacks request the exit. C39_refuted: a stop request made while the task waits makes it return without the end hook.

* `C39_end_hook_partial` [pcq]
* `C39_exactly_once_partial` [pcq]
* `C39_refuted` [pq]

### C40 – An unusable context is refused before any callback (partial)

If a mandatory function or memory area is missing, the task function sets the null-function state and returns without calling any callback and without changing anything else.

*What is proved:* Refusal iff something needed is missing, for function tables at least one entry long. C40_refuted: a missing read function other than the first is not refused; the task panics in every cycle instead.

* `C40_refusal_partial` [pcq]
* `C40_accepts_partial` [pcq]
* `C40_refuted` [pq]

### C41 – Scan-time statistics are consistent (proved)

After any positive number of measured cycles, min <= avg <= max, count and total equal the number and the sum of the measured times, and each measured time is the elapsed clock time modulo 2^64 (correct across clock wrap-around).

*What is proved:* Per cycle (clock difference modulo 2^64) and for runs of any length with a clock wrapping any number of times (true durations), below 2^32 cycles and total time below 2^64; callbacks keep statistics, limits, clock and hook registration (clockwork). Cycles given up before the scan (module area vanished) are not measured.

* `C41_ordered` [pq]
* `C41_cycle` [pcq]
* `C41_run` [pcq]

### C42 – Scan-time watchdog fires exactly on excess (proved)

At the end of a cycle the context is put into the error state and panic is called iff a watchdog limit is configured and the measured time exceeds it; the overrun flag is set iff a target is configured and exceeded.

*What is proved:* Callbacks keep statistics, limits and registrations; C42_state additionally assumes they keep the run state.

* `C42_watchdog` [pcq]
* `C42_state` [pcq]

### C43 – Cycle padding completes the target period (proved)

In a normal cycle with a target period, if the measured time is below the target the task delays exactly the difference; otherwise, and without target, it does not delay.

*What is proved:* All events after the time is taken, for normal and faulted cycles; same assumptions as C42.

* `C43_padding` [pcq]

### C44 – History equals the values at the end of the previous cycle (partial)

During the scan of a cycle, the previous-value view of flags M, Cd, Cr, Td, Tr and outputs equals their value at the end of the previous cycle's scan, and that of inputs equals the value before this cycle's reads.

*What is proved:* Flags and outputs (digital and analog): C44_previous_partial for every two consecutive cycles. Inputs: C44_inputs_partial. During the scan the history is constant: C44_during, C44_scan. False as stated: C44_refuted (analog inputs of modules without digital ones have stale history), C44_refuted_analog_edge (edge contacts on analog registers look at the present value).

* `C44_during` [pcq]
* `C44_scan` [pcq]
* `C44_previous_partial` [pcq]
* `C44_inputs_partial` [pcq]
* `C44_refuted` [pq]
* `C44_refuted_analog_edge` [pcq]

### C45 – Fault clear restores a safe running state (proved)

Clearing a fault succeeds exactly from the error state; it then sets the running state, zeroes timers, counters, D, R and all outputs (with output history), and leaves flags M, inputs and the program unchanged; from any other state it changes nothing.

*What is proved:* From the error state, with every area that has a quantity allocated, the call succeeds with exactly the named effects (all locations, program text, configuration); from any other state it is the identity. Without a clock the panic callback is assumed not to touch the context. Timer flags history and M history are kept, as the statement requires of everything not named.

* `C45_error` [pq]
* `C45_other` [p]
* `C45_success` [p]

### C46 – Context initialisation validates and zeroes (proved)

Initialisation succeeds exactly for parameters in range (given memory), and yields a stopped context with all areas of the requested size zeroed, every cell an empty NOP and every network disabled; with parameters out of range nothing is changed.

*What is proved:* Range, refusal without any change, and full content, settings and statistics of the initialised context. The context left behind by a failed allocation is not modelled (heap).

* `C46_range` [pcq]
* `C46_refused` [pcq]
* `C46_content` [p]
* `C46_settings` [pq]

### C47 – Module registration is atomic and order preserving (proved)

Registering a read or write module either appends exactly one module (keeping all previous ones) or, on failure of its init hook or at the limit of 255, leaves the registered modules unchanged.

*What is proved:* One registration and histories, for read and write modules, with each allocation failure point. Hooks are assumed to keep to their own slot of the tables; functions are identified by their position. realloc that shrinks is taken to succeed.

* `C47_read` [pq]
* `C47_read_rest` [–]
* `C47_read_history` [pq]
* `C47_write` [pq]
* `C47_write_rest` [–]
* `C47_write_history` [pq]

### C48 – Foreign registration keeps dense ids (partial)

After any sequence of foreign registrations, at most 100 functions are registered, the i-th accepted one has id i as passed to its init hook, and a rejected registration changes nothing but the error report.

*What is proved:* Ids, order and atomicity for all histories (C48_step, C48_ids). The limit of 100 holds when quantities stay below 2^32 - 100 (C48_limit_partial) and is refuted otherwise because the sum in the check wraps (C48_refuted).

* `C48_step` [pcq]
* `C48_ids` [pcq]
* `C48_limit_partial` [pcq]
* `C48_refuted` [p]

### C49 – Placing instructions never corrupts the grid (partial)

Placing an instruction either fails leaving all cells unchanged, or occupies exactly its span of previously empty cells inside the grid; therefore, after any sequence of placements, every continuation cell belongs to exactly one multi-cell instruction directly above it and no two instructions overlap.

*What is proved:* One placement and all sequences with memory available, for every instruction except the continuation marker and odd foreign descriptors; ownership of continuation cells is exact. Refuted for failed allocation (cells left invalid), foreign functions spanning cells without operands, foreign functions without cells, and the continuation marker itself (undefined behaviour).

* `C49_step_partial` [pcq]
* `C49_sequence_partial` [pcq]
* `C49_owner` [pq]
* `C49_initialised_partial` [pcq]
* `C49_refuted_memory` [p]
* `C49_refuted_span` [p]
* `C49_refuted_overwrite` [p]
* `C49_refuted_outside` [p]

### C50 – Clearing resets everything it names and nothing else (proved)

Clearing the program empties every cell (NOP, no bar, no operands) and keeps grid dimensions, enables and registers; clearing memory zeroes flags and their history and keeps everything else.

*What is proved:* Clearing memory on any context with its flag areas allocated; clearing the program on any allocated grid. Cells without an operand block are assumed to have operand count 0, which every placement guarantees.

* `C50_memory` [pq]
* `C50_program` [pq]

### C51 – The program checker is sound for operand ranges (partial)

If the program checker accepts a program, every operand of every cell refers to an existing register or module/port.

*What is proved:* Accepted without UB implies existing register or port, and kinds per instruction, for every program. Refuted for float register indices (never checked) and for ports among surplus operands of a timer.

* `C51_operands_exist_partial` [pcq]
* `C51_operand_kinds` [pcq]
* `C51_refuted_float` [pcq]
* `C51_refuted_timer` [pcq]

### C52 – The program checker never reads outside the program (partial)

Checking a program never accesses memory outside the configured areas and always returns a definite verdict.

*What is proved:* No access outside the configured memory and a status naming a cell of the program, for every stored program with a cell. Refuted when a module number equals the number of modules (off-by-one) and for programs without cells (uninitialised status).

* `C52_verdict_partial` [pcq]
* `C52_refuted` [pcq]
* `C52_refuted_empty` [pcq]

### C53 – Cron expressions denote the documented sets (partial)

Parsing a field 'a', 'a-b', '*', '*/s', 'a-b/s' or a comma list accepts exactly numbers in the field's range and yields exactly the documented set of values; no value outside the field's range is ever set.

*What is proved:* Documented elements (up to 18 characters each) set exactly their values and only in range; the code also accepts or rejects undocumented forms differently from the claim: numbers wrap modulo 2^64 (C53_refuted_number), 2^64-1 stands for 'no end' (C53_refuted_maximum), a start above the range is accepted with no value (C53_refuted_start), a value above the range of the field can be set (C53_refuted_outside), step 0 never ends (C53_refuted_step_zero), wrap-around ranges with a step lose their phase (C53_refuted_around_step).

* `C53_documented_partial` [pcq]
* `C53_only_partial` [pcq]
* `C53_in_range_partial` [pcq]
* `C53_expression_partial` [pcq]
* `C53_refuted_number` [pcq]
* `C53_refuted_maximum` [pcq]
* `C53_refuted_start` [pcq]
* `C53_refuted_outside` [pcq]
* `C53_refuted_step_zero` [pcq]
* `C53_refuted_around_step` [pcq]
* `C53_star_range` [pcq]

### C54 – A cron job matches iff all its fields match (partial)

A parsed expression matches a calendar time iff each of second, minute, hour, day of month, month, weekday and year is in its field's set.

*What is proved:* Years 2000 to 2103 and documented expressions; another year reads outside of the bit map: C54_refuted_year.

* `C54_match_partial` [pcq]
* `C54_refuted_year` [pcq]

### C55 – Next-occurrence search returns the earliest match (partial)

If the search for the next time returns t then t is after the current time, matches, and no earlier time after the current one matches.

*What is proved:* Times from 1970 on, years 2000 to 2103, no leap seconds, zone offsets that are multiples of half an hour; for quarter-hour zones matches are missed: C55_refuted_zone.

* `C55_next_partial` [pcq]
* `C55_found_partial` [pcq]
* `C55_refuted_zone` [pcq]

### C56 – Cron flags follow the schedule (partial)

At the start of each scan the flags of all enabled auto-reset jobs are cleared; then, in registration order, every enabled job whose expression matches the current local time copies its enable flag to its flag; no other flag changes.

*What is proved:* At least one job and a local time in 2000 to 2103; with no job the phase faults (C56_refuted_no_job), with no flags any register is accepted (C56_refuted_no_flags).

* `C56_phase_partial` [pcq]
* `C56_other_flags` [p]
* `C56_own_flag` [p]
* `C56_scan_partial` [pcq]
* `C56_register` [pq]
* `C56_init` [pq]
* `C56_refused` [pq]
* `C56_refuted_no_job` [pq]
* `C56_refuted_no_flags` [pcq]

### C57 – A freshly initialised context can run (partial)

A context initialised with valid parameters, an empty program, a clock and a delay, set to running, completes scan cycles without faulting.

*What is proved:* False for all parameters because the evaluation of an empty job list fails (C57_refuted); proved for contexts with at least one job, watchdog off or never exceeded, fewer than 2^32 cycles.

* `C57_runs_partial` [pcq]
* `C57_fresh_partial` [p]
* `C57_refuted` [pcq]

### C58 – Saving and loading a program is lossless (partial)

Writing a program to its JSON form and loading that form into a context of the same configuration yields the same program.

*What is proved:* Round trip proved for every program the JSON form can express (ProgramExpressible) and every receiving context. Refuted (C58_refuted_*) for constants, 1 ms timers, continuation cells where reading behind the instruction table is undefined, texts, disabled networks, foreign functions with operands, floats that six decimals do not determine. The text level (cJSON) is not modelled.

* `C58_round_trip_partial` [pcq]
* `C58_refuted_constant` [pcq]
* `C58_refuted_millisecond` [pcq]
* `C58_refuted_occupied` [pcq]
* `C58_refuted_text` [pq]
* `C58_refuted_disabled` [pcq]
* `C58_refuted_foreign` [pcq]
* `C58_refuted_real` [pcq]

### C59 – Loading rejects malformed programs (partial)

A JSON program with an unknown instruction symbol, unknown data type, a missing mandatory member or too few operands is rejected with an error.

*What is proved:* Every accepted document is well-formed, without hypotheses (C59_accepted_wellformed), and every well-formed document with numbers in range and values in the usual decimal form is accepted (C59_wellformed_accepted); a malformed one is rejected without undefined behaviour if it is Sturdy (numbers in range, announced rows present, no continuation cell where reading behind the table is undefined). Refuted otherwise (C59_refuted_*).

* `C59_accepted_wellformed` [pcq]
* `C59_rejected_partial` [pcq]
* `C59_refuted_no_rows` [pcq]
* `C59_refuted_fewer_rows` [pcq]
* `C59_refuted_next_document` [pcq]
* `C59_refuted_negative` [pcq]
* `C59_refuted_base_as_type` [pcq]
* `C59_refuted_number` [pcq]
* `C59_wellformed_accepted` [pcq]

### C60 – Teardown releases every allocation exactly once (partial)

After initialisation, any program construction and teardown, every block allocated by the library has been freed exactly once.

*What is proved:* Pointer-level model of every allocation of ladder_general.c, the cron table and the loader, with an arbitrary allocator. Proved: initialisation never misuses the heap; after a successful initialisation with networks and any sequence of registrations, placements, text operands, clears, loads of program files and cron set-up, with any requests refused, no call misuses the heap and teardown frees exactly the blocks allocated. Assumes shrinking reallocs succeed, instructions of at least one cell, a granted cron table, granted row tables and files whose networks have the rows they announce (see C91). Refuted: failed initialisation leaks the cell arrays (C60_refuted_failed_init), tearing it down again frees the network array twice, teardown without networks or a second teardown dereferences NULL, refused cron table, refused shrink, instruction of no cell.

* `C60_init_no_misuse` [pcq]
* `C60_calls_no_misuse_partial` [pcq]
* `C60_teardown_partial` [pcq]
* `C60_failed_init_partial` [pcq]
* `C60_refuted_failed_init` [pcq]
* `C60_refuted_failed_init_teardown` [pcq]
* `C60_refuted_no_networks` [pcq]
* `C60_refuted_twice` [pcq]
* `C60_refuted_cron` [pcq]
* `C60_refuted_shrink` [pcq]
* `C60_refuted_no_cell` [pcq]

### C61 – Counter reset dominates (partial)

When its reset input is on, a counter's execution leaves it reset whatever its count input does: a CTU with count 0 and a CTD with its preset, not done and with its output off (positive preset).

*What is proved:* Count input off; with both inputs on the counter counts once right after the reset: C61_refuted.

* `C61_reset_partial` [pcq]
* `C61_refuted` [pq]

### C62 – A result that cannot be stored is reported (partial)

If the destination operand of a coil, arithmetic, bit logic, shift, rotate or move instruction names no existing writable register, the instruction returns an error code.

*What is proved:* Shifts, rotations and MOVE report an error for every unusable destination (C62_reported_partial). Violated by coils, arithmetic and bit logic, which never report any error: C62_refuted (witness), C62_refuted_silent (extent).

* `C62_reported_partial` [pq]
* `C62_refuted` [pq]
* `C62_refuted_silent` [pq]

### C63 – A stop requested during a cycle is not lost (partial)

If a callback sets the exit state during a cycle and no callback restarts the program, the cycle ends in the exit state and the task ends without another read, scan or write.

*What is proved:* For every cycle and every set of callbacks in which some callback requests a stop and none restarts: the cycle does not end running (C63_request_kept_partial) and the task then ends without another read, scan or write, after at most 1000 waits (C63_task_ends_partial). Violated as stated: the watchdog overwrites the exit state with the error state, C63_refuted.

* `C63_request_kept_partial` [pcq]
* `C63_task_ends_partial` [pq]
* `C63_refuted` [pq]

### C64 – An accepted program is laid out consistently (partial)

If the program checker accepts a program, every instruction fits in its column with the cells below it, up to its height, marked as its continuation and free of operands, and every continuation cell belongs to such an instruction.

*What is proved:* Proved for all programs when foreign functions cover at least one cell; refuted for a foreign function with zero cells (expected_multi wraps).

* `C64_laid_out_partial` [pcq]
* `C64_refuted` [pcq]

### C65 – The checker accepts every valid program (partial)

A program with a consistent layout, whose operands are of the kinds its instructions take and refer to existing registers and ports, is accepted by the checker.

*What is proved:* Proved for all valid programs whose timers with base 10 ms or 1 min have small presets; refuted otherwise: the preset is compared with the number of M or C registers because time bases share codes with register kinds.

* `C65_valid_accepted_partial` [pcq]
* `C65_refuted` [pcq]

### C66 – Nothing is left of a rejected document (proved)

After a JSON document was rejected every cell of every network is empty (no instruction, bar, power or operands); a document that is not a list of networks leaves the context untouched.

*What is proved:* Every context and document.

* `C66_rejected_empty` [pcq]

### C67 – Loading changes nothing but the program (proved)

Loading a JSON document, accepted or rejected, changes nothing of the context but its networks, whose number stays.

*What is proved:* Every context and document.

* `C67_only_program` [pcq]

### C68 – An accepted document means what it says (proved)

After an accepted JSON document every network it describes has the dimensions, instructions, bars and operands of its last description, every other network is empty, and all blocks have the sizes the rest of the library relies on.

*What is proved:* For contexts whose networks exist with their cells (Receptive, the state after initialisation, and kept by accepted documents).

* `C68_means` [pcq]

### C69 – A program the checker accepts runs without faults (partial)

In a context with all memory allocated, a clock and an orderly cron table, a program that ladder_program_check accepts executes any number of scans without undefined behaviour and without any instruction reporting an error.

*What is proved:* Proved for accepted programs whose networks have columns and whose cells have their operands, within the limits Tame (no float registers, no sums, differences, products, table moves; quotients, remainders and rotations by suitable constants). Refuted otherwise: accepted programs overflow, divide by zero, shift by 32, write outside the networks, read through null pointers (missing operands), write outside a row of a network without columns, or report errors.

* `C69_accepted_runs_partial` [pcq]
* `C69_refuted_overflow` [pq]
* `C69_refuted_remainder` [pq]
* `C69_refuted_rotation` [pq]
* `C69_refuted_table` [pq]
* `C69_refuted_operands` [pq]
* `C69_refuted_width` [pq]
* `C69_refuted_move` [pq]

### C70 – A loaded and accepted program runs without faults (partial)

A JSON document that is loaded without error, and whose program the checker accepts, executes any number of scans without undefined behaviour and without any instruction reporting an error.

*What is proved:* Loader, checker and scan composed: completeness of the operands follows from the loader. Same limits as C69 (Tame, columns). Refuted otherwise by documents with an addition and with a network without columns.

* `C70_loaded_runs_partial` [pcq]
* `C70_refuted_overflow` [pcq]
* `C70_refuted_width` [pcq]

### C71 – A scan computes the ladder diagram (partial)

After a scan every register holds what the ladder diagram prescribes: the cron jobs, then the enabled networks in order, each rung from top to bottom, power flowing from the left rail through the columns, every cell acting on the power left of its row (a counter also on that of the row below), timers taking the time from the clock, and the wires to the right of the cells of a column connected where vertical bars connect them. The same holds for any number of scans with arbitrary changes of the registers in between.

*What is proved:* Refinement: scan (and k scans) equals the diagram semantics of Spec/Logic.lean for NOP, MULTI, CONN, NEG, contacts, edges, coils, latches, comparisons, AND (as the code has it: 1 if both operands are 1), OR, XOR, NOT, DIV/MOD by constants, shifts, rotations, moves, timers and counters, with cron jobs, with branches that start at the left rail (nested) and with rows that hang from a rung further right to drive another coil, as in the shipped program. Timers take the time from a stream of clock readings; the theorem says that the readings are those of the clock during the scan, in order, and that the diagram uses no others (C71_instant_partial: a clock that stands still during the scan). C76 extends this to ADD, MUL and variable divisors and distances, where scans may be undefined. The panic callback may do anything when the scan limit leaves a fifth of room. Missing: branches with contacts of their own that start further right, which the code does not supply with power (C71_refuted_branch), latches on rows that hang, which the code never executes (C71_refuted_hung), and SUB, the table instructions and foreign calls.

* `C71_diagram_partial` [pcq]
* `C71_instant_partial` [pcq]
* `C71_scans_partial` [pcq]
* `C71_refuted_branch` [pq]
* `C71_refuted_hung` [pq]

### C72 – A running task has no undefined behaviour (partial)

A task that runs a well-formed program on a complete configuration never has undefined behaviour, for any number of iterations of its main loop, any clock and any register contents, whatever the callbacks do to registers and state (including stopping the task or faking a fault) as long as they leave program and configuration alone; no instruction reports an error, all memory blocks keep their sizes and every bool stays valid.

*What is proved:* Proved for all well-formed programs (the instructions covered by C32), all callbacks that leave program, configuration and scan counter alone, and any number of iterations. Missing, because the code violates it: runs in which the 32-bit scan counter wraps (division by zero, C72_refuted_counter), faults in configurations without markers, counters or timers (memcpy from and to NULL, C72_refuted_null).

* `C72_task_partial` [pcq]
* `C72_refuted_counter` [pq]
* `C72_refuted_null` [pq]

### C73 – The task is a synchronous controller (partial)

A task that runs an accepted ladder program stays in state running and, for any number of iterations, performs exactly that many cycles one after the other. In each cycle the inputs are sampled once, before anything is computed; the due cron jobs and then the networks transform the registers as the ladder diagram says; the history of inputs, flags and outputs is what the diagram's edge instructions and the next cycle see; and every output module is sent the outputs computed in this very cycle, once and in order. Nothing else is ever sent to an output module, and after the last cycle the registers hold what the cycles make of their contents at the start.

*What is proved:* Proved as a refinement: for any number of iterations the task performs exactly that many cycles, its register contents are those of the diagram's cycles (sample, cron jobs, networks with timers and counters, history), each cycle uses exactly its own readings of the clock, and the commands to the output modules are exactly the outputs of each cycle, once per module, in order. What the hardware supplies may depend on the inputs it supplied before, as with keys that toggle an input. Missing: C71's restrictions (branches with contacts of their own that do not start at the left rail, latches on rows that hang, the other instructions; with arithmetic on registers: C95); analog history of modules without digital ports is not taken (C73_refuted_history, C44); the watchdog is off (with a watchdog: C93) and the scan counter does not wrap (then the task divides by zero, C94).

* `C73_controller_partial` [pcq]
* `C73_refuted_history` [pq]

### C74 – Several cron expressions together (proved)

With several cron expressions, the combined test 'any of them' reports a match exactly when the time matches at least one of them, the combined test 'all of them' exactly when it matches every one, and parsing several expressions parses every one in order or reports the position of the first one that cannot be parsed.

*What is proved:* Stated with the specification's own matching of expressions (lists of documented fields) and calendar times; the parser and the matcher are the model of lwdtc.c. The parse result is given for every list of texts: all in order, or the index of the first text that the parser refuses.

* `C74_some` [pcq]
* `C74_all` [pcq]
* `C74_parsed` [pcq]
* `C74_first_failure` [pq]
* `C74_group` [pcq]

### C75 – A counter that is done can be reset from its second row (partial)

In a running program, a counter that has reached its preset starts again when the row below it, which is its reset input, passes power up to it.

*What is proved:* Violated by the code. Refuted for whole classes of programs and all histories (C75_refuted_for_ever): when the row below a counter is a rung of its own, the scan evaluates that row only after the counter and clears its cells at the start of the network, so the reset input always reads as off and a counter that is done stays done, at the same count, in every later scan whatever the inputs. C75_refuted is one program accepted by the checker. What holds of the statement is at the level of one instruction: C61_reset_partial (a powered cell below left does reset).

* `C75_refuted_for_ever` [pcq]
* `C75_refuted` [pq]

### C76 – Undefined arithmetic is exactly what the diagram says (proved)

A scan of a ladder diagram with additions, multiplications, divisions, remainders and rotations of arbitrary registers either ends with the registers the diagram prescribes, or has undefined behaviour, and the latter happens exactly when some arithmetic that is executed in the diagram has no result (a sum, product or quotient that does not fit 32 bits, a remainder by zero, a rotation by a multiple of 32). No other undefined behaviour is possible, and up to that point the registers followed the diagram.

*What is proved:* C76_outcome: for diagrams with ADD, MUL, DIV, MOD, ROL, ROR on any operands (and all other diagram instructions) a scan either ends with the registers of the diagram, all of whose arithmetic had a result, or is undefined by overflow, division by zero or shift range and nothing else, and then the diagram has arithmetic without a result. C76_exact, C76_untimed, C76_instant: 'if and only if' where the clock does not matter, for programs without timers, and for a clock that stands still. C76_scans: any number of scans. The class of diagrams is that of C71: branches start at the left rail, or hang from a rung to drive another coil; AND, SUB, the table instructions and foreign calls are not in it.

* `C76_outcome` [pcq]
* `C76_exact` [pcq]
* `C76_untimed` [pcq]
* `C76_instant` [pcq]
* `C76_scans` [pcq]

### C77 – The validator decides JSON Schema (partial)

For every JSON Schema (draft 7) and every document, the validator has a defined result, and it accepts the document exactly when the document satisfies the schema.

*What is proved:* Proved for all schemas of the subset Supported (one type by name, scalar enum and const, bounds, lengths, items, properties with required members listed, boolean additionalItems and additionalProperties, allOf, conditionals standing alone), in particular the shipped schema, and documents with integers in the range of int, one byte per character and names agreeing in case. Draft 7 is written down independently (Spec.Valid). Refuted outside: keywords beside a conditional, else, not, anyOf, lists of types, required without properties, additionalProperties schemas, case of names, large integers (undefined), lengths in bytes.

* `C77_decides_partial` [pcq]
* `C77_shipped_partial` [pcq]
* `C77_refuted_conditional` [pcq]
* `C77_refuted_else` [pcq]
* `C77_refuted_not` [pcq]
* `C77_refuted_anyOf` [pcq]
* `C77_refuted_types` [pcq]
* `C77_refuted_required` [pcq]
* `C77_refuted_additional` [pcq]
* `C77_refuted_case` [pcq]
* `C77_refuted_integer` [pcq]
* `C77_refuted_length` [pcq]

### C78 – A valid document can be loaded (partial)

A document that the validator accepts under the schema that comes with the library is loaded without error and without undefined behaviour into a context with enough networks.

*What is proved:* C78_accepts: exactly which documents the shipped schema admits, for all documents. C78_loads_partial: a valid document with values in the usual form is loaded iff it is Consistent (number, dimensions, no divergent symbol). Refuted: every document with TOF, NEG, SHL, SHR, ROL, ROR or TMOV is never loaded though it may be valid; wrong dimensions and negative numbers are valid but rejected or undefined.

* `C78_accepts` [pcq]
* `C78_loads_partial` [pcq]
* `C78_refuted_divergent` [pcq]
* `C78_refuted_tof` [pcq]
* `C78_refuted_dimensions` [pcq]
* `C78_refuted_negative` [pcq]

### C79 – A saved program is valid (partial)

The document written for a program is accepted by the validator under the schema that comes with the library.

*What is proved:* C79_valid_iff: exactly which programs are saved as a valid document, for all programs. Refuted: moves, off-delay timers, negations, rotations, foreign instructions never are; constants, 1 ms bases and flags of timers and counters are not; a valid document with a move is loaded and then saved as an invalid one.

* `C79_valid_iff` [pcq]
* `C79_saved_valid_partial` [pcq]
* `C79_refuted_instructions` [pcq]
* `C79_refuted_names` [pcq]
* `C79_refuted_constants` [pcq]
* `C79_refuted_flags` [pcq]
* `C79_refuted_cycle` [pcq]

### C80 – The panic report of the shipped port names what went wrong (partial)

Whenever the library calls the panic callback of the shipped port, the callback reads its name tables only inside their bounds and prints the name of the state, of the instruction and of the error recorded in the context.

*What is proved:* C80_report_defined_partial: the report is defined iff the instruction is not INV or MULTI and the error is not OVERFLOW, NULL or FAIL; C80_report_names_partial: then the names are right except for a type mismatch. Refuted: every abort by the scan watchdog runs the callback past its table (C80_refuted_watchdog, a whole scan in C80_refuted_scan); a type mismatch is printed as FAIL.

* `C80_report_defined_partial` [pq]
* `C80_report_names_partial` [pq]
* `C80_refuted_name` [pcq]
* `C80_refuted_watchdog` [p]
* `C80_refuted_scan` [pq]

### C81 – The read and write callbacks of the shipped port (proved)

dummy_read toggles exactly the input named by the last key typed, or asks the task to stop, and changes nothing else; dummy_write changes nothing and shows the contents of the flags, outputs, timers, counters and cell states; both are defined exactly when the memory they show exists.

*What is proved:* Effect of dummy_read for every key sequence, contents of the screen of dummy_write, exact domains of both, registration of modules with and without memory.

* `C81_read_effect` [pcq]
* `C81_read_defined` [pcq]
* `C81_write_shows` [pq]
* `C81_write_defined` [pq]
* `C81_read_registered` [pcq]
* `C81_read_refused` [pq]
* `C81_write_registered` [pq]

### C82 – The shipped port and the shipped foreign function release all their memory (proved)

However modules and foreign functions are registered and initialised again, and whichever requests for memory are refused, the init hooks of the shipped port and the shipped foreign function never misuse the heap, and after teardown every block they requested has been freed.

*What is proved:* Any sequence of registrations and repeated initialisations, any allocator. The tables of the library itself are in C60; here they are only granted or refused.

* `C82_no_misuse` [pcq]
* `C82_all_released` [pcq]
* `C82_module_whole` [pcq]

### C83 – Clock and delay of the shipped port (proved)

dummy_delay sleeps exactly the requested number of milliseconds however often signals interrupt it; dummy_millis gives the time of day in whole milliseconds, rounded down, so that it never goes back when the time of day does not.

*What is proved:* nanosleep is represented by how long each interrupted call lasted; gettimeofday by the pair it stores.

* `C83_delay` [pq]
* `C83_millis` [pcq]
* `C83_millis_monotone` [pcq]

### C84 – A task with the shipped port: neither the library nor a callback is ever undefined (proved)

A task that executes a well-formed program with the callbacks of the shipped port (reading keys, displaying, clock, delay, panic report) and the shipped foreign function, on a configuration with the memory these show and without a watchdog, has no undefined behaviour in the library or in any callback; no instruction reports an error, the panic callback is never called, and the state stays running until an exit is asked for.

*What is proved:* C84_task: no undefined behaviour, no error, no panic; undefined behaviour of a callback is represented by an arbitrary change of the context (Wild), and C84_defined with C84_mark show that no callback is ever undefined. C84_foreign: exact domain of the shipped foreign function. The well-formed programs are those of C32/C72, tasks of fewer than 2^32 iterations; both limits are refuted otherwise by C72.

* `C84_placed` [pcq]
* `C84_foreign` [pcq]
* `C84_task` [pcq]
* `C84_mark` [pcq]
* `C84_defined` [pcq]

### C85 – The shipped application starts its program and runs it without faults (partial)

The application that comes with the library initialises it, registers its hardware, callbacks, cron jobs and foreign function, validates, loads, saves and checks the shipped program, and starts the task, whatever the context held before; the task then runs without undefined behaviour in the library or the callbacks, without error and without panic, whatever is typed, and never changes the program.

*What is proved:* C85_run_partial assumes that the byte behind the table of instructions is zero; C85_starts: the application starts exactly then; C85_refuted: the shipped program has continuation cells, for which the loader reads past the table (see C57), so by the C standard the start is already undefined. Files are documents given as trees; what is printed and the self-test of the instructions are left out.

* `C85_run_partial` [pcq]
* `C85_refuted` [pcq]
* `C85_starts` [pcq]

### C86 – Drawing an accepted program is free of undefined behaviour (partial)

ladder_print draws every program that ladder_program_check accepts without undefined behaviour: it reads no network, row, cell, operand, string or foreign function that is not stored, converts no float that is not a number, and writes only within the buffer that it allocates for a network, whether the allocation succeeds or not.

*What is proved:* Proved for accepted programs whose instructions have no operands or as many as their picture shows, with strings present and floats that are numbers (C86_prints_partial, from C86_prints; the shipped program: C86_shipped). Refuted in general: an accepted move of a missing string (C86_refuted_text), an accepted addition with one operand (C86_refuted_operands) and an accepted move of a float that is not a number (C86_refuted_float).

* `C86_prints` [pcq]
* `C86_prints_partial` [pcq]
* `C86_refuted_text` [pcq]
* `C86_refuted_operands` [pcq]
* `C86_refuted_float` [pcq]
* `C86_shipped` [pcq]

### C87 – The drawing shows the program, each instruction once, in its place and aligned (partial)

In the drawing of a network each instruction appears once, at its row and column, over exactly the rows that it covers: its sign with wires (joined to the vertical bar where a bar starts at its row or the next), and its operands; empty lines are filled with blanks and all pieces are 19 characters wide, so that columns are aligned.

*What is proved:* The drawing is proved to be the sheet made of one picture per instruction over exactly its rows (C87_drawing), with pieces of 19 characters when operands are short (C87_aligned_partial). Of the operands the first one is specified. Refuted: a preset of five digits breaks the alignment (C87_refuted_aligned); numbers of float registers are drawn as floats (C87_refuted_registers).

* `C87_drawing` [pcq]
* `C87_aligned_partial` [pcq]
* `C87_refuted_aligned` [pcq]
* `C87_refuted_registers` [pcq]

### C88 – Floats are drawn with their value to two decimals (partial)

The text that ladder_print makes of a float operand of magnitude up to one million is a decimal number with two digits after the point and the sign of the float, which differs from the float by at most half a hundredth, up to rounding errors of single precision arithmetic below 1/65536 of a hundredth; larger floats are marked as overflow. The text is never longer than its buffer of 12 bytes.

*What is proved:* Proved with exact single precision arithmetic for floats from 0 up and from -1 down (C88_decimals_partial) and for overflow (C88_overflow); as part of the drawing see the field real of Spec.Depicts in C87_drawing. Refuted: floats between -0.99 and 0 lose their sign, -0.5 is drawn as 0.50 (C88_refuted_sign). powf(10, 2) is taken to be 100.

* `C88_decimals_partial` [pcq]
* `C88_overflow` [pcq]
* `C88_refuted_sign` [pcq]

### C89 – The shipped application flashes two lamps five times each, one after the other, and two outputs follow a key (proved)

When the application that comes with the library starts its task, it performs its cycles up to and including the first one in which q or Q is typed, and then ends. Every cycle sends exactly one command to the output module, computed from the characters typed and the clock alone: port 0 flashes at most five times, with pauses and flashes of five seconds (up to the length of the cycles at their ends) and a fifth flash that lasts one cycle; port 1 does the same, but not before the fifth flash of port 0 has begun; ports 3 and 4 are on exactly when an odd number of the samples so far ended in the character 7; all other outputs are zero.

*What is proved:* C89_run: the commands of the task are the outputs of a small machine (Spec.Flash.Panel) fed with the characters and the four readings of the clock of each cycle, up to and including the first cycle in which q or Q is typed, after which the task ends; composed from C90, C81 and C85. C89_lamps: the claims about flashes, order, durations and the key, in terms of the commands. That the application starts its task at all depends on the byte behind a table, see C85.

* `C89_run` [pcq]
* `C89_lamps` [pcq]

### C90 – A controller asked to stop while it samples its inputs finishes its cycle, sends its outputs, and ends (partial)

When a read callback sets state EXIT_TSK, the task completes the cycle: it executes the program on the inputs just sampled as the diagram says, takes the history and sends every output module what it computed, once and in order. It then calls the hook at the end once, sends nothing more and returns. No earlier cycle is cut short and no later one begins.

*What is proved:* C90_stop_partial: the task as a controller on hardware whose read callbacks may request the end; all cycles up to and including the one with the request are computed as the diagram says and their outputs are sent, then the end hook is called once and the task returns. Used for C89. With a watchdog: C93. Missing: what C73 misses (wrap of the scan counter, modules with analog inputs only). Violated by counters in the first column, which behave differently in the last cycle (C90_refuted_counter).

* `C90_stop_partial` [pcq]
* `C90_refuted_counter` [pq]

### C91 – Loading, compacting and validating program files never misuses the heap and leaves nothing behind (partial)

ladder_json_to_program, whatever was done with the context before, whatever the file contains and whichever requests for memory fail, frees no block twice, uses no block that is not allocated and reads through no null pointer; when it fails, the program is as before or empty; and a following ladder_ctx_deinit frees every block allocated since the initialisation. ladder_compact_json_file and ladder_validate_json_file free everything they allocate on every path. Without failures of memory, the loader leaves the program that the description of the JSON form says.

*What is proved:* Pointer-level model of the loader and of the compacting and validating functions, an arbitrary allocator. Proved: loading a file misuses no block after any history (including earlier loads), whichever requests are refused except those for row tables; on failure the program is unchanged or empty; teardown then frees exactly what was allocated (C91_load_partial). Assumes networks that announce rows have columns and those rows (FirmFile), which every well-formed program with dimensions in range has (C91_wellformed). Without refusals the result is that of the JSON model (C91_agrees). Compacting and validating leave the heap as it was, without hypotheses (C91_compact, C91_validate). Refuted otherwise: refused row table, rows announced but missing, rows without columns (C91_refuted_*). A cJSON tree counts as one block; saving is the subject of C92.

* `C91_load_partial` [pcq]
* `C91_wellformed` [p]
* `C91_agrees` [pcq]
* `C91_compact` [pcq]
* `C91_validate` [pcq]
* `C91_refuted_table` [pcq]
* `C91_refuted_no_rows` [pcq]
* `C91_refuted_no_columns` [pcq]

### C92 – Saving a program never misuses the heap, leaves nothing behind and closes the file (partial)

ladder_program_to_json, whatever was done with the context before and whichever requests for memory fail, frees no block twice, uses no block that is not allocated and reads through no null pointer; on every path it frees everything it allocated and closes the file it opened, so that a later ladder_ctx_deinit frees every block allocated since the initialisation. It reports success exactly when the file could be opened and there was memory for everything it needs.

*What is proved:* C92_save_partial: for every history of a context (C60's Built, which now contains saves), a program without texts, every pattern of refused requests and both outcomes of fopen, saving misuses no block and keeps every block that was in use; if the names of the arrays are granted nothing is left and the file is closed; it fails if the file cannot be opened and succeeds with memory for everything. C92_whole: cells of such a program have the operands they announce (an invariant of all calls, needed because the writer reads data without a test). C92_teardown: teardown after a save frees everything. Partial because the code violates the rest: C92_refuted_names (a refused name is not noticed, success is reported, the array stays allocated), C92_refuted_members (a refused member is left out, success is reported), C92_refuted_text (a text operand makes it read an uninitialised buffer).

* `C92_save_partial` [pcq]
* `C92_whole` [pcq]
* `C92_teardown` [pcq]
* `C92_refuted_names` [pcq]
* `C92_refuted_members` [pcq]
* `C92_refuted_text` [pcq]

### C93 – A controller whose cycle takes too long still sends its outputs, then reports, waits and ends; a stop or a safe state is not to be had (partial)

With a watchdog limit configured, the task performs its cycles as the diagram says up to and including the first one that takes longer than the limit by the clock of the task, or in which a stop is requested. Also this cycle sends every output module what it computed, once and in order. If it took too long, the task then is in state ERROR, waits 1000 times, reports and ends with the hook at the end; no output module is sent anything more. Expected in addition: outputs are then switched off as after an invalid instruction, and a stop requested in that cycle ends the task at once.

*What is proved:* C93_watchdog_partial: the whole run of the task as a controller with a watchdog and requests to stop, for any clock: cycles as the diagram says up to the first overdue or stopped one, whose outputs are still sent; then the exact end (waits, report, end hook) and no command. With arithmetic on registers: C95_guarded. Same missing parts as C90; reports must leave the context alone. Violated expectations: the outputs are left switched on (C93_refuted_outputs), and a stop requested in an overdue cycle is lost, the task still runs after 1000 waits (C93_refuted_stop).

* `C93_watchdog_partial` [pcq]
* `C93_refuted_outputs` [pq]
* `C93_refuted_stop` [pq]

### C94 – How long a controller can run (partial)

A controller runs for as long as it is switched on: for every number of cycles the behaviour of ladder_task is defined. (It is not: scan_count has 32 bits and the average scan time is divided by it, so the cycle number 2^32 divides by zero. Precisely: over n iterations the behaviour of a task that runs a ladder diagram is defined if and only if its scan counter can count them, and no task whatsoever, with callbacks that leave the statistics alone, completes 2^32 cycles.)

*What is proved:* C94_exact_partial: under C73's hypotheses the task is defined over n iterations if and only if scan_count + n < 2^32, and otherwise its outcome is the division by zero. C94_safe: the same for diagrams that calculate, if an invariant of the diagram excludes arithmetic without a result. C94_doomed: every diagram, also one that overflows, with every input: a task without a watchdog that nobody stops ends in undefined behaviour after at most 2^32 cycles. C94_refuted_forever: the shipped kind of controller, started with counters at zero, divides by zero in cycle 2^32 whatever happens. C94_cycles: for every program and every hardware that leaves the statistics alone, no defined execution completes 2^32 cycles. Missing: the 'if' direction for other programs is C72.

* `C94_cycles` [pcq]
* `C94_doomed` [pcq]
* `C94_exact_partial` [pcq]
* `C94_refuted_forever` [pcq]
* `C94_safe` [pcq]

### C95 – A controller that calculates (proved)

A task whose diagram also adds, multiplies, divides, takes remainders and rotates by contents of registers performs its cycles as the diagram says (registers, commands to the output modules, readings of the clock), as long as the arithmetic of the diagram has results. In the first cycle in which some arithmetic of the diagram has none, and only then, the behaviour of ladder_task is undefined, by signed overflow, division by zero or a shift out of range. So if a property of the registers that excludes such arithmetic is kept by the cycles of the diagram, the controller never fails.

*What is proved:* C95_outcome: the exact dichotomy for whole runs of the task, for any number of iterations: cycles as the diagram says up to the first one whose arithmetic has no result, there undefined arithmetic and nothing else. C95_guarded: the same with a watchdog and requests to stop, of which C93 and C90 are special cases. C95_safe: invariants of the diagram that exclude such arithmetic make the controller safe. C95_counting is an example of the other case: D0 + 1 in every cycle is defined for exactly 2^31 - 8 cycles from D0 = 7; C95_counting_guarded the same controller with a watchdog. Scope: diagrams as in C71/C76 (no SUB, table moves, foreign calls), hardware as in C73 and C90, fewer than 2^32 cycles (C94).

* `C95_outcome` [pcq]
* `C95_safe` [pcq]
* `C95_counting` [pcq]
* `C95_counting_guarded` [pcq]
* `C95_guarded` [pcq]

### C96 – The self-test of the instructions passes (partial)

test_ladder_instructions, with which the application begins, ends and returns true: none of its 37 tests reports a failure, whatever the context held before, whatever the clock of the host says. (It does not: the tests of TOF and TP fail if the clock advances by 10 ms or more while the timer is executed. Precisely: the 35 other tests report no failure for every clock, the test of TOF reports two failures and that of TP one exactly if the clock advances by 10 ms or more between the first and the third of the three readings that the timer makes, and the self-test passes exactly if it does so in neither.)

*What is proved:* Proved: each of the 35 tests without TOF and TP reports no failure for every clock (C96_untimed); the failures of the tests of TOF and TP exactly (C96_off_delay, C96_pulse); the self-test ends and passes exactly if the clock is quick at two places, given as the ends of the first 32 and of the first 34 tests (C96_exact), hence always on a host whose clock does not advance by 10 ms within three readings (C96_passes_partial). The claim without the assumption on the clock is refuted: with 5 ms per external call the self-test fails (C96_refuted). Allocations succeed; what is printed is not modelled.

* `C96_untimed` [pq]
* `C96_off_delay` [pq]
* `C96_pulse` [pq]
* `C96_exact` [pq]
* `C96_passes_partial` [pq]
* `C96_refuted` [pq]

### C97 – The self-test of the instructions gives back the memory it allocates (partial)

test_ladder_instructions uses the heap without error - no dereference of NULL, no use of a freed block, no double free, whatever requests are refused - and, if all its requests are granted, ends with the blocks that were live when it began. (The second part is false: test_init overwrites the pointer to the block of the scheduled jobs, which ladder_ctx_init has allocated, with NULL, so that ladder_ctx_deinit cannot release it. Precisely: every test whose test_init succeeds leaves exactly that block behind, also if requests are refused later in the test, and the 37 tests with all requests granted leave exactly 37 blocks.)

*What is proved:* C97_no_misuse_partial: whatever requests are refused, the suite of 37 tests runs without misuse of the heap and releases no block that was live before. C97_test: a test whose test_init succeeds leaves exactly one block, the one that ladder_ctx_init put into ctx.cron, whatever happens later in the test. C97_suite: all requests granted, exactly 37 blocks remain. C97_refuted: so the claim that everything is given back is false. Assumed: realloc to a smaller size is granted.

* `C97_no_misuse_partial` [pcq]
* `C97_test` [pcq]
* `C97_suite` [pcq]
* `C97_refuted` [pcq]

### C98 – The application that comes with the library runs its program and says so (partial)

main, started on any host, passes its self-test, then runs the program in ladder_networks.json cycle by cycle until q or Q is typed - without undefined behaviour, without an error of an instruction, without a panic, with one command per cycle to the output module - and ends with status 0 exactly if it has run the program. (False in three ways: where the clock advances by 10 ms or more between certain two readings in the tests of TOF or TP it ends with status 1 before it has looked at the program; where the byte behind the table of instructions is not zero it ends with status 0 without having run the program; where reading that byte has no meaning it has undefined behaviour. Precisely: it runs the program exactly if the clock is quick at these two places and the byte is zero.)

*What is proved:* C98_course: the outcome of main for every clock and every value of the byte behind the table of instructions: status 1 exactly if the clock is slow in the tests of TOF or TP, otherwise status 0 without running the program if the byte is not zero, otherwise the task runs. C98_runs_partial: on a quick clock and with the byte zero, main runs the program until q or Q is typed, with one command per cycle, no error, no panic, the lamps as claimed in C89. C98_refuted, C98_refuted_status, C98_refuted_ub: the three ways in which the full claim is false. main is composed of the models of its parts; memory is not in this model (C60, C97).

* `C98_course` [pcq]
* `C98_runs_partial` [pcq]
* `C98_refuted` [pcq]
* `C98_refuted_status` [pcq]
* `C98_refuted_ub` [pcq]

### C99 – The application that comes with the library gives back the memory it allocates (partial)

main uses the heap without error - no dereference of NULL, no use of a freed block, no double free, whatever requests are refused and whatever its files contain - and ends with the blocks that were live when it began. (False. What holds: if the requests for the table of scheduled jobs and for the tables of rows of the program file are granted, and the program file has the rows it announces and no texts, nothing is misused and no block that was live before is released, whichever other requests are refused; if main comes to ladder_ctx_deinit and the names of the saved file were granted, exactly the blocks that the self-test has left are live; with everything granted these are exactly 37, however far main comes with its files. What does not hold: these 37 blocks are never released; if a request of the setup is refused, main ends without releasing the context; if the request for the table of scheduled jobs or for a table of rows is refused, NULL is dereferenced; saving a program file with a text among its operands is undefined behaviour; if the names of the saved file are refused, blocks of its tree remain.)

*What is proved:* C99_no_misuse_partial: with the table of scheduled jobs and the tables of rows granted, and a program file that has the rows it announces and no texts, main never misuses the heap and releases nothing that was live before, whichever other requests are refused (those of ladder_print included). C99_released: if main comes to ladder_ctx_deinit and the names of the saved file were granted, exactly the blocks left by the self-test are live. C99_abandoned: if main gives up in the setup, the heap stays as the failed step has left it. C99_all: with everything granted main ends with exactly 37 blocks more, whether the self-test passes or not. C99_refuted, C99_refuted_claim: so the claim is false, with the program file that comes with the application (mild_atHome). C99_refuted_abandoned: a refused request in the setup strands the context. C99_refuted_jobs: a refused table of scheduled jobs dereferences NULL. C99_refuted_rows: so does a refused table of rows. C99_refuted_names: with the names of the saved file refused 626 blocks remain after ladder_ctx_deinit (a program of one coil). C99_refuted_text: saving a program file with a text is undefined. Assumed: realloc to a smaller size is granted. Not in this model: the blocks of the port's hooks (C82) and what ladder_print reads of the operands.

* `C99_no_misuse_partial` [pcq]
* `C99_released` [pcq]
* `C99_abandoned` [pcq]
* `C99_all` [pcq]
* `C99_refuted` [pcq]
* `C99_refuted_claim` [pcq]
* `C99_refuted_abandoned` [pq]
* `C99_refuted_text` [pcq]
* `C99_refuted_rows` [pcq]
* `C99_refuted_names` [pcq]
* `C99_refuted_jobs` [pcq]
