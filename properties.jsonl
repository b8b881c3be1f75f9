{"id": "C01", "title": "Reading an operand never changes the process image", "statement": "When an instruction reads the current value of one of its operands, no register, flag, timer, counter, input, output, history value or program cell changes. The only things a read may touch are the context's error/state report and, when a register area is missing, one panic callback.", "quantifier": "every context, every operand kind and index, every callback behaviour", "why_tests_cant": "A test can only compare a handful of locations for a handful of operand kinds; the claim is about every location and every operand.", "anchors": ["source/include/ladder_fn_commons.h: ladder_get_data_value, safe_get_register_index"]}
{"id": "C02", "title": "A write through an operand changes exactly the addressed location", "statement": "When an instruction writes a result through an operand and the write is accepted, exactly the addressed register element changes; every other element of every register area, all history, all inputs/outputs other than the addressed one, and the program are left as they were.", "quantifier": "every context, every destination operand, every 32-bit value", "why_tests_cant": "Frame conditions range over all untouched locations and all values; tests sample a few.", "anchors": ["source/include/ladder_fn_commons.h: ladder_set_data_value"]}
{"id": "C03", "title": "Read-after-write coherence of registers", "statement": "After an accepted write of value v through an operand, reading the same operand returns v for 32-bit registers (D, C, IW, QW), and the low byte of v for byte-wide flags (M, Q, I).", "quantifier": "every context, every accepted destination, all 2^32 values", "why_tests_cant": "All 2^32 values times all register kinds cannot be enumerated by tests.", "anchors": ["source/include/ladder_fn_commons.h: ladder_set_data_value, ladder_get_data_value"]}
{"id": "C04", "title": "A bad destination is rejected without touching memory", "statement": "Writing through an operand whose register kind is not writable, whose index is negative or not below the configured quantity, or whose module/port does not exist reports an error and changes nothing; it never accesses memory outside the configured areas.", "quantifier": "every context produced by initialisation, every register kind, every 32-bit index, module and port", "why_tests_cant": "Absence of out-of-bounds access for every index cannot be established by executing some indices.", "anchors": ["source/include/ladder_fn_commons.h: ladder_set_data_value, safe_get_register_index, safe_check_module_port"]}
{"id": "C05", "title": "Operand reads never leave the configured areas", "statement": "Reading the current value of any operand (any register kind, any index/module/port) yields a value without accessing memory outside the configured areas.", "quantifier": "every context produced by initialisation, every operand", "why_tests_cant": "Out-of-bounds reads may go unnoticed in a test run; the claim is for all indices.", "anchors": ["source/include/ladder_fn_commons.h: ladder_get_data_value"]}
{"id": "C06", "title": "History reads never leave the configured areas", "statement": "Reading the previous-scan value of any operand yields a value without accessing memory outside the configured areas.", "quantifier": "every context produced by initialisation, every operand", "why_tests_cant": "Out-of-bounds reads may go unnoticed in a test run; the claim is for all indices.", "anchors": ["source/include/ladder_fn_commons.h: ladder_get_previous_value"]}
{"id": "C07", "title": "Contacts conduct exactly on their condition", "statement": "A normally-open contact conducts iff it is powered and its operand is non-zero; a normally-closed contact conducts iff powered and its operand is zero; so with the same operand and power exactly one of both conducts, and neither changes anything but its own cell.", "quantifier": "every operand value, every power state, every context in which the operand is readable", "why_tests_cant": "Covers all operand kinds and values; tests use two or three flags.", "anchors": ["source/instructions/fn_NO.c: fn_NO", "source/instructions/fn_NC.c: fn_NC", "source/instructions/fn_NEG.c: fn_NEG", "source/instructions/fn_CONN.c: fn_CONN"]}
{"id": "C08", "title": "Edge contacts fire exactly once per transition", "statement": "Over any run of the task, a rising-edge contact on a digital input conducts in a cycle iff it is powered and the input is non-zero in this cycle and was zero in the previous one; falling-edge dually. Hence it conducts for exactly one cycle per transition.", "quantifier": "every sequence of input values over any number of cycles", "why_tests_cant": "Quantifies over unbounded input histories.", "anchors": ["source/instructions/fn_RE.c: fn_RE", "source/instructions/fn_FE.c: fn_FE", "source/ladder_task.c: ladder_task"]}
{"id": "C09", "title": "A coil copies its power to its register every scan", "statement": "After a coil executes, its register holds 1 if the coil was powered and 0 otherwise, and the power continues unchanged to the right.", "quantifier": "every writable flag operand, both power states, every prior register content", "why_tests_cant": "All prior contents and operands.", "anchors": ["source/instructions/fn_COIL.c: fn_COIL"]}
{"id": "C10", "title": "Latch / unlatch pair remembers the last command", "statement": "Over any number of scans, a flag driven by one latch coil and one unlatch coil is set in a scan where the latch is powered and the unlatch is not, reset when the unlatch is powered, and otherwise keeps its value, wherever the two coils stand in the program.", "quantifier": "every sequence of power states, every number of scans", "why_tests_cant": "Unbounded history of commands.", "anchors": ["source/instructions/fn_COILL.c: fn_COILL", "source/instructions/fn_COILU.c: fn_COILU"]}
{"id": "C11", "title": "ADD, SUB and MUL compute the exact integer result", "statement": "When powered, ADD/SUB/MUL store the mathematically exact sum/difference/product of their 32-bit signed operands whenever it is representable, and the operation is well defined for every pair of operands.", "quantifier": "all pairs of 32-bit operand values", "why_tests_cant": "2^64 operand pairs.", "anchors": ["source/instructions/fn_ADD.c: fn_ADD", "source/instructions/fn_SUB.c: fn_SUB", "source/instructions/fn_MUL.c: fn_MUL"]}
{"id": "C12", "title": "DIV and MOD satisfy the Euclidean identity and are total", "statement": "When powered, DIV stores the quotient truncated toward zero and MOD the matching remainder, a = q*b + r with |r| < |b| and r having the sign of a; division by zero is handled without crashing.", "quantifier": "all pairs of 32-bit operand values", "why_tests_cant": "2^64 operand pairs including the two exceptional ones.", "anchors": ["source/instructions/fn_DIV.c: fn_DIV", "source/instructions/fn_MOD.c: fn_MOD"]}
{"id": "C13", "title": "Shifts are logical and total", "statement": "SHL multiplies the 32-bit value by 2^k modulo 2^32 and SHR divides it (unsigned) by 2^k, with k the amount reduced modulo 32 into 0..31, for every value and every (also negative) amount, without undefined behaviour.", "quantifier": "all 2^64 value/amount pairs", "why_tests_cant": "2^64 combinations, negative amounts included.", "anchors": ["source/instructions/fn_SHL.c: fn_SHL", "source/instructions/fn_SHR.c: fn_SHR"]}
{"id": "C14", "title": "Rotations are inverse of each other and total", "statement": "ROL/ROR rotate the 32-bit value by the amount reduced modulo 32; rotating left and then right by the same amount restores the value; both are well defined for every amount.", "quantifier": "all 2^64 value/amount pairs", "why_tests_cant": "2^64 combinations.", "anchors": ["source/instructions/fn_ROL.c: fn_ROL", "source/instructions/fn_ROR.c: fn_ROR"]}
{"id": "C15", "title": "AND, OR, XOR, NOT are bitwise", "statement": "When powered, AND/OR/XOR/NOT store, for every bit position, the Boolean function of the corresponding operand bits.", "quantifier": "all 32-bit operand values", "why_tests_cant": "2^64 operand pairs.", "anchors": ["source/instructions/fn_AND.c: fn_AND", "source/instructions/fn_OR.c: fn_OR", "source/instructions/fn_XOR.c: fn_XOR", "source/instructions/fn_NOT.c: fn_NOT", "source/include/ladder_fn_commons.h: to_integer"]}
{"id": "C16", "title": "Comparisons implement the signed order", "statement": "A powered comparison conducts iff the relation holds between the signed values of its operands, so exactly one of LT/EQ/GT conducts, GE is the negation of LT, LE of GT and NE of EQ; an unpowered comparison never conducts; comparisons change nothing but their own cell.", "quantifier": "all pairs of operand values, both power states", "why_tests_cant": "2^64 operand pairs.", "anchors": ["source/instructions/fn_EQ.c: fn_EQ", "source/instructions/fn_GT.c: fn_GT", "source/instructions/fn_GE.c: fn_GE", "source/instructions/fn_LT.c: fn_LT", "source/instructions/fn_LE.c: fn_LE", "source/instructions/fn_NE.c: fn_NE"]}
{"id": "C17", "title": "An unpowered computation has no effect", "statement": "A data instruction (arithmetic, bitwise, shift/rotate, move, table move) whose rung is not powered leaves every register unchanged and passes no power.", "quantifier": "every data instruction, every context, every operand", "why_tests_cant": "Ranges over all instructions and all register contents.", "anchors": ["source/instructions/*.c", "source/ladder_scan.c: ladder_scan"]}
{"id": "C18", "title": "On-delay timer: never early, never lost", "statement": "Over any sequence of scans, the done output of a TON becomes true exactly at the first scan at which the time since the first scan of the current powered period has reached the preset, stays true while powered, and is false (with accumulator and flags cleared) in every unpowered scan.", "quantifier": "every sequence of power states and non-decreasing clock readings, every preset and time base whose product fits 32 bits", "why_tests_cant": "Unbounded histories and arbitrary clock values.", "anchors": ["source/instructions/fn_TON.c: fn_TON", "source/instructions/fn_commons.c: basetime_factor"]}
{"id": "C19", "title": "Off-delay timer holds for exactly the preset", "statement": "The output of a TOF is true whenever it is powered, remains true after power is lost until the preset has elapsed since the first unpowered scan, and is false from then on until powered again.", "quantifier": "every sequence of power states and clock readings, every preset and time base whose product fits 32 bits", "why_tests_cant": "Unbounded histories and arbitrary clock values.", "anchors": ["source/instructions/fn_TOF.c: fn_TOF"]}
{"id": "C20", "title": "Pulse timer emits one pulse of the preset length per trigger", "statement": "Each time a TP is triggered by its input its output is true until the preset has elapsed, regardless of the input, and a new trigger after the pulse starts a new pulse.", "quantifier": "every sequence of power states and clock readings", "why_tests_cant": "Unbounded histories.", "anchors": ["source/instructions/fn_TP.c: fn_TP"]}
{"id": "C21", "title": "Up-counter counts rising edges and saturates", "statement": "Over any sequence of scans without reset, a CTU's count equals the number of false-to-true transitions of its input, stopping at the preset; its done output is true exactly when the preset has been reached.", "quantifier": "every finite sequence of input states, every positive preset", "why_tests_cant": "Unbounded histories.", "anchors": ["source/instructions/fn_CTU.c: fn_CTU"]}
{"id": "C22", "title": "Down-counter counts rising edges down to zero", "statement": "Over any sequence of scans without reset, a CTD's count equals its start value minus the number of false-to-true transitions of its input, never below zero; done is true exactly when it has reached zero.", "quantifier": "every finite sequence of input states, every start value", "why_tests_cant": "Unbounded histories.", "anchors": ["source/instructions/fn_CTD.c: fn_CTD"]}
{"id": "C23", "title": "MOVE copies bit-exactly or fails without effect", "statement": "MOVE between compatible registers makes the destination's 32 bits equal to the source's (a timer accumulator above INT32_MAX is read as INT32_MAX); an incompatible pair is reported as an error and no register changes.", "quantifier": "all register kinds, all indices, all values (including float bit patterns)", "why_tests_cant": "All bit patterns, including NaN payloads.", "anchors": ["source/instructions/fn_MOVE.c: fn_MOVE"]}
{"id": "C24", "title": "TMOVE is an all-or-nothing block copy", "statement": "A table move either copies exactly the requested words from source table to destination table (as if through a temporary buffer, so overlapping ranges are correct), or reports an error and leaves every table unchanged; it never touches anything outside the addressed range.", "quantifier": "all source/destination tables, positions and lengths, including overlapping ranges and bad indices", "why_tests_cant": "All ranges, overlaps and failure positions.", "anchors": ["source/instructions/fn_TMOVE.c: fn_TMOVE, ladder_get_table_i32, ladder_set_table_i32"]}
{"id": "C25", "title": "FOREIGN calls the function it names", "statement": "A FOREIGN instruction with id k calls exactly the k-th registered foreign function when it exists, and otherwise reports an error without calling anything.", "quantifier": "every id, every number of registered functions", "why_tests_cant": "All ids and registries.", "anchors": ["source/instructions/fn_FOREIGN.c: fn_FOREIGN", "source/include/ladder_fn_commons.h: to_integer"]}
{"id": "C26", "title": "Execution order is fixed by the program text", "statement": "In a scan that completes, every enabled network is executed in index order, rungs top to bottom and columns left to right; in a network without branches every cell is executed exactly once, in row-major order, whatever the register values are.", "quantifier": "every program, every register/input content, every number of networks, rows and columns", "why_tests_cant": "All programs and all data.", "anchors": ["source/ladder_scan.c: ladder_scan"]}
{"id": "C27", "title": "Disabled networks are inert", "statement": "A scan never executes an instruction of a disabled network nor changes its cells' states; with all networks disabled a scan changes no register.", "quantifier": "every program, every data", "why_tests_cant": "All programs.", "anchors": ["source/ladder_scan.c: ladder_scan"]}
{"id": "C28", "title": "Rows joined by a vertical bar carry the OR of their outputs", "statement": "After a branch group has been evaluated in a column, every row of the group carries the same power, which is the disjunction of the outputs the rows computed.", "quantifier": "every group size and every combination of row outputs", "why_tests_cant": "All group shapes.", "anchors": ["source/ladder_scan.c: ladder_scan"]}
{"id": "C29", "title": "A scan does a bounded amount of work", "statement": "A scan of any program terminates; no network runs more loop steps than the configured limit. Exceeding the limit puts the context in the error state with the overflow error, calls panic and aborts the scan at once.", "quantifier": "every program, every limit, every callback behaviour", "why_tests_cant": "Termination for all programs and callbacks.", "anchors": ["source/ladder_scan.c: ladder_scan"]}
{"id": "C30", "title": "The first failing instruction stops the scan and is reported", "statement": "If an instruction reports an error, no further instruction of any network is executed in that scan, the context is put in the invalid state and the last-executed record names the failing network, row, column and error.", "quantifier": "every program and failure position, every callback behaviour", "why_tests_cant": "All failure positions.", "anchors": ["source/ladder_scan.c: ladder_scan"]}
{"id": "C31", "title": "A scan never rewrites the program", "statement": "A scan changes no instruction code, no vertical bar, no operand and no network dimension or enable flag; the single exception is the data word of cells in disabled networks written by a table move.", "quantifier": "every program, every data, well-behaved callbacks", "why_tests_cant": "All programs.", "anchors": ["source/ladder_scan.c: ladder_scan", "source/instructions/*.c"]}
{"id": "C32", "title": "A well-formed logic program never faults", "statement": "A program whose operands lie within the configured quantities and that uses only contacts, coils, edges, comparisons, bit logic, timers and counters away from the left rail executes any number of scans without undefined behaviour and without an instruction error, whatever the inputs and clock.", "quantifier": "every such program, every register/input content, every clock, any number of scans", "why_tests_cant": "Safety over all executions.", "anchors": ["source/ladder_scan.c: ladder_scan", "source/instructions/*.c", "source/include/ladder_fn_commons.h"]}
{"id": "C33", "title": "Power flow is recomputed from scratch every scan", "statement": "The outcome of a scan (registers, outputs, cell states, events) does not depend on the cell states left over in the enabled networks from before the scan.", "quantifier": "every pair of contexts that differ only in those cell states", "why_tests_cant": "A two-run (hyper) property over all contexts.", "anchors": ["source/ladder_scan.c: ladder_scan"]}
{"id": "C34", "title": "Each cycle is read, then scan, then write", "statement": "In every cycle of a running task the callbacks occur in the order: before hook, one read per input module in registration order, instruction/rung callbacks of the scan, one write per output module in registration order, after hook. No output is written before all inputs have been read and the scan has ended.", "quantifier": "every context, callback behaviour and number of cycles", "why_tests_cant": "All traces.", "anchors": ["source/ladder_task.c: ladder_task"]}
{"id": "C35", "title": "A faulted scan never leaks half-computed outputs", "statement": "When a scan faults, the outputs handed to the write callbacks are those held before the scan (hold mode) or all zero (clear mode), for digital and analog outputs of every module.", "quantifier": "every program, fault position, output configuration and mode", "why_tests_cant": "All fault positions and module shapes.", "anchors": ["source/ladder_task.c: ladder_task"]}
{"id": "C36", "title": "A faulted scan rolls memory back and ends the task", "statement": "When a scan faults, flags M, Cd, Cr, Td, Tr return to their values at the end of the previous cycle, counters, timer accumulators, D and R are zeroed, the after hook and then the end hook are called once and the task returns.", "quantifier": "every program and fault position", "why_tests_cant": "All fault positions.", "anchors": ["source/ladder_task.c: ladder_task"]}
{"id": "C37", "title": "A stopped task waits a bounded time", "statement": "A task that is not in the running state performs at most 1000 waits of the configured delay; if the state has not become running by then it reports panic in the error state and terminates with the exit state. No input is read and no output is written while waiting.", "quantifier": "every behaviour of the environment during the waits", "why_tests_cant": "All schedules of state changes by other threads.", "anchors": ["source/ladder_task.c: ladder_task"]}
{"id": "C38", "title": "A stop request ends the task without another cycle", "statement": "If the state is the exit state when a cycle ends, the task performs no further read, scan or write and calls the end hook exactly once.", "quantifier": "every context and history", "why_tests_cant": "All histories.", "anchors": ["source/ladder_task.c: ladder_task"]}
{"id": "C39", "title": "The end hook runs exactly once on every termination", "statement": "Whenever the task function returns after having passed its start-up checks, the end-of-task hook has been called exactly once, as the last callback.", "quantifier": "every termination path and schedule", "why_tests_cant": "All termination paths.", "anchors": ["source/ladder_task.c: ladder_task"]}
{"id": "C40", "title": "An unusable context is refused before any callback", "statement": "If a mandatory function or memory area is missing, the task function sets the null-function state and returns without calling any callback and without changing anything else.", "quantifier": "every context", "why_tests_cant": "All combinations of missing parts.", "anchors": ["source/ladder_task.c: ladder_task"]}
{"id": "C41", "title": "Scan-time statistics are consistent", "statement": "After any positive number of measured cycles, min <= avg <= max, count and total equal the number and the sum of the measured times, and each measured time is the elapsed clock time modulo 2^64 (correct across clock wrap-around).", "quantifier": "every sequence of clock readings, any number of cycles below the counter limits", "why_tests_cant": "Unbounded sequences, wrap-around values.", "anchors": ["source/ladder_general.c: ladder_scan_time"]}
{"id": "C42", "title": "Scan-time watchdog fires exactly on excess", "statement": "At the end of a cycle the context is put into the error state and panic is called iff a watchdog limit is configured and the measured time exceeds it; the overrun flag is set iff a target is configured and exceeded.", "quantifier": "every measured time, limit and target", "why_tests_cant": "All 64-bit times.", "anchors": ["source/ladder_general.c: ladder_scan_time"]}
{"id": "C43", "title": "Cycle padding completes the target period", "statement": "In a normal cycle with a target period, if the measured time is below the target the task delays exactly the difference; otherwise, and without target, it does not delay.", "quantifier": "every measured time and target", "why_tests_cant": "All 64-bit times.", "anchors": ["source/ladder_task.c: ladder_task"]}
{"id": "C44", "title": "History equals the values at the end of the previous cycle", "statement": "During the scan of a cycle, the previous-value view of flags M, Cd, Cr, Td, Tr and outputs equals their value at the end of the previous cycle's scan, and that of inputs equals the value before this cycle's reads.", "quantifier": "every cycle of every run", "why_tests_cant": "All histories.", "anchors": ["source/ladder_general.c: ladder_save_previous_values", "source/ladder_task.c: ladder_task"]}
{"id": "C45", "title": "Fault clear restores a safe running state", "statement": "Clearing a fault succeeds exactly from the error state; it then sets the running state, zeroes timers, counters, D, R and all outputs (with output history), and leaves flags M, inputs and the program unchanged; from any other state it changes nothing.", "quantifier": "every context", "why_tests_cant": "All states and contents.", "anchors": ["source/ladder_general.c: ladder_fault_clear"]}
{"id": "C46", "title": "Context initialisation validates and zeroes", "statement": "Initialisation succeeds exactly for parameters in range (given memory), and yields a stopped context with all areas of the requested size zeroed, every cell an empty NOP and every network disabled; with parameters out of range nothing is changed.", "quantifier": "all parameter combinations", "why_tests_cant": "All sizes.", "anchors": ["source/ladder_general.c: ladder_ctx_init"]}
{"id": "C47", "title": "Module registration is atomic and order preserving", "statement": "Registering a read or write module either appends exactly one module (keeping all previous ones) or, on failure of its init hook or at the limit of 255, leaves the registered modules unchanged.", "quantifier": "every registration history", "why_tests_cant": "All histories and failure points.", "anchors": ["source/ladder_general.c: ladder_add_read_fn, ladder_add_write_fn"]}
{"id": "C48", "title": "Foreign registration keeps dense ids", "statement": "After any sequence of foreign registrations, at most 100 functions are registered, the i-th accepted one has id i as passed to its init hook, and a rejected registration changes nothing but the error report.", "quantifier": "every registration history", "why_tests_cant": "All histories.", "anchors": ["source/ladder_general.c: ladder_add_foreign"]}
{"id": "C49", "title": "Placing instructions never corrupts the grid", "statement": "Placing an instruction either fails leaving all cells unchanged, or occupies exactly its span of previously empty cells inside the grid; therefore, after any sequence of placements, every continuation cell belongs to exactly one multi-cell instruction directly above it and no two instructions overlap.", "quantifier": "every sequence of placement calls", "why_tests_cant": "All histories.", "anchors": ["source/ladder_general.c: ladder_fn_cell", "source/instructions/fn_commons.c: ladder_fn_iocd"]}
{"id": "C50", "title": "Clearing resets everything it names and nothing else", "statement": "Clearing the program empties every cell (NOP, no bar, no operands) and keeps grid dimensions, enables and registers; clearing memory zeroes flags and their history and keeps everything else.", "quantifier": "every context", "why_tests_cant": "All contents.", "anchors": ["source/ladder_general.c: ladder_clear_program, ladder_clear_memory"]}
{"id": "C51", "title": "The program checker is sound for operand ranges", "statement": "If the program checker accepts a program, every operand of every cell refers to an existing register or module/port.", "quantifier": "every program", "why_tests_cant": "All programs.", "anchors": ["utils/ladder_program_check.c: ladder_program_check"]}
{"id": "C52", "title": "The program checker never reads outside the program", "statement": "Checking a program never accesses memory outside the configured areas and always returns a definite verdict.", "quantifier": "every program and module configuration", "why_tests_cant": "All programs.", "anchors": ["utils/ladder_program_check.c: ladder_program_check"]}
{"id": "C53", "title": "Cron expressions denote the documented sets", "statement": "Parsing a field 'a', 'a-b', '*', '*/s', 'a-b/s' or a comma list accepts exactly numbers in the field's range and yields exactly the documented set of values; no value outside the field's range is ever set.", "quantifier": "every field text", "why_tests_cant": "All strings.", "anchors": ["optional/cron/lwdtc/lwdtc.c: lwdtc_cron_parse_with_len"]}
{"id": "C54", "title": "A cron job matches iff all its fields match", "statement": "A parsed expression matches a calendar time iff each of second, minute, hour, day of month, month, weekday and year is in its field's set.", "quantifier": "every parsed expression and calendar time in range", "why_tests_cant": "All times.", "anchors": ["optional/cron/lwdtc/lwdtc.c: lwdtc_cron_is_valid_for_time"]}
{"id": "C55", "title": "Next-occurrence search returns the earliest match", "statement": "If the search for the next time returns t then t is after the current time, matches, and no earlier time after the current one matches.", "quantifier": "every expression and current time", "why_tests_cant": "All times.", "anchors": ["optional/cron/lwdtc/lwdtc.c: lwdtc_cron_next"]}
{"id": "C56", "title": "Cron flags follow the schedule", "statement": "At the start of each scan the flags of all enabled auto-reset jobs are cleared; then, in registration order, every enabled job whose expression matches the current local time copies its enable flag to its flag; no other flag changes.", "quantifier": "every set of jobs and every time", "why_tests_cant": "All job sets and times.", "anchors": ["optional/cron/ladderlib_cron.c: ladderlib_cron_eval", "source/ladder_scan.c: ladder_scan"]}
{"id": "C57", "title": "A freshly initialised context can run", "statement": "A context initialised with valid parameters, an empty program, a clock and a delay, set to running, completes scan cycles without faulting.", "quantifier": "all valid initialisation parameters", "why_tests_cant": "All parameter combinations.", "anchors": ["source/ladder_general.c: ladder_ctx_init", "source/ladder_scan.c: ladder_scan", "optional/cron/ladderlib_cron.c: ladderlib_cron_eval"]}
{"id": "C58", "title": "Saving and loading a program is lossless", "statement": "Writing a program to its JSON form and loading that form into a context of the same configuration yields the same program.", "quantifier": "every valid program", "why_tests_cant": "All programs.", "anchors": ["utils/ladder_program_json.c: ladder_program_to_json, ladder_json_to_program"]}
{"id": "C59", "title": "Loading rejects malformed programs", "statement": "A JSON program with an unknown instruction symbol, unknown data type, a missing mandatory member or too few operands is rejected with an error.", "quantifier": "every JSON document", "why_tests_cant": "All documents.", "anchors": ["utils/ladder_program_json.c: ladder_json_to_program, ladder_validate_json"]}
{"id": "C60", "title": "Teardown releases every allocation exactly once", "statement": "After initialisation, any program construction and teardown, every block allocated by the library has been freed exactly once.", "quantifier": "every construction history and every allocation-failure point", "why_tests_cant": "All histories and failure points.", "anchors": ["source/ladder_general.c: ladder_ctx_deinit, ladder_ctx_init, ladder_clear_program"]}
{"id": "C61", "title": "Counter reset dominates", "statement": "When its reset input is on, a counter's execution leaves it reset whatever its count input does: a CTU with count 0 and a CTD with its preset, not done and with its output off (positive preset).", "quantifier": "every state of the counter and both inputs", "why_tests_cant": "All register contents and both count input states; the simultaneous case is easily missed.", "anchors": ["source/instructions/fn_CTU.c: fn_CTU", "source/instructions/fn_CTD.c: fn_CTD"]}
{"id": "C62", "title": "A result that cannot be stored is reported", "statement": "If the destination operand of a coil, arithmetic, bit logic, shift, rotate or move instruction names no existing writable register, the instruction returns an error code.", "quantifier": "every instruction, operand combination, power state and register content", "why_tests_cant": "All instructions with all unusable destinations.", "anchors": ["source/instructions/fn_COIL.c: ladder_fn_COIL", "source/instructions/fn_ADD.c: ladder_fn_ADD", "source/instructions/fn_SHL.c: ladder_fn_SHL", "source/instructions/fn_MOVE.c: ladder_fn_MOVE", "source/include/ladder_fn_commons.h: ladder_set_data_value"]}
{"id": "C63", "title": "A stop requested during a cycle is not lost", "statement": "If a callback sets the exit state during a cycle and no callback restarts the program, the cycle ends in the exit state and the task ends without another read, scan or write.", "quantifier": "every cycle, program, set of callbacks and point of the request", "why_tests_cant": "All interleavings of requests, faults and watchdog reports.", "anchors": ["source/ladder_task.c: ladder_task", "source/ladder_scan.c: ladder_scan", "source/ladder_general.c: ladder_scan_time"]}
{"id": "C64", "title": "An accepted program is laid out consistently", "statement": "If the program checker accepts a program, every instruction fits in its column with the cells below it, up to its height, marked as its continuation and free of operands, and every continuation cell belongs to such an instruction.", "quantifier": "every program, set of foreign functions and grid size", "why_tests_cant": "The layout condition relates each cell to the cells above and below it in grids of any size.", "anchors": ["utils/ladder_program_check.c: ladder_program_check (expected_multi)"]}
{"id": "C65", "title": "The checker accepts every valid program", "statement": "A program with a consistent layout, whose operands are of the kinds its instructions take and refer to existing registers and ports, is accepted by the checker.", "quantifier": "every valid program", "why_tests_cant": "All valid programs; a false rejection depends on a coincidence between time base codes and register kinds.", "anchors": ["utils/ladder_program_check.c: ladder_program_check"]}
{"id": "C66", "title": "Nothing is left of a rejected document", "statement": "After a JSON document was rejected every cell of every network is empty (no instruction, bar, power or operands); a document that is not a list of networks leaves the context untouched.", "quantifier": "every context and JSON document", "why_tests_cant": "All documents: the failure can be at any network, row, cell or operand, after any part of the program was already replaced.", "anchors": ["utils/ladder_program_json.c: ladder_json_to_program", "ladder_general.c: ladder_clear_program"]}
{"id": "C67", "title": "Loading changes nothing but the program", "statement": "Loading a JSON document, accepted or rejected, changes nothing of the context but its networks, whose number stays.", "quantifier": "every context and JSON document", "why_tests_cant": "All documents and contexts.", "anchors": ["utils/ladder_program_json.c: ladder_json_to_program"]}
{"id": "C68", "title": "An accepted document means what it says", "statement": "After an accepted JSON document every network it describes has the dimensions, instructions, bars and operands of its last description, every other network is empty, and all blocks have the sizes the rest of the library relies on.", "quantifier": "every context and JSON document", "why_tests_cant": "All documents: any order and repetition of networks, any members, any number text.", "anchors": ["utils/ladder_program_json.c: ladder_json_to_program, parse_module_port, get_register_code, get_instruction_code"]}
{"id": "C69", "title": "A program the checker accepts runs without faults", "statement": "In a context with all memory allocated, a clock and an orderly cron table, a program that ladder_program_check accepts executes any number of scans without undefined behaviour and without any instruction reporting an error.", "quantifier": "every context and program accepted by the checker, every register content, clock, callback behaviour and number of scans", "why_tests_cant": "All accepted programs and all register contents over an unbounded number of scans.", "anchors": ["utils/ladder_program_check.c: ladder_program_check", "source/ladder_scan.c: ladder_scan", "source/instructions/*.c: all instruction functions"]}
{"id": "C70", "title": "A loaded and accepted program runs without faults", "statement": "A JSON document that is loaded without error, and whose program the checker accepts, executes any number of scans without undefined behaviour and without any instruction reporting an error.", "quantifier": "every JSON document, context, register content, clock, callback behaviour and number of scans", "why_tests_cant": "All documents composed with all executions.", "anchors": ["utils/ladder_program_json.c: ladder_json_to_program", "utils/ladder_program_check.c: ladder_program_check", "source/ladder_scan.c: ladder_scan"]}
{"id": "C71", "title": "A scan computes the ladder diagram", "statement": "After a scan every register holds what the ladder diagram prescribes: the cron jobs, then the enabled networks in order, each rung from top to bottom, power flowing from the left rail through the columns, every cell acting on the power left of its row (a counter also on that of the row below), timers taking the time from the clock, and the wires to the right of the cells of a column connected where vertical bars connect them. The same holds for any number of scans with arbitrary changes of the registers in between.", "quantifier": "every program, register content, cron table, clock, local time and number of scans", "why_tests_cant": "All programs, grids and register contents against an independent meaning of ladder diagrams; not finitely many.", "anchors": ["source/ladder_scan.c: ladder_scan", "source/instructions/*.c: the instruction functions"]}
{"id": "C72", "title": "A running task has no undefined behaviour", "statement": "A task that runs a well-formed program on a complete configuration never has undefined behaviour, for any number of iterations of its main loop, any clock and any register contents, whatever the callbacks do to registers and state (including stopping the task or faking a fault) as long as they leave program and configuration alone; no instruction reports an error, all memory blocks keep their sizes and every bool stays valid.", "quantifier": "every well-formed program, configuration, register content, clock, callback behaviour and number of iterations", "why_tests_cant": "Unboundedly long runs with arbitrary callback behaviour; undefined behaviour need not show in a test.", "anchors": ["source/ladder_task.c: ladder_task", "source/ladder_general.c: ladder_save_previous_values, ladder_scan_time", "source/ladder_scan.c: ladder_scan"]}
{"id": "C73", "title": "The task is a synchronous controller", "statement": "A task that runs an accepted ladder program stays in state running and, for any number of iterations, performs exactly that many cycles one after the other. In each cycle the inputs are sampled once, before anything is computed; the due cron jobs and then the networks transform the registers as the ladder diagram says; the history of inputs, flags and outputs is what the diagram's edge instructions and the next cycle see; and every output module is sent the outputs computed in this very cycle, once and in order. Nothing else is ever sent to an output module, and after the last cycle the registers hold what the cycles make of their contents at the start.", "quantifier": "every well-formed program that is a ladder diagram, register content, sequence of inputs supplied by the hardware, clock and number of cycles", "why_tests_cant": "A whole-system refinement over unboundedly many cycles with arbitrary inputs: a test sees finitely many input sequences of one program.", "anchors": ["source/ladder_task.c: ladder_task", "source/instructions/*.c", "source/ladder_scan.c: ladder_scan", "source/ladder_general.c: ladder_save_previous_values, ladder_scan_time"]}
{"id": "C74", "title": "Several cron expressions together", "statement": "With several cron expressions, the combined test 'any of them' reports a match exactly when the time matches at least one of them, the combined test 'all of them' exactly when it matches every one, and parsing several expressions parses every one in order or reports the position of the first one that cannot be parsed.", "quantifier": "Every list of expressions written in the documented syntax (and, for parsing, every list of texts), every calendar time of the years 2000 to 2103.", "why_tests_cant": "The lists have any length and every expression and time is a parameter; an implementation that confuses 'any' with 'all', stops one entry early or reports a wrong index for a late failure passes tests with short lists.", "anchors": ["optional/cron/lwdtc/lwdtc.c: lwdtc_cron_parse_multi, lwdtc_cron_is_valid_for_time_multi_or, lwdtc_cron_is_valid_for_time_multi_and"]}
{"id": "C75", "title": "A counter that is done can be reset from its second row", "statement": "In a running program, a counter that has reached its preset starts again when the row below it, which is its reset input, passes power up to it.", "quantifier": "Every program of ladder diagram instructions in which a counter stands in a row with a rung of its own below, every number of scans, every sequence of inputs.", "why_tests_cant": "Needs every program, every history of inputs and any number of scans: whether the reset input is evaluated before or after the counter in a scan is decided by the order in which rows and columns are visited, which tests of a single instruction with hand-set cell states do not exercise.", "anchors": ["source/instructions/fn_CTU.c: fn_CTU", "source/instructions/fn_CTD.c: fn_CTD", "source/ladder_scan.c: ladder_scan"]}
{"id": "C76", "title": "Undefined arithmetic is exactly what the diagram says", "statement": "A scan of a ladder diagram with additions, multiplications, divisions, remainders and rotations of arbitrary registers either ends with the registers the diagram prescribes, or has undefined behaviour, and the latter happens exactly when some arithmetic that is executed in the diagram has no result (a sum, product or quotient that does not fit 32 bits, a remainder by zero, a rotation by a multiple of 32). No other undefined behaviour is possible, and up to that point the registers followed the diagram.", "quantifier": "Every program of ladder diagram instructions (branches starting at the left rail, operands present and existing), every register contents, every sequence of clock readings, every number of scans, every change of the registers between scans.", "why_tests_cant": "Whether an overflow happens depends on the values of all registers and the history of the run; tests see single values, and an overflow that was compiled to wrap-around is not visible to them.", "anchors": ["source/instructions/fn_ADD.c: fn_ADD", "source/instructions/fn_MUL.c: fn_MUL", "source/instructions/fn_DIV.c: fn_DIV", "source/instructions/fn_MOD.c: fn_MOD", "source/instructions/fn_ROL.c: fn_ROL", "source/instructions/fn_ROR.c: fn_ROR", "source/ladder_scan.c: ladder_scan"]}
{"id": "C77", "title": "The validator decides JSON Schema", "statement": "For every JSON Schema (draft 7) and every document, the validator has a defined result, and it accepts the document exactly when the document satisfies the schema.", "quantifier": "Every schema and every document, of any depth and size; every comparison function that recognises equal scalars.", "why_tests_cant": "Both the schema and the document are arbitrary trees; tests try a few pairs, and a keyword that is silently ignored or a conversion that is undefined for large numbers only shows for particular combinations.", "anchors": ["utils/ladder_program_json.c: validate_json", "ladder_networks_schema.json"]}
{"id": "C78", "title": "A valid document can be loaded", "statement": "A document that the validator accepts under the schema that comes with the library is loaded without error and without undefined behaviour into a context with enough networks.", "quantifier": "Every document accepted under the shipped schema, every context that can receive a program.", "why_tests_cant": "The schema and the loader are two separate descriptions of the same format, with 37 symbols and any number of networks, rows and operands; whether they agree is a statement about all documents.", "anchors": ["ladder_networks_schema.json", "utils/ladder_program_json.c: validate_json, ladder_json_to_program"]}
{"id": "C79", "title": "A saved program is valid", "statement": "The document written for a program is accepted by the validator under the schema that comes with the library.", "quantifier": "Every program that can be saved, of any size and with any instructions and operands.", "why_tests_cant": "Needs every instruction with every operand type, in every program; a name that the writer and the schema spell differently only shows for the instruction concerned.", "anchors": ["utils/ladder_program_json.c: ladder_program_to_json, get_data_name", "ladder_networks_schema.json"]}
{"id": "C80", "title": "The panic report of the shipped port names what went wrong", "statement": "Whenever the library calls the panic callback of the shipped port, the callback reads its name tables only inside their bounds and prints the name of the state, of the instruction and of the error recorded in the context.", "quantifier": "Every context, in particular every one in which the library calls the panic callback: any state, any last instruction, any error code.", "why_tests_cant": "The tables are indexed by enumerators added later than the tables; only the rare error codes and the last two instructions are outside, and reading one entry past a table of pointers usually prints something or crashes only sometimes.", "anchors": ["port/dummy/port_dummy.c: dummy_on_panic, _fn_str, _fn_err_str, _ladder_status_str", "ladder.h: ladder_ins_err_t, ladder_instruction_t", "source/ladder_scan.c: ladder_scan"]}
{"id": "C81", "title": "The read and write callbacks of the shipped port", "statement": "dummy_read toggles exactly the input named by the last key typed, or asks the task to stop, and changes nothing else; dummy_write changes nothing and shows the contents of the flags, outputs, timers, counters and cell states; both are defined exactly when the memory they show exists.", "quantifier": "Every context, every module number, every sequence of keys typed between two scans.", "why_tests_cant": "Needs every key sequence and every memory size; a configuration with one flag less than the screen shows reads past the block without a visible effect.", "anchors": ["port/dummy/port_dummy.c: dummy_read, dummy_write"]}
{"id": "C82", "title": "The shipped port and the shipped foreign function release all their memory", "statement": "However modules and foreign functions are registered and initialised again, and whichever requests for memory are refused, the init hooks of the shipped port and the shipped foreign function never misuse the heap, and after teardown every block they requested has been freed.", "quantifier": "Every sequence of registrations and initialisations, every pattern of refused allocations, every initial heap.", "why_tests_cant": "The refused requests are an infinite family of schedules; a leak or a double free appears only for some of them.", "anchors": ["port/dummy/port_dummy.c: dummy_init_read, dummy_init_write", "foreign_functions/fn_dummy/fn_dummy.c", "source/ladder_general.c: ladder_add_read_fn, ladder_add_write_fn, ladder_add_foreign, ladder_ctx_deinit"]}
{"id": "C83", "title": "Clock and delay of the shipped port", "statement": "dummy_delay sleeps exactly the requested number of milliseconds however often signals interrupt it; dummy_millis gives the time of day in whole milliseconds, rounded down, so that it never goes back when the time of day does not.", "quantifier": "Every request, every sequence of interruptions, every time of day.", "why_tests_cant": "Interruptions and times far from the present are not under the control of a test.", "anchors": ["port/dummy/port_dummy.c: dummy_delay, dummy_millis"]}
{"id": "C84", "title": "A task with the shipped port: neither the library nor a callback is ever undefined", "statement": "A task that executes a well-formed program with the callbacks of the shipped port (reading keys, displaying, clock, delay, panic report) and the shipped foreign function, on a configuration with the memory these show and without a watchdog, has no undefined behaviour in the library or in any callback; no instruction reports an error, the panic callback is never called, and the state stays running until an exit is asked for.", "quantifier": "Every well-formed program and configuration, every sequence of typed keys, every clock and calendar, any number of iterations below 2^32.", "why_tests_cant": "The input comes from a keyboard and the clock; a run of any length for all of them cannot be enumerated.", "anchors": ["port/dummy/port_dummy.c", "foreign_functions/fn_dummy/fn_dummy.c", "source/ladder_task.c: ladder_task"]}
{"id": "C85", "title": "The shipped application starts its program and runs it without faults", "statement": "The application that comes with the library initialises it, registers its hardware, callbacks, cron jobs and foreign function, validates, loads, saves and checks the shipped program, and starts the task, whatever the context held before; the task then runs without undefined behaviour in the library or the callbacks, without error and without panic, whatever is typed, and never changes the program.", "quantifier": "Every previous content of the context, every sequence of keys, every clock and calendar, any number of iterations below 2^32.", "why_tests_cant": "A run shows one sequence of keys and one clock; reading past a table goes unnoticed in a run.", "anchors": ["test/ladderlib_test.c: main", "ladder_networks.json", "source/ladder_task.c", "utils/ladder_program_json.c: ladder_json_to_program"]}
{"id": "C86", "title": "Drawing an accepted program is free of undefined behaviour", "statement": "ladder_print draws every program that ladder_program_check accepts without undefined behaviour: it reads no network, row, cell, operand, string or foreign function that is not stored, converts no float that is not a number, and writes only within the buffer that it allocates for a network, whether the allocation succeeds or not.", "quantifier": "Every context accepted by the checker, every outcome of the allocations, every name of foreign functions.", "why_tests_cant": "Reads behind an operand array and writes behind a buffer are silent in a run; programs are unbounded.", "anchors": ["utils/ladder_print.c: ladder_print, fn_to_str, ftos", "include/ladder.h: LADDER_VERTICAL_BAR"]}
{"id": "C87", "title": "The drawing shows the program, each instruction once, in its place and aligned", "statement": "In the drawing of a network each instruction appears once, at its row and column, over exactly the rows that it covers: its sign with wires (joined to the vertical bar where a bar starts at its row or the next), and its operands; empty lines are filled with blanks and all pieces are 19 characters wide, so that columns are aligned.", "quantifier": "Every program that is laid out, of up to 32 rows and 255 columns per network.", "why_tests_cant": "A test compares one picture; that no instruction hides or overwrites another needs an argument over all layouts.", "anchors": ["utils/ladder_print.c: ladder_print, fn_to_str"]}
{"id": "C88", "title": "Floats are drawn with their value to two decimals", "statement": "The text that ladder_print makes of a float operand of magnitude up to one million is a decimal number with two digits after the point and the sign of the float, which differs from the float by at most half a hundredth, up to rounding errors of single precision arithmetic below 1/65536 of a hundredth; larger floats are marked as overflow. The text is never longer than its buffer of 12 bytes.", "quantifier": "All 2^32 bit patterns of a float that are numbers.", "why_tests_cant": "Rounding and carry depend on the bits; a test covers a few of four billion patterns.", "anchors": ["utils/ladder_print.c: ftos"]}
{"id": "C89", "title": "The shipped application flashes two lamps five times each, one after the other, and two outputs follow a key", "statement": "When the application that comes with the library starts its task, it performs its cycles up to and including the first one in which q or Q is typed, and then ends. Every cycle sends exactly one command to the output module, computed from the characters typed and the clock alone: port 0 flashes at most five times, with pauses and flashes of five seconds (up to the length of the cycles at their ends) and a fifth flash that lasts one cycle; port 1 does the same, but not before the fifth flash of port 0 has begun; ports 3 and 4 are on exactly when an odd number of the samples so far ended in the character 7; all other outputs are zero.", "quantifier": "Every previous content of the context, every sequence of characters, every calendar, any number of iterations below 2^32, every clock (for the durations: every clock that does not run backwards).", "why_tests_cant": "The behaviour depends on when the cycles read the clock and on what is typed; a run shows one timing of one session.", "anchors": ["test/ladderlib_test.c: main", "ladder_networks.json", "port/dummy/port_dummy.c: dummy_read, dummy_write, dummy_millis", "source/ladder_task.c: ladder_task", "source/instructions/fn_TON.c, fn_CTU.c"]}
{"id": "C90", "title": "A controller asked to stop while it samples its inputs finishes its cycle, sends its outputs, and ends", "statement": "When a read callback sets state EXIT_TSK, the task completes the cycle: it executes the program on the inputs just sampled as the diagram says, takes the history and sends every output module what it computed, once and in order. It then calls the hook at the end once, sends nothing more and returns. No earlier cycle is cut short and no later one begins.", "quantifier": "Every ladder diagram as in C73 (without counters in the first column), every hardware, every set of instants at which a stop is requested, any number of cycles.", "why_tests_cant": "The request can come at any module of any cycle; a test stops at one point of one program and sees one set of outputs.", "anchors": ["source/ladder_task.c: ladder_task", "source/ladder_task.c: ladder_scan", "source/instructions/fn_CTU.c, fn_CTD.c", "port/dummy/port_dummy.c: dummy_read"]}
{"id": "C91", "title": "Loading, compacting and validating program files never misuses the heap and leaves nothing behind", "statement": "ladder_json_to_program, whatever was done with the context before, whatever the file contains and whichever requests for memory fail, frees no block twice, uses no block that is not allocated and reads through no null pointer; when it fails, the program is as before or empty; and a following ladder_ctx_deinit frees every block allocated since the initialisation. ladder_compact_json_file and ladder_validate_json_file free everything they allocate on every path. Without failures of memory, the loader leaves the program that the description of the JSON form says.", "quantifier": "All histories of a context, all files (missing, not JSON, any tree), all patterns of refused requests for memory.", "why_tests_cant": "Error paths are reached when one of many allocations fails or a document breaks off at one of many places; a test forces a few of these combinations.", "anchors": ["utils/ladder_program_json.c: ladder_json_to_program, ladder_compact_json_file, ladder_validate_json_file, read_file, write_file", "source/ladder.c: ladder_clear_program, ladder_ctx_deinit"]}
{"id": "C92", "title": "Saving a program never misuses the heap, leaves nothing behind and closes the file", "statement": "ladder_program_to_json, whatever was done with the context before and whichever requests for memory fail, frees no block twice, uses no block that is not allocated and reads through no null pointer; on every path it frees everything it allocated and closes the file it opened, so that a later ladder_ctx_deinit frees every block allocated since the initialisation. It reports success exactly when the file could be opened and there was memory for everything it needs.", "quantifier": "All histories of a context, all patterns of refused requests for memory, files that can and cannot be opened.", "why_tests_cant": "The error paths number in the hundreds (one per node of the tree being built) and are reached only when one particular request fails.", "anchors": ["utils/ladder_program_json.c: ladder_program_to_json", "source/ladder.c: ladder_fn_cell, ladder_clear_program, ladder_ctx_deinit"]}
{"id": "C93", "title": "A controller whose cycle takes too long still sends its outputs, then reports, waits and ends; a stop or a safe state is not to be had", "statement": "With a watchdog limit configured, the task performs its cycles as the diagram says up to and including the first one that takes longer than the limit by the clock of the task, or in which a stop is requested. Also this cycle sends every output module what it computed, once and in order. If it took too long, the task then is in state ERROR, waits 1000 times, reports and ends with the hook at the end; no output module is sent anything more. Expected in addition: outputs are then switched off as after an invalid instruction, and a stop requested in that cycle ends the task at once.", "quantifier": "Every ladder diagram as in C73, every hardware and clock, every limit, every set of instants at which a stop is requested, any number of cycles.", "why_tests_cant": "Whether and where a cycle is too long depends on the clock at every call; a test sees one clock and one program.", "anchors": ["source/ladder_general.c: ladder_scan_time", "source/ladder_task.c: ladder_task", "source/ladder_task.c: MAX_WAIT_CYCLES"]}
{"id": "C94", "title": "How long a controller can run", "statement": "A controller runs for as long as it is switched on: for every number of cycles the behaviour of ladder_task is defined. (It is not: scan_count has 32 bits and the average scan time is divided by it, so the cycle number 2^32 divides by zero. Precisely: over n iterations the behaviour of a task that runs a ladder diagram is defined if and only if its scan counter can count them, and no task whatsoever, with callbacks that leave the statistics alone, completes 2^32 cycles.)", "quantifier": "Every ladder diagram as in C73, every hardware and clock, any number of cycles; for the bound on completed cycles every program whatsoever.", "why_tests_cant": "At one cycle per millisecond the failure comes after fifty days of uninterrupted operation; a test of that length is not run, and a test that presets the counter shows one program only.", "anchors": ["source/ladder_general.c: ladder_scan_time", "ladder.h: scan_count", "source/ladder_task.c: ladder_task"]}
{"id": "C95", "title": "A controller that calculates", "statement": "A task whose diagram also adds, multiplies, divides, takes remainders and rotates by contents of registers performs its cycles as the diagram says (registers, commands to the output modules, readings of the clock), as long as the arithmetic of the diagram has results. In the first cycle in which some arithmetic of the diagram has none, and only then, the behaviour of ladder_task is undefined, by signed overflow, division by zero or a shift out of range. So if a property of the registers that excludes such arithmetic is kept by the cycles of the diagram, the controller never fails.", "quantifier": "Every ladder diagram as in C73 with the arithmetic of C76, every hardware and clock, any number of cycles (below the 2^32 of C94), every invariant.", "why_tests_cant": "An overflow after 2^31 cycles, or for one particular pattern of inputs, is not reached by a test; that there is no other reason for undefined behaviour is a statement about all programs.", "anchors": ["source/ladder_task.c: ladder_task", "source/instructions/fn_ADD.c", "source/instructions/fn_DIV.c", "source/instructions/fn_MOD.c"]}
{"id": "C96", "title": "The self-test of the instructions passes", "statement": "test_ladder_instructions, with which the application begins, ends and returns true: none of its 37 tests reports a failure, whatever the context held before, whatever the clock of the host says. (It does not: the tests of TOF and TP fail if the clock advances by 10 ms or more while the timer is executed. Precisely: the 35 other tests report no failure for every clock, the test of TOF reports two failures and that of TP one exactly if the clock advances by 10 ms or more between the first and the third of the three readings that the timer makes, and the self-test passes exactly if it does so in neither.)", "quantifier": "Every clock, every local time, every content of the context before the test, every number of external calls made before.", "why_tests_cant": "The self-test is itself a test: a run shows one clock. That it fails on a slow or a preempted host, and for no other reason, is a statement about all clocks.", "anchors": ["test/ladderlib_test_functions.c: test_ladder_instructions", "test/ladderlib_test_functions.c: test_fn_TOF", "test/ladderlib_test_functions.c: test_fn_TP", "source/ladder_task.c: ladder_task"]}
{"id": "C97", "title": "The self-test of the instructions gives back the memory it allocates", "statement": "test_ladder_instructions uses the heap without error - no dereference of NULL, no use of a freed block, no double free, whatever requests are refused - and, if all its requests are granted, ends with the blocks that were live when it began. (The second part is false: test_init overwrites the pointer to the block of the scheduled jobs, which ladder_ctx_init has allocated, with NULL, so that ladder_ctx_deinit cannot release it. Precisely: every test whose test_init succeeds leaves exactly that block behind, also if requests are refused later in the test, and the 37 tests with all requests granted leave exactly 37 blocks.)", "quantifier": "Every content of the heap before the test, every policy of granting and refusing requests (a block may always be made smaller).", "why_tests_cant": "The self-test reports success although it loses memory; a run with a leak checker shows one sequence of granted requests. That nothing is misused whichever request is refused, and that nothing but the one block is lost, are statements about all of them.", "anchors": ["test/ladderlib_test_functions.c: test_init", "test/ladderlib_test_functions.c: test_deinit", "test/ladderlib_test_functions.c: test_fn_TMOVE", "source/ladder_general.c: ladder_ctx_init", "source/ladder_general.c: ladder_ctx_deinit"]}
{"id": "C98", "title": "The application that comes with the library runs its program and says so", "statement": "main, started on any host, passes its self-test, then runs the program in ladder_networks.json cycle by cycle until q or Q is typed - without undefined behaviour, without an error of an instruction, without a panic, with one command per cycle to the output module - and ends with status 0 exactly if it has run the program. (False in three ways: where the clock advances by 10 ms or more between certain two readings in the tests of TOF or TP it ends with status 1 before it has looked at the program; where the byte behind the table of instructions is not zero it ends with status 0 without having run the program; where reading that byte has no meaning it has undefined behaviour. Precisely: it runs the program exactly if the clock is quick at these two places and the byte is zero.)", "quantifier": "Every clock, keyboard and calendar, every content of both contexts before their initialisation, every library of strings to numbers, fewer than 2^32 iterations of each task.", "why_tests_cant": "A run of the application has one clock and one layout of memory, and the self-test at its start is itself the test; that its verdict and the exit status depend on the speed of the host and on a byte that does not belong to the program shows only when all hosts are considered.", "anchors": ["test/ladderlib_test.c: main", "test/ladderlib_test_functions.c: test_ladder_instructions", "utils/ladder_program_json.c: ladder_json_to_program", "source/ladder_task.c: ladder_task"]}
{"id": "C99", "title": "The application that comes with the library gives back the memory it allocates", "statement": "main uses the heap without error - no dereference of NULL, no use of a freed block, no double free, whatever requests are refused and whatever its files contain - and ends with the blocks that were live when it began. (False. What holds: if the requests for the table of scheduled jobs and for the tables of rows of the program file are granted, and the program file has the rows it announces and no texts, nothing is misused and no block that was live before is released, whichever other requests are refused; if main comes to ladder_ctx_deinit and the names of the saved file were granted, exactly the blocks that the self-test has left are live; with everything granted these are exactly 37, however far main comes with its files. What does not hold: these 37 blocks are never released; if a request of the setup is refused, main ends without releasing the context; if the request for the table of scheduled jobs or for a table of rows is refused, NULL is dereferenced; saving a program file with a text among its operands is undefined behaviour; if the names of the saved file are refused, blocks of its tree remain.)", "quantifier": "Every content of the heap before main, every policy of granting and refusing requests (a block may always be made smaller), every verdict of the self-test and of the schema, every program file of the kind described, every schema and saved file, whichever files can be written.", "why_tests_cant": "A run of the application sees one program file and, as a rule, no refused request; which blocks remain after each of the ways out of main, for every refused request, is a statement about all of them.", "anchors": ["test/ladderlib_test.c: main", "test/ladderlib_test_functions.c: test_ladder_instructions", "source/ladder_general.c: ladder_ctx_init", "source/ladder_general.c: ladder_ctx_deinit", "utils/ladder_program_json.c: ladder_json_to_program", "utils/ladder_program_json.c: ladder_program_to_json", "optional/cron/ladderlib_cron.c: ladderlib_cron_init"]}
