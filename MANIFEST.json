{
 "claims": [
  {
   "property": "C01",
   "status": "proved",
   "theorems": [
    "Ladder.Props.C01_read_no_side_effect",
    "Ladder.Props.C01_prev_no_side_effect",
    "Ladder.Props.C01_read_frame"
   ],
   "note": "Any context, also inconsistent ones; the panic callback itself is user code and may do anything."
  },
  {
   "property": "C02",
   "status": "proved",
   "theorems": [
    "Ladder.Props.C02_write_frame"
   ],
   "note": "Any context, also inconsistent ones."
  },
  {
   "property": "C03",
   "status": "proved",
   "theorems": [
    "Ladder.Props.C03_read_after_write"
   ],
   "note": ""
  },
  {
   "property": "C04",
   "status": "proved",
   "theorems": [
    "Ladder.Props.C04_bad_destination_rejected",
    "Ladder.Props.C04_good_destination_accepted"
   ],
   "note": "Given memory blocks of the configured sizes (Fits)."
  },
  {
   "property": "C05",
   "status": "partial",
   "theorems": [
    "Ladder.Props.C05_reads_in_bounds_partial",
    "Ladder.Props.C05_refuted",
    "Ladder.Props.C05_missing_operand"
   ],
   "note": "Ports of I/IW/Q/QW are not checked by the code: C05_refuted shows an out-of-bounds read; proved for all other kinds and for existing ports."
  },
  {
   "property": "C06",
   "status": "partial",
   "theorems": [
    "Ladder.Props.C06_missing_operand",
    "Ladder.Props.C06_prev_in_bounds_partial",
    "Ladder.Props.C06_refuted"
   ],
   "note": "Indices of flags are not checked by the code: C06_refuted; proved for inputs/outputs and for indices in range."
  },
  {
   "property": "C07",
   "status": "proved",
   "theorems": [
    "Ladder.Props.C07_NO",
    "Ladder.Props.C07_NC",
    "Ladder.Props.C07_complementary"
   ],
   "note": ""
  },
  {
   "property": "C08",
   "status": "proved",
   "theorems": [
    "Ladder.Props.C08_RE",
    "Ladder.Props.C08_FE",
    "Ladder.Props.C08_rising",
    "Ladder.Props.C08_falling"
   ],
   "note": "One execution: C08_RE, C08_FE. Over cycles: C08_rising/C08_falling, for any two consecutive scans of a task and any point of the second scan. The previous value is the one at the end of the previous scan (a program may itself write inputs). Assumes callbacks outside of scans other than reads leave the inputs alone and read and scan callbacks leave the input history alone."
  },
  {
   "property": "C09",
   "status": "proved",
   "theorems": [
    "Ladder.Props.C09_coil"
   ],
   "note": ""
  },
  {
   "property": "C10",
   "status": "partial",
   "theorems": [
    "Ladder.Props.C10_COILL",
    "Ladder.Props.C10_COILU",
    "Ladder.Props.C10_latch_last_partial",
    "Ladder.Props.C10_unlatch_last_partial",
    "Ladder.Props.C10_refuted"
   ],
   "note": "The coils act on the previous-scan value, so the one executed last in a scan alone decides: C10_refuted fails in both orders; proved for all runs what the last coil does."
  },
  {
   "property": "C11",
   "status": "partial",
   "theorems": [
    "Ladder.Props.C11_ADD_partial",
    "Ladder.Props.C11_MUL_partial",
    "Ladder.Props.C11_SUB_partial",
    "Ladder.Props.C11_refuted"
   ],
   "note": "Exact whenever representable; otherwise signed overflow, undefined behaviour: C11_refuted."
  },
  {
   "property": "C12",
   "status": "partial",
   "theorems": [
    "Ladder.Props.C12_DIV_MOD_partial",
    "Ladder.Props.C12_DIV_zero",
    "Ladder.Props.C12_refuted"
   ],
   "note": "MOD by zero and INT_MIN/-1 are undefined behaviour: C12_refuted; proved for all other operands."
  },
  {
   "property": "C13",
   "status": "proved",
   "theorems": [
    "Ladder.Props.C13_SHL",
    "Ladder.Props.C13_SHR"
   ],
   "note": ""
  },
  {
   "property": "C14",
   "status": "partial",
   "theorems": [
    "Ladder.Props.C14_ROL_partial",
    "Ladder.Props.C14_ROR_partial",
    "Ladder.Props.C14_inverse_partial",
    "Ladder.Props.C14_refuted"
   ],
   "note": "Undefined behaviour for amounts that are multiples of 32: C14_refuted; proved for all other amounts."
  },
  {
   "property": "C15",
   "status": "partial",
   "theorems": [
    "Ladder.Props.C15_OR_partial",
    "Ladder.Props.C15_XOR_partial",
    "Ladder.Props.C15_NOT_partial",
    "Ladder.Props.C15_AND_partial",
    "Ladder.Props.C15_refuted"
   ],
   "note": "AND maps every operand other than 0 and 1 to 0: C15_refuted; OR, XOR, NOT proved for all operands, AND for 0/1."
  },
  {
   "property": "C16",
   "status": "proved",
   "theorems": [
    "Ladder.Props.C16_comparison",
    "Ladder.Props.C16_trichotomy"
   ],
   "note": ""
  },
  {
   "property": "C17",
   "status": "partial",
   "theorems": [
    "Ladder.Props.C17_unpowered_partial",
    "Ladder.Props.C17_refuted"
   ],
   "note": "MOVE, SHL, SHR, ROL, ROR and TMOVE ignore the rung power: C17_refuted; proved for arithmetic and bit logic."
  },
  {
   "property": "C18",
   "status": "proved",
   "theorems": [
    "Ladder.Props.C18_TON_done",
    "Ladder.Props.C18_TON_unpowered",
    "Ladder.Props.C18_TON_frame"
   ],
   "note": "Starting with a cleared timer; the clock may return anything (differences are taken modulo 2^64)."
  },
  {
   "property": "C19",
   "status": "proved",
   "theorems": [
    "Ladder.Props.C19_TOF",
    "Ladder.Props.C19_TOF_frame"
   ],
   "note": "Starting with a cleared timer; an unpowered period at the very beginning counts as a loss of power, so the output is on from the first execution."
  },
  {
   "property": "C20",
   "status": "partial",
   "theorems": [
    "Ladder.Props.C20_TP_partial",
    "Ladder.Props.C20_refuted_never_again",
    "Ladder.Props.C20_refuted"
   ],
   "note": "Only the first pulse: the trigger test reads the accumulator, so after the first pulse a TP never fires again (C20_refuted_never_again for all runs, C20_refuted a concrete run)."
  },
  {
   "property": "C21",
   "status": "proved",
   "theorems": [
    "Ladder.Props.C21_CTU",
    "Ladder.Props.C21_CTU_first_column"
   ],
   "note": "Column 1 and later with reset input off; in column 0, where the input is always on and the counter is reset in every scan of a running program, C21_CTU_first_column. The presets are unsigned."
  },
  {
   "property": "C22",
   "status": "partial",
   "theorems": [
    "Ladder.Props.C22_CTD_partial",
    "Ladder.Props.C22_refuted"
   ],
   "note": "Positive start values; from 0 the first transition takes the count to 4294967295: C22_refuted."
  },
  {
   "property": "C23",
   "status": "proved",
   "theorems": [
    "Ladder.Props.C23_MOVE_int",
    "Ladder.Props.C23_MOVE_real",
    "Ladder.Props.C23_MOVE_incompatible",
    "Ladder.Props.C23_MOVE_bad_destination"
   ],
   "note": "Timer accumulators above INT32_MAX are read as INT32_MAX."
  },
  {
   "property": "C24",
   "status": "partial",
   "theorems": [
    "Ladder.Props.C24_TMOVE_partial",
    "Ladder.Props.C24_all_or_nothing_partial",
    "Ladder.Props.C24_refuted"
   ],
   "note": "Proved as a dichotomy when both table numbers exist and the destination table consists of data words; C24_refuted: otherwise a late write error leaves a partial copy, and a table number out of range is an out-of-bounds access."
  },
  {
   "property": "C25",
   "status": "partial",
   "theorems": [
    "Ladder.Props.C25_FOREIGN_partial",
    "Ladder.Props.C25_FOREIGN_missing",
    "Ladder.Props.C25_refuted"
   ],
   "note": "Ids 0 and 1 only; every other id calls function 0: C25_refuted."
  },
  {
   "property": "C26",
   "status": "proved",
   "theorems": [
    "Ladder.Props.C26_order_fixed",
    "Ladder.Props.C26_order_prefix",
    "Ladder.Props.C26_no_branches"
   ],
   "note": "Callbacks assumed to keep program, cursor, run state, error record and limits (Steady). The prescribed order is a function of the program text alone; for branches it records the code's grouping, for branchless networks it is row-major order."
  },
  {
   "property": "C27",
   "status": "proved",
   "theorems": [
    "Ladder.Props.C27_executes_enabled_only",
    "Ladder.Props.C27_disabled_states",
    "Ladder.Props.C27_all_disabled"
   ],
   "note": "Callbacks assumed to leave the program and the execution cursor alone (disabled-states part only); with all networks disabled the scan's only effect is the cron flags."
  },
  {
   "property": "C28",
   "status": "proved",
   "theorems": [
    "Ladder.Props.C28_group_output"
   ],
   "note": "Callbacks assumed Steady; stated for the evaluation of one column of one rung, from the state left by the group's instructions."
  },
  {
   "property": "C29",
   "status": "partial",
   "theorems": [
    "Ladder.Props.C29_terminates",
    "Ladder.Props.C29_executed_bound",
    "Ladder.Props.C29_refuted",
    "Ladder.Props.C29_steps_within_limit",
    "Ladder.Props.C29_overflow_aborts"
   ],
   "note": "Proved: termination for every program and callback behaviour, counted steps within the limit, overflow aborts at once, executed instructions at most limit times rows. C29_refuted: executions in a column are not counted after the first acting row, so more instructions than the limit can run."
  },
  {
   "property": "C30",
   "status": "proved",
   "theorems": [
    "Ladder.Props.C30_failure_stops_scan",
    "Ladder.Props.C30_failure_reported"
   ],
   "note": "No assumption for the stop, the state and the error; for the position in the last-executed record the callbacks must not overwrite it."
  },
  {
   "property": "C31",
   "status": "proved",
   "theorems": [
    "Ladder.Props.C31_scan_keeps_program"
   ],
   "note": "Callbacks assumed to keep the program; the exception for the data words of disabled networks is part of the statement."
  },
  {
   "property": "C32",
   "status": "partial",
   "theorems": [
    "Ladder.Props.C32_never_faults_partial",
    "Ladder.Props.C32_refuted_float",
    "Ladder.Props.C32_refuted_flag"
   ],
   "note": "Any number of scans of any well-formed program (also counters at the left rail, shifts, cron jobs), with registers, inputs, clock and callbacks changing anything but program, configuration and the 0/1-ness of bools. Excluded operands that do fault although in range: float registers (C32_refuted_float, undefined cast) and bit logic storing into the bool areas Cd/Cr/Td/Tr (C32_refuted_flag)."
  },
  {
   "property": "C33",
   "status": "proved",
   "theorems": [
    "Ladder.Props.C33_scan_fresh"
   ],
   "note": "Two-run theorem over all contexts and programs. Callbacks are assumed not to read or change power states of networks not being executed and to keep program, run state and limits (Blind, Steady); cells must be allocated as announced (Grids). If the scan is given up (state INV or ERROR), leftover states of enabled networks after the last one entered remain, which the theorem states exactly."
  },
  {
   "property": "C34",
   "status": "proved",
   "theorems": [
    "Ladder.Props.C34_cycle_phased",
    "Ladder.Props.C34_run_phased",
    "Ladder.Props.C34_cycle_complete"
   ],
   "note": "Order of events (phases) of every cycle and of every run with no assumption on callbacks; completeness (before hook, every read and write in index order, after hook exactly once) for wired contexts whose wiring callbacks keep."
  },
  {
   "property": "C35",
   "status": "partial",
   "theorems": [
    "Ladder.Props.C35_hold_partial",
    "Ladder.Props.C35_clear_partial",
    "Ladder.Props.C35_refuted_overflow",
    "Ladder.Props.C35_refuted_analog"
   ],
   "note": "Holds for scans that left state INV: C35_hold_partial, C35_clear_partial (digital ports, and analog ports of modules that also have digital ones). False as stated: C35_refuted_analog (analog-only modules, both modes), C35_refuted_overflow (scan limit exceeded: state ERROR, half-computed outputs written)."
  },
  {
   "property": "C36",
   "status": "partial",
   "theorems": [
    "Ladder.Props.C36_memory_partial",
    "Ladder.Props.C36_previous_partial",
    "Ladder.Props.C36_after_partial",
    "Ladder.Props.C36_ends"
   ],
   "note": "Holds for scans that left state INV: C36_memory_partial, C36_previous_partial (flags equal the end of the previous cycle's scan), C36_after_partial, C36_ends. False for faults by exceeding the scan limit: C35_refuted_overflow (memory kept, task goes on)."
  },
  {
   "property": "C37",
   "status": "proved",
   "theorems": [
    "Ladder.Props.C37_starts",
    "Ladder.Props.C37_leaves",
    "Ladder.Props.C37_timeout",
    "Ladder.Props.C37_wait_length",
    "Ladder.Props.C37_bounded"
   ],
   "note": "The wait is observed through the delay callback: start at the first RUNNING, leave on EXIT, give up after exactly 1000 waits, and the bound for arbitrary callbacks."
  },
  {
   "property": "C38",
   "status": "proved",
   "theorems": [
    "Ladder.Props.C38_exit",
    "Ladder.Props.C38_stop"
   ],
   "note": "A stop request (state EXIT_TSK at the end of an iteration) ends the task before the next cycle; the end hook is called if registered."
  },
  {
   "property": "C39",
   "status": "partial",
   "theorems": [
    "Ladder.Props.C39_end_hook_partial",
    "Ladder.Props.C39_exactly_once_partial",
    "Ladder.Props.C39_refuted"
   ],
   "note": "Proved when neither delay nor panic callbacks request the exit. C39_refuted: a stop request made while the task waits makes it return without the end hook."
  },
  {
   "property": "C40",
   "status": "partial",
   "theorems": [
    "Ladder.Props.C40_refusal_partial",
    "Ladder.Props.C40_accepts_partial",
    "Ladder.Props.C40_refuted"
   ],
   "note": "Refusal iff something needed is missing, for function tables at least one entry long. C40_refuted: a missing read function other than the first is not refused; the task panics in every cycle instead."
  },
  {
   "property": "C41",
   "status": "proved",
   "theorems": [
    "Ladder.Props.C41_ordered",
    "Ladder.Props.C41_cycle",
    "Ladder.Props.C41_run"
   ],
   "note": "Per cycle (clock difference modulo 2^64) and for runs of any length with a clock wrapping any number of times (true durations), below 2^32 cycles and total time below 2^64; callbacks keep statistics, limits, clock and hook registration (clockwork). Cycles given up before the scan (module area vanished) are not measured."
  },
  {
   "property": "C42",
   "status": "proved",
   "theorems": [
    "Ladder.Props.C42_watchdog",
    "Ladder.Props.C42_state"
   ],
   "note": "Callbacks keep statistics, limits and registrations; C42_state additionally assumes they keep the run state."
  },
  {
   "property": "C43",
   "status": "proved",
   "theorems": [
    "Ladder.Props.C43_padding"
   ],
   "note": "All events after the time is taken, for normal and faulted cycles; same assumptions as C42."
  },
  {
   "property": "C44",
   "status": "partial",
   "theorems": [
    "Ladder.Props.C44_during",
    "Ladder.Props.C44_scan",
    "Ladder.Props.C44_previous_partial",
    "Ladder.Props.C44_inputs_partial",
    "Ladder.Props.C44_refuted",
    "Ladder.Props.C44_refuted_analog_edge"
   ],
   "note": "Flags and outputs (digital and analog): C44_previous_partial for every two consecutive cycles. Inputs: C44_inputs_partial. During the scan the history is constant: C44_during, C44_scan. False as stated: C44_refuted (analog inputs of modules without digital ones have stale history), C44_refuted_analog_edge (edge contacts on analog registers look at the present value)."
  },
  {
   "property": "C45",
   "status": "proved",
   "theorems": [
    "Ladder.Props.C45_error",
    "Ladder.Props.C45_other",
    "Ladder.Props.C45_success"
   ],
   "note": "From the error state, with every area that has a quantity allocated, the call succeeds with exactly the named effects (all locations, program text, configuration); from any other state it is the identity. Without a clock the panic callback is assumed not to touch the context. Timer flags history and M history are kept, as the statement requires of everything not named."
  },
  {
   "property": "C46",
   "status": "proved",
   "theorems": [
    "Ladder.Props.C46_range",
    "Ladder.Props.C46_refused",
    "Ladder.Props.C46_content",
    "Ladder.Props.C46_settings"
   ],
   "note": "Range, refusal without any change, and full content, settings and statistics of the initialised context. The context left behind by a failed allocation is not modelled (heap)."
  },
  {
   "property": "C47",
   "status": "proved",
   "theorems": [
    "Ladder.Props.C47_read",
    "Ladder.Props.C47_read_rest",
    "Ladder.Props.C47_read_history",
    "Ladder.Props.C47_write",
    "Ladder.Props.C47_write_rest",
    "Ladder.Props.C47_write_history"
   ],
   "note": "One registration and histories, for read and write modules, with each allocation failure point. Hooks are assumed to keep to their own slot of the tables; functions are identified by their position. realloc that shrinks is taken to succeed."
  },
  {
   "property": "C48",
   "status": "partial",
   "theorems": [
    "Ladder.Props.C48_step",
    "Ladder.Props.C48_ids",
    "Ladder.Props.C48_limit_partial",
    "Ladder.Props.C48_refuted"
   ],
   "note": "Ids, order and atomicity for all histories (C48_step, C48_ids). The limit of 100 holds when quantities stay below 2^32 - 100 (C48_limit_partial) and is refuted otherwise because the sum in the check wraps (C48_refuted)."
  },
  {
   "property": "C49",
   "status": "partial",
   "theorems": [
    "Ladder.Props.C49_step_partial",
    "Ladder.Props.C49_sequence_partial",
    "Ladder.Props.C49_owner",
    "Ladder.Props.C49_initialised_partial",
    "Ladder.Props.C49_refuted_memory",
    "Ladder.Props.C49_refuted_span",
    "Ladder.Props.C49_refuted_overwrite",
    "Ladder.Props.C49_refuted_outside"
   ],
   "note": "One placement and all sequences with memory available, for every instruction except the continuation marker and odd foreign descriptors; ownership of continuation cells is exact. Refuted for failed allocation (cells left invalid), foreign functions spanning cells without operands, foreign functions without cells, and the continuation marker itself (undefined behaviour)."
  },
  {
   "property": "C50",
   "status": "proved",
   "theorems": [
    "Ladder.Props.C50_memory",
    "Ladder.Props.C50_program"
   ],
   "note": "Clearing memory on any context with its flag areas allocated; clearing the program on any allocated grid. Cells without an operand block are assumed to have operand count 0, which every placement guarantees."
  },
  {
   "property": "C51",
   "status": "partial",
   "theorems": [
    "Ladder.C51_operands_exist_partial",
    "Ladder.C51_operand_kinds",
    "Ladder.C51_refuted_float",
    "Ladder.C51_refuted_timer"
   ],
   "note": "Accepted without UB implies existing register or port, and kinds per instruction, for every program. Refuted for float register indices (never checked) and for ports among surplus operands of a timer."
  },
  {
   "property": "C52",
   "status": "partial",
   "theorems": [
    "Ladder.C52_verdict_partial",
    "Ladder.C52_refuted",
    "Ladder.C52_refuted_empty"
   ],
   "note": "No access outside the configured memory and a status naming a cell of the program, for every stored program with a cell. Refuted when a module number equals the number of modules (off-by-one) and for programs without cells (uninitialised status)."
  },
  {
   "property": "C53",
   "status": "partial",
   "theorems": [
    "Ladder.Props.C53_documented_partial",
    "Ladder.Props.C53_only_partial",
    "Ladder.Props.C53_in_range_partial",
    "Ladder.Props.C53_expression_partial",
    "Ladder.Props.C53_refuted_number",
    "Ladder.Props.C53_refuted_maximum",
    "Ladder.Props.C53_refuted_start",
    "Ladder.Props.C53_refuted_outside",
    "Ladder.Props.C53_refuted_step_zero",
    "Ladder.Props.C53_refuted_around_step",
    "Ladder.Props.C53_star_range"
   ],
   "note": "Documented elements (up to 18 characters each) set exactly their values and only in range; the code also accepts or rejects undocumented forms differently from the claim: numbers wrap modulo 2^64 (C53_refuted_number), 2^64-1 stands for 'no end' (C53_refuted_maximum), a start above the range is accepted with no value (C53_refuted_start), a value above the range of the field can be set (C53_refuted_outside), step 0 never ends (C53_refuted_step_zero), wrap-around ranges with a step lose their phase (C53_refuted_around_step)."
  },
  {
   "property": "C54",
   "status": "partial",
   "theorems": [
    "Ladder.Props.C54_match_partial",
    "Ladder.Props.C54_refuted_year"
   ],
   "note": "Years 2000 to 2103 and documented expressions; another year reads outside of the bit map: C54_refuted_year."
  },
  {
   "property": "C55",
   "status": "partial",
   "theorems": [
    "Ladder.Props.C55_next_partial",
    "Ladder.Props.C55_found_partial",
    "Ladder.Props.C55_refuted_zone"
   ],
   "note": "Times from 1970 on, years 2000 to 2103, no leap seconds, zone offsets that are multiples of half an hour; for quarter-hour zones matches are missed: C55_refuted_zone."
  },
  {
   "property": "C56",
   "status": "partial",
   "theorems": [
    "Ladder.Props.C56_phase_partial",
    "Ladder.Props.C56_other_flags",
    "Ladder.Props.C56_own_flag",
    "Ladder.Props.C56_scan_partial",
    "Ladder.Props.C56_register",
    "Ladder.Props.C56_init",
    "Ladder.Props.C56_refused",
    "Ladder.Props.C56_refuted_no_job",
    "Ladder.Props.C56_refuted_no_flags"
   ],
   "note": "At least one job and a local time in 2000 to 2103; with no job the phase faults (C56_refuted_no_job), with no flags any register is accepted (C56_refuted_no_flags)."
  },
  {
   "property": "C57",
   "status": "partial",
   "theorems": [
    "Ladder.Props.C57_runs_partial",
    "Ladder.Props.C57_fresh_partial",
    "Ladder.Props.C57_refuted"
   ],
   "note": "False for all parameters because the evaluation of an empty job list fails (C57_refuted); proved for contexts with at least one job, watchdog off or never exceeded, fewer than 2^32 cycles."
  },
  {
   "property": "C58",
   "status": "partial",
   "theorems": [
    "Ladder.Props.C58_round_trip_partial",
    "Ladder.Props.C58_refuted_constant",
    "Ladder.Props.C58_refuted_millisecond",
    "Ladder.Props.C58_refuted_occupied",
    "Ladder.Props.C58_refuted_text",
    "Ladder.Props.C58_refuted_disabled",
    "Ladder.Props.C58_refuted_foreign",
    "Ladder.Props.C58_refuted_real"
   ],
   "note": "Round trip proved for every program the JSON form can express (ProgramExpressible) and every receiving context. Refuted (C58_refuted_*) for constants, 1 ms timers, continuation cells where reading behind the instruction table is undefined, texts, disabled networks, foreign functions with operands, floats that six decimals do not determine. The text level (cJSON) is not modelled."
  },
  {
   "property": "C59",
   "status": "partial",
   "theorems": [
    "Ladder.Props.C59_accepted_wellformed",
    "Ladder.Props.C59_rejected_partial",
    "Ladder.Props.C59_refuted_no_rows",
    "Ladder.Props.C59_refuted_fewer_rows",
    "Ladder.Props.C59_refuted_next_document",
    "Ladder.Props.C59_refuted_negative",
    "Ladder.Props.C59_refuted_base_as_type",
    "Ladder.Props.C59_refuted_number",
    "Ladder.Props.C59_wellformed_accepted"
   ],
   "note": "Every accepted document is well-formed, without hypotheses (C59_accepted_wellformed), and every well-formed document with numbers in range and values in the usual decimal form is accepted (C59_wellformed_accepted); a malformed one is rejected without undefined behaviour if it is Sturdy (numbers in range, announced rows present, no continuation cell where reading behind the table is undefined). Refuted otherwise (C59_refuted_*)."
  },
  {
   "property": "C60",
   "status": "partial",
   "theorems": [
    "Ladder.Props.C60_init_no_misuse",
    "Ladder.Props.C60_calls_no_misuse_partial",
    "Ladder.Props.C60_teardown_partial",
    "Ladder.Props.C60_failed_init_partial",
    "Ladder.Props.C60_refuted_failed_init",
    "Ladder.Props.C60_refuted_failed_init_teardown",
    "Ladder.Props.C60_refuted_no_networks",
    "Ladder.Props.C60_refuted_twice",
    "Ladder.Props.C60_refuted_cron",
    "Ladder.Props.C60_refuted_shrink",
    "Ladder.Props.C60_refuted_no_cell"
   ],
   "note": "Pointer-level model of every allocation of ladder_general.c, the cron table and the loader, with an arbitrary allocator. Proved: initialisation never misuses the heap; after a successful initialisation with networks and any sequence of registrations, placements, text operands, clears, loads of program files and cron set-up, with any requests refused, no call misuses the heap and teardown frees exactly the blocks allocated. Assumes shrinking reallocs succeed, instructions of at least one cell, a granted cron table, granted row tables and files whose networks have the rows they announce (see C91). Refuted: failed initialisation leaks the cell arrays (C60_refuted_failed_init), tearing it down again frees the network array twice, teardown without networks or a second teardown dereferences NULL, refused cron table, refused shrink, instruction of no cell."
  },
  {
   "property": "C61",
   "status": "partial",
   "theorems": [
    "Ladder.Props.C61_reset_partial",
    "Ladder.Props.C61_refuted"
   ],
   "note": "Count input off; with both inputs on the counter counts once right after the reset: C61_refuted."
  },
  {
   "property": "C62",
   "status": "partial",
   "theorems": [
    "Ladder.Props.C62_reported_partial",
    "Ladder.Props.C62_refuted",
    "Ladder.Props.C62_refuted_silent"
   ],
   "note": "Shifts, rotations and MOVE report an error for every unusable destination (C62_reported_partial). Violated by coils, arithmetic and bit logic, which never report any error: C62_refuted (witness), C62_refuted_silent (extent)."
  },
  {
   "property": "C63",
   "status": "partial",
   "theorems": [
    "Ladder.Props.C63_request_kept_partial",
    "Ladder.Props.C63_task_ends_partial",
    "Ladder.Props.C63_refuted"
   ],
   "note": "For every cycle and every set of callbacks in which some callback requests a stop and none restarts: the cycle does not end running (C63_request_kept_partial) and the task then ends without another read, scan or write, after at most 1000 waits (C63_task_ends_partial). Violated as stated: the watchdog overwrites the exit state with the error state, C63_refuted."
  },
  {
   "property": "C64",
   "status": "partial",
   "theorems": [
    "Ladder.C64_laid_out_partial",
    "Ladder.C64_refuted"
   ],
   "note": "Proved for all programs when foreign functions cover at least one cell; refuted for a foreign function with zero cells (expected_multi wraps)."
  },
  {
   "property": "C65",
   "status": "partial",
   "theorems": [
    "Ladder.C65_valid_accepted_partial",
    "Ladder.C65_refuted"
   ],
   "note": "Proved for all valid programs whose timers with base 10 ms or 1 min have small presets; refuted otherwise: the preset is compared with the number of M or C registers because time bases share codes with register kinds."
  },
  {
   "property": "C66",
   "status": "proved",
   "theorems": [
    "Ladder.Props.C66_rejected_empty"
   ],
   "note": "Every context and document."
  },
  {
   "property": "C67",
   "status": "proved",
   "theorems": [
    "Ladder.Props.C67_only_program"
   ],
   "note": "Every context and document."
  },
  {
   "property": "C68",
   "status": "proved",
   "theorems": [
    "Ladder.Props.C68_means"
   ],
   "note": "For contexts whose networks exist with their cells (Receptive, the state after initialisation, and kept by accepted documents)."
  },
  {
   "property": "C69",
   "status": "partial",
   "theorems": [
    "Ladder.Props.C69_accepted_runs_partial",
    "Ladder.Props.C69_refuted_overflow",
    "Ladder.Props.C69_refuted_remainder",
    "Ladder.Props.C69_refuted_rotation",
    "Ladder.Props.C69_refuted_table",
    "Ladder.Props.C69_refuted_operands",
    "Ladder.Props.C69_refuted_width",
    "Ladder.Props.C69_refuted_move"
   ],
   "note": "Proved for accepted programs whose networks have columns and whose cells have their operands, within the limits Tame (no float registers, no sums, differences, products, table moves; quotients, remainders and rotations by suitable constants). Refuted otherwise: accepted programs overflow, divide by zero, shift by 32, write outside the networks, read through null pointers (missing operands), write outside a row of a network without columns, or report errors."
  },
  {
   "property": "C70",
   "status": "partial",
   "theorems": [
    "Ladder.Props.C70_loaded_runs_partial",
    "Ladder.Props.C70_refuted_overflow",
    "Ladder.Props.C70_refuted_width"
   ],
   "note": "Loader, checker and scan composed: completeness of the operands follows from the loader. Same limits as C69 (Tame, columns). Refuted otherwise by documents with an addition and with a network without columns."
  },
  {
   "property": "C71",
   "status": "partial",
   "theorems": [
    "Ladder.Props.C71_diagram_partial",
    "Ladder.Props.C71_instant_partial",
    "Ladder.Props.C71_scans_partial",
    "Ladder.Props.C71_refuted_branch",
    "Ladder.Props.C71_refuted_hung"
   ],
   "note": "Refinement: scan (and k scans) equals the diagram semantics of Spec/Logic.lean for NOP, MULTI, CONN, NEG, contacts, edges, coils, latches, comparisons, AND (as the code has it: 1 if both operands are 1), OR, XOR, NOT, DIV/MOD by constants, shifts, rotations, moves, timers and counters, with cron jobs, with branches that start at the left rail (nested) and with rows that hang from a rung further right to drive another coil, as in the shipped program. Timers take the time from a stream of clock readings; the theorem says that the readings are those of the clock during the scan, in order, and that the diagram uses no others (C71_instant_partial: a clock that stands still during the scan). C76 extends this to ADD, MUL and variable divisors and distances, where scans may be undefined. The panic callback may do anything when the scan limit leaves a fifth of room. Missing: branches with contacts of their own that start further right, which the code does not supply with power (C71_refuted_branch), latches on rows that hang, which the code never executes (C71_refuted_hung), and SUB, the table instructions and foreign calls."
  },
  {
   "property": "C72",
   "status": "partial",
   "theorems": [
    "Ladder.Props.C72_task_partial",
    "Ladder.Props.C72_refuted_counter",
    "Ladder.Props.C72_refuted_null"
   ],
   "note": "Proved for all well-formed programs (the instructions covered by C32), all callbacks that leave program, configuration and scan counter alone, and any number of iterations. Missing, because the code violates it: runs in which the 32-bit scan counter wraps (division by zero, C72_refuted_counter), faults in configurations without markers, counters or timers (memcpy from and to NULL, C72_refuted_null)."
  },
  {
   "property": "C73",
   "status": "partial",
   "theorems": [
    "Ladder.Props.C73_controller_partial",
    "Ladder.Props.C73_refuted_history"
   ],
   "note": "Proved as a refinement: for any number of iterations the task performs exactly that many cycles, its register contents are those of the diagram's cycles (sample, cron jobs, networks with timers and counters, history), each cycle uses exactly its own readings of the clock, and the commands to the output modules are exactly the outputs of each cycle, once per module, in order. What the hardware supplies may depend on the inputs it supplied before, as with keys that toggle an input. Missing: C71's restrictions (branches with contacts of their own that do not start at the left rail, latches on rows that hang, the other instructions; with arithmetic on registers: C95); analog history of modules without digital ports is not taken (C73_refuted_history, C44); the watchdog is off (with a watchdog: C93) and the scan counter does not wrap (then the task divides by zero, C94)."
  },
  {
   "property": "C74",
   "status": "proved",
   "theorems": [
    "Ladder.Props.C74_some",
    "Ladder.Props.C74_all",
    "Ladder.Props.C74_parsed",
    "Ladder.Props.C74_first_failure",
    "Ladder.Props.C74_group"
   ],
   "note": "Stated with the specification's own matching of expressions (lists of documented fields) and calendar times; the parser and the matcher are the model of lwdtc.c. The parse result is given for every list of texts: all in order, or the index of the first text that the parser refuses."
  },
  {
   "property": "C75",
   "status": "partial",
   "theorems": [
    "Ladder.Props.C75_refuted_for_ever",
    "Ladder.Props.C75_refuted"
   ],
   "note": "Violated by the code. Refuted for whole classes of programs and all histories (C75_refuted_for_ever): when the row below a counter is a rung of its own, the scan evaluates that row only after the counter and clears its cells at the start of the network, so the reset input always reads as off and a counter that is done stays done, at the same count, in every later scan whatever the inputs. C75_refuted is one program accepted by the checker. What holds of the statement is at the level of one instruction: C61_reset_partial (a powered cell below left does reset)."
  },
  {
   "property": "C76",
   "status": "proved",
   "theorems": [
    "Ladder.Props.C76_outcome",
    "Ladder.Props.C76_exact",
    "Ladder.Props.C76_untimed",
    "Ladder.Props.C76_instant",
    "Ladder.Props.C76_scans"
   ],
   "note": "C76_outcome: for diagrams with ADD, MUL, DIV, MOD, ROL, ROR on any operands (and all other diagram instructions) a scan either ends with the registers of the diagram, all of whose arithmetic had a result, or is undefined by overflow, division by zero or shift range and nothing else, and then the diagram has arithmetic without a result. C76_exact, C76_untimed, C76_instant: 'if and only if' where the clock does not matter, for programs without timers, and for a clock that stands still. C76_scans: any number of scans. The class of diagrams is that of C71: branches start at the left rail, or hang from a rung to drive another coil; AND, SUB, the table instructions and foreign calls are not in it."
  },
  {
   "property": "C77",
   "status": "partial",
   "theorems": [
    "Ladder.Props.C77_decides_partial",
    "Ladder.Props.C77_shipped_partial",
    "Ladder.Props.C77_refuted_conditional",
    "Ladder.Props.C77_refuted_else",
    "Ladder.Props.C77_refuted_not",
    "Ladder.Props.C77_refuted_anyOf",
    "Ladder.Props.C77_refuted_types",
    "Ladder.Props.C77_refuted_required",
    "Ladder.Props.C77_refuted_additional",
    "Ladder.Props.C77_refuted_case",
    "Ladder.Props.C77_refuted_integer",
    "Ladder.Props.C77_refuted_length"
   ],
   "note": "Proved for all schemas of the subset Supported (one type by name, scalar enum and const, bounds, lengths, items, properties with required members listed, boolean additionalItems and additionalProperties, allOf, conditionals standing alone), in particular the shipped schema, and documents with integers in the range of int, one byte per character and names agreeing in case. Draft 7 is written down independently (Spec.Valid). Refuted outside: keywords beside a conditional, else, not, anyOf, lists of types, required without properties, additionalProperties schemas, case of names, large integers (undefined), lengths in bytes."
  },
  {
   "property": "C78",
   "status": "partial",
   "theorems": [
    "Ladder.Props.C78_accepts",
    "Ladder.Props.C78_loads_partial",
    "Ladder.Props.C78_refuted_divergent",
    "Ladder.Props.C78_refuted_tof",
    "Ladder.Props.C78_refuted_dimensions",
    "Ladder.Props.C78_refuted_negative"
   ],
   "note": "C78_accepts: exactly which documents the shipped schema admits, for all documents. C78_loads_partial: a valid document with values in the usual form is loaded iff it is Consistent (number, dimensions, no divergent symbol). Refuted: every document with TOF, NEG, SHL, SHR, ROL, ROR or TMOV is never loaded though it may be valid; wrong dimensions and negative numbers are valid but rejected or undefined."
  },
  {
   "property": "C79",
   "status": "partial",
   "theorems": [
    "Ladder.Props.C79_valid_iff",
    "Ladder.Props.C79_saved_valid_partial",
    "Ladder.Props.C79_refuted_instructions",
    "Ladder.Props.C79_refuted_names",
    "Ladder.Props.C79_refuted_constants",
    "Ladder.Props.C79_refuted_flags",
    "Ladder.Props.C79_refuted_cycle"
   ],
   "note": "C79_valid_iff: exactly which programs are saved as a valid document, for all programs. Refuted: moves, off-delay timers, negations, rotations, foreign instructions never are; constants, 1 ms bases and flags of timers and counters are not; a valid document with a move is loaded and then saved as an invalid one."
  },
  {
   "property": "C80",
   "status": "partial",
   "theorems": [
    "Ladder.Props.C80_report_defined_partial",
    "Ladder.Props.C80_report_names_partial",
    "Ladder.Props.C80_refuted_name",
    "Ladder.Props.C80_refuted_watchdog",
    "Ladder.Props.C80_refuted_scan"
   ],
   "note": "C80_report_defined_partial: the report is defined iff the instruction is not INV or MULTI and the error is not OVERFLOW, NULL or FAIL; C80_report_names_partial: then the names are right except for a type mismatch. Refuted: every abort by the scan watchdog runs the callback past its table (C80_refuted_watchdog, a whole scan in C80_refuted_scan); a type mismatch is printed as FAIL."
  },
  {
   "property": "C81",
   "status": "proved",
   "theorems": [
    "Ladder.Props.C81_read_effect",
    "Ladder.Props.C81_read_defined",
    "Ladder.Props.C81_write_shows",
    "Ladder.Props.C81_write_defined",
    "Ladder.Props.C81_read_registered",
    "Ladder.Props.C81_read_refused",
    "Ladder.Props.C81_write_registered"
   ],
   "note": "Effect of dummy_read for every key sequence, contents of the screen of dummy_write, exact domains of both, registration of modules with and without memory."
  },
  {
   "property": "C82",
   "status": "proved",
   "theorems": [
    "Ladder.Props.C82_no_misuse",
    "Ladder.Props.C82_all_released",
    "Ladder.Props.C82_module_whole"
   ],
   "note": "Any sequence of registrations and repeated initialisations, any allocator. The tables of the library itself are in C60; here they are only granted or refused."
  },
  {
   "property": "C83",
   "status": "proved",
   "theorems": [
    "Ladder.Props.C83_delay",
    "Ladder.Props.C83_millis",
    "Ladder.Props.C83_millis_monotone"
   ],
   "note": "nanosleep is represented by how long each interrupted call lasted; gettimeofday by the pair it stores."
  },
  {
   "property": "C84",
   "status": "proved",
   "theorems": [
    "Ladder.Props.C84_placed",
    "Ladder.Props.C84_foreign",
    "Ladder.Props.C84_task",
    "Ladder.Props.C84_mark",
    "Ladder.Props.C84_defined"
   ],
   "note": "C84_task: no undefined behaviour, no error, no panic; undefined behaviour of a callback is represented by an arbitrary change of the context (Wild), and C84_defined with C84_mark show that no callback is ever undefined. C84_foreign: exact domain of the shipped foreign function. The well-formed programs are those of C32/C72, tasks of fewer than 2^32 iterations; both limits are refuted otherwise by C72."
  },
  {
   "property": "C85",
   "status": "partial",
   "theorems": [
    "Ladder.Props.C85_run_partial",
    "Ladder.Props.C85_refuted",
    "Ladder.Props.C85_starts"
   ],
   "note": "C85_run_partial assumes that the byte behind the table of instructions is zero; C85_starts: the application starts exactly then; C85_refuted: the shipped program has continuation cells, for which the loader reads past the table (see C57), so by the C standard the start is already undefined. Files are documents given as trees; what is printed and the self-test of the instructions are left out."
  },
  {
   "property": "C86",
   "status": "partial",
   "theorems": [
    "Ladder.Props.C86_prints",
    "Ladder.Props.C86_prints_partial",
    "Ladder.Props.C86_refuted_text",
    "Ladder.Props.C86_refuted_operands",
    "Ladder.Props.C86_refuted_float",
    "Ladder.Props.C86_shipped"
   ],
   "note": "Proved for accepted programs whose instructions have no operands or as many as their picture shows, with strings present and floats that are numbers (C86_prints_partial, from C86_prints; the shipped program: C86_shipped). Refuted in general: an accepted move of a missing string (C86_refuted_text), an accepted addition with one operand (C86_refuted_operands) and an accepted move of a float that is not a number (C86_refuted_float)."
  },
  {
   "property": "C87",
   "status": "partial",
   "theorems": [
    "Ladder.Props.C87_drawing",
    "Ladder.Props.C87_aligned_partial",
    "Ladder.Props.C87_refuted_aligned",
    "Ladder.Props.C87_refuted_registers"
   ],
   "note": "The drawing is proved to be the sheet made of one picture per instruction over exactly its rows (C87_drawing), with pieces of 19 characters when operands are short (C87_aligned_partial). Of the operands the first one is specified. Refuted: a preset of five digits breaks the alignment (C87_refuted_aligned); numbers of float registers are drawn as floats (C87_refuted_registers)."
  },
  {
   "property": "C88",
   "status": "partial",
   "theorems": [
    "Ladder.Props.C88_decimals_partial",
    "Ladder.Props.C88_overflow",
    "Ladder.Props.C88_refuted_sign"
   ],
   "note": "Proved with exact single precision arithmetic for floats from 0 up and from -1 down (C88_decimals_partial) and for overflow (C88_overflow); as part of the drawing see the field real of Spec.Depicts in C87_drawing. Refuted: floats between -0.99 and 0 lose their sign, -0.5 is drawn as 0.50 (C88_refuted_sign). powf(10, 2) is taken to be 100."
  },
  {
   "property": "C89",
   "status": "proved",
   "theorems": [
    "Ladder.Props.C89_run",
    "Ladder.Props.C89_lamps"
   ],
   "note": "C89_run: the commands of the task are the outputs of a small machine (Spec.Flash.Panel) fed with the characters and the four readings of the clock of each cycle, up to and including the first cycle in which q or Q is typed, after which the task ends; composed from C90, C81 and C85. C89_lamps: the claims about flashes, order, durations and the key, in terms of the commands. That the application starts its task at all depends on the byte behind a table, see C85."
  },
  {
   "property": "C90",
   "status": "partial",
   "theorems": [
    "Ladder.Props.C90_stop_partial",
    "Ladder.Props.C90_refuted_counter"
   ],
   "note": "C90_stop_partial: the task as a controller on hardware whose read callbacks may request the end; all cycles up to and including the one with the request are computed as the diagram says and their outputs are sent, then the end hook is called once and the task returns. Used for C89. With a watchdog: C93. Missing: what C73 misses (wrap of the scan counter, modules with analog inputs only). Violated by counters in the first column, which behave differently in the last cycle (C90_refuted_counter)."
  },
  {
   "property": "C91",
   "status": "partial",
   "theorems": [
    "Ladder.Props.C91_load_partial",
    "Ladder.Props.C91_wellformed",
    "Ladder.Props.C91_agrees",
    "Ladder.Props.C91_compact",
    "Ladder.Props.C91_validate",
    "Ladder.Props.C91_refuted_table",
    "Ladder.Props.C91_refuted_no_rows",
    "Ladder.Props.C91_refuted_no_columns"
   ],
   "note": "Pointer-level model of the loader and of the compacting and validating functions, an arbitrary allocator. Proved: loading a file misuses no block after any history (including earlier loads), whichever requests are refused except those for row tables; on failure the program is unchanged or empty; teardown then frees exactly what was allocated (C91_load_partial). Assumes networks that announce rows have columns and those rows (FirmFile), which every well-formed program with dimensions in range has (C91_wellformed). Without refusals the result is that of the JSON model (C91_agrees). Compacting and validating leave the heap as it was, without hypotheses (C91_compact, C91_validate). Refuted otherwise: refused row table, rows announced but missing, rows without columns (C91_refuted_*). A cJSON tree counts as one block; saving is the subject of C92."
  },
  {
   "property": "C92",
   "status": "partial",
   "theorems": [
    "Ladder.Props.C92_save_partial",
    "Ladder.Props.C92_whole",
    "Ladder.Props.C92_teardown",
    "Ladder.Props.C92_refuted_names",
    "Ladder.Props.C92_refuted_members",
    "Ladder.Props.C92_refuted_text"
   ],
   "note": "C92_save_partial: for every history of a context (C60's Built, which now contains saves), a program without texts, every pattern of refused requests and both outcomes of fopen, saving misuses no block and keeps every block that was in use; if the names of the arrays are granted nothing is left and the file is closed; it fails if the file cannot be opened and succeeds with memory for everything. C92_whole: cells of such a program have the operands they announce (an invariant of all calls, needed because the writer reads data without a test). C92_teardown: teardown after a save frees everything. Partial because the code violates the rest: C92_refuted_names (a refused name is not noticed, success is reported, the array stays allocated), C92_refuted_members (a refused member is left out, success is reported), C92_refuted_text (a text operand makes it read an uninitialised buffer)."
  },
  {
   "property": "C93",
   "status": "partial",
   "theorems": [
    "Ladder.Props.C93_watchdog_partial",
    "Ladder.Props.C93_refuted_outputs",
    "Ladder.Props.C93_refuted_stop"
   ],
   "note": "C93_watchdog_partial: the whole run of the task as a controller with a watchdog and requests to stop, for any clock: cycles as the diagram says up to the first overdue or stopped one, whose outputs are still sent; then the exact end (waits, report, end hook) and no command. With arithmetic on registers: C95_guarded. Same missing parts as C90; reports must leave the context alone. Violated expectations: the outputs are left switched on (C93_refuted_outputs), and a stop requested in an overdue cycle is lost, the task still runs after 1000 waits (C93_refuted_stop)."
  },
  {
   "property": "C94",
   "status": "partial",
   "theorems": [
    "Ladder.Props.C94_cycles",
    "Ladder.Props.C94_doomed",
    "Ladder.Props.C94_exact_partial",
    "Ladder.Props.C94_refuted_forever",
    "Ladder.Props.C94_safe"
   ],
   "note": "C94_exact_partial: under C73's hypotheses the task is defined over n iterations if and only if scan_count + n < 2^32, and otherwise its outcome is the division by zero. C94_safe: the same for diagrams that calculate, if an invariant of the diagram excludes arithmetic without a result. C94_doomed: every diagram, also one that overflows, with every input: a task without a watchdog that nobody stops ends in undefined behaviour after at most 2^32 cycles. C94_refuted_forever: the shipped kind of controller, started with counters at zero, divides by zero in cycle 2^32 whatever happens. C94_cycles: for every program and every hardware that leaves the statistics alone, no defined execution completes 2^32 cycles. Missing: the 'if' direction for other programs is C72."
  },
  {
   "property": "C95",
   "status": "proved",
   "theorems": [
    "Ladder.Props.C95_outcome",
    "Ladder.Props.C95_safe",
    "Ladder.Props.C95_counting",
    "Ladder.Props.C95_counting_guarded",
    "Ladder.Props.C95_guarded"
   ],
   "note": "C95_outcome: the exact dichotomy for whole runs of the task, for any number of iterations: cycles as the diagram says up to the first one whose arithmetic has no result, there undefined arithmetic and nothing else. C95_guarded: the same with a watchdog and requests to stop, of which C93 and C90 are special cases. C95_safe: invariants of the diagram that exclude such arithmetic make the controller safe. C95_counting is an example of the other case: D0 + 1 in every cycle is defined for exactly 2^31 - 8 cycles from D0 = 7; C95_counting_guarded the same controller with a watchdog. Scope: diagrams as in C71/C76 (no SUB, table moves, foreign calls), hardware as in C73 and C90, fewer than 2^32 cycles (C94)."
  },
  {
   "property": "C96",
   "status": "partial",
   "theorems": [
    "Ladder.Props.C96_untimed",
    "Ladder.Props.C96_off_delay",
    "Ladder.Props.C96_pulse",
    "Ladder.Props.C96_exact",
    "Ladder.Props.C96_passes_partial",
    "Ladder.Props.C96_refuted"
   ],
   "note": "Proved: each of the 35 tests without TOF and TP reports no failure for every clock (C96_untimed); the failures of the tests of TOF and TP exactly (C96_off_delay, C96_pulse); the self-test ends and passes exactly if the clock is quick at two places, given as the ends of the first 32 and of the first 34 tests (C96_exact), hence always on a host whose clock does not advance by 10 ms within three readings (C96_passes_partial). The claim without the assumption on the clock is refuted: with 5 ms per external call the self-test fails (C96_refuted). Allocations succeed; what is printed is not modelled."
  },
  {
   "property": "C97",
   "status": "partial",
   "theorems": [
    "Ladder.Props.C97_no_misuse_partial",
    "Ladder.Props.C97_test",
    "Ladder.Props.C97_suite",
    "Ladder.Props.C97_refuted"
   ],
   "note": "C97_no_misuse_partial: whatever requests are refused, the suite of 37 tests runs without misuse of the heap and releases no block that was live before. C97_test: a test whose test_init succeeds leaves exactly one block, the one that ladder_ctx_init put into ctx.cron, whatever happens later in the test. C97_suite: all requests granted, exactly 37 blocks remain. C97_refuted: so the claim that everything is given back is false. Assumed: realloc to a smaller size is granted."
  },
  {
   "property": "C98",
   "status": "partial",
   "theorems": [
    "Ladder.Props.C98_course",
    "Ladder.Props.C98_runs_partial",
    "Ladder.Props.C98_refuted",
    "Ladder.Props.C98_refuted_status",
    "Ladder.Props.C98_refuted_ub"
   ],
   "note": "C98_course: the outcome of main for every clock and every value of the byte behind the table of instructions: status 1 exactly if the clock is slow in the tests of TOF or TP, otherwise status 0 without running the program if the byte is not zero, otherwise the task runs. C98_runs_partial: on a quick clock and with the byte zero, main runs the program until q or Q is typed, with one command per cycle, no error, no panic, the lamps as claimed in C89. C98_refuted, C98_refuted_status, C98_refuted_ub: the three ways in which the full claim is false. main is composed of the models of its parts; memory is not in this model (C60, C97)."
  },
  {
   "property": "C99",
   "status": "partial",
   "theorems": [
    "Ladder.Props.C99_no_misuse_partial",
    "Ladder.Props.C99_released",
    "Ladder.Props.C99_abandoned",
    "Ladder.Props.C99_all",
    "Ladder.Props.C99_refuted",
    "Ladder.Props.C99_refuted_claim",
    "Ladder.Props.C99_refuted_abandoned",
    "Ladder.Props.C99_refuted_text",
    "Ladder.Props.C99_refuted_rows",
    "Ladder.Props.C99_refuted_names",
    "Ladder.Props.C99_refuted_jobs"
   ],
   "note": "C99_no_misuse_partial: with the table of scheduled jobs and the tables of rows granted, and a program file that has the rows it announces and no texts, main never misuses the heap and releases nothing that was live before, whichever other requests are refused (those of ladder_print included). C99_released: if main comes to ladder_ctx_deinit and the names of the saved file were granted, exactly the blocks left by the self-test are live. C99_abandoned: if main gives up in the setup, the heap stays as the failed step has left it. C99_all: with everything granted main ends with exactly 37 blocks more, whether the self-test passes or not. C99_refuted, C99_refuted_claim: so the claim is false, with the program file that comes with the application (mild_atHome). C99_refuted_abandoned: a refused request in the setup strands the context. C99_refuted_jobs: a refused table of scheduled jobs dereferences NULL. C99_refuted_rows: so does a refused table of rows. C99_refuted_names: with the names of the saved file refused 626 blocks remain after ladder_ctx_deinit (a program of one coil). C99_refuted_text: saving a program file with a text is undefined. Assumed: realloc to a smaller size is granted. Not in this model: the blocks of the port's hooks (C82) and what ladder_print reads of the operands."
  }
 ]
}