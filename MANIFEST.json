{
 "claims": [
  {
   "property": "C01",
   "status": "proved",
   "theorems": [
    "T86.C01_signed_jumps",
    "T86.C01_compare_defined",
    "T86.C01_compare_and_jump",
    "T86.C01_compare_and_jump_stepped"
   ],
   "note": ""
  },
  {
   "property": "C02",
   "status": "proved",
   "theorems": [
    "T86.C02_unsigned_jumps",
    "T86.C01_compare_and_jump",
    "T86.C01_compare_and_jump_stepped"
   ],
   "note": ""
  },
  {
   "property": "C03",
   "status": "proved",
   "theorems": [
    "T86.C03_add",
    "T86.C03_sub",
    "T86.C03_neg",
    "T86.C03_neg_overflow_not_reported",
    "T86.C03_defined"
   ],
   "note": ""
  },
  {
   "property": "C04",
   "status": "proved",
   "theorems": [
    "T86.C04_mul",
    "T86.C04_div",
    "T86.C04_idiv",
    "T86.C04_mod",
    "T86.C04_imul",
    "T86.C04_imul_defined",
    "T86.C04_imul_min_neg_one_undefined",
    "T86.C04_bitwise",
    "T86.C04_lsh",
    "T86.C04_rsh"
   ],
   "note": ""
  },
  {
   "property": "C05",
   "status": "proved",
   "theorems": [
    "T86.C05_flags_roundtrip",
    "T86.C05_layout",
    "T86.C05_decode",
    "T86.C05_conditions",
    "T86.C05_jle_table"
   ],
   "note": ""
  },
  {
   "property": "C06",
   "status": "proved",
   "theorems": [
    "T86.C06_fetch",
    "T86.C06_fetched",
    "T86.C06_address"
   ],
   "note": ""
  },
  {
   "property": "C07",
   "status": "proved",
   "theorems": [
    "T86.C07_refines",
    "T86.C07_halted",
    "T86.C07_errors",
    "T86.C07_defined",
    "T86.C07_sensible",
    "T86.C07_text",
    "T86.C07_move_to_ip",
    "T86.C07_not_sensible"
   ],
   "note": "For all programs the machine can execute: registers exist, and IP, SP of a POP and numbers are not destinations. C07_sensible says that these are all the assembler can produce besides; C07_move_to_ip and C07_not_sensible show what the others do."
  },
  {
   "property": "C08",
   "status": "proved",
   "theorems": [
    "T86.C08_no_trace"
   ],
   "note": ""
  },
  {
   "property": "C09",
   "status": "partial",
   "theorems": [
    "T86.C09_faults_partial",
    "T86.C09_speculative_division",
    "T86.C68_cause"
   ],
   "note": "Memory faults and faults at retirement are proved not to leak from the wrong path. The property fails for integer division by zero: C09_speculative_division is the counterexample. C68_cause says which programs are concerned."
  },
  {
   "property": "C10",
   "status": "proved",
   "theorems": [
    "T86.C10_single_step"
   ],
   "note": ""
  },
  {
   "property": "C11",
   "status": "proved",
   "theorems": [
    "T86.C11_breakpoint",
    "T86.C11_not_missed",
    "T86.C11_passes"
   ],
   "note": ""
  },
  {
   "property": "C12",
   "status": "proved",
   "theorems": [
    "T86.C12_watchpoint",
    "T86.C12_writes",
    "T86.C11_passes",
    "T86.C12_decoded",
    "T86.C12_event"
   ],
   "note": ""
  },
  {
   "property": "C13",
   "status": "proved",
   "theorems": [
    "T86.C13_refcounts",
    "T86.C13_rename"
   ],
   "note": ""
  },
  {
   "property": "C14",
   "status": "proved",
   "theorems": [
    "T86.C14_loads"
   ],
   "note": ""
  },
  {
   "property": "C15",
   "status": "proved",
   "theorems": [
    "T86.C15_read_latency",
    "T86.C15_gates",
    "T86.C15_accepted",
    "T86.C15_write"
   ],
   "note": ""
  },
  {
   "property": "C16",
   "status": "proved",
   "theorems": [
    "T86.C16_push",
    "T86.C16_pop",
    "T86.C16_fpush",
    "T86.C16_fpop",
    "T86.C16_push_pop",
    "T86.C16_call",
    "T86.C16_ret",
    "T86.C16_call_ret",
    "T86.C16_push_pop_stepped",
    "T86.C16_call_ret_stepped"
   ],
   "note": "The last two say the same of two single steps of a debugged program on the pipelined machine."
  },
  {
   "property": "C17",
   "status": "proved",
   "theorems": [
    "T86.C17_writable",
    "T86.C17_retires",
    "T86.C17_progress",
    "T86.C17_halts",
    "T86.C17_halts_defined",
    "T86.C17_text",
    "T86.C17_self_copy"
   ],
   "note": "For machines with an ALU, a memory gate and a station entry, and every program the assembler can produce (C17_writable)."
  },
  {
   "property": "C18",
   "status": "partial",
   "theorems": [
    "T86.C18_poke_partial",
    "T86.C18_load_partial",
    "T86.C18_stale_read"
   ],
   "note": "Proved for cells without an access under way. The property fails otherwise: C18_stale_read is the counterexample."
  },
  {
   "property": "C19",
   "status": "proved",
   "theorems": [
    "T86.C19_decoded",
    "T86.C19_rejected",
    "T86.C19_received",
    "T86.C19_interrupt"
   ],
   "note": ""
  },
  {
   "property": "C20",
   "status": "proved",
   "theorems": [
    "T86.C20_peeks_change_nothing",
    "T86.C20_poke_reg",
    "T86.C20_poke_float",
    "T86.C20_poke_debug",
    "T86.C20_poke_data",
    "T86.C20_poke_text"
   ],
   "note": ""
  },
  {
   "property": "C21",
   "status": "partial",
   "theorems": [
    "T86.C21_trap",
    "T86.C21_continue_partial",
    "T86.C21_continue_single_steps"
   ],
   "note": "Proved for stops without a pending trap flag (START, SINGLESTEP and others). The property fails after a STEP that ends at a breakpoint: C21_continue_single_steps is the counterexample."
  },
  {
   "property": "C22",
   "status": "partial",
   "theorems": [
    "T86.C22_producible",
    "T86.C22_round_trip_partial",
    "T86.C22_poke_back_partial",
    "T86.C22_program_partial",
    "T86.C22_negative_address"
   ],
   "note": "Proved for all instructions the assembler can produce whose bracketed addresses are below 2^31 and whose floating point numbers are printed exactly. The property fails otherwise: C22_negative_address is a counterexample."
  },
  {
   "property": "C23",
   "status": "proved",
   "theorems": [
    "T86.C23_tokens",
    "T86.C23_layout",
    "T86.C23_layout_instruction",
    "T86.C23_terminates"
   ],
   "note": ""
  },
  {
   "property": "C24",
   "status": "proved",
   "theorems": [
    "T86.C24_sections",
    "T86.C24_load"
   ],
   "note": ""
  },
  {
   "property": "C25",
   "status": "proved",
   "theorems": [
    "T86.C25_split",
    "T86.C25_join",
    "T86.C25_split_join",
    "T86.C25_split_terminated",
    "T86.C25_prefix",
    "T86.C25_squash_words",
    "T86.C25_squash_tidy",
    "T86.C25_squash_of_tidy",
    "T86.C25_squash_idempotent",
    "T86.C25_unsigned",
    "T86.C25_signed"
   ],
   "note": ""
  },
  {
   "property": "C26",
   "status": "partial",
   "theorems": [
    "T86.C26_framing_partial",
    "T86.C26_split_header"
   ],
   "note": "Proved when each length header arrives whole, for every other way of splitting the stream. The property fails when the transport splits a header: C26_split_header is the counterexample."
  },
  {
   "property": "C27",
   "status": "proved",
   "theorems": [
    "T86.C27_fifo",
    "T86.C27_no_loss",
    "T86.C27_progress"
   ],
   "note": ""
  },
  {
   "property": "C28",
   "status": "partial",
   "theorems": [
    "T86.C28_text_partial",
    "T86.C28_letter_partial",
    "T86.C28_total",
    "T86.C28_original",
    "T86.C30_write_disabled"
   ],
   "note": "Proved for all sessions in which text is not written over a disabled breakpoint, in particular (C28_original) for all without writes of text. It fails otherwise: C30_write_disabled is the counterexample."
  },
  {
   "property": "C29",
   "status": "partial",
   "theorems": [
    "T86.C29_restored_partial",
    "T86.C29_original",
    "T86.C29_total",
    "T86.C30_write_disabled"
   ],
   "note": "As C28."
  },
  {
   "property": "C30",
   "status": "partial",
   "theorems": [
    "T86.C30_armed_partial",
    "T86.C30_original",
    "T86.C30_set",
    "T86.C30_enable",
    "T86.C30_rejected",
    "T86.C30_write_disabled"
   ],
   "note": "As C28."
  },
  {
   "property": "C31",
   "status": "partial",
   "theorems": [
    "T86.C31_step",
    "T86.C31_continue_partial",
    "T86.C31_continue_free",
    "T86.C31_own_bkpt",
    "T86.C31_own_bkpt_stuck",
    "T86.C31_step_mode"
   ],
   "note": "Proved for stepping from every state, and for continuing from every breakpoint that is not set on a BKPT of the program itself. It fails there: C31_own_bkpt is the counterexample."
  },
  {
   "property": "C32",
   "status": "proved",
   "theorems": [
    "T86.C32_registers",
    "T86.C32_rejected",
    "T86.C32_set",
    "T86.C32_total",
    "T86.C32_control"
   ],
   "note": ""
  },
  {
   "property": "C33",
   "status": "partial",
   "theorems": [
    "T86.C33_still_active",
    "T86.C33_removed_hit",
    "T86.C33_reused_partial"
   ],
   "note": "The property fails: C33_still_active shows, for every session, that the debug register stays active, and C33_removed_hit is a concrete run. It holds only when the register is taken by a new watchpoint (C33_reused_partial)."
  },
  {
   "property": "C34",
   "status": "partial",
   "theorems": [
    "T86.C34_step",
    "T86.C34_continue_partial",
    "T86.C31_own_bkpt",
    "T86.C34_many_registers"
   ],
   "note": "Proved except for continuing from a breakpoint set on a BKPT of the program itself, where it fails (C31_own_bkpt). On a machine with more registers than the debugger expects, the stop is not reported at all (C34_many_registers)."
  },
  {
   "property": "C35",
   "status": "partial",
   "theorems": [
    "T86.C35_text_partial",
    "T86.C35_memory_partial",
    "T86.C35_wraps",
    "T86.C35_breakpoint_outside",
    "T86.C35_believed_size",
    "T86.C35_write_applied"
   ],
   "note": "Proved when address plus length is less than 2^64, relative to the memory size the debugger believes in. It fails otherwise: C35_wraps, C35_believed_size, and C35_breakpoint_outside are the counterexamples."
  },
  {
   "property": "C36",
   "status": "proved",
   "theorems": [
    "T86.C36_line",
    "T86.C36_address",
    "T86.C36_unmapped"
   ],
   "note": ""
  },
  {
   "property": "C37",
   "status": "proved",
   "theorems": [
    "T86.C37_lines",
    "T86.C37_line",
    "T86.C37_range"
   ],
   "note": ""
  },
  {
   "property": "C38",
   "status": "proved",
   "theorems": [
    "T86.C38_name",
    "T86.C38_name_sound",
    "T86.C38_range",
    "T86.C38_range_sound"
   ],
   "note": ""
  },
  {
   "property": "C39",
   "status": "partial",
   "theorems": [
    "T86.C39_visible",
    "T86.C39_innermost_partial",
    "T86.C39_outer_hides_inner"
   ],
   "note": "Which variables are visible is proved for all trees. Hiding is proved for trees that declare variables before inner scopes; it fails otherwise: C39_outer_hides_inner is the counterexample."
  },
  {
   "property": "C40",
   "status": "partial",
   "theorems": [
    "T86.C40_location_partial",
    "T86.C40_dereference_register_partial",
    "T86.C40_dereference_address",
    "T86.C40_dereference_keeps"
   ],
   "note": "Proved for expressions without DEREFERENCE and for DEREFERENCE of a register at the end. It fails for other uses of DEREFERENCE: C40_dereference_address and C40_dereference_keeps are the counterexamples."
  },
  {
   "property": "C41",
   "status": "proved",
   "theorems": [
    "T86.C41_size",
    "T86.C41_size_sound",
    "T86.C41_types"
   ],
   "note": ""
  },
  {
   "property": "C42",
   "status": "partial",
   "theorems": [
    "T86.C42_grammar_partial",
    "T86.C42_round_trip_partial",
    "T86.C42_sound",
    "T86.C42_unambiguous",
    "T86.C42_terminates",
    "T86.C42_comparison_lost",
    "T86.C42_trailing_ignored",
    "T86.C42_logical_binds_tighter",
    "T86.C42_assign_left"
   ],
   "note": "Proved for all expressions without the operators <= and >=, which are documented but which the parser does not know: the rest of the text from there on is ignored (C42_comparison_lost)."
  },
  {
   "property": "C43",
   "status": "partial",
   "theorems": [
    "T86.C43_integers",
    "T86.C43_zero_divisor",
    "T86.C43_pointer_advance",
    "T86.C43_pointer_index",
    "T86.C43_array_index_partial",
    "T86.C43_text_partial",
    "T86.C43_pointer_difference",
    "T86.C43_negative_index",
    "T86.C43_overflow",
    "T86.C43_no_short_circuit"
   ],
   "note": "Proved for all expressions of integer literals, variables and operators, for pointers plus or minus integers, and for division by zero. From the text on it is proved for what the parser knows (C42). The difference of two pointers is not divided by the size of what they point to (C43_pointer_difference), and a negative array index is undefined (C43_negative_index)."
  },
  {
   "property": "C44",
   "status": "partial",
   "theorems": [
    "T86.C44_assign_partial",
    "T86.C44_variable_partial",
    "T86.C44_register_partial",
    "T86.C44_float",
    "T86.C44_float_truncated",
    "T86.C44_moves",
    "T86.C44_refused",
    "T86.C44_matches"
   ],
   "note": "Numbers, characters, pointers, and arrays and structures of them to any depth, in memory, wherever the location is computed to be, and scalars in registers (after an assignment to PC a variable can be read only if it is still visible there). False for floats, where the number is converted to an integer first (C44_float), and for variables whose location depends on what they contain, which are elsewhere after the assignment (C44_moves)."
  },
  {
   "property": "C45",
   "status": "proved",
   "theorems": [
    "T86.C45_label",
    "T86.C45_current_label",
    "T86.C45_patch",
    "T86.C45_data_label"
   ],
   "note": ""
  },
  {
   "property": "C46",
   "status": "partial",
   "theorems": [
    "T86.C46_call_partial",
    "T86.C46_any_partial",
    "T86.C46_other",
    "T86.C46_disabled",
    "T86.C46_entry",
    "T86.C46_watch_lost"
   ],
   "note": "False for a disabled breakpoint after the call (C46_disabled), a breakpoint at the first instruction of the callee, which is not noticed (C46_entry), and a call whose return address is written to a watched cell (C46_watch_lost). C46_call_partial is the property for callees that return without meeting anything; C46_any_partial says exactly what happens in all other cases but the last and breakpoints on a BKPT of the program."
  },
  {
   "property": "C47",
   "status": "proved",
   "theorems": [
    "T86.C47_io_order",
    "T86.C47_output_grows"
   ],
   "note": ""
  },
  {
   "property": "C48",
   "status": "proved",
   "theorems": [
    "T86.C48_resources"
   ],
   "note": ""
  },
  {
   "property": "C49",
   "status": "proved",
   "theorems": [
    "T86.C49_read_memory",
    "T86.C49_write_memory",
    "T86.C49_read_back",
    "T86.C49_read_register",
    "T86.C49_write_register"
   ],
   "note": "C49_write_register needs that the debugger expects as many registers as the machine has, see C34_many_registers."
  },
  {
   "property": "C50",
   "status": "partial",
   "theorems": [
    "T86.Builder.C50_accepted_partial",
    "T86.Builder.C50_three_operands"
   ],
   "note": "False for arithmetic with three operands, where the source is checked instead of the destination (C50_three_operands)."
  },
  {
   "property": "C51",
   "status": "proved",
   "theorems": [
    "T86.C51_read",
    "T86.C51_assemble",
    "T86.C51_lines",
    "T86.C51_terminates",
    "T86.C51_stale_name",
    "T86.C51_unknown_skipped",
    "T86.C51_backtick"
   ],
   "note": "The format is Spec/Info (FileSyn). What the parser does outside of the format is not claimed; C51_stale_name, C51_unknown_skipped and C51_backtick show three wrong texts that it accepts."
  },
  {
   "property": "C52",
   "status": "partial",
   "theorems": [
    "T86.C52_in",
    "T86.C52_over_partial",
    "T86.C52_any_partial",
    "T86.C52_session",
    "T86.C52_over_misses"
   ],
   "note": "Stepping into is proved in full (C52_in). Stepping over is proved when all breakpoints are enabled and nothing is met on the way, and C52_any_partial says exactly what happens whatever is met, unless a call writes its return address to a watched cell; the property is false for a breakpoint at a CALL inside the line (C52_over_misses) and for disabled breakpoints behind a call (C46_disabled)."
  },
  {
   "property": "C53",
   "status": "partial",
   "theorems": [
    "T86.C53_out_partial",
    "T86.C53_any_partial"
   ],
   "note": "Proved when all breakpoints are enabled and nothing is met on the way, and C53_any_partial says exactly what happens whatever is met, unless a call writes its return address to a watched cell; false for disabled breakpoints behind a call (C46_disabled)."
  },
  {
   "property": "C54",
   "status": "proved",
   "theorems": [
    "T86.C54_line",
    "T86.C54_refused",
    "T86.C54_total",
    "T86.C54_number",
    "T86.C54_name"
   ],
   "note": "In sessions as in C30. What a function name stands for is C38."
  },
  {
   "property": "C55",
   "status": "proved",
   "theorems": [
    "T86.C55_string",
    "T86.C55_unterminated",
    "T86.C55_number",
    "T86.C55_array_overrun"
   ],
   "note": "An array of characters is shown like a pointer to its first character, so without a zero in it what follows is shown, too (C55_array_overrun)."
  },
  {
   "property": "C56",
   "status": "proved",
   "theorems": [
    "T86.C56_recalled",
    "T86.C56_numbers"
   ],
   "note": ""
  },
  {
   "property": "C57",
   "status": "partial",
   "theorems": [
    "T86.Cli.C57_order",
    "T86.Cli.C57_unambiguous",
    "T86.Cli.C57_names",
    "T86.Cli.C57_help",
    "T86.Cli.C57_blanks",
    "T86.Cli.C57_unknown",
    "T86.Cli.C57_tab",
    "T86.Cli.C57_unset"
   ],
   "note": "Blanks are spaces: a tab is not taken as the end of a word (C57_tab). The help of `breakpoint` names a subcommand that does not exist (C57_unset)."
  },
  {
   "property": "C58",
   "status": "proved",
   "theorems": [
    "T86.Cli.C58_end",
    "T86.Cli.C58_other",
    "T86.Cli.C58_refused",
    "T86.Cli.C58_stays"
   ],
   "note": ""
  },
  {
   "property": "C59",
   "status": "partial",
   "theorems": [
    "T86.Cli.C59_idle",
    "T86.Cli.C59_empty",
    "T86.Cli.C59_address",
    "T86.Cli.C59_set_unread",
    "T86.Cli.C59_assemble_ends",
    "T86.Cli.C59_attach",
    "T86.Cli.C59_expression_ends",
    "T86.Cli.C59_instruction_ends"
   ],
   "note": "False for `memory set`, `assemble`, `attach` and `expression`, where wrong parameters are undefined behaviour or end the debugger (C59_set_unread, C59_assemble_ends, C59_attach, C59_expression_ends, C59_instruction_ends)."
  },
  {
   "property": "C60",
   "status": "partial",
   "theorems": [
    "T86.Cli.C60_session_partial",
    "T86.Cli.C60_careful_partial",
    "T86.Cli.C60_memory_partial",
    "T86.Cli.C60_assemble"
   ],
   "note": "Missing: `attach`; `run`, see C64; `frame`, see C79_frame; for the behaviour of the program also lines that write memory on which instructions in flight still depend."
  },
  {
   "property": "C61",
   "status": "proved",
   "theorems": [
    "T86.Cli.C61_get",
    "T86.Cli.C61_getstr",
    "T86.Cli.C61_set",
    "T86.Cli.C61_outside",
    "T86.Cli.C61_register_get",
    "T86.Cli.C61_register_set",
    "T86.Cli.C61_registers"
   ],
   "note": ""
  },
  {
   "property": "C62",
   "status": "partial",
   "theorems": [
    "T86.Cli.C62_literal",
    "T86.Cli.C62_unique",
    "T86.Cli.C62_setstr_partial",
    "T86.Cli.C62_blanks"
   ],
   "note": "False for strings with two blanks in a row, of which one is lost (C62_blanks)."
  },
  {
   "property": "C63",
   "status": "partial",
   "theorems": [
    "T86.Cli.C63_range",
    "T86.Cli.C63_from",
    "T86.Cli.C63_function",
    "T86.Cli.C63_here",
    "T86.Cli.C63_mark",
    "T86.Cli.C63_source",
    "T86.Cli.C63_source_from",
    "T86.Cli.C63_range_exclusive",
    "T86.Cli.C63_range_reversed"
   ],
   "note": "Text written over disabled breakpoints is excluded, as in C28. False for ranges: the end is documented as included but is not (C63_range_exclusive), and an end before the beginning ends the debuggee (C63_range_reversed)."
  },
  {
   "property": "C64",
   "status": "partial",
   "theorems": [
    "T86.Cli.C64_option",
    "T86.Cli.C64_run",
    "T86.Cli.C64_no_file",
    "T86.Cli.C64_broken",
    "T86.Cli.C64_too_big",
    "T86.Cli.C64_disabled"
   ],
   "note": "False for disabled breakpoints, which lose the instruction they stand for (C64_disabled)."
  },
  {
   "property": "C65",
   "status": "partial",
   "theorems": [
    "T86.Cli.C65_address",
    "T86.Cli.C65_line",
    "T86.Cli.C65_function",
    "T86.Cli.C65_line_refused",
    "T86.Cli.C65_iset",
    "T86.Cli.C65_iset_refused",
    "T86.Cli.C65_watch",
    "T86.Cli.C65_unwatch",
    "T86.Cli.C65_list",
    "T86.Cli.C65_watched",
    "T86.Cli.C65_no_line",
    "T86.Cli.C65_other_line",
    "T86.Cli.C65_list_zero"
   ],
   "note": "False for functions that begin at no line: the debugger dies, with the breakpoint changed (C65_no_line). The line printed may be another one that begins at the same address (C65_other_line), and the list counts lines from zero (C65_list_zero)."
  },
  {
   "property": "C66",
   "status": "partial",
   "theorems": [
    "T86.Cli.C66_stop",
    "T86.Cli.C66_done",
    "T86.Cli.C66_istep",
    "T86.Cli.C66_step",
    "T86.Cli.C66_continue_partial",
    "T86.Cli.C66_inext_partial",
    "T86.Cli.C66_next_partial",
    "T86.Cli.C66_finish_partial"
   ],
   "note": "What is shown is proved for all six commands (C66_stop). Where the program is then is proved for `istep` and `step`, and for `continue` except from a breakpoint on a BKPT of the program; for `inext`, `next` and `finish` with the restrictions of C46_any_partial, C52_any_partial and C53_any_partial."
  },
  {
   "property": "C67",
   "status": "partial",
   "theorems": [
    "T86.C67_prints",
    "T86.C67_ends",
    "T86.C67_fails",
    "T86.C67_file",
    "T86.C67_refused_partial",
    "T86.C67_status",
    "T86.C67_failure_is_silent",
    "T86.C67_aborts",
    "T86.C67_two_stores",
    "T86.C68_file",
    "T86.C68_fails"
   ],
   "note": "Undefined behaviour of the C++ is excluded for programs that do not get to a hazardous state (C68_file, C68_fails); two stores to one cell in a row are one (C67_two_stores). Numbers that are too long, data that does not fit and a file that does not begin with a token end the process by an uncaught exception (C67_aborts). A program that fails has exit status 0, too (C67_failure_is_silent)."
  },
  {
   "property": "C68",
   "status": "proved",
   "theorems": [
    "T86.C68_cause",
    "T86.C68_defined",
    "T86.C68_halts",
    "T86.C68_file",
    "T86.C68_fails",
    "T86.C68_harmless",
    "T86.C68_two_stores",
    "T86.C68_unreached_division"
   ],
   "note": "C68_two_stores and C68_unreached_division show that both kinds of hazards are real."
  },
  {
   "property": "C69",
   "status": "proved",
   "theorems": [
    "T86.C69_states",
    "T86.C69_call",
    "T86.C69_output",
    "T86.C69_ends",
    "T86.Cli.C69_line",
    "T86.Cli.C69_lines",
    "T86.Cli.C69_session",
    "T86.Cli.C69_session_output",
    "T86.C69_own_bkpt"
   ],
   "note": "The Cli theorems carry this to lines typed at the command line. C69_own_bkpt shows why programs with a BKPT of their own are excluded. Calls that fail end the sessions the theorems are about."
  },
  {
   "property": "C70",
   "status": "proved",
   "theorems": [
    "T86.Stats.C70_transparent",
    "T86.Stats.C70_executed",
    "T86.Stats.C70_counted",
    "T86.Stats.C70_ticks"
   ],
   "note": ""
  },
  {
   "property": "C71",
   "status": "proved",
   "theorems": [
    "T86.Stats.C71_life",
    "T86.Stats.C71_shown",
    "T86.Stats.C71_available"
   ],
   "note": "The stalls of operand fetching, which are split by the operand waited for, are modelled as one number."
  },
  {
   "property": "C72",
   "status": "partial",
   "theorems": [
    "T86.Stats.C72_averages_partial",
    "T86.Stats.C72_stalls_shown",
    "T86.Stats.C72_stalls_wrong"
   ],
   "note": "The averages of fetch and decode stalls are not what they say; C72_stalls_wrong is the counterexample, and C72_averages_partial and C72_stalls_shown say what is shown instead. The division itself is not modelled."
  },
  {
   "property": "C73",
   "status": "proved",
   "theorems": [
    "T86.C73_step",
    "T86.C73_continue",
    "T86.C73_reached",
    "T86.C73_over",
    "T86.C73_over_met",
    "T86.C73_over_watch",
    "T86.C73_over_other",
    "T86.C73_line_in",
    "T86.C73_line_over",
    "T86.C73_out",
    "T86.C73_out_met",
    "T86.C73_line_met",
    "T86.C73_line_in_met",
    "T86.C73_line_in_watch",
    "T86.C73_out_watch",
    "T86.C73_line_watch",
    "T86.Cli.C73_istep",
    "T86.Cli.C73_inext",
    "T86.Cli.C73_inext_met",
    "T86.Cli.C73_inext_watch",
    "T86.Cli.C73_step_typed",
    "T86.Cli.C73_step_typed_met",
    "T86.Cli.C73_step_typed_watch",
    "T86.Cli.C73_next",
    "T86.Cli.C73_next_met",
    "T86.Cli.C73_next_watch",
    "T86.Cli.C73_finish",
    "T86.Cli.C73_finish_met",
    "T86.Cli.C73_finish_watch",
    "T86.Cli.C73_continue_typed"
   ],
   "note": "The converse of C31, C34 and C46: these say what has happened if a call comes back, C73 that it does; C73_over for stepping over a call whose callee returns, C73_over_met for one that comes to a breakpoint, to a BKPT or to the end instead, C73_over_watch for one that writes to a watched address (C73_line_in_watch, C73_line_watch and C73_out_watch for such a write in stepping by lines and out), C73_line_in, C73_line_over and C73_out for stepping by lines and out of a function (the converse of C52 and C53), C73_line_met, C73_line_in_met and C73_out_met for the case that the program comes to its end, to a breakpoint or to a BKPT before that (but for a breakpoint at a CALL, which is passed over: C52_over_misses). The theorems in the namespace Cli say it of the lines typed at the debugger (the converse of C66). Able: the machine has an ALU, a RAM gate and a reservation station, and no more registers than the debugger knows (C34_many_registers). Kempt: the active debug registers belong to watchpoints; it fails after a watchpoint has been removed (C33). The patience of the debugger is a parameter of the model (the C++ waits for ever)."
  },
  {
   "property": "C74",
   "status": "partial",
   "theorems": [
    "T86.C74_accepts",
    "T86.C74_settings",
    "T86.C74_verbose",
    "T86.C74_interactive",
    "T86.C74_input",
    "T86.C74_number",
    "T86.C74_machine_partial",
    "T86.C74_default_machine",
    "T86.C74_default_wrong",
    "T86.C74_reg_partial",
    "T86.C74_reg_wrong"
   ],
   "note": "The settings are proved in full, and the machines made with one, two or three sizes. The property is false for the machine made without any size, whose sizes are mixed up (C74_default_machine, C74_default_wrong), and for the register after the last one (C74_reg_wrong)."
  },
  {
   "property": "C75",
   "status": "partial",
   "theorems": [
    "T86.C75_value_partial",
    "T86.C75_defined",
    "T86.C75_forms",
    "T86.C75_second_number",
    "T86.C75_product_of_sum",
    "T86.C75_second_number_all",
    "T86.C75_product_all"
   ],
   "note": "Proved for expressions in which at most one number is added and only registers are multiplied; false otherwise (C75_second_number, C75_product_of_sum)."
  },
  {
   "property": "C76",
   "status": "partial",
   "theorems": [
    "T86.Position.C76_same",
    "T86.Position.C76_program_partial",
    "T86.Position.C76_instruction_partial",
    "T86.Position.C76_expression_partial",
    "T86.Position.C76_info_partial",
    "T86.Position.C76_counted_from_zero"
   ],
   "note": "Proved in full for the tokens a parser rejects. The property is false for a character that begins no token, whose place is counted from 0 (C76_counted_from_zero), and the messages about strings that are not closed and about unknown escape sequences name no place; the theorems say which messages these are."
  },
  {
   "property": "C77",
   "status": "partial",
   "theorems": [
    "T86.Stats.C77_detailed_partial",
    "T86.Stats.C77_all",
    "T86.Stats.C77_kinds",
    "T86.Stats.C77_headings",
    "T86.Stats.C77_stalls_wrong"
   ],
   "note": "All but the averages of fetch and decode stalls, which are wrong as in C72; C77_stalls_wrong is the counterexample. The order of the groups and the division are not modelled."
  },
  {
   "property": "C78",
   "status": "partial",
   "theorems": [
    "T86.C78_type",
    "T86.C78_value_type",
    "T86.C78_value",
    "T86.C78_distinct",
    "T86.C78_expression",
    "T86.C78_type_loop"
   ],
   "note": "Proved in full for types that have a name. A pointer type that points to itself has none, and showing it does not end (C78_type_loop). How a floating-point number is written is a parameter."
  },
  {
   "property": "C79",
   "status": "partial",
   "theorems": [
    "T86.C79_variable",
    "T86.C79_pointer",
    "T86.C79_member",
    "T86.C79_arrow",
    "T86.C79_element",
    "T86.C79_text",
    "T86.C79_scope",
    "T86.C79_frame",
    "T86.C79_unsigned",
    "T86.C79_ends"
   ],
   "note": "Proved for locations without DEREFERENCE (C40 has those) and for every type but unsigned: a variable of this type cannot be read (C79_unsigned), and frame ends the debugger where one is in scope (C79_ends)."
  },
  {
   "property": "C80",
   "status": "proved",
   "theorems": [
    "T86.Cli.C80_session",
    "T86.Cli.C80_output",
    "T86.Cli.C80_input",
    "T86.Cli.C80_block",
    "T86.Cli.C80_blank",
    "T86.Cli.C80_error",
    "T86.Cli.C80_end",
    "T86.Cli.C80_independent",
    "T86.Cli.C80_prefix"
   ],
   "note": "Errors other than DebuggerError (C60 says when there are none) end the debugger, which is the constructor `died` of Carried."
  }
 ]
}