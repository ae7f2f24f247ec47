#!/usr/bin/env python3
"""Writes MANIFEST.json. One tuple per property: (id, status, theorems, note)."""
import json
claims = []
def c(pid, status, theorems, note=""):
    claims.append({"property": pid, "status": status, "theorems": ["T86." + t for t in theorems], "note": note})

c("C01", "proved", ["C01_signed_jumps", "C01_compare_defined", "C01_compare_and_jump", "C01_compare_and_jump_stepped"])
c("C02", "proved", ["C02_unsigned_jumps", "C01_compare_and_jump", "C01_compare_and_jump_stepped"])
c("C03", "proved", ["C03_add", "C03_sub", "C03_neg", "C03_neg_overflow_not_reported", "C03_defined"])
c("C04", "proved", ["C04_mul", "C04_div", "C04_idiv", "C04_mod", "C04_imul", "C04_imul_defined",
  "C04_imul_min_neg_one_undefined", "C04_bitwise", "C04_lsh", "C04_rsh"])
c("C05", "proved", ["C05_flags_roundtrip", "C05_layout", "C05_decode", "C05_conditions", "C05_jle_table"])
c("C06", "proved", ["C06_fetch", "C06_fetched", "C06_address"])
c("C07", "proved", ["C07_refines", "C07_halted", "C07_errors", "C07_defined", "C07_sensible", "C07_text",
  "C07_move_to_ip", "C07_not_sensible"],
  "For all programs the machine can execute: registers exist, and IP, SP of a POP and numbers are not destinations. C07_sensible "
  "says that these are all the assembler can produce besides; C07_move_to_ip and C07_not_sensible show what the others do.")
c("C08", "proved", ["C08_no_trace"])
c("C09", "partial", ["C09_faults_partial", "C09_speculative_division", "C68_cause"],
  "Memory faults and faults at retirement are proved not to leak from the wrong path. The property fails for integer "
  "division by zero: C09_speculative_division is the counterexample. C68_cause says which programs are concerned.")
c("C10", "proved", ["C10_single_step"])
c("C11", "proved", ["C11_breakpoint", "C11_not_missed", "C11_passes"])
c("C12", "proved", ["C12_watchpoint", "C12_writes", "C11_passes", "C12_decoded", "C12_event"])
c("C13", "proved", ["C13_refcounts", "C13_rename"])
c("C14", "proved", ["C14_loads"])
c("C15", "proved", ["C15_read_latency", "C15_gates", "C15_accepted", "C15_write"])
c("C16", "proved", ["C16_push", "C16_pop", "C16_fpush", "C16_fpop", "C16_push_pop", "C16_call", "C16_ret", "C16_call_ret",
  "C16_push_pop_stepped", "C16_call_ret_stepped"],
  "The last two say the same of two single steps of a debugged program on the pipelined machine.")
c("C17", "proved", ["C17_writable", "C17_retires", "C17_progress", "C17_halts", "C17_halts_defined", "C17_text", "C17_self_copy"],
  "For machines with an ALU, a memory gate and a station entry, and every program the assembler can produce (C17_writable).")
c("C18", "partial", ["C18_poke_partial", "C18_load_partial", "C18_stale_read"],
  "Proved for cells without an access under way. The property fails otherwise: C18_stale_read is the counterexample.")
c("C19", "proved", ["C19_decoded", "C19_rejected", "C19_received", "C19_interrupt"])
c("C20", "proved", ["C20_peeks_change_nothing", "C20_poke_reg", "C20_poke_float", "C20_poke_debug", "C20_poke_data", "C20_poke_text"])
c("C21", "partial", ["C21_trap", "C21_continue_partial", "C21_continue_single_steps"],
  "Proved for stops without a pending trap flag (START, SINGLESTEP and others). The property fails after a STEP that ends "
  "at a breakpoint: C21_continue_single_steps is the counterexample.")
c("C22", "partial", ["C22_producible", "C22_round_trip_partial", "C22_poke_back_partial", "C22_program_partial", "C22_negative_address"],
  "Proved for all instructions the assembler can produce whose bracketed addresses are below 2^31 and whose floating point "
  "numbers are printed exactly. The property fails otherwise: C22_negative_address is a counterexample.")
c("C23", "proved", ["C23_tokens", "C23_layout", "C23_layout_instruction", "C23_terminates"])
c("C24", "proved", ["C24_sections", "C24_load"])
c("C25", "proved", ["C25_split", "C25_join", "C25_split_join", "C25_split_terminated", "C25_prefix", "C25_squash_words",
  "C25_squash_tidy", "C25_squash_of_tidy", "C25_squash_idempotent", "C25_unsigned", "C25_signed"])
c("C26", "partial", ["C26_framing_partial", "C26_split_header"],
  "Proved when each length header arrives whole, for every other way of splitting the stream. The property fails when the "
  "transport splits a header: C26_split_header is the counterexample.")
c("C27", "proved", ["C27_fifo", "C27_no_loss", "C27_progress"])
c("C28", "partial", ["C28_text_partial", "C28_letter_partial", "C28_total", "C28_original", "C30_write_disabled"],
  "Proved for all sessions in which text is not written over a disabled breakpoint, in particular (C28_original) for all without "
  "writes of text. It fails otherwise: C30_write_disabled is the counterexample.")
c("C29", "partial", ["C29_restored_partial", "C29_original", "C29_total", "C30_write_disabled"], "As C28.")
c("C30", "partial", ["C30_armed_partial", "C30_original", "C30_set", "C30_enable", "C30_rejected", "C30_write_disabled"], "As C28.")
c("C31", "partial", ["C31_step", "C31_continue_partial", "C31_continue_free", "C31_own_bkpt", "C31_own_bkpt_stuck", "C31_step_mode"],
  "Proved for stepping from every state, and for continuing from every breakpoint that is not set on a BKPT of the program "
  "itself. It fails there: C31_own_bkpt is the counterexample.")
c("C32", "proved", ["C32_registers", "C32_rejected", "C32_set", "C32_total", "C32_control"])
c("C33", "partial", ["C33_still_active", "C33_removed_hit", "C33_reused_partial"],
  "The property fails: C33_still_active shows, for every session, that the debug register stays active, and C33_removed_hit is a "
  "concrete run. It holds only when the register is taken by a new watchpoint (C33_reused_partial).")
c("C34", "partial", ["C34_step", "C34_continue_partial", "C31_own_bkpt", "C34_many_registers"],
  "Proved except for continuing from a breakpoint set on a BKPT of the program itself, where it fails (C31_own_bkpt). On a machine "
  "with more registers than the debugger expects, the stop is not reported at all (C34_many_registers).")
c("C35", "partial", ["C35_text_partial", "C35_memory_partial", "C35_wraps", "C35_breakpoint_outside", "C35_believed_size",
  "C35_write_applied"],
  "Proved when address plus length is less than 2^64, relative to the memory size the debugger believes in. It fails otherwise: "
  "C35_wraps, C35_believed_size, and C35_breakpoint_outside are the counterexamples.")
c("C36", "proved", ["C36_line", "C36_address", "C36_unmapped"])
c("C37", "proved", ["C37_lines", "C37_line", "C37_range"])
c("C38", "proved", ["C38_name", "C38_name_sound", "C38_range", "C38_range_sound"])
c("C39", "partial", ["C39_visible", "C39_innermost_partial", "C39_outer_hides_inner"],
  "Which variables are visible is proved for all trees. Hiding is proved for trees that declare variables before inner scopes; "
  "it fails otherwise: C39_outer_hides_inner is the counterexample.")
c("C40", "partial", ["C40_location_partial", "C40_dereference_register_partial", "C40_dereference_address", "C40_dereference_keeps"],
  "Proved for expressions without DEREFERENCE and for DEREFERENCE of a register at the end. It fails for other uses of "
  "DEREFERENCE: C40_dereference_address and C40_dereference_keeps are the counterexamples.")
c("C41", "proved", ["C41_size", "C41_size_sound", "C41_types"])
c("C42", "partial", ["C42_grammar_partial", "C42_round_trip_partial", "C42_sound", "C42_unambiguous", "C42_terminates",
  "C42_comparison_lost", "C42_trailing_ignored", "C42_logical_binds_tighter", "C42_assign_left"],
  "Proved for all expressions without the operators <= and >=, which are documented but which the parser does not know: the rest "
  "of the text from there on is ignored (C42_comparison_lost).")
c("C43", "partial", ["C43_integers", "C43_zero_divisor", "C43_pointer_advance", "C43_pointer_index", "C43_array_index_partial",
  "C43_text_partial", "C43_pointer_difference", "C43_negative_index", "C43_overflow", "C43_no_short_circuit"],
  "Proved for all expressions of integer literals, variables and operators, for pointers plus or minus integers, and for division by "
  "zero. From the text on it is proved for what the parser knows (C42). The difference of two pointers is not divided by the size of "
  "what they point to (C43_pointer_difference), and a negative array index is undefined (C43_negative_index).")
c("C44", "partial", ["C44_assign_partial", "C44_variable_partial", "C44_register_partial", "C44_float", "C44_float_truncated", "C44_moves", "C44_refused", "C44_matches"],
  "Numbers, characters, pointers, and arrays and structures of them to any depth, in memory, wherever the location is computed to be, and scalars in "
  "registers (after an assignment to PC a variable can be read only if it is still visible there). False for floats, where the number is converted to an integer first (C44_float), and for variables whose "
  "location depends on what they contain, which are elsewhere after the assignment (C44_moves).")
c("C45", "proved", ["C45_label", "C45_current_label", "C45_patch", "C45_data_label"])
c("C46", "partial", ["C46_call_partial", "C46_any_partial", "C46_other", "C46_disabled", "C46_entry", "C46_watch_lost"],
  "False for a disabled breakpoint after the call (C46_disabled), a breakpoint at the first instruction of the callee, which is not noticed "
  "(C46_entry), and a call whose return address is written to a watched cell (C46_watch_lost). C46_call_partial is the property for callees that "
  "return without meeting anything; C46_any_partial says exactly what happens in all other cases but the last and breakpoints on a BKPT of the program.")
c("C47", "proved", ["C47_io_order", "C47_output_grows"])
c("C48", "proved", ["C48_resources"])
c("C49", "proved", ["C49_read_memory", "C49_write_memory", "C49_read_back", "C49_read_register", "C49_write_register"],
  "C49_write_register needs that the debugger expects as many registers as the machine has, see C34_many_registers.")
c("C50", "partial", ["Builder.C50_accepted_partial", "Builder.C50_three_operands"],
  "False for arithmetic with three operands, where the source is checked instead of the destination (C50_three_operands).")
c("C51", "proved", ["C51_read", "C51_assemble", "C51_lines", "C51_terminates", "C51_stale_name", "C51_unknown_skipped", "C51_backtick"],
  "The format is Spec/Info (FileSyn). What the parser does outside of the format is not claimed; C51_stale_name, C51_unknown_skipped and "
  "C51_backtick show three wrong texts that it accepts.")
c("C52", "partial", ["C52_in", "C52_over_partial", "C52_any_partial", "C52_session", "C52_over_misses"],
  "Stepping into is proved in full (C52_in). Stepping over is proved when all breakpoints are enabled and nothing is met on the way, and "
  "C52_any_partial says exactly what happens whatever is met, unless a call writes its return address to a watched cell; the property is false for a breakpoint at a CALL inside the line (C52_over_misses) and for disabled breakpoints behind a call (C46_disabled).")
c("C53", "partial", ["C53_out_partial", "C53_any_partial"],
  "Proved when all breakpoints are enabled and nothing is met on the way, and C53_any_partial says exactly what happens whatever is met, unless a call writes its return address to a watched cell; false for disabled breakpoints behind a call (C46_disabled).")
c("C54", "proved", ["C54_line", "C54_refused", "C54_total", "C54_number", "C54_name"],
  "In sessions as in C30. What a function name stands for is C38.")
c("C55", "proved", ["C55_string", "C55_unterminated", "C55_number", "C55_array_overrun"],
  "An array of characters is shown like a pointer to its first character, so without a zero in it what follows is shown, too "
  "(C55_array_overrun).")
c("C56", "proved", ["C56_recalled", "C56_numbers"], "")
c("C57", "partial", ["Cli.C57_order", "Cli.C57_unambiguous", "Cli.C57_names", "Cli.C57_help", "Cli.C57_blanks", "Cli.C57_unknown", "Cli.C57_tab", "Cli.C57_unset"],
  "Blanks are spaces: a tab is not taken as the end of a word (C57_tab). The help of `breakpoint` names a subcommand that does not exist (C57_unset).")
c("C58", "proved", ["Cli.C58_end", "Cli.C58_other", "Cli.C58_refused", "Cli.C58_stays"], "")
c("C59", "partial", ["Cli.C59_idle", "Cli.C59_empty", "Cli.C59_address", "Cli.C59_set_unread", "Cli.C59_assemble_ends", "Cli.C59_attach", "Cli.C59_expression_ends", "Cli.C59_instruction_ends"],
  "False for `memory set`, `assemble`, `attach` and `expression`, where wrong parameters are undefined behaviour or end the debugger "
  "(C59_set_unread, C59_assemble_ends, C59_attach, C59_expression_ends, C59_instruction_ends).")
c("C60", "partial", ["Cli.C60_session_partial", "Cli.C60_careful_partial", "Cli.C60_memory_partial", "Cli.C60_assemble"],
  "Missing: `attach`; `run`, see C64; `frame`, see C79_frame; for the behaviour of the program also lines that write "
  "memory on which instructions in flight still depend.")
c("C61", "proved", ["Cli.C61_get", "Cli.C61_getstr", "Cli.C61_set", "Cli.C61_outside", "Cli.C61_register_get", "Cli.C61_register_set", "Cli.C61_registers"], "")
c("C62", "partial", ["Cli.C62_literal", "Cli.C62_unique", "Cli.C62_setstr_partial", "Cli.C62_blanks"],
  "False for strings with two blanks in a row, of which one is lost (C62_blanks).")

c("C63", "partial", ["Cli.C63_range", "Cli.C63_from", "Cli.C63_function", "Cli.C63_here", "Cli.C63_mark", "Cli.C63_source", "Cli.C63_source_from",
  "Cli.C63_range_exclusive", "Cli.C63_range_reversed"],
  "Text written over disabled breakpoints is excluded, as in C28. False for ranges: the end is documented as included but is not (C63_range_exclusive), "
  "and an end before the beginning ends the debuggee (C63_range_reversed).")
c("C64", "partial", ["Cli.C64_option", "Cli.C64_run", "Cli.C64_no_file", "Cli.C64_broken", "Cli.C64_too_big", "Cli.C64_disabled"],
  "False for disabled breakpoints, which lose the instruction they stand for (C64_disabled).")

c("C65", "partial", ["Cli.C65_address", "Cli.C65_line", "Cli.C65_function", "Cli.C65_line_refused", "Cli.C65_iset", "Cli.C65_iset_refused", "Cli.C65_watch",
  "Cli.C65_unwatch", "Cli.C65_list", "Cli.C65_watched", "Cli.C65_no_line", "Cli.C65_other_line", "Cli.C65_list_zero"],
  "False for functions that begin at no line: the debugger dies, with the breakpoint changed (C65_no_line). The line printed may be another one that "
  "begins at the same address (C65_other_line), and the list counts lines from zero (C65_list_zero).")
c("C66", "partial", ["Cli.C66_stop", "Cli.C66_done", "Cli.C66_istep", "Cli.C66_step", "Cli.C66_continue_partial", "Cli.C66_inext_partial", "Cli.C66_next_partial",
  "Cli.C66_finish_partial"],
  "What is shown is proved for all six commands (C66_stop). Where the program is then is proved for `istep` and `step`, and for `continue` except from a breakpoint on a "
  "BKPT of the program; for `inext`, `next` and `finish` with the restrictions of C46_any_partial, C52_any_partial and C53_any_partial.")

c("C67", "partial", ["C67_prints", "C67_ends", "C67_fails", "C67_file", "C67_refused_partial", "C67_status", "C67_failure_is_silent", "C67_aborts", "C67_two_stores",
  "C68_file", "C68_fails"],
  "Undefined behaviour of the C++ is excluded for programs that do not get to a hazardous state (C68_file, C68_fails); two stores to one cell in a row are one (C67_two_stores). "
  "Numbers that are too long, data that does not fit and a file that does not begin with a token end the process by an uncaught exception (C67_aborts). A program that fails has exit status 0, too (C67_failure_is_silent).")

c("C68", "proved", ["C68_cause", "C68_defined", "C68_halts", "C68_file", "C68_fails", "C68_harmless", "C68_two_stores", "C68_unreached_division"],
  "C68_two_stores and C68_unreached_division show that both kinds of hazards are real.")

c("C69", "proved", ["C69_states", "C69_call", "C69_output", "C69_ends", "Cli.C69_line", "Cli.C69_lines", "Cli.C69_session", "Cli.C69_session_output", "C69_own_bkpt"],
  "The Cli theorems carry this to lines typed at the command line. C69_own_bkpt shows why programs with a BKPT of their own are excluded. Calls that fail end the sessions the theorems are about.")

c("C70", "proved", ["Stats.C70_transparent", "Stats.C70_executed", "Stats.C70_counted", "Stats.C70_ticks"], "")
c("C71", "proved", ["Stats.C71_life", "Stats.C71_shown", "Stats.C71_available"],
  "The stalls of operand fetching, which are split by the operand waited for, are modelled as one number.")
c("C72", "partial", ["Stats.C72_averages_partial", "Stats.C72_stalls_shown", "Stats.C72_stalls_wrong"],
  "The averages of fetch and decode stalls are not what they say; C72_stalls_wrong is the counterexample, and C72_averages_partial and C72_stalls_shown say what is shown instead. The division itself is not modelled.")
c("C73", "proved", ["C73_step", "C73_continue", "C73_reached", "C73_over", "C73_over_met", "C73_over_watch", "C73_over_other", "C73_line_in", "C73_line_over", "C73_out", "C73_out_met", "C73_line_met", "C73_line_in_met", "C73_line_in_watch", "C73_out_watch", "C73_line_watch", "Cli.C73_istep", "Cli.C73_inext", "Cli.C73_inext_met", "Cli.C73_inext_watch", "Cli.C73_step_typed", "Cli.C73_step_typed_met", "Cli.C73_step_typed_watch", "Cli.C73_next", "Cli.C73_next_met", "Cli.C73_next_watch", "Cli.C73_finish", "Cli.C73_finish_met", "Cli.C73_finish_watch", "Cli.C73_continue_typed"],
  "The converse of C31, C34 and C46: these say what has happened if a call comes back, C73 that it does; C73_over for stepping over a call whose callee returns, C73_over_met for one that comes to a breakpoint, to a BKPT or to the end instead, C73_over_watch for one that writes to a watched address (C73_line_in_watch, C73_line_watch and C73_out_watch for such a write in stepping by lines and out), C73_line_in, C73_line_over and C73_out for stepping by lines and out of a function (the converse of C52 and C53), C73_line_met, C73_line_in_met and C73_out_met for the case that the program comes to its end, to a breakpoint or to a BKPT before that (but for a breakpoint at a CALL, which is passed over: C52_over_misses). The theorems in the namespace Cli say it of the lines typed at the debugger (the converse of C66). Able: the machine has an ALU, a RAM gate and a reservation station, and no more registers than the debugger knows (C34_many_registers). Kempt: the active debug registers belong to watchpoints; it fails after a watchpoint has been removed (C33). The patience of the debugger is a parameter of the model (the C++ waits for ever).")
c("C74", "partial", ["C74_accepts", "C74_settings", "C74_verbose", "C74_interactive", "C74_input", "C74_number", "C74_machine_partial", "C74_default_machine", "C74_default_wrong",
  "C74_reg_partial", "C74_reg_wrong"],
  "The settings are proved in full, and the machines made with one, two or three sizes. The property is false for the machine made without any size, whose sizes are mixed up "
  "(C74_default_machine, C74_default_wrong), and for the register after the last one (C74_reg_wrong).")
c("C75", "partial", ["C75_value_partial", "C75_defined", "C75_forms", "C75_second_number", "C75_product_of_sum", "C75_second_number_all", "C75_product_all"],
  "Proved for expressions in which at most one number is added and only registers are multiplied; false otherwise (C75_second_number, C75_product_of_sum).")
c("C76", "partial", ["Position.C76_same", "Position.C76_program_partial", "Position.C76_instruction_partial", "Position.C76_expression_partial",
  "Position.C76_info_partial", "Position.C76_counted_from_zero"],
  "Proved in full for the tokens a parser rejects. The property is false for a character that begins no token, whose place is counted from 0 (C76_counted_from_zero), and the messages about "
  "strings that are not closed and about unknown escape sequences name no place; the theorems say which messages these are.")
c("C77", "partial", ["Stats.C77_detailed_partial", "Stats.C77_all", "Stats.C77_kinds", "Stats.C77_headings", "Stats.C77_stalls_wrong"],
  "All but the averages of fetch and decode stalls, which are wrong as in C72; C77_stalls_wrong is the counterexample. The order of the groups and the division are not modelled.")
c("C78", "partial", ["C78_type", "C78_value_type", "C78_value", "C78_distinct", "C78_expression", "C78_type_loop"],
  "Proved in full for types that have a name. A pointer type that points to itself has none, and showing it does not end (C78_type_loop). How a floating-point number is written is a parameter.")
c("C79", "partial", ["C79_variable", "C79_pointer", "C79_member", "C79_arrow", "C79_element", "C79_text", "C79_scope", "C79_frame", "C79_unsigned", "C79_ends"],
  "Proved for locations without DEREFERENCE (C40 has those) and for every type but unsigned: a variable of this type cannot be read (C79_unsigned), and frame ends the debugger where one is in scope (C79_ends).")
c("C80", "proved", ["Cli.C80_session", "Cli.C80_output", "Cli.C80_input", "Cli.C80_block", "Cli.C80_blank", "Cli.C80_error", "Cli.C80_end", "Cli.C80_independent", "Cli.C80_prefix"],
  "Errors other than DebuggerError (C60 says when there are none) end the debugger, which is the constructor `died` of Carried.")
json.dump({"claims": claims}, open("/verif/MANIFEST.json", "w"), indent=1)

# The axioms of the theorems, printed by the build.
names = sorted({t for x in claims for t in x["theorems"]})
with open("/verif/lean/Verif/Axioms.lean", "w") as f:
    f.write("".join(l for l in open("/verif/lean/Verif.lean") if "Axioms" not in l))
    f.write("\n/-! # The axioms every property theorem depends on (written by tools/manifest.py) -/\n\n")
    for n in names:
        f.write("#print axioms " + n + "\n")
