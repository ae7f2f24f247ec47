import Verif.Props.Alu
import Verif.Props.Operand
import Verif.Props.Ram
import Verif.Props.Stack
import Verif.Props.Pipeline
import Verif.Props.Debug
import Verif.Props.Str
import Verif.Props.Message
import Verif.Props.Builder
import Verif.Props.Source
import Verif.Props.Asm
import Verif.Props.Native
import Verif.Props.Stepping
import Verif.Props.Expr
import Verif.Props.Eval
import Verif.Props.Access
import Verif.Props.Assign
import Verif.Props.Live
import Verif.Props.Programs
import Verif.Model.InfoParse
import Verif.Spec.Info
import Verif.Lemmas.InfoRead
import Verif.Lemmas.InfoAsm
import Verif.Lemmas.InfoStops
import Verif.Props.Info
import Verif.Model.SourceDbg
import Verif.Spec.SourceDbg
import Verif.Lemmas.SourceStep
import Verif.Props.SourceDbg
import Verif.Props.SourceEval
import Verif.Model.Cli
import Verif.Spec.Cli
import Verif.Lemmas.Cli
import Verif.Lemmas.CliKeep
import Verif.Lemmas.CliMild
import Verif.Lemmas.CliRun
import Verif.Lemmas.CliSettled
import Verif.Props.Cli
import Verif.Props.CliCases
import Verif.Props.CliData
import Verif.Props.CliShow
import Verif.Props.CliStart
import Verif.Props.CliStop
import Verif.Props.CliMove
import Verif.Props.Run
import Verif.Spec.Hazard
import Verif.Lemmas.Hazard
import Verif.Lemmas.HazardExec
import Verif.Lemmas.HazardTick
import Verif.Props.Hazard
import Verif.Spec.Observe
import Verif.Lemmas.Track
import Verif.Props.Observe
import Verif.Props.CliObserve
import Verif.Model.Stats
import Verif.Spec.Stats
import Verif.Lemmas.Stats
import Verif.Lemmas.StatsRun
import Verif.Props.Stats
import Verif.Spec.Over
import Verif.Lemmas.OverAll
import Verif.Props.Over
import Verif.Lemmas.First
import Verif.Lemmas.Fit
import Verif.Lemmas.HazardVm
import Verif.Spec.Return
import Verif.Lemmas.Return
import Verif.Props.Return
import Verif.Props.StackRun
import Verif.Model.Config
import Verif.Spec.Config
import Verif.Props.Config
import Verif.Model.RegArith
import Verif.Spec.RegArith
import Verif.Props.RegArith
import Verif.Model.Position
import Verif.Spec.Position
import Verif.Lemmas.Position
import Verif.Props.Position
import Verif.Model.StatsDetail
import Verif.Spec.Kinds
import Verif.Props.StatsDetail
import Verif.Spec.Display
import Verif.Lemmas.Display
import Verif.Props.Display
import Verif.Spec.Variable
import Verif.Lemmas.Variable
import Verif.Props.Variable
import Verif.Spec.CliLoop
import Verif.Lemmas.CliLoop
import Verif.Lemmas.CliBlind
import Verif.Props.CliLoop
import Verif.Lemmas.ReturnOver
import Verif.Props.ReturnOver
import Verif.Spec.ReturnOut
import Verif.Lemmas.ReturnOut
import Verif.Props.ReturnOut
import Verif.Props.ReturnCli
import Verif.Lemmas.ReturnMet
import Verif.Props.ReturnMet
import Verif.Lemmas.ReturnWatch
import Verif.Props.ReturnWatch
import Verif.Spec.ReturnMet
import Verif.Lemmas.ReturnMeet
import Verif.Props.ReturnMeet
import Verif.Lemmas.ReturnLine
import Verif.Props.ReturnLine
import Verif.Spec.ReturnWrites
import Verif.Lemmas.ReturnWrites
import Verif.Props.ReturnWrites

/-! # The axioms every property theorem depends on (written by tools/manifest.py) -/

#print axioms T86.Builder.C50_accepted_partial
#print axioms T86.Builder.C50_three_operands
#print axioms T86.C01_compare_and_jump
#print axioms T86.C01_compare_and_jump_stepped
#print axioms T86.C01_compare_defined
#print axioms T86.C01_signed_jumps
#print axioms T86.C02_unsigned_jumps
#print axioms T86.C03_add
#print axioms T86.C03_defined
#print axioms T86.C03_neg
#print axioms T86.C03_neg_overflow_not_reported
#print axioms T86.C03_sub
#print axioms T86.C04_bitwise
#print axioms T86.C04_div
#print axioms T86.C04_idiv
#print axioms T86.C04_imul
#print axioms T86.C04_imul_defined
#print axioms T86.C04_imul_min_neg_one_undefined
#print axioms T86.C04_lsh
#print axioms T86.C04_mod
#print axioms T86.C04_mul
#print axioms T86.C04_rsh
#print axioms T86.C05_conditions
#print axioms T86.C05_decode
#print axioms T86.C05_flags_roundtrip
#print axioms T86.C05_jle_table
#print axioms T86.C05_layout
#print axioms T86.C06_address
#print axioms T86.C06_fetch
#print axioms T86.C06_fetched
#print axioms T86.C07_defined
#print axioms T86.C07_errors
#print axioms T86.C07_halted
#print axioms T86.C07_move_to_ip
#print axioms T86.C07_not_sensible
#print axioms T86.C07_refines
#print axioms T86.C07_sensible
#print axioms T86.C07_text
#print axioms T86.C08_no_trace
#print axioms T86.C09_faults_partial
#print axioms T86.C09_speculative_division
#print axioms T86.C10_single_step
#print axioms T86.C11_breakpoint
#print axioms T86.C11_not_missed
#print axioms T86.C11_passes
#print axioms T86.C12_decoded
#print axioms T86.C12_event
#print axioms T86.C12_watchpoint
#print axioms T86.C12_writes
#print axioms T86.C13_refcounts
#print axioms T86.C13_rename
#print axioms T86.C14_loads
#print axioms T86.C15_accepted
#print axioms T86.C15_gates
#print axioms T86.C15_read_latency
#print axioms T86.C15_write
#print axioms T86.C16_call
#print axioms T86.C16_call_ret
#print axioms T86.C16_call_ret_stepped
#print axioms T86.C16_fpop
#print axioms T86.C16_fpush
#print axioms T86.C16_pop
#print axioms T86.C16_push
#print axioms T86.C16_push_pop
#print axioms T86.C16_push_pop_stepped
#print axioms T86.C16_ret
#print axioms T86.C17_halts
#print axioms T86.C17_halts_defined
#print axioms T86.C17_progress
#print axioms T86.C17_retires
#print axioms T86.C17_self_copy
#print axioms T86.C17_text
#print axioms T86.C17_writable
#print axioms T86.C18_load_partial
#print axioms T86.C18_poke_partial
#print axioms T86.C18_stale_read
#print axioms T86.C19_decoded
#print axioms T86.C19_interrupt
#print axioms T86.C19_received
#print axioms T86.C19_rejected
#print axioms T86.C20_peeks_change_nothing
#print axioms T86.C20_poke_data
#print axioms T86.C20_poke_debug
#print axioms T86.C20_poke_float
#print axioms T86.C20_poke_reg
#print axioms T86.C20_poke_text
#print axioms T86.C21_continue_partial
#print axioms T86.C21_continue_single_steps
#print axioms T86.C21_trap
#print axioms T86.C22_negative_address
#print axioms T86.C22_poke_back_partial
#print axioms T86.C22_producible
#print axioms T86.C22_program_partial
#print axioms T86.C22_round_trip_partial
#print axioms T86.C23_layout
#print axioms T86.C23_layout_instruction
#print axioms T86.C23_terminates
#print axioms T86.C23_tokens
#print axioms T86.C24_load
#print axioms T86.C24_sections
#print axioms T86.C25_join
#print axioms T86.C25_prefix
#print axioms T86.C25_signed
#print axioms T86.C25_split
#print axioms T86.C25_split_join
#print axioms T86.C25_split_terminated
#print axioms T86.C25_squash_idempotent
#print axioms T86.C25_squash_of_tidy
#print axioms T86.C25_squash_tidy
#print axioms T86.C25_squash_words
#print axioms T86.C25_unsigned
#print axioms T86.C26_framing_partial
#print axioms T86.C26_split_header
#print axioms T86.C27_fifo
#print axioms T86.C27_no_loss
#print axioms T86.C27_progress
#print axioms T86.C28_letter_partial
#print axioms T86.C28_original
#print axioms T86.C28_text_partial
#print axioms T86.C28_total
#print axioms T86.C29_original
#print axioms T86.C29_restored_partial
#print axioms T86.C29_total
#print axioms T86.C30_armed_partial
#print axioms T86.C30_enable
#print axioms T86.C30_original
#print axioms T86.C30_rejected
#print axioms T86.C30_set
#print axioms T86.C30_write_disabled
#print axioms T86.C31_continue_free
#print axioms T86.C31_continue_partial
#print axioms T86.C31_own_bkpt
#print axioms T86.C31_own_bkpt_stuck
#print axioms T86.C31_step
#print axioms T86.C31_step_mode
#print axioms T86.C32_control
#print axioms T86.C32_registers
#print axioms T86.C32_rejected
#print axioms T86.C32_set
#print axioms T86.C32_total
#print axioms T86.C33_removed_hit
#print axioms T86.C33_reused_partial
#print axioms T86.C33_still_active
#print axioms T86.C34_continue_partial
#print axioms T86.C34_many_registers
#print axioms T86.C34_step
#print axioms T86.C35_believed_size
#print axioms T86.C35_breakpoint_outside
#print axioms T86.C35_memory_partial
#print axioms T86.C35_text_partial
#print axioms T86.C35_wraps
#print axioms T86.C35_write_applied
#print axioms T86.C36_address
#print axioms T86.C36_line
#print axioms T86.C36_unmapped
#print axioms T86.C37_line
#print axioms T86.C37_lines
#print axioms T86.C37_range
#print axioms T86.C38_name
#print axioms T86.C38_name_sound
#print axioms T86.C38_range
#print axioms T86.C38_range_sound
#print axioms T86.C39_innermost_partial
#print axioms T86.C39_outer_hides_inner
#print axioms T86.C39_visible
#print axioms T86.C40_dereference_address
#print axioms T86.C40_dereference_keeps
#print axioms T86.C40_dereference_register_partial
#print axioms T86.C40_location_partial
#print axioms T86.C41_size
#print axioms T86.C41_size_sound
#print axioms T86.C41_types
#print axioms T86.C42_assign_left
#print axioms T86.C42_comparison_lost
#print axioms T86.C42_grammar_partial
#print axioms T86.C42_logical_binds_tighter
#print axioms T86.C42_round_trip_partial
#print axioms T86.C42_sound
#print axioms T86.C42_terminates
#print axioms T86.C42_trailing_ignored
#print axioms T86.C42_unambiguous
#print axioms T86.C43_array_index_partial
#print axioms T86.C43_integers
#print axioms T86.C43_negative_index
#print axioms T86.C43_no_short_circuit
#print axioms T86.C43_overflow
#print axioms T86.C43_pointer_advance
#print axioms T86.C43_pointer_difference
#print axioms T86.C43_pointer_index
#print axioms T86.C43_text_partial
#print axioms T86.C43_zero_divisor
#print axioms T86.C44_assign_partial
#print axioms T86.C44_float
#print axioms T86.C44_float_truncated
#print axioms T86.C44_matches
#print axioms T86.C44_moves
#print axioms T86.C44_refused
#print axioms T86.C44_register_partial
#print axioms T86.C44_variable_partial
#print axioms T86.C45_current_label
#print axioms T86.C45_data_label
#print axioms T86.C45_label
#print axioms T86.C45_patch
#print axioms T86.C46_any_partial
#print axioms T86.C46_call_partial
#print axioms T86.C46_disabled
#print axioms T86.C46_entry
#print axioms T86.C46_other
#print axioms T86.C46_watch_lost
#print axioms T86.C47_io_order
#print axioms T86.C47_output_grows
#print axioms T86.C48_resources
#print axioms T86.C49_read_back
#print axioms T86.C49_read_memory
#print axioms T86.C49_read_register
#print axioms T86.C49_write_memory
#print axioms T86.C49_write_register
#print axioms T86.C51_assemble
#print axioms T86.C51_backtick
#print axioms T86.C51_lines
#print axioms T86.C51_read
#print axioms T86.C51_stale_name
#print axioms T86.C51_terminates
#print axioms T86.C51_unknown_skipped
#print axioms T86.C52_any_partial
#print axioms T86.C52_in
#print axioms T86.C52_over_misses
#print axioms T86.C52_over_partial
#print axioms T86.C52_session
#print axioms T86.C53_any_partial
#print axioms T86.C53_out_partial
#print axioms T86.C54_line
#print axioms T86.C54_name
#print axioms T86.C54_number
#print axioms T86.C54_refused
#print axioms T86.C54_total
#print axioms T86.C55_array_overrun
#print axioms T86.C55_number
#print axioms T86.C55_string
#print axioms T86.C55_unterminated
#print axioms T86.C56_numbers
#print axioms T86.C56_recalled
#print axioms T86.C67_aborts
#print axioms T86.C67_ends
#print axioms T86.C67_fails
#print axioms T86.C67_failure_is_silent
#print axioms T86.C67_file
#print axioms T86.C67_prints
#print axioms T86.C67_refused_partial
#print axioms T86.C67_status
#print axioms T86.C67_two_stores
#print axioms T86.C68_cause
#print axioms T86.C68_defined
#print axioms T86.C68_fails
#print axioms T86.C68_file
#print axioms T86.C68_halts
#print axioms T86.C68_harmless
#print axioms T86.C68_two_stores
#print axioms T86.C68_unreached_division
#print axioms T86.C69_call
#print axioms T86.C69_ends
#print axioms T86.C69_output
#print axioms T86.C69_own_bkpt
#print axioms T86.C69_states
#print axioms T86.C73_continue
#print axioms T86.C73_line_in
#print axioms T86.C73_line_in_met
#print axioms T86.C73_line_in_watch
#print axioms T86.C73_line_met
#print axioms T86.C73_line_over
#print axioms T86.C73_line_watch
#print axioms T86.C73_out
#print axioms T86.C73_out_met
#print axioms T86.C73_out_watch
#print axioms T86.C73_over
#print axioms T86.C73_over_met
#print axioms T86.C73_over_other
#print axioms T86.C73_over_watch
#print axioms T86.C73_reached
#print axioms T86.C73_step
#print axioms T86.C74_accepts
#print axioms T86.C74_default_machine
#print axioms T86.C74_default_wrong
#print axioms T86.C74_input
#print axioms T86.C74_interactive
#print axioms T86.C74_machine_partial
#print axioms T86.C74_number
#print axioms T86.C74_reg_partial
#print axioms T86.C74_reg_wrong
#print axioms T86.C74_settings
#print axioms T86.C74_verbose
#print axioms T86.C75_defined
#print axioms T86.C75_forms
#print axioms T86.C75_product_all
#print axioms T86.C75_product_of_sum
#print axioms T86.C75_second_number
#print axioms T86.C75_second_number_all
#print axioms T86.C75_value_partial
#print axioms T86.C78_distinct
#print axioms T86.C78_expression
#print axioms T86.C78_type
#print axioms T86.C78_type_loop
#print axioms T86.C78_value
#print axioms T86.C78_value_type
#print axioms T86.C79_arrow
#print axioms T86.C79_element
#print axioms T86.C79_ends
#print axioms T86.C79_frame
#print axioms T86.C79_member
#print axioms T86.C79_pointer
#print axioms T86.C79_scope
#print axioms T86.C79_text
#print axioms T86.C79_unsigned
#print axioms T86.C79_variable
#print axioms T86.Cli.C57_blanks
#print axioms T86.Cli.C57_help
#print axioms T86.Cli.C57_names
#print axioms T86.Cli.C57_order
#print axioms T86.Cli.C57_tab
#print axioms T86.Cli.C57_unambiguous
#print axioms T86.Cli.C57_unknown
#print axioms T86.Cli.C57_unset
#print axioms T86.Cli.C58_end
#print axioms T86.Cli.C58_other
#print axioms T86.Cli.C58_refused
#print axioms T86.Cli.C58_stays
#print axioms T86.Cli.C59_address
#print axioms T86.Cli.C59_assemble_ends
#print axioms T86.Cli.C59_attach
#print axioms T86.Cli.C59_empty
#print axioms T86.Cli.C59_expression_ends
#print axioms T86.Cli.C59_idle
#print axioms T86.Cli.C59_instruction_ends
#print axioms T86.Cli.C59_set_unread
#print axioms T86.Cli.C60_assemble
#print axioms T86.Cli.C60_careful_partial
#print axioms T86.Cli.C60_memory_partial
#print axioms T86.Cli.C60_session_partial
#print axioms T86.Cli.C61_get
#print axioms T86.Cli.C61_getstr
#print axioms T86.Cli.C61_outside
#print axioms T86.Cli.C61_register_get
#print axioms T86.Cli.C61_register_set
#print axioms T86.Cli.C61_registers
#print axioms T86.Cli.C61_set
#print axioms T86.Cli.C62_blanks
#print axioms T86.Cli.C62_literal
#print axioms T86.Cli.C62_setstr_partial
#print axioms T86.Cli.C62_unique
#print axioms T86.Cli.C63_from
#print axioms T86.Cli.C63_function
#print axioms T86.Cli.C63_here
#print axioms T86.Cli.C63_mark
#print axioms T86.Cli.C63_range
#print axioms T86.Cli.C63_range_exclusive
#print axioms T86.Cli.C63_range_reversed
#print axioms T86.Cli.C63_source
#print axioms T86.Cli.C63_source_from
#print axioms T86.Cli.C64_broken
#print axioms T86.Cli.C64_disabled
#print axioms T86.Cli.C64_no_file
#print axioms T86.Cli.C64_option
#print axioms T86.Cli.C64_run
#print axioms T86.Cli.C64_too_big
#print axioms T86.Cli.C65_address
#print axioms T86.Cli.C65_function
#print axioms T86.Cli.C65_iset
#print axioms T86.Cli.C65_iset_refused
#print axioms T86.Cli.C65_line
#print axioms T86.Cli.C65_line_refused
#print axioms T86.Cli.C65_list
#print axioms T86.Cli.C65_list_zero
#print axioms T86.Cli.C65_no_line
#print axioms T86.Cli.C65_other_line
#print axioms T86.Cli.C65_unwatch
#print axioms T86.Cli.C65_watch
#print axioms T86.Cli.C65_watched
#print axioms T86.Cli.C66_continue_partial
#print axioms T86.Cli.C66_done
#print axioms T86.Cli.C66_finish_partial
#print axioms T86.Cli.C66_inext_partial
#print axioms T86.Cli.C66_istep
#print axioms T86.Cli.C66_next_partial
#print axioms T86.Cli.C66_step
#print axioms T86.Cli.C66_stop
#print axioms T86.Cli.C69_line
#print axioms T86.Cli.C69_lines
#print axioms T86.Cli.C69_session
#print axioms T86.Cli.C69_session_output
#print axioms T86.Cli.C73_continue_typed
#print axioms T86.Cli.C73_finish
#print axioms T86.Cli.C73_finish_met
#print axioms T86.Cli.C73_finish_watch
#print axioms T86.Cli.C73_inext
#print axioms T86.Cli.C73_inext_met
#print axioms T86.Cli.C73_inext_watch
#print axioms T86.Cli.C73_istep
#print axioms T86.Cli.C73_next
#print axioms T86.Cli.C73_next_met
#print axioms T86.Cli.C73_next_watch
#print axioms T86.Cli.C73_step_typed
#print axioms T86.Cli.C73_step_typed_met
#print axioms T86.Cli.C73_step_typed_watch
#print axioms T86.Cli.C80_blank
#print axioms T86.Cli.C80_block
#print axioms T86.Cli.C80_end
#print axioms T86.Cli.C80_error
#print axioms T86.Cli.C80_independent
#print axioms T86.Cli.C80_input
#print axioms T86.Cli.C80_output
#print axioms T86.Cli.C80_prefix
#print axioms T86.Cli.C80_session
#print axioms T86.Position.C76_counted_from_zero
#print axioms T86.Position.C76_expression_partial
#print axioms T86.Position.C76_info_partial
#print axioms T86.Position.C76_instruction_partial
#print axioms T86.Position.C76_program_partial
#print axioms T86.Position.C76_same
#print axioms T86.Stats.C70_counted
#print axioms T86.Stats.C70_executed
#print axioms T86.Stats.C70_ticks
#print axioms T86.Stats.C70_transparent
#print axioms T86.Stats.C71_available
#print axioms T86.Stats.C71_life
#print axioms T86.Stats.C71_shown
#print axioms T86.Stats.C72_averages_partial
#print axioms T86.Stats.C72_stalls_shown
#print axioms T86.Stats.C72_stalls_wrong
#print axioms T86.Stats.C77_all
#print axioms T86.Stats.C77_detailed_partial
#print axioms T86.Stats.C77_headings
#print axioms T86.Stats.C77_kinds
#print axioms T86.Stats.C77_stalls_wrong
