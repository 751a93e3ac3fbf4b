import Verif.Prop.C01_C35
import Verif.Prop.C03_C04
import Verif.Prop.C05_C38
import Verif.Prop.C07
import Verif.Prop.C08_C10
import Verif.Prop.C11
import Verif.Prop.C12_C13
import Verif.Prop.C14
import Verif.Prop.C15_C16
import Verif.Prop.C17
import Verif.Prop.C18
import Verif.Prop.C19_C21
import Verif.Prop.C22_C23
import Verif.Prop.C24_C25
import Verif.Prop.C26
import Verif.Prop.C27
import Verif.Prop.C28_C30
import Verif.Prop.C29
import Verif.Prop.C31_C32
import Verif.Prop.C34
import Verif.Prop.C36
import Verif.Prop.C37
import Verif.Prop.C44
import Verif.Prop.C45
import Verif.Prop.C46
import Verif.Prop.C47
import Verif.Prop.C48
import Verif.Prop.C49
import Verif.Prop.C49_Cases
import Verif.Prop.C50
import Verif.Prop.C50_Cases
import Verif.Prop.C51
import Verif.Prop.C51_Cases
import Verif.Prop.C52
import Verif.Prop.C52_Cases
import Verif.Prop.C53
import Verif.Prop.C53_Cases
import Verif.Prop.C54
import Verif.Prop.C54_Cases
import Verif.Prop.C55
import Verif.Prop.C55_Cases
import Verif.Prop.C56
import Verif.Prop.C56_Cases
import Verif.Prop.C57
import Verif.Prop.C57_Cases
import Verif.Prop.C58
import Verif.Prop.C59
import Verif.Prop.C60
import Verif.Prop.C60_Cases
import Verif.Prop.C61
import Verif.Prop.C62
import Verif.Prop.C63
import Verif.Prop.C64
import Verif.Prop.C65
import Verif.Prop.C66
import Verif.Prop.C67
import Verif.Prop.C68
import Verif.Prop.C69
import Verif.Prop.C69_Cases
import Verif.Prop.C70
import Verif.Prop.C70_Cases
import Verif.Prop.C70_Loops
import Verif.Prop.C70_Roles
import Verif.Prop.C70_Stuck
import Verif.Prop.C70_Times
import Verif.Prop.C71
import Verif.Prop.C71_Cases
import Verif.Prop.C72
import Verif.Prop.C73
import Verif.Prop.C73_Chooser
import Verif.Prop.C73_Continue
import Verif.Prop.C73_Or
import Verif.Prop.C73_Remote
import Verif.Prop.C73_Runs
/-!
# Axioms of every property theorem (generated by tools/manifest.py)
-/
#print axioms Verif.Prop.C01_session
#print axioms Verif.Prop.C01_dual_iff
#print axioms Verif.Prop.C01_stack
#print axioms Verif.Prop.C01_mesh
#print axioms Verif.Prop.C02_new
#print axioms Verif.Prop.C02_first
#print axioms Verif.Prop.C03_send
#print axioms Verif.Prop.C03_never_blocks
#print axioms Verif.Prop.C04_recv
#print axioms Verif.Prop.C04_peer
#print axioms Verif.Prop.C05_prefix
#print axioms Verif.Prop.C05_not_lost
#print axioms Verif.Prop.C05_protocol
#print axioms Verif.Prop.C06_linear
#print axioms Verif.Prop.C06_used_up
#print axioms Verif.Prop.C06_dual
#print axioms Verif.Prop.C06_connected
#print axioms Verif.Prop.C07_drop_terminates
#print axioms Verif.Prop.C07_cascade
#print axioms Verif.Prop.C07_partner_told
#print axioms Verif.Prop.C07_waiting_fresh
#print axioms Verif.Prop.C07_waiting_partial
#print axioms Verif.Prop.C07_cycle_leaks
#print axioms Verif.Prop.C11_agree
#print axioms Verif.Prop.C12_choose_wired
#print axioms Verif.Prop.C12_to_all_wired
#print axioms Verif.Prop.C13_choose_typed
#print axioms Verif.Prop.C13_declared_dual
#print axioms Verif.Prop.C13_branch_params
#print axioms Verif.Prop.C14_hand_written_wired
#print axioms Verif.Prop.C14_hand_written_fork
#print axioms Verif.Prop.C15_fork_wired
#print axioms Verif.Prop.C16_interleaved_wired
#print axioms Verif.Prop.C17_diag
#print axioms Verif.Prop.C17_matrix
#print axioms Verif.Prop.C17_line_column
#print axioms Verif.Prop.C17_offset
#print axioms Verif.Prop.C18_exec
#print axioms Verif.Prop.C18_types
#print axioms Verif.Prop.C18_only
#print axioms Verif.Prop.C18_partner
#print axioms Verif.Prop.C18_offer
#print axioms Verif.Prop.C35_session_render
#print axioms Verif.Prop.C35_session_iff
#print axioms Verif.Prop.C35_dual
#print axioms Verif.Prop.C35_stack
#print axioms Verif.Prop.C35_mesh
#print axioms Verif.Prop.C38_refines_fifo
#print axioms Verif.Prop.C08_both_ok
#print axioms Verif.Prop.C08_err_iff
#print axioms Verif.Prop.C08_panic
#print axioms Verif.Prop.C09_close_terminates
#print axioms Verif.Prop.C10_close_fails
#print axioms Verif.Prop.C10_close_errs
#print axioms Verif.Prop.C10_cancel_noticed
#print axioms Verif.Prop.C10_cancel_swallowed
#print axioms Verif.Prop.C10_gone_noticed
#print axioms Verif.Prop.C10_gone_overlooked
#print axioms Verif.Prop.C33_interleaved_close
#print axioms Verif.Prop.C39_two_meshes
#print axioms Verif.Prop.C39_crossed_deadlock
#print axioms Verif.Prop.C22_attempt
#print axioms Verif.Prop.C23_select
#print axioms Verif.Prop.C23_blocks_only_while_none_ready
#print axioms Verif.Prop.C19_window_partial
#print axioms Verif.Prop.C19_ok_moved
#print axioms Verif.Prop.C19_not_rejected_partial
#print axioms Verif.Prop.C19_lower_only_rejected
#print axioms Verif.Prop.C19_exclusive_start_rejected
#print axioms Verif.Prop.C19_exclusive_stop_reached
#print axioms Verif.Prop.C20_other_clocks
#print axioms Verif.Prop.C20_only_on_success
#print axioms Verif.Prop.C20_no_reset
#print axioms Verif.Prop.C21_same_windows
#print axioms Verif.Prop.C21_step
#print axioms Verif.Prop.C21_new_fields
#print axioms Verif.Prop.C21_constraint
#print axioms Verif.Prop.C21_constraint_means
#print axioms Verif.Prop.C40_reset_done_partial
#print axioms Verif.Prop.C40_unbounded_no_reset
#print axioms Verif.Prop.C40_race
#print axioms Verif.Prop.C40_missing_clock
#print axioms Verif.Prop.C41_failed_choice
#print axioms Verif.Prop.C41_choice_resets
#print axioms Verif.Prop.C24_blocks
#print axioms Verif.Prop.C24_head
#print axioms Verif.Prop.C24_tuple_payload
#print axioms Verif.Prop.C25_dual
#print axioms Verif.Prop.C25_twice
#print axioms Verif.Prop.C27_least_partial
#print axioms Verif.Prop.C27_none_partial
#print axioms Verif.Prop.C27_limit
#print axioms Verif.Prop.C26_graph
#print axioms Verif.Prop.C42_tree
#print axioms Verif.Prop.C42_names_repeat
#print axioms Verif.Prop.C28_as_text
#print axioms Verif.Prop.C28_window_partial
#print axioms Verif.Prop.C28_never_partial
#print axioms Verif.Prop.C28_wrong
#print axioms Verif.Prop.C29_projection
#print axioms Verif.Prop.C29_aliases
#print axioms Verif.Prop.C29_clash
#print axioms Verif.Prop.C43_feasible
#print axioms Verif.Prop.C30_exact_partial
#print axioms Verif.Prop.C30_reset_rejected
#print axioms Verif.Prop.C30_choice_unchecked
#print axioms Verif.Prop.C43_feasible
#print axioms Verif.Prop.C36_accepted
#print axioms Verif.Prop.C36_unclosed_partial
#print axioms Verif.Prop.C36_overclosed_partial
#print axioms Verif.Prop.C36_ignores_rest
#print axioms Verif.Prop.C37_order
#print axioms Verif.Prop.C37_report
#print axioms Verif.Prop.C37_duplicate_panics
#print axioms Verif.Prop.C31_bounded
#print axioms Verif.Prop.C31_cancel
#print axioms Verif.Prop.C31_quiet
#print axioms Verif.Prop.C31_forwarded
#print axioms Verif.Prop.C31_check_partial
#print axioms Verif.Prop.C31_check_misses
#print axioms Verif.Prop.C31_drop_hangs
#print axioms Verif.Prop.C32_handed_once
#print axioms Verif.Prop.C32_reconnected
#print axioms Verif.Prop.C34_dual
#print axioms Verif.Prop.C34_progress
#print axioms Verif.Prop.C34_live
#print axioms Verif.Prop.C34_ends
#print axioms Verif.Prop.C34_terminates
#print axioms Verif.Prop.C34_persist
#print axioms Verif.Prop.C34_order
#print axioms Verif.Prop.C34_done
#print axioms Verif.Prop.C34_possible
#print axioms Verif.Prop.C34_completable
#print axioms Verif.Prop.C44_start
#print axioms Verif.Prop.C44_safe
#print axioms Verif.Prop.C44_next
#print axioms Verif.Prop.C44_progress
#print axioms Verif.Prop.C44_order
#print axioms Verif.Prop.C44_complete
#print axioms Verif.Prop.C44_possible
#print axioms Verif.Prop.C44_completable
#print axioms Verif.Prop.C44_done
#print axioms Verif.Prop.C44_live
#print axioms Verif.Prop.C44_ends
#print axioms Verif.Prop.C44_terminates
#print axioms Verif.Prop.C45_safe
#print axioms Verif.Prop.C45_crash
#print axioms Verif.Prop.C45_next
#print axioms Verif.Prop.C45_progress
#print axioms Verif.Prop.C45_order
#print axioms Verif.Prop.C45_close
#print axioms Verif.Prop.C45_clean
#print axioms Verif.Prop.C45_live
#print axioms Verif.Prop.C45_terminates
#print axioms Verif.Prop.C45_fate
#print axioms Verif.Prop.C45_fair
#print axioms Verif.Prop.C45_unnoticed
#print axioms Verif.Prop.C46_last_wired
#print axioms Verif.Prop.C46_last_dual
#print axioms Verif.Prop.C46_solo_wired
#print axioms Verif.Prop.C47_projection
#print axioms Verif.Prop.C47_checked
#print axioms Verif.Prop.C47_accepts
#print axioms Verif.Prop.C47_aliases
#print axioms Verif.Prop.C47_functions
#print axioms Verif.Prop.C47_loop_without_choice
#print axioms Verif.Prop.C47_nested
#print axioms Verif.Prop.C47_next_passage_unchecked
#print axioms Verif.Prop.C47_after_choice_lost
#print axioms Verif.Prop.C47_function_clash
#print axioms Verif.Prop.C48_matcher
#print axioms Verif.Prop.C48_reads
#print axioms Verif.Prop.C48_payload
#print axioms Verif.Prop.C48_generator
#print axioms Verif.Prop.C48_blank_lines
#print axioms Verif.Prop.C48_blank_text
#print axioms Verif.Prop.C48_blank_after_choice
#print axioms Verif.Prop.C48_comment
#print axioms Verif.Prop.C48_two_messages
#print axioms Verif.Prop.C48_or_alone
#print axioms Verif.Prop.C48_roles
#print axioms Verif.Prop.C48_digits
#print axioms Verif.Prop.C49_declared
#print axioms Verif.Prop.C49_only
#print axioms Verif.Prop.C49_once
#print axioms Verif.Prop.C49_payloads
#print axioms Verif.Prop.C49_protocol
#print axioms Verif.Prop.C49_clocks
#print axioms Verif.Prop.C49_clocks_plain
#print axioms Verif.Prop.C49_clocks_used
#print axioms Verif.Prop.C49_restart
#print axioms Verif.Prop.C49_two_payloads
#print axioms Verif.Prop.C49_label_is_payload
#print axioms Verif.Prop.C49_twice
#print axioms Verif.Prop.C49_reset_missing
#print axioms Verif.Prop.C49_clock_letters
#print axioms Verif.Prop.C50_loops_partial
#print axioms Verif.Prop.C50_unguarded
#print axioms Verif.Prop.C50_misdirected
#print axioms Verif.Prop.C51_clean_partial
#print axioms Verif.Prop.C51_checker_partial
#print axioms Verif.Prop.C51_nested_path
#print axioms Verif.Prop.C51_reference
#print axioms Verif.Prop.C51_array
#print axioms Verif.Prop.C51_payload_name
#print axioms Verif.Prop.C51_digits
#print axioms Verif.Prop.C51_role_prefix
#print axioms Verif.Prop.C52_on_schedule_partial
#print axioms Verif.Prop.C52_schedule_kept
#print axioms Verif.Prop.C52_received_sent
#print axioms Verif.Prop.C52_unsent_stops
#print axioms Verif.Prop.C52_failed_silent
#print axioms Verif.Prop.C52_clock_set
#print axioms Verif.Prop.C52_window_partial
#print axioms Verif.Prop.C52_lower_only_stops
#print axioms Verif.Prop.C52_exclusive_start_stops
#print axioms Verif.Prop.C53_types
#print axioms Verif.Prop.C53_unique
#print axioms Verif.Prop.C53_start
#print axioms Verif.Prop.C53_safe
#print axioms Verif.Prop.C53_progress
#print axioms Verif.Prop.C53_order
#print axioms Verif.Prop.C53_done
#print axioms Verif.Prop.C53_possible
#print axioms Verif.Prop.C53_ends
#print axioms Verif.Prop.C53_live
#print axioms Verif.Prop.C53_terminates
#print axioms Verif.Prop.C53_failure
#print axioms Verif.Prop.C53_close
#print axioms Verif.Prop.C53_failure_terminates
#print axioms Verif.Prop.C54_defined
#print axioms Verif.Prop.C54_interleaved_defined
#print axioms Verif.Prop.C54_coherent
#print axioms Verif.Prop.C54_params
#print axioms Verif.Prop.C54_send
#print axioms Verif.Prop.C54_timed
#print axioms Verif.Prop.C54_recv
#print axioms Verif.Prop.C54_recv_from_all
#print axioms Verif.Prop.C54_offer
#print axioms Verif.Prop.C54_choose
#print axioms Verif.Prop.C54_close
#print axioms Verif.Prop.C54_cancel
#print axioms Verif.Prop.C54_unique
#print axioms Verif.Prop.C54_exclusive
#print axioms Verif.Prop.C54_protocol
#print axioms Verif.Prop.C54_runs
#print axioms Verif.Prop.C54_interleaved_calls
#print axioms Verif.Prop.C54_structs_partial
#print axioms Verif.Prop.C54_structs_safe
#print axioms Verif.Prop.C54_interleaved_structs_partial
#print axioms Verif.Prop.C54_macros_partial
#print axioms Verif.Prop.C54_macro_names
#print axioms Verif.Prop.C54_function
#print axioms Verif.Prop.C54_reads
#print axioms Verif.Prop.C54_reads_groups
#print axioms Verif.Prop.C54_groups_only_names
#print axioms Verif.Prop.C54_clash_all
#print axioms Verif.Prop.C54_clash_suffix
#print axioms Verif.Prop.C54_clash_macros
#print axioms Verif.Prop.C54_clash_doc
#print axioms Verif.Prop.C54_no_offer_macro
#print axioms Verif.Prop.C54_single_role
#print axioms Verif.Prop.C55_session
#print axioms Verif.Prop.C55_values
#print axioms Verif.Prop.C55_out
#print axioms Verif.Prop.C55_frames
#print axioms Verif.Prop.C55_in
#print axioms Verif.Prop.C55_reads
#print axioms Verif.Prop.C55_echo_partial
#print axioms Verif.Prop.C55_plain
#print axioms Verif.Prop.C55_datagrams_out
#print axioms Verif.Prop.C55_datagrams
#print axioms Verif.Prop.C55_data_lost
#print axioms Verif.Prop.C55_torn
#print axioms Verif.Prop.C55_cut
#print axioms Verif.Prop.C56_send
#print axioms Verif.Prop.C56_failed_write
#print axioms Verif.Prop.C56_recv
#print axioms Verif.Prop.C56_failed_read
#print axioms Verif.Prop.C56_progress
#print axioms Verif.Prop.C56_close
#print axioms Verif.Prop.C56_close_wait
#print axioms Verif.Prop.C56_close_returns
#print axioms Verif.Prop.C56_cancel
#print axioms Verif.Prop.C56_closed
#print axioms Verif.Prop.C56_fork_tcp
#print axioms Verif.Prop.C56_fork_udp
#print axioms Verif.Prop.C56_send_udp
#print axioms Verif.Prop.C56_failed_take
#print axioms Verif.Prop.C56_choice
#print axioms Verif.Prop.C56_err_delivered
#print axioms Verif.Prop.C56_cancel_panics
#print axioms Verif.Prop.C56_close_cancelled
#print axioms Verif.Prop.C57_partial
#print axioms Verif.Prop.C57_plain_partial
#print axioms Verif.Prop.C57_structs
#print axioms Verif.Prop.C57_structs_plain
#print axioms Verif.Prop.C57_taken
#print axioms Verif.Prop.C57_payload
#print axioms Verif.Prop.C57_messages
#print axioms Verif.Prop.C57_roles
#print axioms Verif.Prop.C58_types
#print axioms Verif.Prop.C58_check_types
#print axioms Verif.Prop.C58_offer_types
#print axioms Verif.Prop.C58_send
#print axioms Verif.Prop.C58_send_cancel
#print axioms Verif.Prop.C58_send_check
#print axioms Verif.Prop.C58_recv
#print axioms Verif.Prop.C58_offer
#print axioms Verif.Prop.C58_compiles
#print axioms Verif.Prop.C58_lost
#print axioms Verif.Prop.C58_partner
#print axioms Verif.Prop.C58_to_all_third
#print axioms Verif.Prop.C58_to_all_others
#print axioms Verif.Prop.C59_never_waits
#print axioms Verif.Prop.C59_typed
#print axioms Verif.Prop.C59_new
#print axioms Verif.Prop.C59_continuation
#print axioms Verif.Prop.C59_path
#print axioms Verif.Prop.C60_lines
#print axioms Verif.Prop.C60_message
#print axioms Verif.Prop.C60_other
#print axioms Verif.Prop.C60_header_iff
#print axioms Verif.Prop.C60_text_partial
#print axioms Verif.Prop.C60_times
#print axioms Verif.Prop.C60_command
#print axioms Verif.Prop.C60_name
#print axioms Verif.Prop.C60_gate
#print axioms Verif.Prop.C60_role_renamed
#print axioms Verif.Prop.C60_bracket_lost
#print axioms Verif.Prop.C60_comment
#print axioms Verif.Prop.C61_table
#print axioms Verif.Prop.C61_compiles
#print axioms Verif.Prop.C61_offer_types
#print axioms Verif.Prop.C61_send
#print axioms Verif.Prop.C61_recv
#print axioms Verif.Prop.C61_offer
#print axioms Verif.Prop.C61_pair
#print axioms Verif.Prop.C61_one_method
#print axioms Verif.Prop.C61_short
#print axioms Verif.Prop.C61_offer_drops
#print axioms Verif.Prop.C62_schedule_partial
#print axioms Verif.Prop.C62_carried_out_partial
#print axioms Verif.Prop.C62_clocks_stuck
#print axioms Verif.Prop.C62_resets_stuck
#print axioms Verif.Prop.C63_size
#print axioms Verif.Prop.C63_size_parts
#print axioms Verif.Prop.C63_write
#print axioms Verif.Prop.C63_read
#print axioms Verif.Prop.C63_read_parts
#print axioms Verif.Prop.C63_round_trip
#print axioms Verif.Prop.C63_round_trip_parts
#print axioms Verif.Prop.C63_injective
#print axioms Verif.Prop.C63_concat
#print axioms Verif.Prop.C64_action_partial
#print axioms Verif.Prop.C64_never_shown
#print axioms Verif.Prop.C64_misread
#print axioms Verif.Prop.C65_runs
#print axioms Verif.Prop.C65_typed
#print axioms Verif.Prop.C65_no_orphans
#print axioms Verif.Prop.C65_progress_partial
#print axioms Verif.Prop.C65_live_partial
#print axioms Verif.Prop.C65_live_iff
#print axioms Verif.Prop.C65_checked_partial
#print axioms Verif.Prop.C65_stuck
#print axioms Verif.Prop.C66_safe
#print axioms Verif.Prop.C66_order
#print axioms Verif.Prop.C66_progress
#print axioms Verif.Prop.C66_done
#print axioms Verif.Prop.C66_goes_on
#print axioms Verif.Prop.C66_terminates
#print axioms Verif.Prop.C66_live
#print axioms Verif.Prop.C66_fair
#print axioms Verif.Prop.C66_any_order
#print axioms Verif.Prop.C66_solo
#print axioms Verif.Prop.C66_fork
#print axioms Verif.Prop.C66_cycle
#print axioms Verif.Prop.C67_safe
#print axioms Verif.Prop.C67_blame
#print axioms Verif.Prop.C67_drop
#print axioms Verif.Prop.C67_order
#print axioms Verif.Prop.C67_close
#print axioms Verif.Prop.C67_progress
#print axioms Verif.Prop.C67_clean
#print axioms Verif.Prop.C67_terminates
#print axioms Verif.Prop.C67_fate
#print axioms Verif.Prop.C67_live
#print axioms Verif.Prop.C67_fair
#print axioms Verif.Prop.C67_any_order
#print axioms Verif.Prop.C68_window_partial
#print axioms Verif.Prop.C68_clocks
#print axioms Verif.Prop.C68_choice
#print axioms Verif.Prop.C68_late
#print axioms Verif.Prop.C68_down
#print axioms Verif.Prop.C68_safe
#print axioms Verif.Prop.C68_next
#print axioms Verif.Prop.C68_alone
#print axioms Verif.Prop.C68_live
#print axioms Verif.Prop.C68_terminates
#print axioms Verif.Prop.C68_fate
#print axioms Verif.Prop.C68_instant
#print axioms Verif.Prop.C68_ideal
#print axioms Verif.Prop.C68_fair
#print axioms Verif.Prop.C69_window_partial
#print axioms Verif.Prop.C69_close
#print axioms Verif.Prop.C69_terminates
#print axioms Verif.Prop.C69_carried_out_partial
#print axioms Verif.Prop.C69_impossible
#print axioms Verif.Prop.C69_clocks_stuck
#print axioms Verif.Prop.C70_carried_out_partial
#print axioms Verif.Prop.C70_latest_partial
#print axioms Verif.Prop.C70_loops_partial
#print axioms Verif.Prop.C70_roles_partial
#print axioms Verif.Prop.C70_only
#print axioms Verif.Prop.C70_times
#print axioms Verif.Prop.C70_order
#print axioms Verif.Prop.C70_clock
#print axioms Verif.Prop.C70_clock_no_branch
#print axioms Verif.Prop.C70_clock_no_end
#print axioms Verif.Prop.C70_clock_no_return
#print axioms Verif.Prop.C70_no_branch
#print axioms Verif.Prop.C70_no_end
#print axioms Verif.Prop.C70_no_return
#print axioms Verif.Prop.C70_loop_stuck
#print axioms Verif.Prop.C70_choice_stuck
#print axioms Verif.Prop.C71_reason_partial
#print axioms Verif.Prop.C71_on_time_partial
#print axioms Verif.Prop.C71_finishes_partial
#print axioms Verif.Prop.C71_exclusive_start
#print axioms Verif.Prop.C72_count
#print axioms Verif.Prop.C72_open
#print axioms Verif.Prop.C72_stays
#print axioms Verif.Prop.C73_layout_partial
#print axioms Verif.Prop.C73_layout_text
#print axioms Verif.Prop.C73_layout_protocol
#print axioms Verif.Prop.C73_accepted
#print axioms Verif.Prop.C73_runs_partial
#print axioms Verif.Prop.C73_header_bracket
#print axioms Verif.Prop.C73_or_apart
#print axioms Verif.Prop.C73_or_merged
#print axioms Verif.Prop.C73_continue_lost
#print axioms Verif.Prop.C73_continue_silent
#print axioms Verif.Prop.C73_continue_timed
#print axioms Verif.Prop.C73_window_silent
#print axioms Verif.Prop.C73_window_timed
#print axioms Verif.Prop.C73_window_lost
#print axioms Verif.Prop.C73_three_buyers
#print axioms Verif.Prop.C73_video_stream
#print axioms Verif.Prop.C73_calculator
#print axioms Verif.Prop.C73_three_buyers_accepted
#print axioms Verif.Prop.C73_video_stream_accepted
#print axioms Verif.Prop.C73_video_stream_once
#print axioms Verif.Prop.C73_video_stream_meant
#print axioms Verif.Prop.C73_remote_data_accepted
#print axioms Verif.Prop.C73_remote_data_runs
#print axioms Verif.Prop.C73_servo_accepted
#print axioms Verif.Prop.C73_choice_unknown
#print axioms Verif.Prop.C73_o_auth_2
