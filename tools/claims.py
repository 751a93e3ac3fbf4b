c("C01", "proved", "C01_session C01_dual_iff C01_stack C01_mesh")
c("C02", "proved", "C02_new C02_first")
c("C03", "proved", "C03_send C03_never_blocks")
c("C04", "proved", "C04_recv C04_peer")
c("C05", "proved", "C05_prefix C05_not_lost C05_protocol")
c("C06", "proved", "C06_linear C06_used_up C06_dual C06_connected")
c("C07", "partial", "C07_drop_terminates C07_cascade C07_partner_told C07_waiting_fresh C07_waiting_partial C07_cycle_leaks",
  "The full property is false when a receiver is sent over its own channel (C07_cycle_leaks). It is proved for every state whose undelivered messages are not nested in a cycle, in particular for clients that only pass endpoints newer than the carrying channel.")
c("C11", "proved", "C11_agree")
c("C12", "proved", "C12_choose_wired C12_to_all_wired")
c("C13", "proved", "C13_choose_typed C13_declared_dual C13_branch_params")
c("C14", "proved", "C14_hand_written_wired C14_hand_written_fork")
c("C15", "proved", "C15_fork_wired")
c("C16", "proved", "C16_interleaved_wired")
c("C17", "proved", "C17_diag C17_matrix C17_line_column C17_offset")
c("C18", "proved", "C18_exec C18_types C18_only C18_partner C18_offer")
c("C35", "proved", "C35_session_render C35_session_iff C35_dual C35_stack C35_mesh",
  "Constructor names of stacks are compared as printed: a user role called End would print like RoleEnd.")
c("C38", "proved", "C38_refines_fifo")
c("C08", "proved", "C08_both_ok C08_err_iff C08_panic")
c("C09", "proved", "C09_close_terminates")
c("C10", "proved", "C10_close_fails C10_close_errs C10_cancel_noticed C10_cancel_swallowed C10_gone_noticed C10_gone_overlooked", "An explicit Cancel is noticed by the checking close functions; close_mpst! and close_mpst_cancel! discard it (C10_cancel_swallowed). A partner that is already gone is noticed by the functions that check what they send (C10_gone_noticed), not by close_mpst! (C10_gone_overlooked).")
c("C33", "proved", "C33_interleaved_close")
c("C39", "proved", "C39_two_meshes C39_crossed_deadlock", "One shared thread. Two shared threads closing in opposite orders deadlock (C39_crossed_deadlock).")
c("C22", "proved", "C22_attempt")
c("C23", "proved", "C23_select C23_blocks_only_while_none_ready")
c("C19", "partial", "C19_window_partial C19_ok_moved C19_not_rejected_partial C19_lower_only_rejected C19_exclusive_start_rejected C19_exclusive_stop_reached",
  "The code violates the property at three places, each with a proved witness: windows with only a lower bound always panic in send and recv; an exclusive lower bound rejects the first second inside the interval; with an exclusive upper bound the transfer may happen exactly at the bound. Proved for all other windows.")
c("C20", "proved", "C20_other_clocks C20_only_on_success C20_no_reset")
c("C21", "proved", "C21_same_windows C21_step C21_new_fields C21_constraint C21_constraint_means")
c("C40", "partial", "C40_reset_done_partial C40_unbounded_no_reset C40_race C40_missing_clock",
  "The code violates the property: unbounded windows never reset, a clock crossing the lower bound between the two evaluations of the condition is not reset, and a missing clock makes the call panic after the transfer. Proved for the other cases.")
c("C41", "proved", "C41_failed_choice C41_choice_resets")
c("C24", "proved", "C24_blocks C24_head C24_tuple_payload", "For types whose names contain none of < > , & and white space; a tuple payload is split wrongly (C24_tuple_payload).")
c("C25", "proved", "C25_dual C25_twice")
c("C27", "partial", "C27_least_partial C27_none_partial C27_limit", "Full below the limit. With least successful bound exactly 50 the code reports None (C27_limit).")
c("C26", "proved", "C26_graph", "For received payloads that are not the name of an enum of branches.")
c("C42", "proved", "C42_tree C42_names_repeat")
c("C28", "partial", "C28_as_text C28_window_partial C28_never_partial C28_wrong", "Bounds are compared as texts: proved for bounds with the same number of digits; [9;10] is rejected and [10;9] accepted (C28_wrong). C28_as_text says exactly which windows are accepted.")
c("C29", "proved", "C29_projection C29_aliases C29_clash", "Aliases are unique if no role name contains To; otherwise they can clash (C29_clash).")
c("C30", "partial", "C43_feasible C30_exact_partial C30_reset_rejected C30_choice_unchecked", "Exact for choice-free protocols without resets of the clock in use and bounds of one length. A message that resets the clock at its first use still bounds the next one, and nothing is checked across the beginning of a choice.")
c("C43", "proved", "C43_feasible")
c("C36", "partial", "C36_accepted C36_unclosed_partial C36_overclosed_partial C36_ignores_rest", "Lines after the one that closes the protocol are not read, so brackets there are not counted (C36_ignores_rest); proved up to that point.")
c("C37", "proved", "C37_order C37_report C37_duplicate_panics")
c("C31", "partial", "C31_bounded C31_cancel C31_quiet C31_forwarded C31_check_partial C31_check_misses C31_drop_hangs", "All N, sequences of choices and schedules. A check made while the broadcaster's side of the checker's new End is still travelling misses the cancellation (C31_check_misses); the participant stops later (C31_cancel). A silent drop leaves the broadcaster polling forever (C31_drop_hangs).")
c("C32", "proved", "C32_handed_once C32_reconnected", "The slots of the broadcaster are permuted by a choice: slot k need not be connected to role k+1 afterwards.")
c("C34", "proved", "C34_dual C34_progress C34_live C34_ends C34_terminates C34_persist C34_order C34_done C34_possible C34_completable", "All well-formed protocols (blocks of messages ended by a broadcast choice or the end, named blocks for recursion), all numbers of roles, all schedules; no role starves under weak fairness. Closing is C09; cancellation and clocks are not part of this model.")
c("C44", "proved", "C44_start C44_safe C44_next C44_progress C44_order C44_complete C44_possible C44_completable C44_done C44_live C44_ends C44_terminates", "The refinement between the protocol queues of C34 and the one-place channels, emitted bodies, emitted methods, close and drops. Nobody cancels or panics, no clocks.")
c("C45", "proved", "C45_safe C45_crash C45_next C45_progress C45_order C45_close C45_clean C45_live C45_terminates C45_fate C45_fair C45_unnoticed", "C44 with roles that may disappear at any moment. A role whose call returns an error gives up; programs that go on after an error with other sessions are not covered. C45_unnoticed: a role that only sends is never told.")
c("C46", "proved", "C46_last_wired C46_last_dual C46_solo_wired", "All numbers of roles. Names (phantom) and the cancellation of the old mesh are not modelled.")
c("C47", "proved", "C47_projection C47_checked C47_accepts C47_aliases C47_functions C47_loop_without_choice C47_nested C47_next_passage_unchecked C47_after_choice_lost C47_function_clash", "Names are distinct if the roles are and no role name contains To; functions if moreover the lower-case names are distinct and have no underscore (C47_function_clash otherwise). Other shapes: a choice in a branch is never accepted (C47_nested); a loop without a choice is unrolled to two passages and ends (C47_loop_without_choice); a message after a choice is lost (C47_after_choice_lost); the windows of the next passage are not checked (C47_next_passage_unchecked).")
c("C48", "proved", "C48_matcher C48_reads C48_payload C48_generator C48_blank_lines C48_blank_text C48_blank_after_choice C48_comment C48_two_messages C48_or_alone C48_roles C48_digits", "The header must have exactly one blank after each role (C48_roles otherwise). Findings: messages in comments are read (C48_comment); two messages on a line are mixed up (C48_two_messages); or on its own line is not seen (C48_or_alone); two empty lines after a choice make the protocol unbalanced (C48_blank_after_choice); digits of other scripts are accepted and then the generator panics (C48_digits).")
c("C49", "proved", "C49_declared C49_only C49_once C49_payloads C49_protocol C49_clocks C49_clocks_plain C49_clocks_used C49_restart C49_two_payloads C49_label_is_payload C49_twice C49_reset_missing C49_clock_letters", "Findings where the conditions fail: a label with two payloads has one field only (C49_two_payloads); a label that is the name of a payload has none (C49_label_is_payload); a1 and a_1 are declared twice (C49_twice). The functions for the branches start the clocks again (C49_restart); a message may reset a clock nobody starts, which panics when it is sent (C49_reset_missing); clocks with names of several letters are accepted (C49_clock_letters).")
c("C50", "partial", "C50_loops_partial C50_unguarded C50_misdirected", "Missing: branches that begin with another choice. For them the code violates it: a choice drawn at the node of another one offers too much when it is come back to (C50_unguarded), and a branch that begins with a choice already drawn moves the target of an unrelated transition of the machine (C50_misdirected).")
c("C51", "partial", "C51_clean_partial C51_checker_partial C51_nested_path C51_reference C51_array C51_payload_name C51_digits C51_role_prefix", "Missing: types outside the naming conditions, and branches that begin with another choice (C50). The code violates it there: a path that is part of another one leaves a rest (C51_nested_path); paths behind references stay (C51_reference), brackets of arrays are lost with the path (C51_array); a payload type that begins with Name becomes a role (C51_payload_name); roles with digits are mixed up (C51_digits); a role whose name begins with that of another may be taken for it (C51_role_prefix).")
c("C52", "partial", "C52_on_schedule_partial C52_schedule_kept C52_received_sent C52_unsent_stops C52_failed_silent C52_clock_set C52_window_partial C52_lower_only_stops C52_exclusive_start_stops", "The behaviour of the channels is the hypothesis Transport. Missing: windows with a lower bound only and slots in the second after an exclusive lower bound, which the code rejects (C52_lower_only_stops, C52_exclusive_start_stops); unbounded windows with a reset, which is not done (C40_unbounded_no_reset).")
c("C53", "proved", "C53_types C53_unique C53_start C53_safe C53_progress C53_order C53_done C53_possible C53_ends C53_live C53_terminates C53_failure C53_close C53_failure_terminates", "Composition of C48, C29/C47, C34 and C44/C45. Nobody is late: clocks and windows are part of the labels of the types but time is not part of the run (C52). The types are determined by the file if no role name contains To (C53_unique). Other shapes of protocols are not covered (C47 shows what becomes of them).")
c("C54", "partial", "C54_defined C54_interleaved_defined C54_coherent C54_params C54_send C54_timed C54_recv C54_recv_from_all C54_offer C54_choose C54_close C54_cancel C54_unique C54_exclusive C54_protocol C54_runs C54_interleaved_calls C54_structs_partial C54_structs_safe C54_interleaved_structs_partial C54_macros_partial C54_macro_names C54_function C54_reads C54_reads_groups C54_groups_only_names C54_clash_all C54_clash_suffix C54_clash_macros C54_clash_doc C54_no_offer_macro C54_single_role", "Missing: structs and macros are not always different for different roles, which the code violates: a role called All (C54_clash_all), roles A and ADual, AtoAll or AlltoA (C54_clash_suffix), roles that differ in case only (C54_clash_macros), the documented call for two meshes (C54_clash_doc); the untimed call for two meshes defines no offer_mpst (C54_no_offer_macro). The conditions under which the names are different are exact. How Rust selects impl blocks is the specification Has; traits are the hypothesis Lawful.")
c("C55", "partial", "C55_session C55_values C55_out C55_frames C55_in C55_reads C55_echo_partial C55_plain C55_datagrams_out C55_datagrams C55_data_lost C55_torn C55_cut", "Missing: the last sentence. The code violates it: recv_tcp drops the data that came with the value and returns what the server on the other end of the connection has sent, or zeros without the flag (C55_data_lost); with two receiving threads frames are torn (C55_torn); long datagrams are cut and the number returned does not tell (C55_cut). The contract of the operating system is in the model (reads take bytes in order of arrival, nothing is written after shutdown).")
c("C56", "partial", "C56_send C56_failed_write C56_recv C56_failed_read C56_progress C56_close C56_close_wait C56_close_returns C56_cancel C56_closed C56_fork_tcp C56_fork_udp C56_send_udp C56_failed_take C56_choice C56_err_delivered C56_cancel_panics C56_close_cancelled", "Missing: Err of send_tcp does not mean that the value was not sent: the partner receives it (C56_err_delivered). cancel_tcp does not always succeed: it panics if the connection has been reset or closed already (C56_cancel_panics). close_tcp returns Ok on any signal, also if the partner has sent Cancel (C56_close_cancelled). fork_udp panics if the thread cannot be started (C56_fork_udp).")
c("C57", "partial", "C57_partial C57_plain_partial C57_structs C57_structs_plain C57_taken C57_payload C57_messages C57_roles", "Missing: it does not hold for all accepted protocols, which the code violates: messages that carry a String, as in scribble_protocols/atmp/simple_voting.nuscr, or are called Result, Ok, Error, End, .. or like a type made from a role (C57_taken, C57_payload, C57_messages), roles called End or differing in case only (C57_roles). The condition under which it holds is exact, for roles without To in their names (C29) and consistent labels (C49). Names of fields, methods, macros and type parameters are not modelled, nor whether a name is an identifier.")
c("C58", "partial", "C58_types C58_check_types C58_offer_types C58_send C58_send_cancel C58_send_check C58_recv C58_offer C58_compiles C58_lost C58_partner C58_to_all_third C58_to_all_others", "Missing: the third sentence for the sending macros. The code violates it: with an index out of range the definition compiles and the function drops its argument, hands the mesh on as if it had been sent and returns Ok (C58_lost, C58_compiles). create_send_check_cancel! never compiles for the index 1 (C58_compiles). The role and name given with the index are not compared with it. choose_mpst_to_all! gives wired meshes to the third role only (C58_to_all_third, C58_to_all_others). What send, recv and the stack do is a parameter (Ops).")
c("C59", "proved", "C59_never_waits C59_typed C59_new C59_continuation C59_path", "The contract of crossbeam_channel for send (error at once without a receiver) is in the model. Threads are interleavings of operations.")
c("C60", "partial", "C60_lines C60_message C60_other C60_header_iff C60_text_partial C60_times C60_command C60_name C60_gate C60_role_renamed C60_bracket_lost C60_comment", "Missing: the header and the brackets in all cases. The code violates it: every timed followed by a blank is removed from the header, so that a role Untimed followed by a blank is called Un in the header only (C60_role_renamed; C60_header_iff gives the exact condition); a bracket behind a message on its line is counted by the generator and not given to the tool (C60_bracket_lost). A message in a comment is given as a message (C60_comment), as the generator reads it (C48). The answer of the shell is an arbitrary function of the command and the file.")
c("C61", "partial", "C61_table C61_compiles C61_offer_types C61_send C61_recv C61_offer C61_pair C61_one_method C61_short C61_offer_drops", "Missing: the last clause for the functions offer_mpst_session_to_x_from_y. The code violates it: they take a mesh whose session with the third role has any type, and drop that session when the choice arrives (C61_offer_types, C61_offer_drops); the methods and the macros ask for a finished session. What send, recv and the stack do is a parameter (Ops); C01-C11 and C59 say what it is.")
c("C62", "partial", "C62_schedule_partial C62_carried_out_partial C62_clocks_stuck C62_resets_stuck", "Proved for protocols on one clock in which two roles that exchange a message have last reset it together (in particular without resets, and with two roles), with windows that are not empty. Missing: the other ones, for which the code violates the property: it compares the windows of one role on one clock only (C62_clocks_stuck, C62_resets_stuck).")
c("C63", "proved", "C63_size C63_size_parts C63_write C63_read C63_read_parts C63_round_trip C63_round_trip_parts C63_injective C63_concat", "The runtime of the protobuf crate is a contract after the wire format. The messages are below 4 GiB, the limit of the length prefix. The module is behind a feature that Cargo.toml does not declare, so the crate as shipped does not contain it.")
c("C64", "partial", "C64_action_partial C64_never_shown C64_misread", "Proved for a file that stores one action. Missing: a file that stores a global type. The code violates it: the file is read to its end as an action, and the global type is then read from nothing, so that it is shown empty whatever the file contains (C64_never_shown); a stored global type is shown as an action whose index is the start (C64_misread).")
c("C65", "partial", "C65_runs C65_typed C65_no_orphans C65_progress_partial C65_live_partial C65_live_iff C65_checked_partial C65_stuck", "Proved in full: runs, types and order of messages, nothing left unreceived by roles that have ended. Progress is proved for protocols where, in each branch of a choice with several branches, every role can do its first communication (Begins), and no branch begins with another choice (C50); for them, moreover, every role that has not ended may yet take a step. The condition is exact (C65_live_iff). Missing: the other ones. The code violates it: the machines do not contain the announcement of the branch, so a branch that can never begin in the machines is not checked, while the program can choose it (C65_stuck: the checker gives the bound 1 and the program stops with three roles waiting for each other). The tool KMC is a parameter; what is asked of it is a hypothesis.")
c("C66", "proved", "C66_safe C66_order C66_progress C66_done C66_goes_on C66_terminates C66_live C66_fair C66_any_order C66_solo C66_fork C66_cycle", "Any number of protocols and any sharing of threads; Forest is the condition that protocols and threads form no cycle, C66_fork shows it for the threads the emitted body starts, and C66_cycle that it is needed. C66_live: a protocol to whose meshes the threads come back does not starve, also if others run for ever. The channels of different protocols are kept apart (C16).")
c("C67", "proved", "C67_safe C67_blame C67_drop C67_order C67_close C67_progress C67_clean C67_terminates C67_fate C67_live C67_fair C67_any_order", "As C66, with failures as in C45. C67_blame: a failure in a protocol goes back to a mesh of that protocol that was dropped. C67_fate: a thread that from some moment on only drops its meshes. Threads may also handle an error of one protocol and go on with the others.")
c("C68", "partial", "C68_window_partial C68_clocks C68_choice C68_late C68_down C68_safe C68_next C68_alone C68_live C68_terminates C68_fate C68_instant C68_ideal C68_fair", "Whole timed programs on the generated meshes. Missing: with an exclusive upper bound a transfer may happen exactly at the bound, and the delay between the computation of the time left and the beginning of the wait comes on top (the violations of C19); C68_window_partial says exactly this. C68_late gives the reasons of the first failure; among them are the windows C19 shows to be rejected without reason. The rest is proved in full.")
c("C69", "partial", "C69_window_partial C69_close C69_terminates C69_carried_out_partial C69_impossible C69_clocks_stuck", "The text given to the generator, the generated types, and the program that runs on timed channels, composed. Windows, close and termination hold for all accepted texts (windows up to the upper bound, as in C19). Missing: a schedule on which everybody ends exists for texts without choices on one clock whose roles reset together and whose windows hold a whole second (C69_carried_out_partial); with several clocks the property is false: C69_impossible gives a class of accepted texts nobody can carry out, C69_clocks_stuck one of them.")
c("C70", "partial", "C70_carried_out_partial C70_latest_partial C70_loops_partial C70_roles_partial C70_only C70_times C70_order C70_clock C70_clock_no_branch C70_clock_no_end C70_clock_no_return C70_no_branch C70_no_end C70_no_return C70_loop_stuck C70_choice_stuck", "The first two sentences: all accepted texts, all complete executions, all orders that keep the order of each role, all permitted instants (C70_carried_out_partial; as in C19 not within a second above an exclusive lower bound); the converse without resets, in terms of instants of the execution (C70_only), and for all texts, with resets, in terms of the instants of each role (C70_times, where a reset that the code omits, see C40, is allowed to be missing; C70_order says what follows for the intervals of the text). The last sentence is proved for two roles and one clock, if the generator also accepts the parts of the text that follow each other across a choice (C70_loops_partial), and for any number of roles and one clock never reset, if no message has to be later than one behind the next choice (C70_roles_partial). Missing: the last sentence otherwise, which the code violates: windows are not compared across the beginning of a choice, so that there are accepted texts of which no branch (C70_clock_no_end, C70_no_end, C70_choice_stuck), or one branch (C70_clock_no_branch, C70_no_branch), or no second turn of a loop (C70_clock_no_return, C70_no_return, C70_loop_stuck) can be finished.")
c("C71","partial","C71_reason_partial C71_on_time_partial C71_finishes_partial C71_exclusive_start","The first failure of any schedule of any accepted text, and the absence of failures and the completion if everybody is punctual. Missing: an exclusive lower bound counts as a bound one second higher (C71_exclusive_start: with the interval as written the property fails); bounds below 2^64.")
c("C72","proved","C72_count C72_open C72_stays","Counted from the calls of a run and what they returned (Spec/Handles.lean), for all runs of the transport model.")
c("C73","partial","C73_layout_partial C73_layout_text C73_layout_protocol C73_accepted C73_runs_partial C73_header_bracket C73_or_apart C73_or_merged C73_continue_lost C73_continue_silent C73_continue_timed C73_window_silent C73_window_timed C73_window_lost C73_three_buyers C73_video_stream C73_calculator C73_three_buyers_accepted C73_video_stream_accepted C73_video_stream_once C73_video_stream_meant C73_remote_data_accepted C73_remote_data_runs C73_servo_accepted C73_choice_unknown C73_o_auth_2","Lines that say nothing and brackets of loops and choices on the next line: any protocol, any number of them, any place inside the protocol that is not after the end of an outermost choice (there see C48_blank_after_choice). Missing because the code does otherwise: a header with its bracket on the next line is refused (C73_header_bracket; 12 of the 20 timed protocols of the project), `}` and `or` on different lines are refused outside loops (C73_or_apart) and in loops make one branch of two (C73_or_merged), and a jump written with a time window is not seen, so that the program has no loop (C73_continue_lost and C73_window_lost for all protocols, names and windows, C73_video_stream_once for the file of the project). C73_remote_data_runs: for the looped protocol of the project whose jump is written without a window, every complete execution, of any number of turns, can be carried out.")
