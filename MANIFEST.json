{
 "claims": [
  {
   "property": "C01",
   "status": "proved",
   "theorems": [
    "Verif.Prop.C01_session",
    "Verif.Prop.C01_dual_iff",
    "Verif.Prop.C01_stack",
    "Verif.Prop.C01_mesh"
   ],
   "note": ""
  },
  {
   "property": "C02",
   "status": "proved",
   "theorems": [
    "Verif.Prop.C02_new",
    "Verif.Prop.C02_first"
   ],
   "note": ""
  },
  {
   "property": "C03",
   "status": "proved",
   "theorems": [
    "Verif.Prop.C03_send",
    "Verif.Prop.C03_never_blocks"
   ],
   "note": ""
  },
  {
   "property": "C04",
   "status": "proved",
   "theorems": [
    "Verif.Prop.C04_recv",
    "Verif.Prop.C04_peer"
   ],
   "note": ""
  },
  {
   "property": "C05",
   "status": "proved",
   "theorems": [
    "Verif.Prop.C05_prefix",
    "Verif.Prop.C05_not_lost",
    "Verif.Prop.C05_protocol"
   ],
   "note": ""
  },
  {
   "property": "C06",
   "status": "proved",
   "theorems": [
    "Verif.Prop.C06_linear",
    "Verif.Prop.C06_used_up",
    "Verif.Prop.C06_dual",
    "Verif.Prop.C06_connected"
   ],
   "note": ""
  },
  {
   "property": "C07",
   "status": "partial",
   "theorems": [
    "Verif.Prop.C07_drop_terminates",
    "Verif.Prop.C07_cascade",
    "Verif.Prop.C07_partner_told",
    "Verif.Prop.C07_waiting_fresh",
    "Verif.Prop.C07_waiting_partial",
    "Verif.Prop.C07_cycle_leaks"
   ],
   "note": "The full property is false when a receiver is sent over its own channel (C07_cycle_leaks). It is proved for every state whose undelivered messages are not nested in a cycle, in particular for clients that only pass endpoints newer than the carrying channel."
  },
  {
   "property": "C08",
   "status": "proved",
   "theorems": [
    "Verif.Prop.C08_both_ok",
    "Verif.Prop.C08_err_iff",
    "Verif.Prop.C08_panic"
   ],
   "note": ""
  },
  {
   "property": "C09",
   "status": "proved",
   "theorems": [
    "Verif.Prop.C09_close_terminates"
   ],
   "note": ""
  },
  {
   "property": "C10",
   "status": "proved",
   "theorems": [
    "Verif.Prop.C10_close_fails",
    "Verif.Prop.C10_close_errs",
    "Verif.Prop.C10_cancel_noticed",
    "Verif.Prop.C10_cancel_swallowed",
    "Verif.Prop.C10_gone_noticed",
    "Verif.Prop.C10_gone_overlooked"
   ],
   "note": "An explicit Cancel is noticed by the checking close functions; close_mpst! and close_mpst_cancel! discard it (C10_cancel_swallowed). A partner that is already gone is noticed by the functions that check what they send (C10_gone_noticed), not by close_mpst! (C10_gone_overlooked)."
  },
  {
   "property": "C11",
   "status": "proved",
   "theorems": [
    "Verif.Prop.C11_agree"
   ],
   "note": ""
  },
  {
   "property": "C12",
   "status": "proved",
   "theorems": [
    "Verif.Prop.C12_choose_wired",
    "Verif.Prop.C12_to_all_wired"
   ],
   "note": ""
  },
  {
   "property": "C13",
   "status": "proved",
   "theorems": [
    "Verif.Prop.C13_choose_typed",
    "Verif.Prop.C13_declared_dual",
    "Verif.Prop.C13_branch_params"
   ],
   "note": ""
  },
  {
   "property": "C14",
   "status": "proved",
   "theorems": [
    "Verif.Prop.C14_hand_written_wired",
    "Verif.Prop.C14_hand_written_fork"
   ],
   "note": ""
  },
  {
   "property": "C15",
   "status": "proved",
   "theorems": [
    "Verif.Prop.C15_fork_wired"
   ],
   "note": ""
  },
  {
   "property": "C16",
   "status": "proved",
   "theorems": [
    "Verif.Prop.C16_interleaved_wired"
   ],
   "note": ""
  },
  {
   "property": "C17",
   "status": "proved",
   "theorems": [
    "Verif.Prop.C17_diag",
    "Verif.Prop.C17_matrix",
    "Verif.Prop.C17_line_column",
    "Verif.Prop.C17_offset"
   ],
   "note": ""
  },
  {
   "property": "C18",
   "status": "proved",
   "theorems": [
    "Verif.Prop.C18_exec",
    "Verif.Prop.C18_types",
    "Verif.Prop.C18_only",
    "Verif.Prop.C18_partner",
    "Verif.Prop.C18_offer"
   ],
   "note": ""
  },
  {
   "property": "C19",
   "status": "partial",
   "theorems": [
    "Verif.Prop.C19_window_partial",
    "Verif.Prop.C19_ok_moved",
    "Verif.Prop.C19_not_rejected_partial",
    "Verif.Prop.C19_lower_only_rejected",
    "Verif.Prop.C19_exclusive_start_rejected",
    "Verif.Prop.C19_exclusive_stop_reached"
   ],
   "note": "The code violates the property at three places, each with a proved witness: windows with only a lower bound always panic in send and recv; an exclusive lower bound rejects the first second inside the interval; with an exclusive upper bound the transfer may happen exactly at the bound. Proved for all other windows."
  },
  {
   "property": "C20",
   "status": "proved",
   "theorems": [
    "Verif.Prop.C20_other_clocks",
    "Verif.Prop.C20_only_on_success",
    "Verif.Prop.C20_no_reset"
   ],
   "note": ""
  },
  {
   "property": "C21",
   "status": "proved",
   "theorems": [
    "Verif.Prop.C21_same_windows",
    "Verif.Prop.C21_step",
    "Verif.Prop.C21_new_fields",
    "Verif.Prop.C21_constraint",
    "Verif.Prop.C21_constraint_means"
   ],
   "note": ""
  },
  {
   "property": "C22",
   "status": "proved",
   "theorems": [
    "Verif.Prop.C22_attempt"
   ],
   "note": ""
  },
  {
   "property": "C23",
   "status": "proved",
   "theorems": [
    "Verif.Prop.C23_select",
    "Verif.Prop.C23_blocks_only_while_none_ready"
   ],
   "note": ""
  },
  {
   "property": "C24",
   "status": "proved",
   "theorems": [
    "Verif.Prop.C24_blocks",
    "Verif.Prop.C24_head",
    "Verif.Prop.C24_tuple_payload"
   ],
   "note": "For types whose names contain none of < > , & and white space; a tuple payload is split wrongly (C24_tuple_payload)."
  },
  {
   "property": "C25",
   "status": "proved",
   "theorems": [
    "Verif.Prop.C25_dual",
    "Verif.Prop.C25_twice"
   ],
   "note": ""
  },
  {
   "property": "C26",
   "status": "proved",
   "theorems": [
    "Verif.Prop.C26_graph"
   ],
   "note": "For received payloads that are not the name of an enum of branches."
  },
  {
   "property": "C27",
   "status": "partial",
   "theorems": [
    "Verif.Prop.C27_least_partial",
    "Verif.Prop.C27_none_partial",
    "Verif.Prop.C27_limit"
   ],
   "note": "Full below the limit. With least successful bound exactly 50 the code reports None (C27_limit)."
  },
  {
   "property": "C28",
   "status": "partial",
   "theorems": [
    "Verif.Prop.C28_as_text",
    "Verif.Prop.C28_window_partial",
    "Verif.Prop.C28_never_partial",
    "Verif.Prop.C28_wrong"
   ],
   "note": "Bounds are compared as texts: proved for bounds with the same number of digits; [9;10] is rejected and [10;9] accepted (C28_wrong). C28_as_text says exactly which windows are accepted."
  },
  {
   "property": "C29",
   "status": "proved",
   "theorems": [
    "Verif.Prop.C29_projection",
    "Verif.Prop.C29_aliases",
    "Verif.Prop.C29_clash"
   ],
   "note": "Aliases are unique if no role name contains To; otherwise they can clash (C29_clash)."
  },
  {
   "property": "C30",
   "status": "partial",
   "theorems": [
    "Verif.Prop.C43_feasible",
    "Verif.Prop.C30_exact_partial",
    "Verif.Prop.C30_reset_rejected",
    "Verif.Prop.C30_choice_unchecked"
   ],
   "note": "Exact for choice-free protocols without resets of the clock in use and bounds of one length. A message that resets the clock at its first use still bounds the next one, and nothing is checked across the beginning of a choice."
  },
  {
   "property": "C31",
   "status": "partial",
   "theorems": [
    "Verif.Prop.C31_bounded",
    "Verif.Prop.C31_cancel",
    "Verif.Prop.C31_quiet",
    "Verif.Prop.C31_forwarded",
    "Verif.Prop.C31_check_partial",
    "Verif.Prop.C31_check_misses",
    "Verif.Prop.C31_drop_hangs"
   ],
   "note": "All N, sequences of choices and schedules. A check made while the broadcaster's side of the checker's new End is still travelling misses the cancellation (C31_check_misses); the participant stops later (C31_cancel). A silent drop leaves the broadcaster polling forever (C31_drop_hangs)."
  },
  {
   "property": "C32",
   "status": "proved",
   "theorems": [
    "Verif.Prop.C32_handed_once",
    "Verif.Prop.C32_reconnected"
   ],
   "note": "The slots of the broadcaster are permuted by a choice: slot k need not be connected to role k+1 afterwards."
  },
  {
   "property": "C33",
   "status": "proved",
   "theorems": [
    "Verif.Prop.C33_interleaved_close"
   ],
   "note": ""
  },
  {
   "property": "C34",
   "status": "proved",
   "theorems": [
    "Verif.Prop.C34_dual",
    "Verif.Prop.C34_progress",
    "Verif.Prop.C34_live",
    "Verif.Prop.C34_ends",
    "Verif.Prop.C34_terminates",
    "Verif.Prop.C34_persist",
    "Verif.Prop.C34_order",
    "Verif.Prop.C34_done",
    "Verif.Prop.C34_possible",
    "Verif.Prop.C34_completable"
   ],
   "note": "All well-formed protocols (blocks of messages ended by a broadcast choice or the end, named blocks for recursion), all numbers of roles, all schedules; no role starves under weak fairness. Closing is C09; cancellation and clocks are not part of this model."
  },
  {
   "property": "C35",
   "status": "proved",
   "theorems": [
    "Verif.Prop.C35_session_render",
    "Verif.Prop.C35_session_iff",
    "Verif.Prop.C35_dual",
    "Verif.Prop.C35_stack",
    "Verif.Prop.C35_mesh"
   ],
   "note": "Constructor names of stacks are compared as printed: a user role called End would print like RoleEnd."
  },
  {
   "property": "C36",
   "status": "partial",
   "theorems": [
    "Verif.Prop.C36_accepted",
    "Verif.Prop.C36_unclosed_partial",
    "Verif.Prop.C36_overclosed_partial",
    "Verif.Prop.C36_ignores_rest"
   ],
   "note": "Lines after the one that closes the protocol are not read, so brackets there are not counted (C36_ignores_rest); proved up to that point."
  },
  {
   "property": "C37",
   "status": "proved",
   "theorems": [
    "Verif.Prop.C37_order",
    "Verif.Prop.C37_report",
    "Verif.Prop.C37_duplicate_panics"
   ],
   "note": ""
  },
  {
   "property": "C38",
   "status": "proved",
   "theorems": [
    "Verif.Prop.C38_refines_fifo"
   ],
   "note": ""
  },
  {
   "property": "C39",
   "status": "proved",
   "theorems": [
    "Verif.Prop.C39_two_meshes",
    "Verif.Prop.C39_crossed_deadlock"
   ],
   "note": "One shared thread. Two shared threads closing in opposite orders deadlock (C39_crossed_deadlock)."
  },
  {
   "property": "C40",
   "status": "partial",
   "theorems": [
    "Verif.Prop.C40_reset_done_partial",
    "Verif.Prop.C40_unbounded_no_reset",
    "Verif.Prop.C40_race",
    "Verif.Prop.C40_missing_clock"
   ],
   "note": "The code violates the property: unbounded windows never reset, a clock crossing the lower bound between the two evaluations of the condition is not reset, and a missing clock makes the call panic after the transfer. Proved for the other cases."
  },
  {
   "property": "C41",
   "status": "proved",
   "theorems": [
    "Verif.Prop.C41_failed_choice",
    "Verif.Prop.C41_choice_resets"
   ],
   "note": ""
  },
  {
   "property": "C42",
   "status": "proved",
   "theorems": [
    "Verif.Prop.C42_tree",
    "Verif.Prop.C42_names_repeat"
   ],
   "note": ""
  },
  {
   "property": "C43",
   "status": "proved",
   "theorems": [
    "Verif.Prop.C43_feasible"
   ],
   "note": ""
  },
  {
   "property": "C44",
   "status": "proved",
   "theorems": [
    "Verif.Prop.C44_start",
    "Verif.Prop.C44_safe",
    "Verif.Prop.C44_next",
    "Verif.Prop.C44_progress",
    "Verif.Prop.C44_order",
    "Verif.Prop.C44_complete",
    "Verif.Prop.C44_possible",
    "Verif.Prop.C44_completable",
    "Verif.Prop.C44_done",
    "Verif.Prop.C44_live",
    "Verif.Prop.C44_ends",
    "Verif.Prop.C44_terminates"
   ],
   "note": "The refinement between the protocol queues of C34 and the one-place channels, emitted bodies, emitted methods, close and drops. Nobody cancels or panics, no clocks."
  },
  {
   "property": "C45",
   "status": "proved",
   "theorems": [
    "Verif.Prop.C45_safe",
    "Verif.Prop.C45_crash",
    "Verif.Prop.C45_next",
    "Verif.Prop.C45_progress",
    "Verif.Prop.C45_order",
    "Verif.Prop.C45_close",
    "Verif.Prop.C45_clean",
    "Verif.Prop.C45_live",
    "Verif.Prop.C45_terminates",
    "Verif.Prop.C45_fate",
    "Verif.Prop.C45_fair",
    "Verif.Prop.C45_unnoticed"
   ],
   "note": "C44 with roles that may disappear at any moment. A role whose call returns an error gives up; programs that go on after an error with other sessions are not covered. C45_unnoticed: a role that only sends is never told."
  },
  {
   "property": "C46",
   "status": "proved",
   "theorems": [
    "Verif.Prop.C46_last_wired",
    "Verif.Prop.C46_last_dual",
    "Verif.Prop.C46_solo_wired"
   ],
   "note": "All numbers of roles. Names (phantom) and the cancellation of the old mesh are not modelled."
  },
  {
   "property": "C47",
   "status": "proved",
   "theorems": [
    "Verif.Prop.C47_projection",
    "Verif.Prop.C47_checked",
    "Verif.Prop.C47_accepts",
    "Verif.Prop.C47_aliases",
    "Verif.Prop.C47_functions",
    "Verif.Prop.C47_loop_without_choice",
    "Verif.Prop.C47_nested",
    "Verif.Prop.C47_next_passage_unchecked",
    "Verif.Prop.C47_after_choice_lost",
    "Verif.Prop.C47_function_clash"
   ],
   "note": "Names are distinct if the roles are and no role name contains To; functions if moreover the lower-case names are distinct and have no underscore (C47_function_clash otherwise). Other shapes: a choice in a branch is never accepted (C47_nested); a loop without a choice is unrolled to two passages and ends (C47_loop_without_choice); a message after a choice is lost (C47_after_choice_lost); the windows of the next passage are not checked (C47_next_passage_unchecked)."
  },
  {
   "property": "C48",
   "status": "proved",
   "theorems": [
    "Verif.Prop.C48_matcher",
    "Verif.Prop.C48_reads",
    "Verif.Prop.C48_payload",
    "Verif.Prop.C48_generator",
    "Verif.Prop.C48_blank_lines",
    "Verif.Prop.C48_blank_text",
    "Verif.Prop.C48_blank_after_choice",
    "Verif.Prop.C48_comment",
    "Verif.Prop.C48_two_messages",
    "Verif.Prop.C48_or_alone",
    "Verif.Prop.C48_roles",
    "Verif.Prop.C48_digits"
   ],
   "note": "The header must have exactly one blank after each role (C48_roles otherwise). Findings: messages in comments are read (C48_comment); two messages on a line are mixed up (C48_two_messages); or on its own line is not seen (C48_or_alone); two empty lines after a choice make the protocol unbalanced (C48_blank_after_choice); digits of other scripts are accepted and then the generator panics (C48_digits)."
  },
  {
   "property": "C49",
   "status": "proved",
   "theorems": [
    "Verif.Prop.C49_declared",
    "Verif.Prop.C49_only",
    "Verif.Prop.C49_once",
    "Verif.Prop.C49_payloads",
    "Verif.Prop.C49_protocol",
    "Verif.Prop.C49_clocks",
    "Verif.Prop.C49_clocks_plain",
    "Verif.Prop.C49_clocks_used",
    "Verif.Prop.C49_restart",
    "Verif.Prop.C49_two_payloads",
    "Verif.Prop.C49_label_is_payload",
    "Verif.Prop.C49_twice",
    "Verif.Prop.C49_reset_missing",
    "Verif.Prop.C49_clock_letters"
   ],
   "note": "Findings where the conditions fail: a label with two payloads has one field only (C49_two_payloads); a label that is the name of a payload has none (C49_label_is_payload); a1 and a_1 are declared twice (C49_twice). The functions for the branches start the clocks again (C49_restart); a message may reset a clock nobody starts, which panics when it is sent (C49_reset_missing); clocks with names of several letters are accepted (C49_clock_letters)."
  },
  {
   "property": "C50",
   "status": "partial",
   "theorems": [
    "Verif.Prop.C50_loops_partial",
    "Verif.Prop.C50_unguarded",
    "Verif.Prop.C50_misdirected"
   ],
   "note": "Missing: branches that begin with another choice. For them the code violates it: a choice drawn at the node of another one offers too much when it is come back to (C50_unguarded), and a branch that begins with a choice already drawn moves the target of an unrelated transition of the machine (C50_misdirected)."
  },
  {
   "property": "C51",
   "status": "partial",
   "theorems": [
    "Verif.Prop.C51_clean_partial",
    "Verif.Prop.C51_checker_partial",
    "Verif.Prop.C51_nested_path",
    "Verif.Prop.C51_reference",
    "Verif.Prop.C51_array",
    "Verif.Prop.C51_payload_name",
    "Verif.Prop.C51_digits",
    "Verif.Prop.C51_role_prefix"
   ],
   "note": "Missing: types outside the naming conditions, and branches that begin with another choice (C50). The code violates it there: a path that is part of another one leaves a rest (C51_nested_path); paths behind references stay (C51_reference), brackets of arrays are lost with the path (C51_array); a payload type that begins with Name becomes a role (C51_payload_name); roles with digits are mixed up (C51_digits); a role whose name begins with that of another may be taken for it (C51_role_prefix)."
  },
  {
   "property": "C52",
   "status": "partial",
   "theorems": [
    "Verif.Prop.C52_on_schedule_partial",
    "Verif.Prop.C52_schedule_kept",
    "Verif.Prop.C52_received_sent",
    "Verif.Prop.C52_unsent_stops",
    "Verif.Prop.C52_failed_silent",
    "Verif.Prop.C52_clock_set",
    "Verif.Prop.C52_window_partial",
    "Verif.Prop.C52_lower_only_stops",
    "Verif.Prop.C52_exclusive_start_stops"
   ],
   "note": "The behaviour of the channels is the hypothesis Transport. Missing: windows with a lower bound only and slots in the second after an exclusive lower bound, which the code rejects (C52_lower_only_stops, C52_exclusive_start_stops); unbounded windows with a reset, which is not done (C40_unbounded_no_reset)."
  },
  {
   "property": "C53",
   "status": "proved",
   "theorems": [
    "Verif.Prop.C53_types",
    "Verif.Prop.C53_unique",
    "Verif.Prop.C53_start",
    "Verif.Prop.C53_safe",
    "Verif.Prop.C53_progress",
    "Verif.Prop.C53_order",
    "Verif.Prop.C53_done",
    "Verif.Prop.C53_possible",
    "Verif.Prop.C53_ends",
    "Verif.Prop.C53_live",
    "Verif.Prop.C53_terminates",
    "Verif.Prop.C53_failure",
    "Verif.Prop.C53_close",
    "Verif.Prop.C53_failure_terminates"
   ],
   "note": "Composition of C48, C29/C47, C34 and C44/C45. Nobody is late: clocks and windows are part of the labels of the types but time is not part of the run (C52). The types are determined by the file if no role name contains To (C53_unique). Other shapes of protocols are not covered (C47 shows what becomes of them)."
  },
  {
   "property": "C54",
   "status": "partial",
   "theorems": [
    "Verif.Prop.C54_defined",
    "Verif.Prop.C54_interleaved_defined",
    "Verif.Prop.C54_coherent",
    "Verif.Prop.C54_params",
    "Verif.Prop.C54_send",
    "Verif.Prop.C54_timed",
    "Verif.Prop.C54_recv",
    "Verif.Prop.C54_recv_from_all",
    "Verif.Prop.C54_offer",
    "Verif.Prop.C54_choose",
    "Verif.Prop.C54_close",
    "Verif.Prop.C54_cancel",
    "Verif.Prop.C54_unique",
    "Verif.Prop.C54_exclusive",
    "Verif.Prop.C54_protocol",
    "Verif.Prop.C54_runs",
    "Verif.Prop.C54_interleaved_calls",
    "Verif.Prop.C54_structs_partial",
    "Verif.Prop.C54_structs_safe",
    "Verif.Prop.C54_interleaved_structs_partial",
    "Verif.Prop.C54_macros_partial",
    "Verif.Prop.C54_macro_names",
    "Verif.Prop.C54_function",
    "Verif.Prop.C54_reads",
    "Verif.Prop.C54_reads_groups",
    "Verif.Prop.C54_groups_only_names",
    "Verif.Prop.C54_clash_all",
    "Verif.Prop.C54_clash_suffix",
    "Verif.Prop.C54_clash_macros",
    "Verif.Prop.C54_clash_doc",
    "Verif.Prop.C54_no_offer_macro",
    "Verif.Prop.C54_single_role"
   ],
   "note": "Missing: structs and macros are not always different for different roles, which the code violates: a role called All (C54_clash_all), roles A and ADual, AtoAll or AlltoA (C54_clash_suffix), roles that differ in case only (C54_clash_macros), the documented call for two meshes (C54_clash_doc); the untimed call for two meshes defines no offer_mpst (C54_no_offer_macro). The conditions under which the names are different are exact. How Rust selects impl blocks is the specification Has; traits are the hypothesis Lawful."
  },
  {
   "property": "C55",
   "status": "partial",
   "theorems": [
    "Verif.Prop.C55_session",
    "Verif.Prop.C55_values",
    "Verif.Prop.C55_out",
    "Verif.Prop.C55_frames",
    "Verif.Prop.C55_in",
    "Verif.Prop.C55_reads",
    "Verif.Prop.C55_echo_partial",
    "Verif.Prop.C55_plain",
    "Verif.Prop.C55_datagrams_out",
    "Verif.Prop.C55_datagrams",
    "Verif.Prop.C55_data_lost",
    "Verif.Prop.C55_torn",
    "Verif.Prop.C55_cut"
   ],
   "note": "Missing: the last sentence. The code violates it: recv_tcp drops the data that came with the value and returns what the server on the other end of the connection has sent, or zeros without the flag (C55_data_lost); with two receiving threads frames are torn (C55_torn); long datagrams are cut and the number returned does not tell (C55_cut). The contract of the operating system is in the model (reads take bytes in order of arrival, nothing is written after shutdown)."
  },
  {
   "property": "C56",
   "status": "partial",
   "theorems": [
    "Verif.Prop.C56_send",
    "Verif.Prop.C56_failed_write",
    "Verif.Prop.C56_recv",
    "Verif.Prop.C56_failed_read",
    "Verif.Prop.C56_progress",
    "Verif.Prop.C56_close",
    "Verif.Prop.C56_close_wait",
    "Verif.Prop.C56_close_returns",
    "Verif.Prop.C56_cancel",
    "Verif.Prop.C56_closed",
    "Verif.Prop.C56_fork_tcp",
    "Verif.Prop.C56_fork_udp",
    "Verif.Prop.C56_send_udp",
    "Verif.Prop.C56_failed_take",
    "Verif.Prop.C56_choice",
    "Verif.Prop.C56_err_delivered",
    "Verif.Prop.C56_cancel_panics",
    "Verif.Prop.C56_close_cancelled"
   ],
   "note": "Missing: Err of send_tcp does not mean that the value was not sent: the partner receives it (C56_err_delivered). cancel_tcp does not always succeed: it panics if the connection has been reset or closed already (C56_cancel_panics). close_tcp returns Ok on any signal, also if the partner has sent Cancel (C56_close_cancelled). fork_udp panics if the thread cannot be started (C56_fork_udp)."
  },
  {
   "property": "C57",
   "status": "partial",
   "theorems": [
    "Verif.Prop.C57_partial",
    "Verif.Prop.C57_plain_partial",
    "Verif.Prop.C57_structs",
    "Verif.Prop.C57_structs_plain",
    "Verif.Prop.C57_taken",
    "Verif.Prop.C57_payload",
    "Verif.Prop.C57_messages",
    "Verif.Prop.C57_roles"
   ],
   "note": "Missing: it does not hold for all accepted protocols, which the code violates: messages that carry a String, as in scribble_protocols/atmp/simple_voting.nuscr, or are called Result, Ok, Error, End, .. or like a type made from a role (C57_taken, C57_payload, C57_messages), roles called End or differing in case only (C57_roles). The condition under which it holds is exact, for roles without To in their names (C29) and consistent labels (C49). Names of fields, methods, macros and type parameters are not modelled, nor whether a name is an identifier."
  },
  {
   "property": "C58",
   "status": "partial",
   "theorems": [
    "Verif.Prop.C58_types",
    "Verif.Prop.C58_check_types",
    "Verif.Prop.C58_offer_types",
    "Verif.Prop.C58_send",
    "Verif.Prop.C58_send_cancel",
    "Verif.Prop.C58_send_check",
    "Verif.Prop.C58_recv",
    "Verif.Prop.C58_offer",
    "Verif.Prop.C58_compiles",
    "Verif.Prop.C58_lost",
    "Verif.Prop.C58_partner",
    "Verif.Prop.C58_to_all_third",
    "Verif.Prop.C58_to_all_others"
   ],
   "note": "Missing: the third sentence for the sending macros. The code violates it: with an index out of range the definition compiles and the function drops its argument, hands the mesh on as if it had been sent and returns Ok (C58_lost, C58_compiles). create_send_check_cancel! never compiles for the index 1 (C58_compiles). The role and name given with the index are not compared with it. choose_mpst_to_all! gives wired meshes to the third role only (C58_to_all_third, C58_to_all_others). What send, recv and the stack do is a parameter (Ops)."
  },
  {
   "property": "C59",
   "status": "proved",
   "theorems": [
    "Verif.Prop.C59_never_waits",
    "Verif.Prop.C59_typed",
    "Verif.Prop.C59_new",
    "Verif.Prop.C59_continuation",
    "Verif.Prop.C59_path"
   ],
   "note": "The contract of crossbeam_channel for send (error at once without a receiver) is in the model. Threads are interleavings of operations."
  },
  {
   "property": "C60",
   "status": "partial",
   "theorems": [
    "Verif.Prop.C60_lines",
    "Verif.Prop.C60_message",
    "Verif.Prop.C60_other",
    "Verif.Prop.C60_header_iff",
    "Verif.Prop.C60_text_partial",
    "Verif.Prop.C60_times",
    "Verif.Prop.C60_command",
    "Verif.Prop.C60_name",
    "Verif.Prop.C60_gate",
    "Verif.Prop.C60_role_renamed",
    "Verif.Prop.C60_bracket_lost",
    "Verif.Prop.C60_comment"
   ],
   "note": "Missing: the header and the brackets in all cases. The code violates it: every timed followed by a blank is removed from the header, so that a role Untimed followed by a blank is called Un in the header only (C60_role_renamed; C60_header_iff gives the exact condition); a bracket behind a message on its line is counted by the generator and not given to the tool (C60_bracket_lost). A message in a comment is given as a message (C60_comment), as the generator reads it (C48). The answer of the shell is an arbitrary function of the command and the file."
  },
  {
   "property": "C61",
   "status": "partial",
   "theorems": [
    "Verif.Prop.C61_table",
    "Verif.Prop.C61_compiles",
    "Verif.Prop.C61_offer_types",
    "Verif.Prop.C61_send",
    "Verif.Prop.C61_recv",
    "Verif.Prop.C61_offer",
    "Verif.Prop.C61_pair",
    "Verif.Prop.C61_one_method",
    "Verif.Prop.C61_short",
    "Verif.Prop.C61_offer_drops"
   ],
   "note": "Missing: the last clause for the functions offer_mpst_session_to_x_from_y. The code violates it: they take a mesh whose session with the third role has any type, and drop that session when the choice arrives (C61_offer_types, C61_offer_drops); the methods and the macros ask for a finished session. What send, recv and the stack do is a parameter (Ops); C01-C11 and C59 say what it is."
  },
  {
   "property": "C62",
   "status": "partial",
   "theorems": [
    "Verif.Prop.C62_schedule_partial",
    "Verif.Prop.C62_carried_out_partial",
    "Verif.Prop.C62_clocks_stuck",
    "Verif.Prop.C62_resets_stuck"
   ],
   "note": "Proved for protocols on one clock in which two roles that exchange a message have last reset it together (in particular without resets, and with two roles), with windows that are not empty. Missing: the other ones, for which the code violates the property: it compares the windows of one role on one clock only (C62_clocks_stuck, C62_resets_stuck)."
  },
  {
   "property": "C63",
   "status": "proved",
   "theorems": [
    "Verif.Prop.C63_size",
    "Verif.Prop.C63_size_parts",
    "Verif.Prop.C63_write",
    "Verif.Prop.C63_read",
    "Verif.Prop.C63_read_parts",
    "Verif.Prop.C63_round_trip",
    "Verif.Prop.C63_round_trip_parts",
    "Verif.Prop.C63_injective",
    "Verif.Prop.C63_concat"
   ],
   "note": "The runtime of the protobuf crate is a contract after the wire format. The messages are below 4 GiB, the limit of the length prefix. The module is behind a feature that Cargo.toml does not declare, so the crate as shipped does not contain it."
  },
  {
   "property": "C64",
   "status": "partial",
   "theorems": [
    "Verif.Prop.C64_action_partial",
    "Verif.Prop.C64_never_shown",
    "Verif.Prop.C64_misread"
   ],
   "note": "Proved for a file that stores one action. Missing: a file that stores a global type. The code violates it: the file is read to its end as an action, and the global type is then read from nothing, so that it is shown empty whatever the file contains (C64_never_shown); a stored global type is shown as an action whose index is the start (C64_misread)."
  },
  {
   "property": "C65",
   "status": "partial",
   "theorems": [
    "Verif.Prop.C65_runs",
    "Verif.Prop.C65_typed",
    "Verif.Prop.C65_no_orphans",
    "Verif.Prop.C65_progress_partial",
    "Verif.Prop.C65_live_partial",
    "Verif.Prop.C65_live_iff",
    "Verif.Prop.C65_checked_partial",
    "Verif.Prop.C65_stuck"
   ],
   "note": "Proved in full: runs, types and order of messages, nothing left unreceived by roles that have ended. Progress is proved for protocols where, in each branch of a choice with several branches, every role can do its first communication (Begins), and no branch begins with another choice (C50); for them, moreover, every role that has not ended may yet take a step. The condition is exact (C65_live_iff). Missing: the other ones. The code violates it: the machines do not contain the announcement of the branch, so a branch that can never begin in the machines is not checked, while the program can choose it (C65_stuck: the checker gives the bound 1 and the program stops with three roles waiting for each other). The tool KMC is a parameter; what is asked of it is a hypothesis."
  },
  {
   "property": "C66",
   "status": "proved",
   "theorems": [
    "Verif.Prop.C66_safe",
    "Verif.Prop.C66_order",
    "Verif.Prop.C66_progress",
    "Verif.Prop.C66_done",
    "Verif.Prop.C66_goes_on",
    "Verif.Prop.C66_terminates",
    "Verif.Prop.C66_live",
    "Verif.Prop.C66_fair",
    "Verif.Prop.C66_any_order",
    "Verif.Prop.C66_solo",
    "Verif.Prop.C66_fork",
    "Verif.Prop.C66_cycle"
   ],
   "note": "Any number of protocols and any sharing of threads; Forest is the condition that protocols and threads form no cycle, C66_fork shows it for the threads the emitted body starts, and C66_cycle that it is needed. C66_live: a protocol to whose meshes the threads come back does not starve, also if others run for ever. The channels of different protocols are kept apart (C16)."
  },
  {
   "property": "C67",
   "status": "proved",
   "theorems": [
    "Verif.Prop.C67_safe",
    "Verif.Prop.C67_blame",
    "Verif.Prop.C67_drop",
    "Verif.Prop.C67_order",
    "Verif.Prop.C67_close",
    "Verif.Prop.C67_progress",
    "Verif.Prop.C67_clean",
    "Verif.Prop.C67_terminates",
    "Verif.Prop.C67_fate",
    "Verif.Prop.C67_live",
    "Verif.Prop.C67_fair",
    "Verif.Prop.C67_any_order"
   ],
   "note": "As C66, with failures as in C45. C67_blame: a failure in a protocol goes back to a mesh of that protocol that was dropped. C67_fate: a thread that from some moment on only drops its meshes. Threads may also handle an error of one protocol and go on with the others."
  },
  {
   "property": "C68",
   "status": "partial",
   "theorems": [
    "Verif.Prop.C68_window_partial",
    "Verif.Prop.C68_clocks",
    "Verif.Prop.C68_choice",
    "Verif.Prop.C68_late",
    "Verif.Prop.C68_down",
    "Verif.Prop.C68_safe",
    "Verif.Prop.C68_next",
    "Verif.Prop.C68_alone",
    "Verif.Prop.C68_live",
    "Verif.Prop.C68_terminates",
    "Verif.Prop.C68_fate",
    "Verif.Prop.C68_instant",
    "Verif.Prop.C68_ideal",
    "Verif.Prop.C68_fair"
   ],
   "note": "Whole timed programs on the generated meshes. Missing: with an exclusive upper bound a transfer may happen exactly at the bound, and the delay between the computation of the time left and the beginning of the wait comes on top (the violations of C19); C68_window_partial says exactly this. C68_late gives the reasons of the first failure; among them are the windows C19 shows to be rejected without reason. The rest is proved in full."
  },
  {
   "property": "C69",
   "status": "partial",
   "theorems": [
    "Verif.Prop.C69_window_partial",
    "Verif.Prop.C69_close",
    "Verif.Prop.C69_terminates",
    "Verif.Prop.C69_carried_out_partial",
    "Verif.Prop.C69_impossible",
    "Verif.Prop.C69_clocks_stuck"
   ],
   "note": "The text given to the generator, the generated types, and the program that runs on timed channels, composed. Windows, close and termination hold for all accepted texts (windows up to the upper bound, as in C19). Missing: a schedule on which everybody ends exists for texts without choices on one clock whose roles reset together and whose windows hold a whole second (C69_carried_out_partial); with several clocks the property is false: C69_impossible gives a class of accepted texts nobody can carry out, C69_clocks_stuck one of them."
  },
  {
   "property": "C70",
   "status": "partial",
   "theorems": [
    "Verif.Prop.C70_carried_out_partial",
    "Verif.Prop.C70_latest_partial",
    "Verif.Prop.C70_loops_partial",
    "Verif.Prop.C70_roles_partial",
    "Verif.Prop.C70_only",
    "Verif.Prop.C70_times",
    "Verif.Prop.C70_order",
    "Verif.Prop.C70_clock",
    "Verif.Prop.C70_clock_no_branch",
    "Verif.Prop.C70_clock_no_end",
    "Verif.Prop.C70_clock_no_return",
    "Verif.Prop.C70_no_branch",
    "Verif.Prop.C70_no_end",
    "Verif.Prop.C70_no_return",
    "Verif.Prop.C70_loop_stuck",
    "Verif.Prop.C70_choice_stuck"
   ],
   "note": "The first two sentences: all accepted texts, all complete executions, all orders that keep the order of each role, all permitted instants (C70_carried_out_partial; as in C19 not within a second above an exclusive lower bound); the converse without resets, in terms of instants of the execution (C70_only), and for all texts, with resets, in terms of the instants of each role (C70_times, where a reset that the code omits, see C40, is allowed to be missing; C70_order says what follows for the intervals of the text). The last sentence is proved for two roles and one clock, if the generator also accepts the parts of the text that follow each other across a choice (C70_loops_partial), and for any number of roles and one clock never reset, if no message has to be later than one behind the next choice (C70_roles_partial). Missing: the last sentence otherwise, which the code violates: windows are not compared across the beginning of a choice, so that there are accepted texts of which no branch (C70_clock_no_end, C70_no_end, C70_choice_stuck), or one branch (C70_clock_no_branch, C70_no_branch), or no second turn of a loop (C70_clock_no_return, C70_no_return, C70_loop_stuck) can be finished."
  },
  {
   "property": "C71",
   "status": "partial",
   "theorems": [
    "Verif.Prop.C71_reason_partial",
    "Verif.Prop.C71_on_time_partial",
    "Verif.Prop.C71_finishes_partial",
    "Verif.Prop.C71_exclusive_start"
   ],
   "note": "The first failure of any schedule of any accepted text, and the absence of failures and the completion if everybody is punctual. Missing: an exclusive lower bound counts as a bound one second higher (C71_exclusive_start: with the interval as written the property fails); bounds below 2^64."
  },
  {
   "property": "C72",
   "status": "proved",
   "theorems": [
    "Verif.Prop.C72_count",
    "Verif.Prop.C72_open",
    "Verif.Prop.C72_stays"
   ],
   "note": "Counted from the calls of a run and what they returned (Spec/Handles.lean), for all runs of the transport model."
  },
  {
   "property": "C73",
   "status": "partial",
   "theorems": [
    "Verif.Prop.C73_layout_partial",
    "Verif.Prop.C73_layout_text",
    "Verif.Prop.C73_layout_protocol",
    "Verif.Prop.C73_accepted",
    "Verif.Prop.C73_runs_partial",
    "Verif.Prop.C73_header_bracket",
    "Verif.Prop.C73_or_apart",
    "Verif.Prop.C73_or_merged",
    "Verif.Prop.C73_continue_lost",
    "Verif.Prop.C73_continue_silent",
    "Verif.Prop.C73_continue_timed",
    "Verif.Prop.C73_window_silent",
    "Verif.Prop.C73_window_timed",
    "Verif.Prop.C73_window_lost",
    "Verif.Prop.C73_three_buyers",
    "Verif.Prop.C73_video_stream",
    "Verif.Prop.C73_calculator",
    "Verif.Prop.C73_three_buyers_accepted",
    "Verif.Prop.C73_video_stream_accepted",
    "Verif.Prop.C73_video_stream_once",
    "Verif.Prop.C73_video_stream_meant",
    "Verif.Prop.C73_remote_data_accepted",
    "Verif.Prop.C73_remote_data_runs",
    "Verif.Prop.C73_servo_accepted",
    "Verif.Prop.C73_choice_unknown",
    "Verif.Prop.C73_o_auth_2"
   ],
   "note": "Lines that say nothing and brackets of loops and choices on the next line: any protocol, any number of them, any place inside the protocol that is not after the end of an outermost choice (there see C48_blank_after_choice). Missing because the code does otherwise: a header with its bracket on the next line is refused (C73_header_bracket; 12 of the 20 timed protocols of the project), `}` and `or` on different lines are refused outside loops (C73_or_apart) and in loops make one branch of two (C73_or_merged), and a jump written with a time window is not seen, so that the program has no loop (C73_continue_lost and C73_window_lost for all protocols, names and windows, C73_video_stream_once for the file of the project). C73_remote_data_runs: for the looped protocol of the project whose jump is written without a window, every complete execution, of any number of turns, can be carried out."
  }
 ]
}