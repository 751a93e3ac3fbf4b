{"id": "C01", "title": "Duality is an involution", "statement": "For every binary session type S built from Send, Recv, SendTimed, RecvTimed and End, Dual(Dual(S)) = S; Dual swaps the direction of every step, keeps every payload type and every timing parameter, and maps End to End. The same holds for role stacks, names, and for MeshedChannels with any number of sessions.", "quantifier": "all session types of any length, all timing parameters, all role stacks, meshes of any width", "why_tests_cant": "Session types form an infinite family; tests only instantiate a handful of types.", "anchors": ["src/binary/struct_trait/send.rs: Send::Dual", "src/binary/struct_trait/recv.rs: Recv::Dual", "src/binary/struct_trait/end.rs: End::Dual", "src/binary_atmp/struct_trait/send.rs", "src/binary_atmp/struct_trait/recv.rs", "src/role/*.rs", "mpst_seq_proc/src/common_functions/expand/meshedchannels.rs"]}
{"id": "C02", "title": "new() returns two connected dual endpoints", "statement": "S::new() returns an endpoint of type S and one of type Dual(S); the two share fresh channel(s) with no other endpoint, one holding the sending half and the other the receiving half, and whatever one side sends first is what the other side receives first.", "quantifier": "all session types, all heaps in which new() is called", "why_tests_cant": "Connectivity must hold for every type and whatever sessions already exist.", "anchors": ["src/binary/struct_trait/send.rs: Send::new", "src/binary/struct_trait/recv.rs: Recv::new", "src/binary/struct_trait/end.rs: End::new"]}
{"id": "C03", "title": "send never blocks and never fails", "statement": "In every state reachable by any program that uses only the public API, a call send(x, s) returns immediately with the continuation endpoint: the one-place buffer it writes to is empty, and if the peer is gone the message is silently discarded.", "quantifier": "all client programs, any number of threads and sessions, all interleavings and cancellation points", "why_tests_cant": "Blocking would depend on an unlucky interleaving; tests sample few.", "anchors": ["src/binary/send.rs: send", "src/binary/struct_trait/send.rs: Send::new"]}
{"id": "C04", "title": "recv outcome is determined by the peer", "statement": "recv(s) returns Ok iff the peer of s has already sent; it returns Err iff the peer was dropped without sending; it blocks iff the peer is still alive and has not sent.", "quantifier": "all reachable states of all client programs", "why_tests_cant": "Requires every interleaving of send, drop and recv.", "anchors": ["src/binary/recv.rs: recv", "src/binary/cancel.rs: cancel"]}
{"id": "C05", "title": "Message fidelity: exactly once, in order, right type", "statement": "On every session, the values obtained by successive recv calls at one end are exactly the values passed to the successive send calls at the other end, in the same order, none lost while the receiver keeps receiving, none duplicated, and each of the payload type announced by the receiver's session type at that point.", "quantifier": "all client programs, session types (including recursive enums and delegation), all interleavings", "why_tests_cant": "Order, duplication and type errors are schedule-dependent.", "anchors": ["src/binary/send.rs: send", "src/binary/recv.rs: recv"]}
{"id": "C06", "title": "Linear endpoints", "statement": "In every reachable state each channel half is held at most once (by one thread, inside one undelivered message, or being dropped), so no endpoint can be used twice and two live endpoints of one session always have dual types.", "quantifier": "all client programs and interleavings", "why_tests_cant": "An aliasing violation needs an adversarial history.", "anchors": ["src/binary/struct_trait/session.rs: Session", "src/binary/send.rs: send", "src/binary/recv.rs: recv"]}
{"id": "C07", "title": "Cancellation reaches every waiting partner", "statement": "After an endpoint is dropped and the drop has been carried through, no live receiver waits for a message that nobody can send any more: every live receiving endpoint either has its message, or its sending half is still owned by a live thread or by an undelivered message of a live receiver, or recv on it returns Err. In particular endpoints contained in undelivered messages of a dropped receiver are dropped too.", "quantifier": "all client programs, all crash points (drop at any moment of any subset of endpoints)", "why_tests_cant": "Crash points multiply with interleavings.", "anchors": ["src/binary/cancel.rs: cancel", "src/meshedchannels/mod.rs: cancel", "mpst_seq_proc/src/common_functions/expand/cancel.rs"]}
{"id": "C08", "title": "Binary close", "statement": "If both ends call close, both calls return Ok under every schedule; close returns Err iff the partner's End was dropped before sending its stop signal or before the caller could send; close never panics unless the partner sent something other than Stop.", "quantifier": "all schedules and drop points of two parties", "why_tests_cant": "Interleavings of two sends, two receives and drops.", "anchors": ["src/binary/close.rs: close", "src/binary/struct_trait/end.rs: End::new"]}
{"id": "C09", "title": "N-party close terminates", "statement": "When all N participants of a mesh call close, every schedule lets every call finish with Ok: no deadlock whatever the order in which the participants run; and no participant returns Ok before every partner has started closing.", "quantifier": "all N, all schedules", "why_tests_cant": "State space grows exponentially in N.", "anchors": ["mpst_seq_proc/src/common_functions/expand/close.rs: close", "src/functionmpst/close.rs: close_mpst", "mpst_seq_proc/src/macros_multiple/multiple/close/close_mpst.rs"]}
{"id": "C10", "title": "N-party close fails when a partner has cancelled", "statement": "If some participant drops its mesh instead of closing, every other participant's close call terminates under every schedule and none of them returns Ok.", "quantifier": "all N, all sets of cancelling participants, all schedules", "why_tests_cant": "Crash points times schedules times N.", "anchors": ["mpst_seq_proc/src/common_functions/expand/close.rs: close", "src/functionmpst/close.rs: close_mpst"]}
{"id": "C11", "title": "Binary choice agreement", "statement": "choose_left/choose_right/choose! followed by offer on the other end: both parties continue in the same branch, on two endpoints that are connected and of dual types.", "quantifier": "all branch types, all heaps, all interleavings", "why_tests_cant": "Must hold for every type pair and interleaving.", "anchors": ["src/binary/choose.rs: choose_left, choose_right, choose!", "src/binary/offer.rs: offer_either, offer!"]}
{"id": "C12", "title": "N-party choice wiring", "statement": "When one role of an N-role protocol makes a choice through the generated choose functions, the new meshes handed to the N roles are pairwise connected: for every pair of roles i != j, the slot of i for j and the slot of j for i are the two ends of one fresh channel, no channel end is used twice or left over, and every other role receives its mesh on its session with the chooser.", "quantifier": "all N >= 2, all choosers", "why_tests_cant": "The macro is instantiated for a few N only in tests; index arithmetic must hold for all N.", "anchors": ["mpst_seq_proc/src/common_functions/expand/choose.rs: choose", "mpst_seq_proc/src/choose_mpst_multi_to_all.rs", "mpst_seq_proc/src/common_functions/maths.rs"]}
{"id": "C13", "title": "N-party choice typing", "statement": "In the generated choose functions, for every pair of roles the session type given to i's slot for j is the dual of the one given to j's slot for i, in both branches; and the chooser's and receivers' types are those in the signature of the function.", "quantifier": "all N >= 2, all choosers, both branches", "why_tests_cant": "Index arithmetic must hold for all N.", "anchors": ["mpst_seq_proc/src/common_functions/expand/choose.rs: choose, choose_basic, choose_atmp"]}
{"id": "C14", "title": "3-role hand-written choice wiring", "statement": "choose_left_mpst/choose_right_mpst/choose_mpst_* (methods, functions and the functions made by the choose_*_to_* macros) for chooser A, B or C give the three roles meshes whose slots are pairwise the two ends of one fresh channel, with the session types and stacks of the chosen branch as declared.", "quantifier": "three choosers, both branches, all session types", "why_tests_cant": "Must hold for all types and interplay with the receivers' slot order.", "anchors": ["src/meshedchannels/impl_a.rs", "src/meshedchannels/impl_b.rs", "src/meshedchannels/impl_c.rs", "src/functionmpst/choose.rs", "src/macros_simple/choose.rs"]}
{"id": "C15", "title": "fork wiring", "statement": "The generated fork function for N roles gives each role's thread a mesh in which, for every pair i != j, i's slot for j and j's slot for i are the two ends of one fresh channel with dual types as declared in the signature.", "quantifier": "all N >= 2", "why_tests_cant": "Index arithmetic must hold for all N.", "anchors": ["mpst_seq_proc/src/common_functions/expand/fork.rs: fork_mpst", "mpst_seq_proc/src/common_functions/expand/aux_fork.rs", "mpst_seq_proc/src/macros_multiple/multiple/fork_mpst_multi.rs", "src/functionmpst/fork.rs: fork_mpst"]}
{"id": "C16", "title": "interleaved fork wiring", "statement": "fork_interleaved_mpst over two meshes of N1 and N2 roles starts N1+N2-1 threads; the interleaved thread gets exactly its two meshes, every other mesh goes to exactly one other thread, of matching type, and channels never cross between the two meshes.", "quantifier": "all N1, N2 >= 2 and all interleaved positions", "why_tests_cant": "Index offset arithmetic over four parameters.", "anchors": ["mpst_seq_proc/src/common_functions/expand/fork.rs: fork_interleaved_mpst"]}
{"id": "C17", "title": "pair enumeration is a bijection", "statement": "The diagonal enumeration used by all generators lists every unordered pair of distinct roles 1..N exactly once, in lexicographic order, numbered 1..N(N-1)/2; the per-role matrix row i lists the pairs containing i, ordered by the partner, so that column j of row i is partner j (if j < i) or j+1.", "quantifier": "all N", "why_tests_cant": "Stateful loop; must hold for all N.", "anchors": ["mpst_seq_proc/src/common_functions/maths.rs: diag, diag_and_matrix, get_tuple_matrix, get_line_column_from_diag, diag_w_offset, diag_and_matrix_w_offset, get_tuple_diag"]}
{"id": "C18", "title": "generated send/recv address the named partner", "statement": "The send (recv) method generated for the pair (self, other) uses exactly the slot that fork/choose connected to other, leaves every other slot untouched, and pops exactly the head of the ordering stack; the types in the signature agree with the values.", "quantifier": "all N, all ordered pairs self != other", "why_tests_cant": "Index arithmetic for all N and pairs.", "anchors": ["mpst_seq_proc/src/common_functions/expand/send.rs", "mpst_seq_proc/src/common_functions/expand/recv.rs", "mpst_seq_proc/src/common_functions/expand/offer.rs", "src/meshedchannels/impl_*.rs"]}
{"id": "C19", "title": "Timed operations act only inside their window", "statement": "A timed send or recv that completes with Ok did so when the value of its clock was inside the declared interval, and a call whose clock value is inside the interval is not rejected.", "quantifier": "all clock values, all interval bounds and inclusiveness flags, both directions", "why_tests_cant": "Boundary arithmetic over integers and sub-second durations.", "anchors": ["src/binary_atmp/send.rs: send", "src/binary_atmp/recv.rs: recv", "src/binary_atmp/struct_trait/send.rs"]}
{"id": "C20", "title": "Clock resets", "statement": "A timed operation resets only the clock named by its reset parameter, only when the transfer succeeded, and never touches another clock; an operation without reset parameter changes no clock.", "quantifier": "all clock environments, all parameters, all outcomes", "why_tests_cant": "All parameter combinations.", "anchors": ["src/binary_atmp/send.rs: send", "src/binary_atmp/recv.rs: recv", "src/binary_atmp/send.rs: send_without_reset"]}
{"id": "C21", "title": "Timed send/recv agree on their constraint", "statement": "Two dual timed endpoints always carry identical clock, bounds, inclusiveness and reset parameters, at every point of the session, so the two sides enforce the same window.", "quantifier": "all timed session types, all prefixes", "why_tests_cant": "Infinite family of types.", "anchors": ["src/binary_atmp/struct_trait/send.rs: SendTimed::new, Dual", "src/binary_atmp/struct_trait/recv.rs: RecvTimed::new, Dual", "src/binary_atmp/struct_trait/*.rs: constraint"]}
{"id": "C22", "title": "attempt! stops at the first failure", "statement": "attempt!{ e1; ...; en } evaluates its expressions in order, stops at the first Err, runs the catch block exactly when some expression failed, with that first error, and otherwise completes without running it (the macro has value ()).", "quantifier": "all statement sequences and failure points", "why_tests_cant": "All lengths and failure points.", "anchors": ["src/attempt.rs: attempt!"]}
{"id": "C23", "title": "select returns a ready message and removes exactly that endpoint", "statement": "select/select_mut on an empty vector returns an error; otherwise it returns the outcome of one endpoint that is ready (message available or peer gone), removes exactly that endpoint from the vector and keeps all the others; it blocks only while none is ready.", "quantifier": "all vectors of endpoints, all readiness patterns and spurious wake-ups", "why_tests_cant": "Readiness is schedule-dependent; vector of any length.", "anchors": ["src/binary/select.rs: select_mut, select"]}
{"id": "C24", "title": "Checker parsing round-trip", "statement": "The string splitter used by the bottom-up checker recovers, from the printed form of any generic type Head<A1,...,An> with arbitrarily nested arguments, exactly the head and the arguments' printed forms.", "quantifier": "all type terms, any nesting depth and arity", "why_tests_cant": "Infinite family of type terms.", "anchors": ["src/checking/aux_checker.rs: get_blocks, get_head_payload_continuation"]}
{"id": "C25", "title": "Checker computes duals of printed types", "statement": "The checker's textual dual of the printed form of a session type is the printed form of its dual, and applying it twice gives back the text.", "quantifier": "all Send/Recv/End session types over payload texts of any shape", "why_tests_cant": "Infinite family of types.", "anchors": ["src/checking/aux_checker.rs: build_dual"]}
{"id": "C26", "title": "Checker graph mirrors the protocol", "statement": "For a choice-free endpoint, the graph built by the checker is a path whose edge labels are exactly, in stack order, the communications of the role (direction, partner, payload) and the CFSM has exactly the same transitions, with consecutive states.", "quantifier": "all choice-free endpoint types, any number of roles and steps", "why_tests_cant": "Infinite family of types.", "anchors": ["src/checking/aux_checker.rs: aux_get_graph, get_graph_session"]}
{"id": "C27", "title": "Minimal k search", "statement": "The checker returns Some(k) with k the least bound >= 1 for which the external k-MC tool succeeds, when such a k exists up to the documented limit 50, and None otherwise.", "quantifier": "all behaviours of the external tool", "why_tests_cant": "The boundary case needs a protocol that is exactly 50-MC.", "anchors": ["src/checking/mod.rs: checker"]}
{"id": "C28", "title": "Global-protocol time windows are validated", "statement": "The nuscr front end accepts a timed message iff its left bound is not after its right bound.", "quantifier": "all integer bounds and bracket kinds", "why_tests_cant": "Infinite number of bounds.", "anchors": ["src/top_down_nuscr/auxiliary_objects/line_is_message.rs: update_messages", "src/top_down_nuscr/auxiliary_objects/messages_and_stacks_update/previous_message_wrt_clocks.rs: fn_previous_message_wrt_clocks"]}
{"id": "C29", "title": "Global-protocol projection produces dual endpoints", "statement": "For every choice-free global protocol accepted by the nuscr front end, the session types generated for role p towards q and for q towards p are dual, step by step, and each role's ordering stack lists its partners in the order of the global protocol.", "quantifier": "all sequences of global messages, any roles", "why_tests_cant": "Infinite family of protocols.", "anchors": ["src/top_down_nuscr/auxiliary_objects/messages_and_stacks_update/*.rs", "src/top_down_nuscr/auxiliary_objects/code_generate/*.rs"]}
{"id": "C30", "title": "Consecutive windows on one clock are checked for feasibility", "statement": "The nuscr front end rejects a protocol exactly when, for two consecutive messages of a role on one clock (without a reset in between), the first can take place at an instant of its window after which the window of the second is already over.", "quantifier": "all histories of messages, clocks, resets", "why_tests_cant": "All histories.", "anchors": ["src/top_down_nuscr/auxiliary_objects/messages_and_stacks_update/previous_message_wrt_clocks.rs"]}
{"id": "C31", "title": "Broadcast cancellation", "statement": "With the broadcast-cancel protocol, once any participant raises a cancellation, the broadcaster forwards it to every participant, and every participant that later checks for cancellation or closes stops; a run in which nobody cancels ends with all participants closed.", "quantifier": "all N, all schedules and cancellation points", "why_tests_cant": "Crash points and polling interleavings.", "anchors": ["mpst_seq_proc/src/macros_multiple/multiple/broadcast_cancel.rs", "mpst_seq_proc/src/macros_multiple/multiple/send/create_send_check_cancel.rs", "mpst_seq_proc/src/macros_multiple/multiple/send/send_cancel.rs"]}
{"id": "C32", "title": "Broadcaster reconnection on choice", "statement": "After a choice under the broadcast-cancel protocol, the broadcaster is again connected to every participant, each fresh End being handed out exactly once.", "quantifier": "all N, all choosers", "why_tests_cant": "Index arithmetic with a stack of channels.", "anchors": ["mpst_seq_proc/src/macros_multiple/multiple/choose/choose_mpst_multi_cancel_to_all.rs", "mpst_seq_proc/src/macros_multiple/multiple/choose/create_fn_choose_mpst_cancel_multi_to_all_bundle.rs", "src/macros_multiple/offer.rs: offer_cancel_mpst!"]}
{"id": "C33", "title": "Interleaved close from one thread", "statement": "Closing all meshes of an interleaved session from a single thread never blocks and succeeds, because all stop signals are sent before the first is awaited.", "quantifier": "all N, all session arrangements", "why_tests_cant": "All N.", "anchors": ["mpst_seq_proc/src/interleaved/close_mpst_interleaved.rs", "src/interleaved/close.rs"]}
{"id": "C34", "title": "Projected protocols are deadlock-free", "statement": "If the roles of a mesh run endpoint programs obtained by projecting one global protocol (messages, choices broadcast by one role, recursion), then under every schedule no role waits forever: as long as the protocol is unfinished some role can move, and messages are received in the order prescribed. Conversely every execution of the protocol can be performed.", "quantifier": "all global protocols, any number of roles, all schedules", "why_tests_cant": "Interleavings of an unbounded family of protocols.", "anchors": ["src/top_down_nuscr/generator.rs", "mpst_seq_proc/src/common_functions/expand/send.rs", "mpst_seq_proc/src/common_functions/expand/recv.rs", "mpst_seq_proc/src/common_functions/expand/choose.rs"]}
{"id": "C35", "title": "Printed types determine the session", "statement": "head_str and tail_str of an endpoint identify its outermost constructor and the spine of its continuation: two sessions with different spines print differently, and dual sessions print with Send and Recv exchanged.", "quantifier": "all session types", "why_tests_cant": "Infinite family of types.", "anchors": ["src/binary/struct_trait/*.rs: head_str, tail_str", "mpst_seq_proc/src/common_functions/expand/meshedchannels.rs"]}
{"id": "C36", "title": "Bracket accounting of global protocols", "statement": "The nuscr line processor rejects every protocol whose blocks close more often than they open and every protocol with unclosed blocks.", "quantifier": "all line sequences", "why_tests_cant": "All line sequences.", "anchors": ["src/top_down_nuscr/auxiliary_objects/process_line.rs", "src/top_down_nuscr/generator.rs"]}
{"id": "C37", "title": "Branch variants are checked for order", "statement": "The branching attribute accepts an enum iff its variants are listed in ascending order.", "quantifier": "all variant lists", "why_tests_cant": "All lists.", "anchors": ["mpst_seq_proc/src/checking/branching.rs"]}
{"id": "C38", "title": "One-shot channels implement a FIFO", "statement": "The chain of one-place channels created by continuation passing behaves, for two parties, like one unbounded FIFO queue per direction: any run of the implementation is a run of the two-queue specification with the same visible sends and receives.", "quantifier": "all two-party programs and interleavings", "why_tests_cant": "Refinement over all interleavings.", "anchors": ["src/binary/send.rs: send", "src/binary/recv.rs: recv", "src/binary/struct_trait/send.rs: Send::new"]}
{"id": "C39", "title": "Closing two interleaved meshes in turn", "statement": "When a thread plays a role in each of two meshes, it can close the two meshes one after the other, in either order: every schedule lets every thread finish with Ok.", "quantifier": "all N1, N2, all positions of the shared thread, all close variants, all schedules", "why_tests_cant": "State space grows exponentially in N1 + N2.", "anchors": ["mpst_seq_proc/src/common_functions/expand/fork.rs: fork_interleaved_mpst", "mpst_seq_proc/src/common_functions/expand/close.rs: close"]}
{"id": "C40", "title": "A successful timed operation resets its clock", "statement": "When a timed send or recv with a reset parameter returns Ok, the clock named by that parameter has been reset, to an instant not before the transfer; and when the transfer took place the call returns Ok.", "quantifier": "all clock environments, parameters, readings of the time during the call", "why_tests_cant": "The failures need the clock to cross a bound between two readings of one call.", "anchors": ["src/binary_atmp/send.rs: send", "src/binary_atmp/recv.rs: recv"]}
{"id": "C41", "title": "Timed choice resets its clocks together, after the last send", "statement": "A timed choice sends to the passive roles in order; at the first send that fails it stops with that outcome, sends nothing further and resets no clock; if all sends succeed, exactly the clocks named by the reset parameters of the sends are reset, after the last send.", "quantifier": "all numbers of roles, windows, clock environments and outcomes", "why_tests_cant": "All numbers of roles and failure points.", "anchors": ["mpst_seq_proc/src/choose_atmp_mpst_multi_to_all.rs: expand", "src/binary_atmp/send.rs: send_without_reset"]}
{"id": "C42", "title": "Checker graph of binary choices", "statement": "For an endpoint with messages and nested binary choices (made or offered), the graph built by the checker is a tree whose complete root-to-leaf label sequences are exactly the sequences of communications the role can perform, and the machine handed to the k-MC tool has exactly the transitions of that graph.", "quantifier": "all endpoint types with messages and binary choices, any nesting and number of roles", "why_tests_cant": "Infinite family of types; a wrong branch would make the checker verify another protocol.", "anchors": ["src/checking/aux_checker.rs: aux_get_graph, get_graph_session"]}
{"id": "C43", "title": "Accepted timed protocols leave an instant for every message", "statement": "In every choice-free protocol accepted by the nuscr front end, for two consecutive messages of a role on one clock that the first does not reset, at whatever instant of its window the first takes place, an instant of the (non-empty) window of the second is left.", "quantifier": "all accepted protocols, roles, clocks, instants", "why_tests_cant": "All histories and instants.", "anchors": ["src/top_down_nuscr/auxiliary_objects/messages_and_stacks_update/previous_message_wrt_clocks.rs"]}
{"id": "C44", "title": "Projected protocols run to their end on the generated meshes", "statement": "When the roles of a well-formed protocol are started by the generated fork function and each makes the calls its mesh type allows (send, recv, choose to all, offer, close), then under every schedule: no call returns an error, a role stands still only while waiting for a message, some role can go on until all have returned from close, all communication follows the protocol, and when all have returned exactly one complete execution of the protocol has taken place, no endpoint is left and every channel is freed. Under fair schedules no role starves, once one role is at its end all close, and protocols without endless sequences of choices end. Every execution of the protocol can be performed.", "quantifier": "all well-formed protocols with broadcast choices and recursion, numbers of roles, branches picked, schedules and moments at which drops are carried out", "why_tests_cant": "Infinite families of protocols and unboundedly many interleavings of all layers of the implementation at once.", "anchors": ["mpst_seq_proc/src/common_functions/expand/fork.rs: fork_mpst", "mpst_seq_proc/src/choose_mpst_multi_to_all.rs: expand", "mpst_seq_proc/src/common_functions/expand/send.rs: send", "mpst_seq_proc/src/common_functions/expand/recv.rs: recv", "mpst_seq_proc/src/common_functions/expand/close.rs: close", "src/binary/send.rs: send", "src/binary/recv.rs: recv"]}
{"id": "C45", "title": "What a failing role does to the others", "statement": "When roles of a protocol obtained by projection cancel, panic or return early at any moment, the others never see a wrong message and never hang: every call of a living role delivers, or returns what the protocol says comes next, or waits, or returns an error, and errors occur only if somebody has failed; data sends never return an error; as long as a role is neither failed nor closed something can be done; under fair scheduling a living role that has not returned from close always takes another step; under fair scheduling of a protocol without endless choices everybody finally has failed or returned from close and every channel is freed; if a role fails before the end of its part nobody ever returns Ok from close; and if one role returns from close the whole protocol has been carried out.", "quantifier": "all global protocols, any number of roles, all moments and combinations of failures, all schedules", "why_tests_cant": "Failures at every point of every interleaving of an unbounded family of protocols.", "anchors": ["src/binary/cancel.rs: cancel", "src/binary/send.rs: send", "src/binary/recv.rs: recv", "mpst_seq_proc/src/common_functions/expand/recv.rs", "mpst_seq_proc/src/common_functions/expand/cancel.rs", "mpst_seq_proc/src/common_functions/expand/close.rs", "mpst_seq_proc/src/common_functions/expand/fork.rs"]}
{"id": "C46", "title": "Choices of the last role and forks for one thread", "statement": "The choose-left and choose-right functions generated for the last role of a mesh give every role a new mesh on fresh channels, connected pairwise with dual types, send each role its own mesh on the session with that role and return the chooser's, with exactly the session and stack types the generated signature declares; the fork for a single thread calls its function once with the connected meshes of all roles in order.", "quantifier": "all numbers of roles, both branches", "why_tests_cant": "One index computation per pair of roles, for every number of roles.", "anchors": ["mpst_seq_proc/src/macros_multiple/multiple/choose/create_choose_mpst_session_multi_left.rs: expand", "mpst_seq_proc/src/macros_multiple/multiple/choose/create_choose_mpst_session_multi_right.rs: expand", "mpst_seq_proc/src/macros_multiple/multiple/choose/create_choose_type_multi.rs: expand", "mpst_seq_proc/src/interleaved/fork_mpst_multi_solo.rs: expand"]}
{"id": "C47", "title": "Projection of a global protocol with loops and a choice", "statement": "For every accepted text protocol made of messages and loop openings, then a choice of one or more branches each of which ends or jumps back to one of the loops, the generated endpoint type of every role has, with each partner, exactly the communications of the protocol in order up to the choice, and from each branch to the end or to the next passage through the choice; at the choice the chooser broadcasts and every other role receives an enum with exactly one variant for each branch, in order, carrying that role's endpoint for that branch; the views of two partners are dual; names are not defined twice; the generated main forks exactly one function per role, taking the type of the beginning of the protocol.", "quantifier": "all roles, messages, windows, loops, choosers, branches", "why_tests_cant": "Infinite family of protocols; compiling the generated file for a sample shows nothing about the others.", "anchors": ["src/top_down_nuscr/auxiliary_objects/process_line.rs: process_line", "src/top_down_nuscr/auxiliary_objects/messages_and_stacks_update/mod.rs", "src/top_down_nuscr/auxiliary_objects/code_generate/enums.rs: generate_enums", "src/top_down_nuscr/auxiliary_objects/code_generate/fn_endpoints.rs: generate_fn_endpoints", "src/top_down_nuscr/auxiliary_objects/code_generate/fn_main.rs: generate_fn_main", "src/top_down_nuscr/generator.rs: generator"]}
{"id": "C48", "title": "Reading the text of a protocol", "statement": "However it is indented and spaced, each line of a text protocol - the header, a message with or without payload and with or without a reset clock, the opening of a loop, a choice, the line between two branches, a jump, a closing bracket - is read as what it says: the same names, roles, windows, clocks and payload; so the generated file is that of the protocol. A regular expression matches a line exactly if it describes some part of it. In a protocol without choice, lines that say nothing and anything after the closing bracket change nothing.", "quantifier": "all names, numbers, spacings and numbers of lines, all definitions of word characters and digits that leave out the punctuation", "why_tests_cant": "Infinite family of texts; eleven regular expressions that overlap and whose order matters.", "anchors": ["src/top_down_nuscr/auxiliary_objects/regex_nuscr.rs", "src/top_down_nuscr/auxiliary_objects/process_line.rs: process_line", "src/top_down_nuscr/auxiliary_objects/line_is_message.rs"]}
{"id": "C49", "title": "Types of messages and clocks in the generated file", "statement": "In the file generated from a text protocol every type of a message used in a session is declared, and so is every type used as a payload, and nothing is declared that is not a message or a payload of the text; whatever the order in which hash maps are visited. If labels that coincide in title case carry the same payload and no label is the name of a payload, the type of each message has exactly the field for the payload written in the protocol. No type is declared twice, if names that differ in title case differ without white space. Each function of a role starts, once each, the clocks of the messages in which the role takes part and no other, so that the clock of every communication of its session has been started.", "quantifier": "all texts accepted; for the completeness of the types and for the clocks all protocols with loops and a choice", "why_tests_cant": "Infinite family of texts, and an order of declarations that changes from run to run.", "anchors": ["src/top_down_nuscr/auxiliary_objects/code_generate/structs.rs: generate_structs", "src/top_down_nuscr/auxiliary_objects/code_generate/fn_endpoints.rs: generate_fn_endpoints", "src/top_down_nuscr/auxiliary_objects/line_is_message.rs: update_messages", "src/top_down_nuscr/generator.rs: generator"]}
{"id": "C50", "title": "Graphs and machines of endpoints with recursive choices", "statement": "For every endpoint type made of communications and of choices given by enums, which may lead back to themselves or to each other, the bottom-up checker terminates; the walks from the first node of its graph, with loop edges silent, are exactly the sequences of communications the endpoint may do, followed by the mark of the end only where the endpoint may end; the walks of the machine it hands to the model checker are exactly these sequences too; and the machine is stuck only where the endpoint may end. The order in which hash maps are visited does not matter.", "quantifier": "all numbers of roles, choices, branches, communications, both the chooser and the receivers, all names without brackets and colons", "why_tests_cant": "Infinite family of types, cyclic graphs with infinitely many walks, and an order of visits that changes from run to run.", "anchors": ["src/checking/aux_checker.rs: get_graph_session", "src/checking/aux_checker.rs: aux_get_graph", "src/checking/mod.rs: checker"]}
{"id": "C51", "title": "From the types in a call of the checker to graphs, file and bound", "statement": "Given the starting types of all roles, in any order, and for each branch of each choice the type of the chooser and the enums of the receivers, in any order, named by Rust with whatever paths, the checker removes paths, blanks and references, finds the roles, and returns for every role exactly one graph, whose walks are what the role may do. With a file name, the file holds the machines of all roles in alphabetical order, each followed by an empty line, whose moves are what the roles may do, and the bound returned is the result of the search with this file; without a file name nothing is written and no bound is returned.", "quantifier": "all numbers of roles, choices and branches, all types and paths in which no path with its name is part of another one except as its beginning, role names of letters, Name nowhere else", "why_tests_cant": "Infinite family of types; texts of types depend on the compiler and on module paths, and replacement in a text may hit other names.", "anchors": ["src/checking/mod.rs: checker_concat", "src/checking/mod.rs: checker", "src/checking/aux_checker.rs: clean_session", "src/checking/aux_checker.rs: clean_sessions", "mpst_seq_proc/src/checking/aux_checking.rs", "mpst_seq_proc/src/checking/aux_checking_impl.rs"]}
{"id": "C52", "title": "Timed protocols that are run on schedule", "statement": "If the steps of a run of a timed protocol - messages and choices announced to several roles - fit a schedule, so that in the slot of each role for each step the role's own clocks have, whenever they were reset inside the earlier slots, values its windows accept, and the slot of a receiver does not end before that of the sender, and if all roles keep their slots, then every operation of every role succeeds, each message is sent and received in the slots, and the clocks are reset when the schedule says. On schedule or not, a role completes a step only if the messages meant for it were sent before it received them and its own transfers were in the windows, measured from an instant at which the clock was set; once a message is not sent its receiver completes no further step.", "quantifier": "all numbers of roles, steps, clocks, resets and windows, all schedules and delays within the slots", "why_tests_cant": "Unbounded runs in real time; a test sees one set of delays.", "anchors": ["src/binary_atmp/send.rs: send", "src/binary_atmp/send.rs: send_without_reset", "src/binary_atmp/recv.rs: recv", "mpst_seq_proc/src/common_functions/expand/send.rs: send_atmp_canceled", "mpst_seq_proc/src/common_functions/expand/recv.rs: recv_atmp", "mpst_seq_proc/src/choose_atmp_mpst_multi_to_all.rs: expand", "mpst_seq_proc/src/baking_atmp/baking_atmp_with_enum_and_cancel.rs: offer_mpst"]}
{"id": "C53", "title": "From the text of a protocol to the end of its program", "statement": "If the generator accepts the text of a timed global protocol with two or more different roles, then the types in the generated file stand for the projections of the protocol to its roles, main starts one function for each role with the type of that role, and the roles that make the calls these types allow, each in its slot of time, never get an error or a wrong message, are never all stuck, do together what one execution of the protocol written in the text prescribes, all of it when they have returned from close, and leave no endpoint behind; every execution of the protocol is possible. If roles fail, the others' calls still return what they expect, wait, or return an error, and a role that returns from close knows that the protocol was carried out.", "quantifier": "all texts of protocols with messages only, or with messages, loops and a choice; all numbers of roles, messages, loops, branches; all schedules and failures", "why_tests_cant": "Infinite families of texts, executions and schedules; the generator, the macros and the channels are tested separately.", "anchors": ["src/top_down_nuscr/generator.rs: generator", "mpst_seq_proc/src/common_functions/expand/send.rs", "mpst_seq_proc/src/choose_mpst_multi_to_all.rs: expand", "src/macros_multiple/offer.rs", "mpst_seq_proc/src/common_functions/expand/aux_fork.rs", "src/binary/close.rs: close"]}
{"id": "C54", "title": "The calls a mesh type allows", "statement": "For every mesh name and list of two or more different roles, what generate! and generate_atmp! emit is accepted by the rules of Rust for impl blocks: the expansion does not panic, no method is defined twice for a type, all parameters are declared and determined by the type, and no struct or macro is defined twice. A call then exists exactly on the types made for it - send and recv on the partner at the top of the stack with a fitting session, offer and choose on the types of a choice, close on finished meshes only, cancel on all - a type never allows calls of two kinds, and the type a call hands on is determined. On the types of a protocol with messages and choices, the calls that exist are exactly those the protocol prescribes for the role, so the programs that compile up to close are exactly the runs of the protocol; two interleaved meshes do not get in each other's way.", "quantifier": "all names, all numbers of roles, all types, all protocols of messages and binary choices, untimed and timed", "why_tests_cant": "Infinite families of roles, types and protocols; a test compiles a few of them, and cannot show that a wrong program does not compile.", "anchors": ["src/baking/mod.rs: generate", "src/baking_atmp/mod.rs: generate_atmp", "mpst_seq_proc/src/baking/baking_basic.rs: expand", "mpst_seq_proc/src/baking/baking_with_enum_and_cancel.rs: expand", "mpst_seq_proc/src/baking_atmp/baking_atmp_with_enum_and_cancel.rs: expand", "mpst_seq_proc/src/common_functions/expand/send.rs", "mpst_seq_proc/src/common_functions/expand/recv.rs", "mpst_seq_proc/src/common_functions/expand/offer.rs", "mpst_seq_proc/src/common_functions/expand/choose.rs", "mpst_seq_proc/src/common_functions/expand/close.rs", "mpst_seq_proc/src/common_functions/expand/cancel.rs", "mpst_seq_proc/src/common_functions/expand/role.rs", "mpst_seq_proc/src/common_functions/expand/name.rs", "mpst_seq_proc/src/common_functions/parenthesised.rs"]}
{"id": "C55", "title": "What calls over TCP and UDP carry", "statement": "Whatever calls of send_tcp, recv_tcp, send_udp, recv_udp and of the plain API threads make on clones of shared sockets, sessions behave as over the plain API: on each side of a session the i-th receiving call that returns Ok returns the value of the i-th sending call of the other side. Each byte written to a connection belongs to one send_tcp, whose data it is in order, all of it if the call returns Ok; each byte read belongs to one recv_tcp, which returns its bytes, 128 of them, if it returns Ok. With one sending and one receiving thread per connection, frames do not mix, whatever the segmentation, and through an echo server the i-th recv_tcp returns the data of the i-th send_tcp. Datagrams are returned in the order of arrival, one per call, cut to 128 bytes or followed by zeros. The data returned by a receiving call are the data given to the sending call of the partner.", "quantifier": "all programs, numbers of threads, sessions, sockets and clones, all segmentations, arrivals and errors", "why_tests_cant": "Unbounded runs and interleavings of threads; segmentation of a stream depends on the network.", "anchors": ["src/transport/tcp/send.rs: send_tcp", "src/transport/tcp/recv.rs: recv_tcp", "src/transport/tcp/fork.rs: fork_tcp", "src/transport/udp/send.rs: send_udp", "src/transport/udp/recv.rs: recv_udp", "src/transport/udp/fork.rs: fork_udp"]}
{"id": "C56", "title": "Failures, closing and choice over TCP and UDP", "statement": "send_tcp and send_udp panic exactly if the receiving end is gone, before the socket is touched; a failed write or send gives Err. recv_tcp and recv_udp give Err without touching the socket exactly if no message is left and the sending end is gone; a failed read drops the value with all its endpoints. close_tcp returns Ok exactly if the partner has closed, and shuts the connection down; it returns Err, leaving the connection open, if the partner is gone. cancel_tcp always succeeds. Once a connection is shut down through any clone, nothing is written to it and no send_tcp returns Ok. No call is stuck: as soon as the operating system reports an error, or enough bytes or a datagram have arrived, it can return. fork_tcp and fork_udp create a session and a socket with two handles, or give Err and leave nothing behind. With choose_tcp! and offer_tcp! both sides take the same branch.", "quantifier": "all programs, numbers of threads, sessions, sockets and clones, all errors at all times", "why_tests_cant": "Errors of the operating system at every instant and interleavings with other clones cannot be produced by tests.", "anchors": ["src/transport/tcp/send.rs: send_tcp", "src/transport/tcp/recv.rs: recv_tcp", "src/transport/tcp/close.rs: close_tcp", "src/transport/tcp/cancel.rs: cancel_tcp", "src/transport/tcp/fork.rs: fork_tcp", "src/transport/tcp/choose.rs: choose_tcp", "src/transport/tcp/offer.rs: offer_tcp", "src/transport/udp/send.rs: send_udp", "src/transport/udp/recv.rs: recv_udp", "src/transport/udp/cancel.rs: cancel_udp", "src/transport/udp/fork.rs: fork_udp"]}
{"id": "C57", "title": "Names in the generated file", "statement": "In the file that the top-down generator writes for an accepted protocol, every name refers to the item that is meant and nothing is declared or bound twice: each alias, enum, structure and function used is declared in the file or brought in by use, with the right number of parameters; what the code emitted by generate_atmp! and the functions take for granted (String, Box, Result, Ok, ...) is not hidden by a structure of the protocol; the variants of an enum, the functions and the variables bound by main differ.", "quantifier": "all protocols, with loops and a choice or without, all roles, labels and payloads", "why_tests_cant": "It depends on how the names written in a protocol, those made from them and those of the library can coincide: unboundedly many protocols.", "anchors": ["src/top_down_nuscr/generator.rs: generator", "src/top_down_nuscr/auxiliary_objects/code_generate/imports.rs: generate_imports", "src/top_down_nuscr/auxiliary_objects/code_generate/structs.rs: generate_structs", "src/top_down_nuscr/auxiliary_objects/code_generate/fn_main.rs: generate_fn_main", "src/top_down_nuscr/auxiliary_objects/code_generate/fn_endpoints.rs: generate_fn_endpoints", "mpst_seq_proc/src/common_functions/expand/role_atmp.rs: role_atmp", "mpst_seq_proc/src/common_functions/expand/fork.rs: fork_atmp_mpst"]}
{"id": "C58", "title": "Functions made by macros that take an index", "statement": "create_send_mpst_session!, create_send_mpst_cancel!, create_send_check_cancel!, create_recv_mpst_session! and the offer macros for several participants, given names, an index and a number of participants, define a function that does its one send or receive on the session with that index, fails exactly as that call fails, and gives back the mesh with the continuation in that place, the other sessions as they were, and the stack without its head; the checking variant looks at the first session before. The definition compiles only if the index denotes a session of the mesh. On wired meshes the index k of role i is the session with its k-th partner. choose_mpst_to_all! hands wired meshes to the roles whoever chooses.", "quantifier": "all names, all numbers of participants, all indices, all sessions and stacks", "why_tests_cant": "Infinite families of numbers and indices; a test instantiates a few of them.", "anchors": ["src/macros_multiple/send.rs: create_send_mpst_session", "src/macros_multiple/recv.rs: create_recv_mpst_session", "mpst_seq_proc/src/macros_simple/send/create_send_mpst_session.rs: expand", "mpst_seq_proc/src/macros_multiple/multiple/send/create_send_mpst_cancel.rs: expand", "mpst_seq_proc/src/macros_multiple/multiple/send/create_send_check_cancel.rs: expand", "mpst_seq_proc/src/macros_simple/recv/create_recv_mpst_session.rs: expand", "mpst_seq_proc/src/macros_simple/offer/create_offer_mpst_session_multi.rs: expand"]}
{"id": "C59", "title": "Ordering stacks never stand in the way", "statement": "Making stacks and names, going on along a stack with continuation, continuation_left or continuation_right, and dropping them, in any order, on stacks, their duals and what they give, never waits and never fails, although each call sends on a channel. new gives a value of the type and one of the dual type; going on exists exactly if the type has a rest, works any number of times on the same value, and gives a value whose type is the rest, so that any path of the type can be followed to its end. Nothing stays in a channel.", "quantifier": "all stacks, names, programs of such calls and paths", "why_tests_cant": "Unbounded sequences of calls and depths of types; that a send never waits depends on receivers dropped elsewhere.", "anchors": ["src/role/mod.rs: Role", "src/role/a.rs: continuation", "src/role/a_to_all.rs: continuation_left", "src/role/end.rs: new", "src/role/broadcast.rs: new", "src/name/a.rs: new", "src/macros_simple/role.rs: create_normal_role", "src/macros_simple/role.rs: create_broadcast_role", "src/macros_simple/name.rs: create_normal_name", "mpst_seq_proc/src/common_functions/expand/role.rs: role", "mpst_seq_proc/src/common_functions/expand/role_atmp.rs: role_atmp", "mpst_seq_proc/src/common_functions/expand/name.rs: name"]}
{"id": "C60", "title": "The protocol given to nuscr", "statement": "With nuscr_check, generator asks the tool nuscr about the protocol first and generates a program exactly if the tool has an answer and one is generated without the check; without nuscr_check the tool is not asked. What the tool is given is the protocol without its times, whatever the intervals, clocks, resets and blanks are: the header without the word timed, with the same name and roles; each message, as the generator reads it, with its name, payload, sender and receiver; the other lines as they are; the brackets of the text. It is asked for the name of the protocol, and no text makes the shell do anything else.", "quantifier": "all texts and protocols, all spacings, all answers of the tool", "why_tests_cant": "Unboundedly many texts; whether a rewriting by search and replace hits more than it should depends on the names chosen by users.", "anchors": ["src/top_down_nuscr/generate_regular_protocol.rs: generate_regular_protocol", "src/top_down_nuscr/generate_regular_protocol.rs: check_fsm", "src/top_down_nuscr/generator.rs: generator", "src/top_down_nuscr/auxiliary_objects/regex_nuscr.rs: GLOBAL_PROTOCOL"]}
{"id": "C61", "title": "The ready-made operations for three roles", "statement": "For each ordered pair of different roles among A, B and C there is one send, one receive and one offer, as a function and as a method, and none between a role and itself. Each communicates on the session with the role it is named after and on no other, fails exactly as that communication fails, and hands on the mesh with the continuation in its place and everything else as it was; what one role sends to another is what the other's receive and offer read. The stack and the name of a mesh decide which operation can be called on it. The functions, the methods and the macros that define such functions for three roles do the same on the same types; an offer is possible only when the session with the third role is finished.", "quantifier": "all pairs of roles, all sessions, messages, stacks and outcomes of the communication, all wired meshes", "why_tests_cant": "The operations are generic in sessions, messages and stacks, and were written by hand 48 times; a test runs each at a few types.", "anchors": ["src/functionmpst/send.rs: send_mpst_a_to_b", "src/functionmpst/recv.rs: recv_mpst_a_from_b", "src/functionmpst/recv.rs: recv_mpst_a_all_from_b", "src/functionmpst/offer.rs: offer_mpst_session_to_a_from_b", "src/meshedchannels/impl_a.rs", "src/meshedchannels/impl_b.rs", "src/meshedchannels/impl_c.rs", "mpst_seq_proc/src/functionmpst/send_aux_simple.rs: expand", "mpst_seq_proc/src/functionmpst/recv_aux_simple.rs: expand", "mpst_seq_proc/src/functionmpst/recv_all_aux_simple.rs: expand", "src/macros_simple/send.rs: create_send_mpst_session_1"]}
{"id": "C62", "title": "Accepted timed protocols can be carried out", "statement": "If generator accepts a choice-free timed protocol, then the protocol can be carried out with the timed operations and the windows written in the generated types: there are instants, in the order of the messages of each role, at which the roles can make their calls so that every message is sent and received in its window and every role comes to its end.", "quantifier": "all accepted choice-free protocols: all roles, numbers of messages, windows, clocks and resets", "why_tests_cant": "The checks of the generator compare pairs of windows; whether they add up to a run of all roles is a statement about all protocols and all schedules.", "anchors": ["src/top_down_nuscr/generator.rs: generator", "src/top_down_nuscr/auxiliary_objects/line_is_message.rs: update_messages", "src/top_down_nuscr/auxiliary_objects/messages_and_stacks_update/previous_message_wrt_clocks.rs: fn_previous_message_wrt_clocks", "src/binary_atmp/send.rs: send", "src/binary_atmp/recv.rs: recv"]}
{"id": "C63", "title": "A stored global type is read back as it was stored", "statement": "Writing a global type, an action or an index in its stored form succeeds and gives a message of the protobuf wire format with the numbers and types of globaltype.proto; reading it gives the same value back, including the fields that the type does not declare. Any file in that format is read as globaltype.proto says, in whatever order its fields are and however long their numbers are written; different values are stored differently; two stored values one after the other are read as the two merged.", "quantifier": "all values of the three types below the size limit of the format, all files in the format", "why_tests_cant": "Infinitely many values, nesting lists and encodings; a test reads a few files.", "anchors": ["src/protobuf/generated/globaltype.rs: merge_from", "src/protobuf/generated/globaltype.rs: compute_size", "src/protobuf/generated/globaltype.rs: write_to_with_cached_sizes", "src/protobuf/generated/globaltype.proto"]}
{"id": "C64", "title": "Showing a stored global type", "statement": "read_global_protocol_file shows the start and the actions of the global type that is stored in the file, and the action of a file that stores one action.", "quantifier": "all stored values", "why_tests_cant": "A statement about all contents of files; the function is not covered by any test.", "anchors": ["src/protobuf/mod.rs: read_global_protocol_file"]}
{"id": "C65", "title": "What the bottom-up approach accepts does not get stuck", "statement": "Take roles whose sessions fit together (as Rust checks). Whatever their program does, its sends and receives, in order, are a run of the machines that checker_concat! writes for the KMC tool, and each role receives values of the types it expects, in the order they were sent; when it has ended it has received all that was sent to it. If checker_concat! gives a bound, the tool accepting only machines in which a role that waits can go on, then the program never stops before all roles have ended: as long as some role has not, some role can take a step.", "quantifier": "all numbers of roles, protocols with choices and loops, branches taken, interleavings, and tools that only accept machines that make progress", "why_tests_cant": "A statement about all protocols the checker accepts and all their runs, of any length; tests run the checker on some protocols and the program on some schedules.", "anchors": ["src/checking/mod.rs: checker_concat!", "src/checking/mod.rs: checker", "src/checking/mod.rs: kmc_cli", "src/checking/aux_checker.rs: get_graph_session", "mpst_seq_proc/src/choose_mpst_multi_to_all.rs: expand", "mpst_seq_proc/src/common_functions/expand/send.rs", "src/macros_multiple/offer.rs"]}
{"id": "C66", "title": "Interleaved protocols run to their end", "statement": "Several protocols run at once, and a thread that holds meshes of several of them (as started by fork_interleaved_mpst) may use them in any order. Whatever the order: no call fails, every protocol is followed as if it were alone, and when all meshes are closed each protocol has been carried out completely. If the protocols and the threads form no cycle, which is so for fork_interleaved_mpst, the whole never deadlocks, and if no protocol has an endless sequence of choices every fair schedule brings all roles of all protocols back from close. One thread that holds all meshes of a protocol can carry out each of its executions.", "quantifier": "all numbers of protocols and roles, all protocols with choices and loops, all orders of calls in the threads, all interleavings", "why_tests_cant": "All combinations of orders and schedules; a deadlock between two protocols shows only in some of them.", "anchors": ["mpst_seq_proc/src/common_functions/expand/fork.rs: fork_interleaved_mpst", "src/interleaved/fork.rs", "src/interleaved/close.rs", "mpst_seq_proc/src/interleaved/close_mpst_interleaved.rs", "src/interleaved/offer.rs", "mpst_seq_proc/src/baking/baking_interleaved_with_enum_and_cancel.rs"]}
{"id": "C67", "title": "Interleaved protocols when threads fail", "statement": "Several protocols run at once, as in C66, and any thread may drop any of its meshes at any moment (cancel, a panic, an early return). Then a call on a mesh that is still held works, waits, or returns an error, and it returns an error only if a role of the same protocol has failed; a protocol of which no mesh was dropped is not disturbed. A role that returns from close can rely on its protocol having been carried out completely. If protocols and threads form no cycle there is no deadlock, and if no protocol has an endless sequence of choices every fair schedule comes to an end at which all roles have failed or returned from close and all channels are freed. A thread that ends early takes with it every protocol in which it had something left to do: nobody returns from close in these, and all their roles come to fail.", "quantifier": "all numbers of protocols and roles, all protocols with choices and loops, all orders of calls, all failures at all moments, all interleavings", "why_tests_cant": "Every combination of orders, moments of failure and schedules; tests fail one thread at one moment of one protocol.", "anchors": ["mpst_seq_proc/src/common_functions/expand/fork.rs: fork_interleaved_mpst", "mpst_seq_proc/src/common_functions/expand/cancel.rs", "src/binary/cancel.rs: cancel", "mpst_seq_proc/src/common_functions/expand/recv.rs", "mpst_seq_proc/src/common_functions/expand/close.rs", "mpst_seq_proc/src/baking/baking_interleaved_with_enum_and_cancel.rs"]}
{"id": "C68", "title": "Timed programs keep their windows, and nobody waits past a bound", "statement": "Take the programs of C44 on timed sessions, where every role has its own clocks and every send, recv, offer and choice has a window. Whatever the roles do and whoever fails: every message and choice that is transferred is transferred while the clock of that role is inside the window; a clock changes only when a transfer or choice that names it resets it. A role that fails while nobody else has failed was late, or its window or clocks do not exist or are of a kind that is not supported. What the roles have done is always a part of one execution of the protocol, and a role that returns from close can rely on all of it having been done. A role whose windows have upper bounds never waits for ever, even if all others hang. A role that is late makes all others fail, and in the end all channels are freed. A program that is fast enough for its windows runs to its end.", "quantifier": "all numbers of roles, protocols with choices and loops, windows, clocks, resets, speeds of the roles, delays between readings of the clock, failures, interleavings", "why_tests_cant": "All combinations of instants, windows and schedules; tests run some windows at some speed.", "anchors": ["src/binary_atmp/send.rs: send", "src/binary_atmp/recv.rs: recv", "mpst_seq_proc/src/choose_atmp_mpst_multi_to_all.rs: expand", "mpst_seq_proc/src/baking_atmp/baking_atmp_with_enum_and_cancel.rs", "mpst_seq_proc/src/common_functions/expand/send.rs", "mpst_seq_proc/src/common_functions/expand/recv.rs", "mpst_seq_proc/src/common_functions/expand/close.rs"]}
{"id": "C69", "title": "From the text of a timed protocol to a run of its program in time", "statement": "If the generator accepts the text of a timed protocol, then in the program with the generated types every role sends and receives the messages of the text, addressed as written there, each in the window written there; a role that returns from close can rely on all others having done all the text asks of them; without jumps the program ends on every schedule; and there is a schedule on which every message is exchanged in its window and every role returns from close.", "quantifier": "all texts the generator accepts, with any layout, numbers of roles and messages; all choices, delays, failures and interleavings", "why_tests_cant": "A statement about all texts and, for each, all runs of several threads in time; a test runs one program with some delays.", "anchors": ["src/top_down_nuscr/generator.rs: generator", "src/top_down_nuscr/auxiliary_objects/line_is_message.rs: update_messages", "src/top_down_nuscr/auxiliary_objects/messages_and_stacks_update/previous_message_wrt_clocks.rs: fn_previous_message_wrt_clocks", "src/binary_atmp/send.rs: send", "src/binary_atmp/recv.rs: recv", "mpst_seq_proc/src/baking_atmp/baking_atmp_with_enum_and_cancel.rs"]}
{"id": "C70", "title": "Every execution of a timed text can be carried out at the instants its clocks permit", "statement": "Take a text the generator accepts, with choices and loops, and any complete execution of it. If the program runs the execution at instants at which, for both sender and receiver, the clock of each message is in its window, counting resets, then every role does exactly its part of the execution, each thing at its instant, and all return from close. Conversely what a program does to its end is an execution whose order the windows permit. And whichever branches are chosen, there are such instants, so that the execution can be finished.", "quantifier": "all texts the generator accepts, all their executions with any number of turns of the loops, all instants and orders of events, all clocks and resets", "why_tests_cant": "A loop may be gone round any number of times, each time at other instants; tests run some turns with some delays.", "anchors": ["src/top_down_nuscr/generator.rs: generator", "src/top_down_nuscr/auxiliary_objects/process_line.rs", "src/top_down_nuscr/auxiliary_objects/messages_and_stacks_update/previous_message_wrt_clocks.rs: fn_previous_message_wrt_clocks", "src/binary_atmp/send.rs: send", "src/binary_atmp/recv.rs: recv", "mpst_seq_proc/src/choose_atmp_mpst_multi_to_all.rs: expand", "src/macros_multiple/offer.rs"]}
{"id": "C71", "title": "A program of an accepted text fails first only because of time", "statement": "Take the program of a text the generator accepts, in which every role has created the clocks its messages name. Whatever the scheduler does, and as long as everybody is alive, a role fails only if it disappears of itself or because it is late for a message of the text: its clock left the window written there between its last call and its failure, or nothing came before the upper bound. Nobody is the first to fail in a choice, in close, or for want of a clock. If everybody is on time for every message, nobody ever fails, and a text without jumps is carried out to its end under every fair schedule, whichever branches are chosen.", "quantifier": "all texts the generator accepts, all clocks, delays, choices and interleavings, runs of any length", "why_tests_cant": "Absence of any other reason for a failure is a statement about all runs in time of all accepted texts; a test sees the failures of one run.", "anchors": ["src/top_down_nuscr/generator.rs: generator", "src/binary_atmp/send.rs: send", "src/binary_atmp/recv.rs: recv", "mpst_seq_proc/src/choose_atmp_mpst_multi_to_all.rs: expand", "src/macros_multiple/offer.rs", "mpst_seq_proc/src/common_functions/expand/close.rs: close"]}
{"id": "C72", "title": "Sockets of sessions are neither leaked nor closed too early", "statement": "A fork over TCP or UDP creates one socket and two handles of it, one for each end. A call that sends or receives returns the handle it was given if it succeeds; a call that closes or cancels the session, fails or panics, does not. So at any moment the handles that the clients hold, plus the calls in progress on the socket, are those given by the fork and by clones minus those dropped or given to a call that did not return them; the socket is open exactly as long as this number is not zero, and no step of another thread, of the peer or of the system changes that.", "quantifier": "all programs, numbers of threads, sockets and clones, all interleavings, errors of the operating system and panics", "why_tests_cant": "A leak of a handle, or a handle closed twice, shows only after many sessions or in a rare interleaving with an error of the system.", "anchors": ["src/transport/tcp/fork.rs: fork_tcp", "src/transport/tcp/send.rs: send_tcp", "src/transport/tcp/recv.rs: recv_tcp", "src/transport/tcp/close.rs: close_tcp", "src/transport/tcp/cancel.rs: cancel_tcp", "src/transport/udp/fork.rs: fork_udp", "src/transport/udp/send.rs: send_udp", "src/transport/udp/recv.rs: recv_udp", "src/transport/udp/cancel.rs: cancel_udp"]}
{"id": "C73", "title": "The layout of a protocol text does not matter", "statement": "Two texts that say the same thing, laid out differently, are both accepted or both refused, and the same program is made of both: with or without empty lines and lines that say nothing, with the opening bracket of the protocol, of a loop or of a choice on the same line or on the next, with `} or {` on one line or on several. In particular the protocols that come with the project are read as what they say, and a branch that ends with a jump to a loop, written with a time window as they write it, goes back to the loop.", "quantifier": "all protocols, accepted or not, with any number of loops, choices and branches; all places for the lines and brackets; all runs of the programs made", "why_tests_cant": "A statement about all texts and all their layouts; a test reads one text, and a program from which a loop is missing compiles.", "anchors": ["src/top_down_nuscr/generator.rs: generator", "src/top_down_nuscr/auxiliary_objects/process_line.rs: process_line", "src/top_down_nuscr/auxiliary_objects/regex_nuscr.rs", "src/top_down_nuscr/generate_regular_protocol.rs: generate_regular_protocol", "scribble_protocols/atmp/video_stream.nuscr", "scribble_protocols/atmp/three_buyers.nuscr", "scribble_protocols/atmp/calculator.nuscr"]}
