# Formal model of mpst_rust_github in Lean 4

## Trusted base

* Lean 4.33.0's kernel. No axiom is added. Every property theorem depends on at most
  `propext`, `Classical.choice`, `Quot.sound` (the axiom listing is printed by `lean/Verif/Audit.lean`).
* The reading of the Rust source: the theorems are about the model; each definition cites
  the file and lines it models and states its simplifications.
* The contract of `crossbeam_channel::bounded(1)` (not part of the repo): FIFO with capacity one;
  `send` blocks while full, fails if the receiver is gone; `recv` returns a buffered message
  even if the sender is gone, blocks while empty and the sender lives, fails if empty and the sender
  is gone; dropping the receiver drops the buffered message.
* Rust's ownership rules: safe clients move endpoints, and `drop` runs on every owned value.

## Layout of `lean/Verif`

* `Model/*`  : definitions modelling code, with citations.
* `Spec/*`   : small specifications independent of the model's helpers.
* `Proof/*`  : helper lemmas and invariants.
* `Prop/*`   : the property theorems, with a non-vacuity `example` beside each.
* `Check/*`  : tests (not proofs) of the model against outputs recorded in the repository, see below.
* `Audit.lean`: `#print axioms` for every property theorem.

## Plan per property

| id | what is modelled | how it is proved |
|---|---|---|
| C01 | session type syntax (untimed, timed, stacks, meshes), `Dual` | structural induction |
| C02 | heap of one-place channels, `new` | direct computation plus freshness invariant |
| C03-C07 | small-step semantics of arbitrary API clients: pool of endpoints owned by threads, buffers, asynchronous drop | global invariant (unique ownership, duality across each channel) preserved by every step; properties are corollaries for reachable states |
| C08 | two-party close programs on `End` | exhaustive invariant over program counters, all schedules |
| C09, C10 | N-party close: each role a program counter over its ordered slots, channel matrix | invariant and progress measure, for all N |
| C11 | `choose`/`offer` as a derived sequence of heap operations | corollary of heap semantics |
| C12, C13 | the generator's index arithmetic: channel names and slots computed as in the proc macro | closed forms of `diag`/matrix, arithmetic |
| C14 | transcription of hand-written wirings: methods, functions, `choose_*_to_*` macros; sessions and stacks | case analysis |
| C15, C16 | generator arithmetic for forks | arithmetic |
| C17 | `diag`, matrices as the stateful loops | loop invariant to closed form, bijection |
| C18 | generated slot index of send, recv, offer | arithmetic on top of C17 |
| C19-C21 | the timed send/recv decision code as a function of bounds, flags, clock values in nanoseconds, transfer outcome | case analysis; violations are proved as negations with witnesses |
| C22 | `attempt!` expansion | induction over statements |
| C23 | `select_mut` loop with readiness oracle | induction |
| C24-C26 | the string functions of the checker over `List Char` | induction on type terms with nesting-depth invariant |
| C27 | the kmc loop | induction; off-by-one at 50 proved as a negation |
| C28, C30 | bound checks of the nuscr front end over strings/integers | decision logic; violations proved as negations |
| C29 | message and stack tables updated line by line | induction over the protocol |
| C31, C32 | broadcaster loop, distribution of `End`s | invariants, permutation |
| C33 | one-thread close | corollary of the close model |
| C34 | global types, projection, N-role FIFO semantics | invariant relating queues to the remaining global type |
| C35 | `head_str`/`tail_str` | structural induction |
| C36 | bracket counters of the line processor | induction over lines |
| C37 | adjacent comparison loop | induction |
| C38 | refinement from the heap model to two FIFO queues | simulation |
| C39 | two meshes closed in turn by a shared thread | invariant; crossed orders of two shared threads deadlock (negation) |
| C40, C41 | as C19-C21, plus the loop of the timed choice | case analysis, induction over the sends |
| C42 | as C26, with binary choices | induction over the tree of behaviours |
| C43 | as C30 | invariant on the table of bounds |
| C44 | all layers at once: emitted bodies executed on the heap of C03-C07, emitted methods, `offer_mpst!`, `close`, drops (`Model/Runtime.lean`) | simulation both ways with the queues of C34; a relation between sessions of the heap and (number of choices, pair of roles) |
| C45 | C44 with failures: a role may disappear at any step, or because a call returned an error (`Model/Failure.lean`) | the relation of C44 with a set of failed roles, whose endpoints are dropped; induction on the number of choices for who still reaches an endpoint; the work bound of C34 for termination; for `C45_live`, resources inside messages nobody can receive are bound to be dropped (`Proof/HeapDoomed.lean`) |
| C46 | the other index computations: choices of the last role, fork for one thread (`Model/GenLast.lean`) | as C12, C13, C15 |
| C47 | `process_line` on loops and choices, enums, functions and `main` (`Model/Nuscr.lean`); protocols as data (`Spec/NuscrChoice.lean`) | the recursion of `process_line` solved as an equation (`Proof/NuscrChoice.lean`), then one invariant per part of the tree (`Proof/NuscrParts.lean`) |
| C48 | the regular expressions of `regex_nuscr.rs` and a backtracking matcher with captures (`Model/NuscrText.lean`), over any definition of `\w` and `\d` | the language of an expression (`Spec/NuscrText.lean`); soundness and completeness of the matcher; greedy runs for the expression that fits, and for the others arguments about the first parenthesis and the words between blanks |
| C49 | `messages_with_payloads`, the tables of clocks and payloads, `generate_structs` for any order of its hash maps, the clocks of the functions (`Model/Nuscr.lean`) | an invariant of `process_line` over all trees for arbitrary lines (`Proof/NuscrStructs.lean`); for protocols as data the equation of C47 |
| C50 | `aux_get_graph_session` for enums: chooser and receivers, branches already seen, `µ` edges, redirected transitions (`Model/CheckGraph.lean`) | endpoints as data with numbered choices (`Spec/LocalRec.lean`); induction on the fuel with the part that begins at each node as a ghost (`Proof/CheckLoopRun.lean`), then walks against runs (`Proof/CheckLoopTrace.lean`) |
| C51 | `clean_session`, `clean_sessions`, `checker`, `checker_concat!` and the maps of `checking!`/`checking_impl!` (`Model/CheckClean.lean`) | types with paths as Rust prints them (`Spec/TypeName.lean`), a call as data (`Spec/CheckerCall.lean`); texts as tokens with separators, over which replacement distributes (`Proof/CheckClean.lean`); maps (`Proof/CheckerCall.lean`); then C50 |
| C52 | a run of a timed protocol: each role with its own clocks performs its part of each step with `send`, `recv`, the timed choice or the timed offer (`Model/TimedRun.lean`) | the channels as a hypothesis (`Transport`), schedules with a slot for each role and step (`Spec/Schedule.lean`); induction on the steps with the position of every clock of every role as invariant; the hypotheses are met by a run with three roles, a waiting receiver and a choice (`Prop/C52_Cases.lean`) |
| C53 | the text, the generated file, and the roles that run with its types (`Model/NuscrText.lean`, `Model/Nuscr.lean`, `Model/Runtime.lean`, `Model/Failure.lean`) | composition: what the aliases of the file stand for as mesh types, and the executions of a protocol, are defined from file and protocol alone (`Spec/EndToEnd.lean`); the types are shown to be the projections of a protocol in numbers, whose executions are shown to be those of the text; then C44 and C45 |
| C54 | the items `generate!` and `generate_atmp!` emit for any list of roles: structs, `impl` headers as patterns with the methods they define and the mesh types handed on, macros, functions (`Model/Baking.lean`) | reading of `impl` blocks as Rust does (`Has`: instance of the pattern for arguments meeting the bounds; `Overlap`; `WellFormed`), types of a protocol and its runs (`Spec/Baking.lean`); explicit characterisation of the types on which each call exists, by inverting the patterns (for choices: inverting the numbering of pairs of roles); trait facts about the crate's types are the hypothesis `Lawful` |
| C55 | calls over sockets: threads inside `write_all`, `read_exact`, `recv`, sockets shared by clones, the channels of C02-C07 (`Model/Transport.lean`) | what the calls were given and returned, read off the run (`sendsOn`, `recvsOn`, `received`, `given`, `takesUdp`), bytes shared out among calls (`Shares`), `Spec/Transport.lean`; invariants by induction over runs (`Proof/Transport*.lean`) | partial |
| C56 | the same; `close_tcp`, `cancel_tcp`, `fork_tcp`, `fork_udp`; `choose_tcp!`, `offer_tcp!` (`Model/TransportChoice.lean`) | existence of halves counted in the heap (`cnt`), messages on their way (`pending`); ownership of endpoints inside calls (`Own`), reduction of the choice to C11 | partial |
| C57 | the names of the generated file: `code_generate/*.rs`, and those in the code emitted by `generate_atmp!` (`Model/NuscrFile.lean`) | `Linked`: the parts of a program fit together, from the invariants of C29, C47 and C49; names of aliases by their prefixes; the names taken for granted are a list, checked against the emitted blocks of C54 | partial (violations) |
| C58 | the functions emitted by the macros with an index (`Model/Indexed.lean`): statements over a mesh with `n - 1` sessions | the fields of the mesh as a list; typing of the emitted statements (`Compiles`) decided exactly | partial (violations) |
| C59 | `Role::new`, `Name::new`, `continuation*` over a store of channels (`Model/Stacks.lean`) | invariant: channels for stacks have no receiver and all channels are empty; induction over programs and paths |
| C60 | `generate_regular_protocol`, `check_fsm` (`Model/NuscrRegular.lean`) | induction over lines; removal word by word; captures of a match are described by their groups |
| C61 | functions and methods for three roles, `send_aux_simple!`, `recv_aux_simple!`, `recv_all_aux_simple!` (`Model/Ready3.lean`) | the hand-written table against the functions of C58; what a call does for all sessions, messages and stacks follows from C58 |
| C62 | the generator's checks (`Model/Nuscr.lean`) and the timed operations (`Model/Timed.lean`, `Model/TimedRun.lean`) together | the steps of a protocol with the windows of its generated types (`Spec/NuscrSchedule.lean`); the schedule that does everything as late as possible, shown to be in order with C43, to fit with the windows, and to be kept by a run with `C52_schedule_kept` |
| C63, C64 | the messages of `src/protobuf/generated/globaltype.rs` and `read_global_protocol_file` (`Model/Proto.lean`) | the wire format and the meaning of each field by its number (`Spec/Proto.lean`, after `globaltype.proto`); one round of the reading loop per field, for any encoding; the writer gives such fields |
| C65 | programs as in `Model/Mesh.lean`, with the types of C50's endpoints; the machines of `checker_concat!` (C50, C51) | machines with queues and what `KMC` promises of them, the meshes of a part, `Dual`, `Begins`, `Lively` (`Spec/BottomUp.lean`); for every run of the program the blocks so far, how much of its block each role has done, and a run of the machines that lags by at most one choice (`Proof/BottomUpInv.lean`); roles that wait in the earliest block wait for each other, and so do their machines, for ever (`Proof/BottomUpRun.lean`); without decisions the roles come to rest at the end of the last block (`Proof/BottomUpLive.lean`); queues of machines are FIFO, and a role that has ended has done all of all blocks, so nothing is left for it (`Proof/BottomUpOrphan.lean`) |
| C66 | any number of programs of C44 at once, roles of several of them in one thread, whose function may go on with any mesh it has not closed (`Model/Interleaved.lean`); the threads of the body of `fork_interleaved_mpst` (C16) | `Forest`: the roles of a protocol are in different threads, and each protocol has at most one thread in common with those before it (`Spec/Interleaved.lean`). Safety and order by projection to one protocol; progress: a protocol in which somebody could go on, if their thread were there, leads to another one, through a different thread each time, which a forest allows only finitely often; termination: without endless choices there are finitely many steps, and a state in which nothing happens any more is closed by progress and fairness |
| C67 | the programs of C66 with the failures of C45: any thread may drop any of its meshes at any moment, a mesh whose call returns an error is lost (`Model/InterleavedFailure.lean`) | Safety, order, `close`, clean-up by projection to one protocol (C45); progress and termination as for C66, by the same argument about forests (`forest_go`), with the pending drops carried out first; `C67_fate`: a thread that only drops from some moment on leaves its meshes where they are, so by C45 nobody closes in these protocols |
| C68 | the programs of C45 on timed sessions: clocks, the instant of every step, the functions of C19 for every transfer, the vector `clocks_to_reset` of a choice, calls that return no `Ok` (`Model/TimedRuntime.lean`). Windows go with payload types and enums | `InTime`, `Excuse`, `TGo`, `TFair` (`Spec/TimedRuntime.lean`). Every timed run is a run of C45 once the time is forgotten, step by step, and whoever can go on without clocks can with them, so fair schedules are fair (`Proof/TimedRuntime.lean`); windows and clocks call by call from C19 (`Proof/TimedClocks.lean`); a channel without its other half means that somebody has failed, even for sends (`Proof/TimedGone.lean`); runs at one instant (`Proof/TimedInstant.lean`); the runs of communicating timed automata, whose steps take no time (`Spec/TimedIdeal.lean`), are runs of the program (`Proof/TimedIdeal.lean`) |
| C69 | C48 (text to program), C53 (program to meshes) and C68 (meshes in time) composed; no new model | `timedActs`, `timetable`, `AsWritten` (`Spec/TimedText.lean`). Windows, `close` and termination are carried over from C53 and C68; for the run in time the instants of C62 (`due`) are turned into a run of communicating timed automata sorted by instant, which `C68_ideal` turns into a timed run (`Proof/TimedText.lean`, `Proof/TimedTextSchedule.lean`). For the texts nobody can carry out: in a run nobody's clocks are reset, so the instants of each role are in the order of its messages (`Proof/TimedTextStuck.lean`). The text of `C62.plain` is carried out; that of `C62.clocks` is not (`Prop/C69_Cases.lean`) |
| C70 | as C69; no new model | `Permitted` (events at instants which the windows and the clocks of the two roles allow), `SameFor`, `FreeChoices` (`Spec/TimedExecution.lean`). An execution at permitted instants is cut at its choices; each part is a run of communicating timed automata, each choice is announced and heard of at one instant, and `C68_ideal` turns the whole into a timed run (`Proof/TimedExecution.lean`). For the converse with resets, `Diary` (instants of one role at which its own clocks permit what it does) is an invariant of timed runs (`Proof/TimedDiary.lean`, `Prop/C70_Times.lean`), from which follow branches and loops nobody can finish for texts with resets (`Prop/C70_Stuck.lean`). For the branches and loops nobody can finish: the instants of each role are in the order of what it does (`Proof/TimedExecutionStuck.lean`). Executions of two roles are given the latest instants of their windows; the parts between choices are joined (`Prop/C70_Loops.lean`). With more roles the messages between two choices are sorted by their instants, which keeps the order of each role (`Prop/C70_Roles.lean`). Examples in `Prop/C70_Cases.lean` and `Prop/C70_Loops.lean` |
| C71 | as C69, C70; no new model | `HasClocks`, `AllAlive`, `Punctual` (`Prop/C71.lean`), `InBounds` (`Spec/TimedExecution.lean`), `Execution` (`Spec/EndToEnd.lean`). What a role attempts is found from the state of its mesh, so that the window of a failing call is that of a message of the text or that of a choice, which the generator leaves without bounds; with C68_late, C68_down and the invariants that no clock is noted or missing, only time is left |
| C72 | `Model/Transport.lean` (as C54–C56) | `Ledger`, `ledger`, `Opened` (`Spec/Handles.lean`): a client's count of handles from calls and results. Invariant over all steps: handles outside calls + threads inside calls + gone = made |
| C73 | `Model/Nuscr.lean`, `Model/NuscrText.lean` (as C47, C48) | `Layout` (`Spec/NuscrLayout.lean`): two lists of lines that differ in silent lines and in brackets on the next line. Simulation of `processLine` on both, by induction on the fuel |

## Where the code violates a property

Each is proved in the file of the property, by a theorem about a concrete witness.

* C07: a cycle of channels each holding the other's receiver leaks (`C07_cycle_leaks`).
* C19, C40: a window with a lower bound only always panics in `send`/`recv`; with an inclusive end, elapsed times in
  (end, end + 1 s) pass the check in whole seconds and then panic in a subtraction; an exclusive lower bound
  rejects (start, start + 1 s); a missing reset clock panics after delivery; with both bounds negative the
  clock is never reset; a clock crossing the lower bound between two readings is not reset.
* C24: a tuple payload is split at its comma.
* C27: success exactly at the bound 50 is reported as failure.
* C28: bounds of a nuscr message are compared as texts: `[9;10]` is rejected, `[10;9]` accepted.
* C29: aliases clash if a role name contains `To`.
* C30: a message that resets its clock at the first use of the clock still bounds the next one; nothing is compared
  across the beginning of a choice.
* C31: a check by a participant whose new `End` has not yet reached the broadcaster misses a forwarded cancellation
  (`C31_check_misses`; it stops at a later operation); a session dropped without `send_cancel` leaves the
  broadcaster polling forever (`C31_drop_hangs`).
* C36: lines after the one that closes the protocol are not read.
* C47: a loop without a choice is generated as two passages and the end; a message after a choice is dropped without a word; windows are not checked from one passage through a loop to the next; function names can clash (roles `a` and `a_0`).
* C48: messages in comments are read as messages; of two messages on a line the first is taken with the reset of the second; `or` on its own line is not seen; `role  C` (two blanks) is accepted in a header and the role dropped; `role Arole B` declares one role; two empty lines after a choice make the protocol "unbalanced"; digits of other scripts make the generator panic.
* C49: a label used with two payloads gets one of them; a label that is also the name of a payload loses its field; `a1` and `a_1` give the same structure twice (if title case is as expected); functions for branches restart all clocks; a message may reset a clock that is never started (run-time panic after the message has been sent); clocks of several letters give invalid character literals.
* C50: a branch that begins with another choice is drawn at the node of the first one, so the graph and the machine allow sequences the endpoint does not have (`C50_unguarded`); if that choice has been drawn already, the target of the last transition written is moved, whichever it is (`C50_misdirected`).
* C51: the cleaning of type names by replacement mangles a path that contains another one (`C51_nested_path`), keeps paths behind references (`C51_reference`), loses brackets of arrays (`C51_array`), takes payload types that begin with `Name` for roles (`C51_payload_name`), drops digits of role names (`C51_digits`), and takes a role for another whose name is its beginning (`C51_role_prefix`).
* C52: a protocol that uses a window with a lower bound only can never be run (`C52_lower_only_stops`); a role on schedule inside the second that follows an exclusive lower bound is rejected (`C52_exclusive_start_stops`).
* C54: a role called `All` makes `generate!` emit the struct `RoleAlltoAll` twice (`C54_clash_all`); roles `A` and `ADual`, `AtoAll` or `AlltoA` clash in the same way (`C54_clash_suffix`); roles that differ in case only share the macro `choose_mpst_.._to_all`, and the later one shadows the earlier one (`C54_clash_macros`); the documented call `generate!("interleaved", ..)` names both meshes `MeshedChannels`, so that the struct is emitted twice (`C54_clash_doc`, `/repo/src/baking/mod.rs:82-93`); the untimed call for two meshes defines no `offer_mpst`, the timed one does (`C54_no_offer_macro`).
* C55: `fork_tcp` connects to a server and gives both ends of the session clones of this one connection, so the bytes do not go to the partner; `recv_tcp` and `recv_udp` drop the data that came through the channel with the value and return bytes from the network instead, zeros without the flag (`C55_data_lost`); two threads reading from clones get torn frames (`C55_torn`); a datagram of more than 128 bytes is cut silently (`C55_cut`).
* C56: `send_tcp` sends the value before it writes, so `Err` after a failed write does not mean that the value was not delivered (`C56_err_delivered`), and it panics if the partner is gone, where `send` ignores it (`C56_send`); `cancel_tcp`, documented as always succeeding, unwraps `shutdown` and panics on a connection that is gone or already shut down by the other clone and finished by the server (`C56_cancel_panics`); `close_tcp` accepts any signal, also `Cancel`, where `close` panics (`C56_close_cancelled`), and leaves the connection open on `Err` (`C56_close`); `fork_udp` unwraps `spawn` where `fork_tcp` returns `Err` (`C56_fork_udp`); `choose_tcp!` and `choose_udp!` evaluate their data twice and `offer_tcp!` drops the data it receives.
* C42: in the picture of a role with a choice, states of different branches carry the same text (`C42_names_repeat`).
* C57: the generator turns every label and payload into a structure and checks no name, so that an accepted protocol can give a file that does not compile: a payload `String` (five times in `scribble_protocols/atmp/simple_voting.nuscr`) hides the `String` used by the code of `generate_atmp!`, a label `Result` (also there) the one used by the functions, a label `Ok` without payload hides `Ok(())`, labels `Error`, `End`, `Instant`, `HashMap` clash with the `use` lines, a label `role_a` with the type of role `A`; a role `End` (or `Broadcast`, with a choice) clashes with a type of the library, roles `A` and `a` give one variable of `main` twice (`C57_taken`, `C57_payload`, `C57_messages`, `C57_roles`). How Rust resolves names is the specification `Refers`: one item of that name in its space, or none for a name of the prelude.
* C58: `create_send_mpst_session!` and its cancelling variants do not check their index. With an index of 0 or of at least the number of participants, no arm of the emitted code matches the session to send on; the function compiles, drops its argument, takes the head off the stack and returns the mesh as it was (`C58_lost`). The receiving macros do not compile then (the value is missing), which is the right outcome. `create_send_check_cancel!` with index 1 never compiles: the first session is used as both `Recv<(), _>` and `Send` (`C58_compiles`). `choose_mpst_to_all!` always expands with the sender 3: if the first or second role uses it, the meshes do not fit (`C58_to_all_others`). The index is never compared with the role named next to it.
* C60: the header given to `nuscr` is the one of the text with every `timed ` removed, also behind a role whose name ends in `timed`; what follows a message on its line, brackets included, is not given.
* C61: the functions `offer_mpst_session_to_x_from_y` take a mesh whose session with the third role is not finished, and drop it; the methods `offer` and the macros do not.
* C62: protocols are accepted that cannot be carried out: with two clocks, or with roles that reset one clock at different messages; the windows are compared only for one role and one clock at a time.
* C64: `read_global_protocol_file` never shows a global type: it reads the whole file as an `Action` and then a `GlobalType` from the rest, which is empty.  The module is moreover behind `feature = "protobuf"`, which `Cargo.toml` does not declare (it declares `protobuf_feature`), and asks for another version of the runtime (`VERSION_3_2_0`) than `Cargo.toml` (3.4.0): it is not part of the crate as shipped.
* C65: the machines that `checker_concat!` writes do not contain the announcement of a branch; a role takes a branch by its first message. A branch in which the first messages wait for each other is never taken by the machines and therefore not checked, but the program can choose it, and stops (`C65_stuck`). Besides, C50 had to be strengthened for this: the states of the machine are the parts of the endpoint (`States`).
* C69: the generator accepts texts with several clocks that no execution in time can follow: a role has to exchange a message between 5 and 6 on one clock and after it one between 0 and 1 on another. Both checks of the generator compare windows on the same clock only. In the program nobody ever returns from `close` (`C69_impossible`, `C69_clocks_stuck`).
* C70: the generator compares the windows of messages before the choice and, separately, those from one choice to the next. It accepts a message between 5 and 6 followed by a choice of which each branch begins with a message between 0 and 1 on the same clock, never reset, whose program can only fail (`C70_choice_stuck`); and a loop with messages between 0 and 1 and between 5 and 6 that can be gone round once only (`C70_loop_stuck`).
* C71: a role whose clock is in the interval of the text, but less than a second above an exclusive lower bound, is the first to fail (`C71_exclusive_start`, for all accepted texts whose first message has such a bound); as C19.
* C73: a header with its bracket on the next line makes the generator stop before it has read anything (`C73_header_bracket`); 12 of the 20 files in `scribble_protocols/atmp` are refused for that. `continue L within [..] using .. and resetting ();`, as written in 12 of these files, matches no expression and is skipped (`C73_window_silent`, `C73_window_lost`, `C73_continue_lost`): `video_stream.nuscr` is accepted and its program can ask for one video only (`C73_video_stream_once`), while the text permits any number (`C73_video_stream_meant`). The window of such a line is not removed for the external tool either (`C73_window_timed`). With `}` and `or` on different lines a choice outside loops is refused (`C73_or_apart`); in a loop the text is accepted and the two branches become one, with the messages of both (`C73_or_merged`). `servo.nuscr` and `remote_data.nuscr`, whose `continue` has no window, are accepted as what they say, and every complete execution of the latter can be carried out (`C73_servo_accepted`, `C73_remote_data_runs`). A choice at a name that is no role is never accepted (`C73_choice_unknown`), but it is not reported as an unknown role: on `o_auth_2.nuscr` (`choice at A` with roles Auth, Client, Server) the generator panics (`C73_o_auth_2`).
* C37: with a repeated variant the attribute panics instead of reporting (such an enum is not valid Rust anyway).
* C45: a role that only sends is never told that its partner has failed and may go on for ever
  (`C45_unnoticed`); every other living role comes to know by an error.
* C39: two threads shared by two meshes that close them in opposite orders deadlock.

## How the model was tested against the code

The code cannot be run here, but the repository keeps results of running it.  `Check/*` runs the model on the same inputs
with `#guard` (evaluation; these are tests, no theorem rests on them); `tools/recorded.py` copies inputs and results out
of `/repo`.

* The unit tests of `src/checking/aux_checker.rs:856-1418`.
* All 99 graphs which `tests/checking_mod`, `tests/basics_mod/simple_basics` and `tests/baking_mod/simple_baking` expect of
  `checker_concat!`, node by node and edge by edge, with the types expanded as `type_name` prints them.
* The generated files `tests/nuscr_mod/correct/{Basic,Choice,Recursion}.rs`: every type, stack, enum, endpoint, function and
  struct; and the protocols `correct/nested_choice.nuscr`, `failing/*.nuscr`, which are refused.

* The bytes that protoc wrote into `src/protobuf/generated/globaltype.rs` (`file_descriptor_proto_data`): read with the model
  of the runtime they give the names, numbers and types of the specification, and the model writes them back byte by byte.

## Not modelled

`mpst_seq_proc/src/session_timed/session.rs` is part of no crate (no `mod` names it).

The HTTP transport (commented out of the crate, `src/transport/mod.rs:10-16`), the network behind TCP and UDP sockets beyond the contract stated in `Model/Transport.lean`, thread spawning and panic hooks, token-level macro
expansion (only the index arithmetic and the resulting structure), the external `KMC` and `nuscr` binaries
(an arbitrary predicate and an arbitrary function in the model), the file system, `petgraph` internals (a graph is a list of
labelled nodes and edges).

