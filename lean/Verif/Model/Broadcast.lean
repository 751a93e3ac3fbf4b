/-!
# Model of the broadcast-cancel protocol

Roles are numbered `1 .. n`; role 1 is the broadcaster (`broadcast_cancel!`), the others are *participants*.
The first session of every participant is an `End` connected to the broadcaster.  A choice
replaces the meshes of all participants, and with them these `End`s; the broadcaster's sides of the fresh
`End`s travel to it inside the choice messages and `Signal::Offer`.

The `n`-role protocol is abstracted to its sequence of choices: `total` choices, the `g`-th made by participant
`chooser g`, after which everybody closes.  Data messages between participants are not represented, except
that they may fail when their partner has stopped (`crash`).  The `End` that connects participant `p`
to the broadcaster after `g` choices is named `(g, p)`.
-/
namespace Verif.Broadcast

/-- An `End` channel between a participant and the broadcaster: the number of choices made before it was
created, and the participant. -/
abbrev C := Nat × Nat

/-- `Signal`, src/binary/struct_trait/end.rs:18-27.  `offer c` carries the broadcaster's side of `c`. -/
inductive Sig where
  | stop
  | cancel
  | offer (c : C)
deriving DecidableEq, Repr

/-- The role whose mesh is sent on the chooser's `session{i}`: `temp` in
choose_mpst_multi_cancel_to_all.rs:146 and create_fn_choose_mpst_cancel_multi_to_all_bundle.rs:223. -/
def receiverAt (e i : Nat) : Nat := if i ≥ e then i + 1 else i

/-- `temp`, the vector of broadcaster sides: `channel_1_2 .. channel_1_n` are pushed in this order (the first
`n - 1` indices of `get_tuple_diag` are the line of role 1), choose_mpst_multi_cancel_to_all.rs:91-113.
The head of the list is the last element pushed. -/
def fresh (n : Nat) : List Nat := (List.range' 2 (n - 1)).reverse

/-- `elt = temp.pop()` and a `send_canceled` for each `i` in `2 .. n - 1`, choose_mpst_multi_cancel_to_all.rs:141-191.
Result: who gets which fresh `End`, and what is left in `temp`.  `none` is `panic!("Error type")`. -/
def handOutLoop (e : Nat) : List Nat → List Nat → Option (List (Nat × Nat) × List Nat)
  | [], temp => some ([], temp)
  | _ :: _, [] => none
  | i :: is, j :: temp =>
    match handOutLoop e is temp with
    | none => none
    | some (l, r) => some ((receiverAt e i, j) :: l, r)

/-- A whole choice by role `e` among `n` roles: the (receiver, fresh `End`) pairs sent, in order, and the fresh
`End` the chooser offers itself, choose_mpst_multi_cancel_to_all.rs:223-262 and
create_fn_choose_mpst_cancel_multi_to_all_bundle.rs:330-378. -/
def handOut (n e : Nat) : Option (List (Nat × Nat) × Nat) :=
  match handOutLoop e (List.range' 2 (n - 2)) (fresh n) with
  | some (l, j :: _) => some (l, j)
  | _ => none

/-- One statement of `close_mpst_check_cancel!`: role 1 is the broadcaster. -/
inductive Act where
  | send (q : Nat)
  | recv (q : Nat)
deriving DecidableEq, Repr

/-- The partner on `session{k}` of role `p` (fork_mpst_multi.rs; proved in C11). -/
def partnerAt (p k : Nat) : Nat := if k < p then k else k + 1

/-- `close_mpst_check_cancel!` for role `p` of `n`,
macros_multiple/multiple/close/close_mpst_check_cancel.rs:44-91: a send on every session, a receive on
every session. -/
def closeActs (n p : Nat) : List Act :=
  (List.range' 1 (n - 1)).map (fun k => .send (partnerAt p k)) ++
  (List.range' 1 (n - 1)).map (fun k => .recv (partnerAt p k))

/-- Where a participant is. -/
inductive PC where
  /-- between two choices, or after the last one -/
  | active
  /-- inside a choice it makes: messages left to send, and the `End` it will offer -/
  | handing (rest : List (Nat × Nat)) (last : Nat)
  /-- it has to offer `c` to the broadcaster (the chooser after its sends; a receiver inside
  `offer_cancel_mpst!`) -/
  | holding (c : C)
  /-- inside close, statements left -/
  | closing (rest : List Act)
  /-- close returned `Ok` -/
  | ok
  /-- it stopped: panicked or returned an error, its endpoints are dropped -/
  | down
deriving DecidableEq, Repr

/-- Still running. -/
def PC.up : PC → Bool
  | .ok => false
  | .down => false
  | _ => true

/-- Where the broadcaster is, broadcast_cancel.rs:62-91. -/
inductive BPC where
  /-- in its `while` loop -/
  | poll
  /-- about to answer `Stop` on slot `k` -/
  | reply (k : Nat)
  /-- sending `Cancel` on all slots, `k` next -/
  | bcast (k : Nat)
  /-- returned `Ok(())` -/
  | ok
  /-- panicked -/
  | down
deriving DecidableEq, Repr

/-- Still running. -/
def BPC.up : BPC → Bool
  | .ok => false
  | .down => false
  | _ => true

/-- A protocol: roles, number of choices, who makes the `g`-th choice. -/
structure Proto where
  n : Nat
  total : Nat
  chooser : Nat → Nat

/-- Global state.  `toB c`/`toP c`: the one-place buffers of the `End` channel `c` towards the broadcaster and
towards the participant.  `inbox g p`: the `g`-th choice message waiting for `p`, with the `End` it carries
(the new mesh is implicit).  `stops p q`: `p` has executed the `Stop` send to `q` of its close.
`raised p`: `p` has called the function made by `send_cancel!`. -/
structure S where
  gen : Nat → Nat
  pc : Nat → PC
  toB : C → Option Sig
  toP : C → Option Sig
  inbox : Nat → Nat → Option C
  stops : Nat → Nat → Bool
  raised : Nat → Bool
  b : BPC
  slot : Nat → C
  flag : Nat → Bool

/-- Function update. -/
def upd {α β : Type} [DecidableEq α] (f : α → β) (a : α) (b : β) : α → β := fun x => if x = a then b else f x

/-- Update of a function of two arguments. -/
def upd2 {β : Type} (f : Nat → Nat → β) (a b : Nat) (v : β) : Nat → Nat → β :=
  fun x y => if x = a ∧ y = b then v else f x y

/-- All roles forked, nothing done.  Slot `k` of the broadcaster is connected to role `k + 1`; all
`bool_session{k}` are true, broadcast_cancel.rs:53-57. -/
def S.init : S where
  gen := fun _ => 0
  pc := fun _ => .active
  toB := fun _ => none
  toP := fun _ => none
  inbox := fun _ _ => none
  stops := fun _ _ => false
  raised := fun _ => false
  b := .poll
  slot := fun k => (0, k + 1)
  flag := fun _ => true

/-- The broadcaster's side of `c` has not been dropped: it sits in a slot, in an unread `Offer`, in a
participant about to offer it, in an unread choice message, or in an unfinished choice. -/
inductive Held (P : Proto) (s : S) : C → Prop
  | slot {k} : 1 ≤ k → k < P.n → s.b.up = true → Held P s (s.slot k)
  | offer {d c} : Held P s d → s.toB d = some (.offer c) → Held P s c
  | hold {p c} : 2 ≤ p → p ≤ P.n → s.pc p = .holding c → Held P s c
  | inbox {g p c} : 2 ≤ p → p ≤ P.n → (s.pc p).up = true → s.inbox g p = some c → Held P s c
  | hand {p rest last q j} : 2 ≤ p → p ≤ P.n → s.pc p = .handing rest last → (q, j) ∈ rest → Held P s (s.gen p + 1, j)
  | last {p rest last} : 2 ≤ p → p ≤ P.n → s.pc p = .handing rest last → Held P s (s.gen p + 1, last)

/-- The broadcaster's `sender.send(x).unwrap_or(())` on slot `k`: `none` blocks.  The participant's side of
`(d, q)` is dropped once `q` has ended or moved on. -/
def bsend (s : S) (k : Nat) (x : Sig) : Option (C → Option Sig) :=
  if (s.pc (s.slot k).2).up = true ∧ s.gen (s.slot k).2 ≤ (s.slot k).1 then
    match s.toP (s.slot k) with
    | none => some (upd s.toP (s.slot k) (some x))
    | some _ => none
  else some s.toP

/-- What can happen next.  The broadcaster's polls of empty slots change nothing and are left out; the order in
which it polls its slots is left open. -/
inductive Label where
  | choose (p : Nat)
  | hand (p : Nat)
  | handFail (p : Nat)
  | keep (p : Nat)
  | take (p : Nat)
  | offer (p : Nat)
  | offerFail (p : Nat)
  | check (p : Nat)
  | pass (p : Nat)
  | crash (p : Nat)
  | raise (p : Nat)
  | quit (p : Nat)
  | close (p : Nat)
  | act (p : Nat)
  | poll (k : Nat)
  | reply
  | bcast
  | finish
deriving DecidableEq, Repr

/-- One step. -/
inductive Step (P : Proto) (s : S) : Label → S → Prop
  /-- `p` starts the choice whose turn it is. -/
  | choose {p l j} : 2 ≤ p → p ≤ P.n → s.pc p = .active → s.gen p < P.total → P.chooser (s.gen p) = p →
      handOut P.n p = some (l, j) →
      Step P s (.choose p) { s with pc := upd s.pc p (.handing l j) }
  /-- `send_canceled((elt, label(mesh)), s.session_i)?`, src/binary/send.rs:25-37: the message is left for `q`. -/
  | hand {p q j rest last} : 2 ≤ p → p ≤ P.n → s.pc p = .handing ((q, j) :: rest) last →
      Step P s (.hand p) { s with
        inbox := upd2 s.inbox (s.gen p) q (some (s.gen p + 1, j)),
        pc := upd s.pc p (.handing rest last) }
  /-- `send_canceled` panics if `q` has stopped. -/
  | handFail {p q j rest last} : 2 ≤ p → p ≤ P.n → s.pc p = .handing ((q, j) :: rest) last → s.pc q = .down →
      Step P s (.handFail p) { s with pc := upd s.pc p .down }
  /-- The chooser pops the last fresh `End`, choose_mpst_multi_cancel_to_all.rs:247-250. -/
  | keep {p last} : 2 ≤ p → p ≤ P.n → s.pc p = .handing [] last →
      Step P s (.keep p) { s with pc := upd s.pc p (.holding (s.gen p + 1, last)) }
  /-- `let ((session1, cont), s) = $recv_mpst($session)?` of `offer_cancel_mpst!`, src/macros_multiple/offer.rs:202. -/
  | take {p c} : 2 ≤ p → p ≤ P.n → s.pc p = .active → P.chooser (s.gen p) ≠ p → s.inbox (s.gen p) p = some c →
      Step P s (.take p) { s with
        inbox := upd2 s.inbox (s.gen p) p none,
        pc := upd s.pc p (.holding c) }
  /-- `s.session1.sender.send(Signal::Offer(session1)).unwrap()`, src/macros_multiple/offer.rs:203 and
  choose_mpst_multi_cancel_to_all.rs:251; the old mesh is dropped and the new one used. -/
  | offer {p c} : 2 ≤ p → p ≤ P.n → s.pc p = .holding c → Held P s (s.gen p, p) → s.toB (s.gen p, p) = none →
      Step P s (.offer p) { s with
        toB := upd s.toB (s.gen p, p) (some (.offer c)),
        gen := upd s.gen p (s.gen p + 1), pc := upd s.pc p .active }
  /-- The same, panicking because the broadcaster's side is gone. -/
  | offerFail {p c} : 2 ≤ p → p ≤ P.n → s.pc p = .holding c → ¬ Held P s (s.gen p, p) →
      Step P s (.offerFail p) { s with pc := upd s.pc p .down }
  /-- The check at the start of every send made by `create_send_check_cancel!`,
  create_send_check_cancel.rs:155-161: `Ok(Signal::Cancel)` panics. -/
  | check {p} : 2 ≤ p → p ≤ P.n → s.pc p = .active → s.toP (s.gen p, p) = some .cancel →
      Step P s (.check p) { s with pc := upd s.pc p .down }
  /-- The same check, `_ => {}`. -/
  | pass {p} : 2 ≤ p → p ≤ P.n → s.pc p = .active → s.toP (s.gen p, p) ≠ some .cancel →
      Step P s (.pass p) s
  /-- A data message or a choice message fails because the partner `q` has stopped.  The partners of a message
  sent or received after `gen p` choices can only be missing if they stopped after at most that many. -/
  | crash {p q} : 2 ≤ p → p ≤ P.n → s.pc p = .active → 2 ≤ q → q ≤ P.n → s.pc q = .down → s.gen q ≤ s.gen p →
      Step P s (.crash p) { s with pc := upd s.pc p .down }
  /-- The function made by `send_cancel!`, send_cancel.rs:57-78: a `Cancel` to the broadcaster, then panic.
  (Left in the buffer even if the broadcaster's side is gone, in which case nobody reads it.) -/
  | raise {p} : 2 ≤ p → p ≤ P.n → s.pc p = .active → s.toB (s.gen p, p) = none →
      Step P s (.raise p) { s with
        toB := upd s.toB (s.gen p, p) (some .cancel), raised := upd s.raised p true, pc := upd s.pc p .down }
  /-- `p` drops its session (panic or early return) without telling the broadcaster. -/
  | quit {p} : 2 ≤ p → p ≤ P.n → s.pc p = .active →
      Step P s (.quit p) { s with pc := upd s.pc p .down }
  /-- `p` calls close, the protocol being over for it. -/
  | close {p} : 2 ≤ p → p ≤ P.n → s.pc p = .active → s.gen p = P.total →
      Step P s (.close p) { s with pc := upd s.pc p (.closing (closeActs P.n p)) }
  /-- `s.session1.sender.send(Stop).unwrap_or(())`. -/
  | actSendB {p rest} : 2 ≤ p → p ≤ P.n → s.pc p = .closing (.send 1 :: rest) → s.toB (s.gen p, p) = none →
      Step P s (.act p) { s with
        toB := upd s.toB (s.gen p, p) (some .stop), stops := upd2 s.stops p 1 true,
        pc := upd s.pc p (.closing rest) }
  /-- `s.session_k.sender.send(Stop).unwrap_or(())` to participant `q`. -/
  | actSend {p q rest} : 2 ≤ p → p ≤ P.n → s.pc p = .closing (.send q :: rest) → q ≠ 1 →
      Step P s (.act p) { s with
        stops := upd2 s.stops p q true, pc := upd s.pc p (.closing rest) }
  /-- `s.session1.receiver.recv()` with a signal waiting: `Cancel` panics. -/
  | actRecvB {p rest x} : 2 ≤ p → p ≤ P.n → s.pc p = .closing (.recv 1 :: rest) → s.toP (s.gen p, p) = some x →
      Step P s (.act p) { s with
        toP := upd s.toP (s.gen p, p) none,
        pc := upd s.pc p (if x = .cancel then .down else .closing rest) }
  /-- `s.session1.receiver.recv()` on a disconnected channel panics. -/
  | actRecvBFail {p rest} : 2 ≤ p → p ≤ P.n → s.pc p = .closing (.recv 1 :: rest) → s.toP (s.gen p, p) = none →
      ¬ Held P s (s.gen p, p) →
      Step P s (.act p) { s with pc := upd s.pc p .down }
  /-- `s.session_k.receiver.recv()` from participant `q` with `Stop` waiting. -/
  | actRecv {p q rest} : 2 ≤ p → p ≤ P.n → s.pc p = .closing (.recv q :: rest) → q ≠ 1 → s.stops q p = true →
      Step P s (.act p) { s with pc := upd s.pc p (.closing rest) }
  /-- The same on a disconnected channel: panic. -/
  | actRecvFail {p q rest} : 2 ≤ p → p ≤ P.n → s.pc p = .closing (.recv q :: rest) → q ≠ 1 → s.stops q p = false →
      s.pc q = .down →
      Step P s (.act p) { s with pc := upd s.pc p .down }
  /-- Close returns `Ok(())`. -/
  | actEnd {p} : 2 ≤ p → p ≤ P.n → s.pc p = .closing [] →
      Step P s (.act p) { s with pc := upd s.pc p .ok }
  /-- `try_recv` on slot `k` yields `Cancel`, broadcast_cancel.rs:65-69. -/
  | pollCancel {k} : 1 ≤ k → k < P.n → s.b = .poll → s.toB (s.slot k) = some .cancel →
      Step P s (.poll k) { s with toB := upd s.toB (s.slot k) none, b := .bcast 1 }
  /-- It yields `Stop`, broadcast_cancel.rs:70-76: answer, or panic "Close already sent". -/
  | pollStop {k} : 1 ≤ k → k < P.n → s.b = .poll → s.toB (s.slot k) = some .stop →
      Step P s (.poll k) { s with
        toB := upd s.toB (s.slot k) none, b := if s.flag k then .reply k else .down }
  /-- It yields `Offer(channel)`: `s.session_k = channel`, broadcast_cancel.rs:77-79. -/
  | pollOffer {k c} : 1 ≤ k → k < P.n → s.b = .poll → s.toB (s.slot k) = some (.offer c) →
      Step P s (.poll k) { s with toB := upd s.toB (s.slot k) none, slot := upd s.slot k c }
  /-- The answer, and `bool_session_k = false`. -/
  | reply {k t} : s.b = .reply k → bsend s k .stop = some t →
      Step P s .reply { s with toP := t, flag := upd s.flag k false, b := .poll }
  /-- `#send_sessions`: a `Cancel` on every slot. -/
  | bcast {k t} : s.b = .bcast k → k < P.n → bsend s k .cancel = some t →
      Step P s .bcast { s with toP := t, b := .bcast (k + 1) }
  /-- `cancel(s); panic!("Error")`. -/
  | bcastEnd {k} : s.b = .bcast k → P.n ≤ k →
      Step P s .bcast { s with b := .down }
  /-- The loop ends when every `bool_session` is false. -/
  | finish : s.b = .poll → (∀ k, 1 ≤ k → k < P.n → s.flag k = false) →
      Step P s .finish { s with b := .ok }

/-- A run. -/
inductive Run (P : Proto) : S → List Label → S → Prop
  | nil (s) : Run P s [] s
  | snoc {s ls s1 l s2} : Run P s ls s1 → Step P s1 l s2 → Run P s (ls ++ [l]) s2

end Verif.Broadcast
