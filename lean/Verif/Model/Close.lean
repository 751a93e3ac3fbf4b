/-!
# Model of the close protocol

`End` values are pairs of one-place channels carrying a `Signal`
(src/binary/struct_trait/end.rs:11-46).  Every `close` function of the library is a straight-line
sequence of `sender.send(Stop)` and `receiver.recv()` on `End` endpoints.  A *system* is a set of
threads, each with the endpoints it owns and the code it runs; any two threads interleave freely.

Endpoints are named `(role, slot)`; `peer` says how they are connected (`End::new` makes both ends,
end.rs:32-46: the sender of one end feeds the receiver of the other, in both directions).
-/
namespace Verif.Close

/-- An `End` endpoint: the role of its mesh and the number `k` of its field `session{k}`. -/
abbrev E := Nat × Nat

/-- `Signal`, end.rs:18-27 (the `End` carried by `Offer` is omitted: `close` never uses it). -/
inductive Sig where
  | stop
  | cancel
  | offer
deriving DecidableEq, Repr

/-- What happens to the error of a `send`: `.send(Stop)?` or `.send(Stop).unwrap_or(())`. -/
inductive SendMode where
  | strict
  | lenient
deriving DecidableEq, Repr

/-- What happens to the result of a `recv`. -/
inductive RecvMode where
  /-- `match recv()? { Stop => {}, err => panic!(..) }` -/
  | stopOnly
  /-- `recv()?;` -/
  | unchecked
  /-- `match recv() { Ok(Stop) => {}, Ok(Cancel) => panic!(..), Ok(Offer(_)) => {}, Err(e) => panic!(..) }` -/
  | checkCancel
deriving DecidableEq, Repr

/-- One statement of a close function. -/
inductive Act where
  | send (m : SendMode) (x : E)
  | recv (m : RecvMode) (x : E)
deriving DecidableEq, Repr

/-- The statement without its error handling: `(false, x)` is the send on `x`, `(true, x)` the receive. -/
def Act.id : Act → Bool × E
  | .send _ x => (false, x)
  | .recv _ x => (true, x)

/-- Result of a thread's closing code. -/
inductive Res where
  | ok
  | err
  | panic
deriving DecidableEq, Repr

/-- Where a thread is: it holds its endpoints and has not decided yet; it is inside its closing code,
with the statements left; its closing code ended (with the statements not completed); it dropped its endpoints
without closing. -/
inductive PC where
  | idle
  | run (rest : List Act)
  | fin (r : Res) (rest : List Act)
  | gone
deriving DecidableEq, Repr

/-- A system of threads. -/
structure Sys where
  ths : List Nat
  eps : Nat → List E
  owner : E → Nat
  peer : E → E
  code : Nat → List Act

/-- Global state: control points, the one-place buffer read by each endpoint's receiver, and whether
the sender and receiver halves of each endpoint are alive. -/
structure S where
  pc : Nat → PC
  buf : E → Option Sig
  tx : E → Bool
  rx : E → Bool

/-- All threads hold fresh endpoints. end.rs:32-46 -/
def S.init : S := ⟨fun _ => .idle, fun _ => none, fun _ => true, fun _ => true⟩

/-- Function update. -/
def upd {α β : Type} [DecidableEq α] (f : α → β) (a : α) (b : β) : α → β := fun x => if x = a then b else f x

/-- Scheduler choices. -/
inductive Label where
  /-- the thread calls its close function -/
  | call (t : Nat)
  /-- the thread drops its endpoints instead (cancellation) -/
  | quit (t : Nat)
  /-- the owner of `x`, before closing, sends a signal of its choice on `x` -/
  | emit (x : E) (g : Sig)
  /-- the thread executes its next statement -/
  | act (t : Nat)
  /-- the sender half of `x` is dropped, its owner having ended -/
  | dropTx (x : E)
  /-- the receiver half of `x` is dropped, its owner having ended -/
  | dropRx (x : E)
deriving DecidableEq, Repr

/-- The thread no longer uses its endpoints, they get dropped. -/
def PC.stopped : PC → Bool
  | .fin _ _ => true
  | .gone => true
  | _ => false

/-- What a receive statement makes of a received signal: go on, or panic. -/
def accepts : RecvMode → Sig → Bool
  | .stopOnly, .stop => true
  | .stopOnly, _ => false
  | .unchecked, _ => true
  | .checkCancel, .cancel => false
  | .checkCancel, _ => true

/-- What a receive statement makes of a disconnected channel. -/
def onDisconnect : RecvMode → Res
  | .checkCancel => .panic
  | _ => .err

/-- One statement of thread `t`. `none` means the statement blocks (or there is none to execute).
Channel contract: crossbeam `bounded(1)`, see DESIGN.md. -/
def exec (Y : Sys) (t : Nat) (s : S) : Option S :=
  match s.pc t with
  | .run [] => some { s with pc := upd s.pc t (.fin .ok []) }
  | .run (.send m x :: rest) =>
    if s.rx (Y.peer x) = false then
      match m with
      | .strict => some { s with pc := upd s.pc t (.fin .err (.send m x :: rest)) }
      | .lenient => some { s with pc := upd s.pc t (.run rest) }
    else match s.buf (Y.peer x) with
      | some _ => none
      | none => some { s with pc := upd s.pc t (.run rest), buf := upd s.buf (Y.peer x) (some .stop) }
  | .run (.recv m x :: rest) =>
    match s.buf x with
    | some g =>
      some { s with buf := upd s.buf x none,
                    pc := upd s.pc t (if accepts m g then .run rest else .fin .panic (.recv m x :: rest)) }
    | none =>
      if s.tx (Y.peer x) then none
      else some { s with pc := upd s.pc t (.fin (onDisconnect m) (.recv m x :: rest)) }
  | _ => none

/-- One step of the system; `none` if not enabled. -/
def step (Y : Sys) (s : S) : Label → Option S
  | .call t => if s.pc t = .idle then some { s with pc := upd s.pc t (.run (Y.code t)) } else none
  | .quit t => if s.pc t = .idle then some { s with pc := upd s.pc t .gone } else none
  | .emit x g =>
    if s.pc (Y.owner x) = .idle ∧ s.rx (Y.peer x) = true ∧ s.buf (Y.peer x) = none then
      some { s with buf := upd s.buf (Y.peer x) (some g) }
    else none
  | .act t => exec Y t s
  | .dropTx x =>
    if (s.pc (Y.owner x)).stopped ∧ s.tx x = true then some { s with tx := upd s.tx x false } else none
  | .dropRx x =>
    if (s.pc (Y.owner x)).stopped ∧ s.rx x = true then
      some { s with rx := upd s.rx x false, buf := upd s.buf x none } else none

/-- A run of the system. -/
inductive Run (Y : Sys) : S → List Label → S → Prop
  | nil (s) : Run Y s [] s
  | snoc {s ls s1 l s2} : Run Y s ls s1 → step Y s1 l = some s2 → Run Y s (ls ++ [l]) s2

/-! ## The close functions -/

/-- `close`, src/binary/close.rs:10-18. -/
def binaryClose (x : E) : List Act := [.send .strict x, .recv .stopOnly x]

/-- `close_mpst`, src/functionmpst/close.rs:58-77. -/
def closeMpst3 (i : Nat) : List Act :=
  [.send .strict (i, 1), .send .strict (i, 2), .recv .stopOnly (i, 1), .recv .stopOnly (i, 2)]

/-- The fields `session1 .. session{n-1}` of the mesh of role `i`. -/
def slots (n i : Nat) : List E := (List.range' 1 (n - 1)).map (fun k => (i, k))

/-- The generated bodies: a `send` on `session1 .. session{n-1}`, then a `recv` on each, in order. -/
def closeAll (sm : SendMode) (rm : RecvMode) (xs : List E) : List Act :=
  xs.map (.send sm) ++ xs.map (.recv rm)

/-- Method `close` of generated meshes, mpst_seq_proc/src/common_functions/expand/close.rs:13-59 and
close_atmp.rs:13-60. -/
def genClose (n i : Nat) : List Act := closeAll .strict .stopOnly (slots n i)

/-- `close_mpst!`, macros_multiple/multiple/close/close_mpst.rs:44-84. -/
def closeMpstMulti (n i : Nat) : List Act := closeAll .lenient .unchecked (slots n i)

/-- `close_mpst_cancel!`, macros_multiple/multiple/close/close_mpst_cancel.rs:44-83. -/
def closeMpstCancel (n i : Nat) : List Act := closeAll .strict .unchecked (slots n i)

/-- `close_mpst_check_cancel!`, macros_multiple/multiple/close/close_mpst_check_cancel.rs:44-91. -/
def closeMpstCheckCancel (n i : Nat) : List Act := closeAll .lenient .checkCancel (slots n i)

/-- `close_mpst_interleaved!` for `n` roles, interleaved/close_mpst_interleaved.rs:83-150: all meshes
`s_1 .. s_n` of one protocol, in one thread. -/
def closeInterleaved (n : Nat) : List Act :=
  closeAll .lenient .unchecked ((List.range' 1 n).flatMap (slots n))

/-- `close_mpst_interleaved` for three roles, src/interleaved/close.rs:16-59. -/
def closeInterleaved3 : List Act :=
  [.send .strict (1, 1), .send .strict (1, 2), .send .strict (2, 1), .send .strict (2, 2),
   .send .strict (3, 1), .send .strict (3, 2),
   .recv .stopOnly (1, 1), .recv .stopOnly (1, 2), .recv .stopOnly (2, 1), .recv .stopOnly (2, 2),
   .recv .stopOnly (3, 1), .recv .stopOnly (3, 2)]

end Verif.Close
