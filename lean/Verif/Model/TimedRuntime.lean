import Verif.Model.Failure
import Verif.Model.Timed
/-!
# Model of the whole runtime with clocks

The programs of `Model/Failure.lean`, generated for the timed sessions: every `send`, `recv`, `offer_mpst!` and
`choose_..._to_all!` is the timed one (`Model/Timed.lean`), each role has its own clocks, and time passes.  A timed call that does
not return `Ok` ends its role.

Simplifications: those of `Model/Failure.lean`, except that there are clocks.  The windows are not part of the session types here: the window
of a message goes with its payload type, that of a choice with its enum, and as the types of the two sides are dual both have
the same.  The call of `S::new()` in a timed `send` that fails, whose two endpoints are dropped at once, is left out.
-/
namespace Verif.Runtime
open Verif.Mesh (Sys Name upd)
open Verif.Types (Window)
open Verif.Timed (Clocks Fn Res World run resetAll)
open Verif.Heap hiding upd
open Verif.Spec Verif.SendRecv

/-- The windows of a program, the const parameters of `SendTimed`/`RecvTimed`, /repo/src/binary_atmp/struct_trait/send.rs:14-52,
recv.rs:13-52: of messages, by their payload types; of the choices of one role told to another, by the branches. -/
structure Windows where
  msg : Nat → Window
  choice : Nat → Nat → List Name → Window

/-- The state.  `clocks`: the `all_clocks` of each role, a `HashMap<char, Instant>` that is handed to every call
(expand/send.rs:264-296, expand/recv.rs:455-482).  `last`: when the last call of the role returned.  `noted`: the vector
`clocks_to_reset` of a choice under way (choose_atmp_mpst_multi_to_all.rs:217).  `doomed`: the last call of the role has transferred its message and
then panicked.  `now`: the time. -/
structure TS where
  fs : FS
  clocks : Nat → Clocks
  last : Nat → Nat
  noted : Nat → List Char
  doomed : Nat → Bool
  now : Nat

/-- Labels: a step of `Model/Runtime.lean`; `close` returns an error; a timed call ends without having transferred anything, or the
loop that ends a choice misses a clock; a role goes down after a call that panicked late; a role disappears of itself. -/
inductive TLabel where
  | go (l : RLabel)
  | fail (r : Nat)
  | late (r : Nat)
  | down (r : Nat)
  | crash (r : Nat)
deriving DecidableEq

/-- The same step without the time. -/
def TLabel.erase : TLabel → FLabel
  | .go l => .step l
  | .fail r => .fail r
  | .late r => .crash r
  | .down r => .crash r
  | .crash r => .crash r

/-- Whose step it is. -/
def TLabel.actor (l : TLabel) : Option Nat := l.erase.actor

/-- The timed call role `r` makes next, the function and window it uses, and the step it is if it returns `Ok`.
`send`: expand/send.rs:264-296; `recv`: expand/recv.rs:455-482; `offer_mpst!`:
/repo/mpst_seq_proc/src/baking_atmp/baking_atmp_with_enum_and_cancel.rs:205-219;
`choose_..._to_all!`: choose_atmp_mpst_multi_to_all.rs:149-165, 219-221. -/
inductive TCall (Y : Sys) (V : Windows) (r : Nat) : Pos → Fn → Window → Op Pay → RLabel → Prop
  | send {sl q k e w m T d} : sl[(sendImpl Y.n r q).used - 1]? = some e → e.ty = .send w (.data m) T →
      TCall Y V r (.mesh sl (.role q k)) .send (V.msg m) (.send e ⟨0, d, []⟩) (.sim (.act r (.send q m)))
  | recv {sl q k e w m T} : sl[(recvImpl Y.n q r).used - 1]? = some e → e.ty = .recv w (.data m) T →
      TCall Y V r (.mesh sl (.role q k)) .recv (V.msg m) (.recv e) (.sim (.act r (.recv q m)))
  | heed {sl q k e w x bs T N} : sl[(recvImpl Y.n q r).used - 1]? = some e → e.ty = .recv w (.enum x bs) T →
      TCall Y V r (.mesh sl (.role q k)) .recv (V.choice q r bs) (.recv e) (.sim (.act r (.heed q N)))
  | tell {N k ms todo old own e w x bs T} : old[k - 1]? = some e → e.ty = .send w (.enum x bs) T →
      TCall Y V r (.telling N ((k, ms) :: todo) old own) .sendNoReset (V.choice r (partner r k) bs)
        (.send e ⟨N, 0, ms.map (·.ep)⟩) (.sim (.tell r (partner r k)))

/-- The other half of the channel is gone: `send_timeout` and `recv_timeout` fail at once, as do `send` and `recv`
(`SendTimeoutError::Disconnected`, `RecvTimeoutError::Disconnected` of crossbeam).  A message that is there is still delivered. -/
def Gone (h : Heap.St Pay) : Op Pay → Prop
  | .send e _ => ∃ c, e.ep.node = .snd c ∧ (h.chan c).rx = false
  | .recv e => ∃ c, e.ep.node = .rcv c ∧ (h.chan c).tx = false ∧ (h.chan c).buf = none
  | _ => False

/-- There is nothing to receive yet. -/
def Empty (h : Heap.St Pay) : Op Pay → Prop
  | .recv e => ∃ c, e.ep.node = .rcv c ∧ (h.chan c).tx = true ∧ (h.chan c).buf = none
  | _ => False

/-- Why an operation that started to wait at `start` with timeout `d` may have failed at `n`.  There is always room for a message to be sent
(C03), so only receives time out. -/
def Refused (h : Heap.St Pay) (op : Op Pay) (start : Nat) (d : Option Nat) (n : Nat) : Prop :=
  Gone h op ∨ (Empty h op ∧ ∃ x, d = some x ∧ start + x ≤ n)

/-- Role `r` is still there. -/
def TS.up (s : TS) (r : Nat) : Prop := s.fs.dead r = false ∧ s.doomed r = false

/-- The steps that have to do with no window: starting a choice is apart. -/
def Untimed : RLabel → Prop
  | .sim _ => False
  | _ => True

/-- One step, at the instant `n`. -/
inductive TStep (Y : Sys) (V : Windows) (s : TS) : TLabel → TS → Prop
  /-- A step of `close`, or a drop. -/
  | calm {n l f} : s.now ≤ n → Untimed l → (∀ r, l.actor = some r → s.doomed r = false) → FStep Y s.fs (.step l) f →
      TStep Y V s (.go l) { s with fs := f, now := n }
  /-- A choice begins: the new channels and meshes, and `let mut clocks_to_reset = Vec::new()`,
  choose_atmp_mpst_multi_to_all.rs:70-217. -/
  | decide {n r N f} : s.now ≤ n → s.doomed r = false → FStep Y s.fs (.step (.sim (.act r (.decide N)))) f →
      TStep Y V s (.go (.sim (.act r (.decide N)))) { s with fs := f, noted := upd s.noted r [], now := n }
  /-- A timed call that transfers its message at `n` and returns `Ok` at `m`.  A choice notes the clock to reset
  before the call, choose_atmp_mpst_multi_to_all.rs:149-165. -/
  | call {n m r fn w op l f cl} {W : World} : s.now ≤ n → s.up r → TCall Y V r (s.fs.pos r) fn w op l →
      FStep Y s.fs (.step l) f → ¬ Gone s.fs.heap op →
      (∀ k, s.last r ≤ W.now k ∧ W.now k ≤ m) → run fn W w (s.clocks r) = ⟨.ok, cl, some n⟩ →
      TStep Y V s (.go l) { s with
        fs := f, clocks := upd s.clocks r cl, last := upd s.last r m, now := n
        noted := if fn = .sendNoReset ∧ w.reset ≠ ' ' then upd s.noted r (s.noted r ++ [w.reset]) else s.noted }
  /-- A timed call that transfers its message and then panics: `unwrap` on the clock to reset. -/
  | spoiled {n m r fn w op l f cl res} {W : World} : s.now ≤ n → s.up r → TCall Y V r (s.fs.pos r) fn w op l →
      FStep Y s.fs (.step l) f → ¬ Gone s.fs.heap op →
      (∀ k, s.last r ≤ W.now k ∧ W.now k ≤ m) → run fn W w (s.clocks r) = ⟨res, cl, some n⟩ → res ≠ .ok →
      TStep Y V s (.go l) { s with
        fs := f, clocks := upd s.clocks r cl, last := upd s.last r m, now := n, doomed := upd s.doomed r true }
  /-- The end of a choice: all noted clocks are reset, choose_atmp_mpst_multi_to_all.rs:223-229. -/
  | enter {n r f cl} {now : Nat → Nat} : s.now ≤ n → s.up r → (∀ k, s.last r ≤ now k ∧ now k ≤ n) →
      FStep Y s.fs (.step (.sim (.enter r))) f → resetAll now (s.noted r) 0 (s.clocks r) = (.ok, cl) →
      TStep Y V s (.go (.sim (.enter r))) { s with fs := f, clocks := upd s.clocks r cl, last := upd s.last r n, now := n }
  /-- One of the noted clocks does not exist: the loop panics. -/
  | missing {n r f cl} {now : Nat → Nat} : s.now ≤ n → s.up r → (∀ k, s.last r ≤ now k ∧ now k ≤ n) →
      (∃ f', FStep Y s.fs (.step (.sim (.enter r))) f') → resetAll now (s.noted r) 0 (s.clocks r) = (.panic, cl) →
      FStep Y s.fs (.crash r) f → TStep Y V s (.late r) { s with fs := f, now := n }
  /-- A timed call that transfers nothing: it returns `Err` or panics, and the role drops what it holds.  The operations on channels which the
  call makes fail only for one of the two reasons. -/
  | late {n r fn w op l f cl res} {W : World} : s.now ≤ n → s.up r → TCall Y V r (s.fs.pos r) fn w op l →
      (∀ k, s.last r ≤ W.now k ∧ W.now k ≤ n) → (∀ k d, W.xfer k d = none → Refused s.fs.heap op (W.start k) d n) →
      run fn W w (s.clocks r) = ⟨res, cl, none⟩ → FStep Y s.fs (.crash r) f → TStep Y V s (.late r) { s with fs := f, now := n }
  /-- `close` returns an error, expand/close.rs:13-33. -/
  | fail {n r f i sl} : s.now ≤ n → s.up r → s.fs.pos r = .ending i sl → FStep Y s.fs (.fail r) f →
      TStep Y V s (.fail r) { s with fs := f, now := n }
  /-- The panic of a spoiled call unwinds. -/
  | down {n r f} : s.now ≤ n → s.doomed r = true → FStep Y s.fs (.crash r) f → TStep Y V s (.down r) { s with fs := f, now := n }
  /-- The role disappears of itself: `cancel`, a panic, an early `return`. -/
  | crash {n r f} : s.now ≤ n → FStep Y s.fs (.crash r) f → TStep Y V s (.crash r) { s with fs := f, now := n }

/-- The state after `fork_mpst`; each role has created its clocks. -/
structure TStart (Y : Sys) (root : Name) (s : TS) : Prop where
  start : Start Y root ⟨s.fs.heap, s.fs.pos⟩
  alive : s.fs.dead = nobody
  clocks : ∀ r x c, s.clocks r x = some c → c ≤ s.last r
  noted : ∀ r, s.noted r = []
  doomed : ∀ r, s.doomed r = false

/-- A run. -/
inductive TRun (Y : Sys) (V : Windows) (root : Name) : List TLabel → TS → Prop
  | start {s} : TStart Y root s → TRun Y V root [] s
  | snoc {ls s l s'} : TRun Y V root ls s → TStep Y V s l s' → TRun Y V root (ls ++ [l]) s'

end Verif.Runtime
