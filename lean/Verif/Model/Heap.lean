import Verif.Model.Types
/-!
# Small-step model of the binary layer: endpoints, one-place channels, drops

Every safe client of `/repo/src/binary` is covered: the state contains the endpoints in the hands of client
code (`pool`, with their static Rust types), the channels, and the halves whose `drop` is still running
(`garb`).  A run is any sequence of API calls on any endpoints, in any order, from any number of threads;
since each call is one step (or several, for drops), every interleaving is a run.

Simplifications, all conservative for the properties proved:
* a call is one atomic step, except drops, which are carried out half by half in any order, interleaved with
  everything else;
* threads are not distinguished: an endpoint moved between threads by other means stays in `pool`;
* `send_timeout`/`recv_timeout` of the timed layer are the same transfers, or a `drop` when they give up.
Fields marked *ghost* never influence a step's behaviour; they only record history.
-/
namespace Verif.Heap
open Verif.Types

/-- Runtime content of an endpoint: `Send { channel: Sender }`, `Recv { channel: Receiver }`
(`/repo/src/binary/struct_trait/send.rs:14-22`, `recv.rs:12-21`), `End { sender, receiver }`
(`end.rs:9-16`). Channels are numbered. -/
inductive Node where
  | snd (c : Nat)
  | rcv (c : Nat)
  | fin (t r : Nat)
  deriving DecidableEq, Repr

/-- An endpoint; `sid` and `side` are ghost: the session created by one `new()` call and the side of it. -/
structure EP where
  node : Node
  sid : Nat
  side : Bool
  deriving DecidableEq, Repr

/-- A payload value: its enum tag, its plain content, and the endpoints it contains (delegated endpoints,
`Either` of sessions, enums of meshes). -/
structure Val where
  tag : Nat
  data : Nat
  eps : List EP
  deriving DecidableEq, Repr

/-- `enum Signal` of `end.rs:18-27`. -/
inductive Sig where
  | stop
  | cancel
  | offer (e : EP)
  deriving DecidableEq, Repr

/-- What a channel carries: `(T, S::Dual)` for sessions (`send.rs:21`), `Signal` for `End` (`end.rs:13`). -/
inductive Msg where
  | data (v : Val) (k : EP)
  | sig (s : Sig)
  deriving DecidableEq, Repr

/-- Static element type of a channel, fixed at creation: `bounded::<(T, S::Dual)>(1)` (`send.rs:28`; `s`
is the type of the continuation received) or `bounded::<Signal>(1)` (`end.rs:33-34`). -/
inductive Kind (P : Type) where
  | data (w : Option Window) (t : P) (s : STy P)
  | sig
  deriving DecidableEq, Repr

/-- A `crossbeam_channel::bounded(1)` channel: its single slot and whether the sending and receiving halves
still exist.  Ghost: the session, the number of the step in that session, the side of the sender, and for
`End` the channel of the other direction. -/
structure Chan (P : Type) where
  buf : Option Msg
  tx : Bool
  rx : Bool
  kind : Kind P
  sid : Nat
  idx : Nat
  dir : Bool
  mate : Nat
  deriving DecidableEq, Repr

/-- An endpoint held by client code, with its static type. -/
structure Entry (P : Type) where
  ep : EP
  ty : STy P
  deriving DecidableEq, Repr

/-- Resources making up an endpoint: its channel halves, and (ghost) the identity of its side. -/
inductive Tok where
  | tx (c : Nat)
  | rx (c : Nat)
  | idn (sid : Nat) (side : Bool)
  deriving DecidableEq, Repr

/-- Visible events (ghost): a value of type `t` passed to `send`, or returned by `recv`. -/
inductive Ev (P : Type) where
  | sent (sid : Nat) (side : Bool) (t : P) (v : Val)
  | rcvd (sid : Nat) (side : Bool) (t : P) (v : Val)
  deriving DecidableEq, Repr

structure St (P : Type) where
  chan : Nat → Chan P
  next : Nat
  nsid : Nat
  pool : List (Entry P)
  garb : List Tok
  trace : List (Ev P)
  /-- ghost: the type given to `new()` for side `true` of each session -/
  proto : Nat → STy P

/-- Calls of the API.  `send`, `recv`: `/repo/src/binary/{send,recv}.rs`; `drop` is `cancel`
(`cancel.rs:22`) or an endpoint going out of scope; `sigSend`, `sigRecv` are the two halves of `close`
(`close.rs:10-18`) and the broadcast signals; `gc i` carries out the `i`-th pending drop. -/
inductive Op (P : Type) where
  | new (s : STy P)
  | send (e : Entry P) (v : Val)
  | recv (e : Entry P)
  | sigSend (e : Entry P) (s : Sig)
  | sigRecv (e : Entry P)
  | drop (e : Entry P)
  | gc (i : Nat)

/-- Outcome of a call.  `stuck` is a type confusion (a message of another type than the channel's); it is
proved never to occur. -/
inductive Out where
  | unit
  | value (v : Val)
  | signal (s : Sig)
  | err
  | block
  | stuck
  deriving DecidableEq, Repr

/-- For each payload type and enum tag, the types of the endpoints inside a value with this tag (`none`: no
such variant). Arbitrary, so recursive and delegating protocols are covered. -/
abbrev Env (P : Type) := P → Nat → Option (List (STy P))

/-- The channel halves an endpoint consists of. -/
def EP.halves (e : EP) : List Tok :=
  match e.node with
  | .snd c => [.tx c]
  | .rcv c => [.rx c]
  | .fin t r => [.tx t, .rx r]

def EP.toks (e : EP) : List Tok := .idn e.sid e.side :: e.halves

def Val.toks (v : Val) : List Tok := v.eps.flatMap EP.toks

/-- The continuation inside a message belongs to the same side of the session as the receiver that will
take it out, so it carries no identity of its own. -/
def Msg.toks : Msg → List Tok
  | .data v k => v.toks ++ k.halves
  | .sig (.offer e) => e.toks
  | .sig _ => []

/-- The resources inside the slot of a channel. -/
def bufToks {P : Type} (ch : Chan P) : List Tok :=
  match ch.buf with
  | some m => m.toks
  | none => []

/-- A channel that does not exist. -/
def noChan (P : Type) : Chan P :=
  { buf := none, tx := false, rx := false, kind := .sig, sid := 0, idx := 0, dir := false, mate := 0 }

/-- No endpoint, no channel. -/
def init (P : Type) : St P :=
  { chan := fun _ => noChan P, next := 0, nsid := 0, pool := [], garb := [], trace := [], proto := fun _ => .fin }

/-- Function update. -/
def upd {α : Type} (f : Nat → α) (c : Nat) (x : α) : Nat → α := fun i => if i = c then x else f i

/-- `S::new()`: `send.rs:27-30`, `recv.rs:26-29` (the dual's `new`, swapped), `end.rs:32-46`.
Returns the new state, the endpoint of type `s` and the one of type `s.dual`.  The fresh session gets ghost
identity `(sid, side)` and step `idx`. -/
def alloc {P : Type} (st : St P) (s : STy P) (sid idx : Nat) (side : Bool) : St P × EP × EP :=
  match s with
  | .send w t k =>
    ({ st with
        chan := upd st.chan st.next { buf := none, tx := true, rx := true, kind := .data w t k.dual,
                                      sid := sid, idx := idx, dir := side, mate := 0 }
        next := st.next + 1 },
      ⟨.snd st.next, sid, side⟩, ⟨.rcv st.next, sid, !side⟩)
  | .recv w t k =>
    ({ st with
        chan := upd st.chan st.next { buf := none, tx := true, rx := true, kind := .data w t k,
                                      sid := sid, idx := idx, dir := !side, mate := 0 }
        next := st.next + 1 },
      ⟨.rcv st.next, sid, side⟩, ⟨.snd st.next, sid, !side⟩)
  | .fin =>
    ({ st with
        chan := upd (upd st.chan st.next { buf := none, tx := true, rx := true, kind := .sig,
                                           sid := sid, idx := idx, dir := side, mate := st.next + 1 })
                  (st.next + 1) { buf := none, tx := true, rx := true, kind := .sig,
                                  sid := sid, idx := idx, dir := !side, mate := st.next }
        next := st.next + 2 },
      ⟨.fin st.next (st.next + 1), sid, side⟩, ⟨.fin (st.next + 1) st.next, sid, !side⟩)

/-- Moving endpoints out of the hands of client code; fails if some endpoint is not there (Rust's move
checker rejects the program). -/
def takeAll {P : Type} [DecidableEq P] : List (Entry P) → List (Entry P) → Option (List (Entry P))
  | pool, [] => some pool
  | pool, e :: es => if e ∈ pool then takeAll (pool.erase e) es else none

/-- The endpoints contained in a value, with their static types. -/
def entries {P : Type} (eps : List EP) (tys : List (STy P)) : List (Entry P) :=
  List.zipWith Entry.mk eps tys

/-- Number of events of a session: the step number of the next send. -/
def hist {P : Type} (tr : List (Ev P)) (sid : Nat) : List (P × Val) :=
  tr.filterMap fun
    | .sent s _ t v => if s = sid then some (t, v) else none
    | .rcvd _ _ _ _ => none

/-- `send(x, s)`: `/repo/src/binary/send.rs:13-21`.  `S::new()`, then `channel.send((x, there))`, result
ignored, returns `here`.  A full channel blocks; a missing receiver drops the message (`x` and `there`).
The sender half dies with `s`. -/
def sendStep {P : Type} [DecidableEq P] (G : Env P) (st : St P) (e : Entry P) (v : Val) :
    Option (St P × Out) :=
  match e.ty, e.ep.node with
  | .send _ t k, .snd c =>
    match G t v.tag with
    | none => none
    | some tys =>
      if v.eps.length = tys.length then
        match takeAll st.pool (e :: entries v.eps tys) with
        | none => none
        | some rest =>
          let ch := st.chan c
          if ch.rx && ch.buf.isSome then some (st, .block)
          else
            let (st1, here, there) := alloc st k e.ep.sid (ch.idx + 1) e.ep.side
            let st2 : St P := { st1 with pool := ⟨here, k⟩ :: rest
                                         trace := st.trace ++ [.sent e.ep.sid e.ep.side t v] }
            if ch.rx then
              some ({ st2 with chan := upd st1.chan c { ch with buf := some (.data v there), tx := false } }, .unit)
            else
              some ({ st2 with chan := upd st1.chan c { ch with tx := false }
                               garb := v.toks ++ (there.halves ++ st.garb) }, .unit)
      else none
  | _, _ => none

/-- `recv(s)`: `/repo/src/binary/recv.rs:12-19`: `let (v, s) = s.channel.recv()?; Ok((v, s))`.
On `Err` the endpoint is dropped. The type of what is received is the static type of the endpoint. -/
def recvStep {P : Type} [DecidableEq P] (G : Env P) (st : St P) (e : Entry P) : Option (St P × Out) :=
  match e.ty, e.ep.node with
  | .recv _ t k, .rcv c =>
    match takeAll st.pool [e] with
    | none => none
    | some rest =>
      let ch := st.chan c
      match ch.buf with
      | some (.data v there) =>
        match G t v.tag with
        | none => some (st, .stuck)
        | some tys =>
          if v.eps.length = tys.length then
            some ({ st with chan := upd st.chan c { ch with buf := none, rx := false }
                            pool := entries v.eps tys ++ ⟨there, k⟩ :: rest
                            trace := st.trace ++ [.rcvd e.ep.sid e.ep.side t v] }, .value v)
          else some (st, .stuck)
      | some (.sig _) => some (st, .stuck)
      | none =>
        if ch.tx then some (st, .block)
        else some ({ st with pool := rest, garb := e.ep.toks ++ st.garb }, .err)
  | _, _ => none

/-- `s.sender.send(signal)` on an `End` (`close.rs:11`, and the broadcast macros): fails if the peer's
receiver is gone (the signal is dropped), blocks while the slot is full. -/
def sigSendStep {P : Type} [DecidableEq P] (st : St P) (e : Entry P) (s : Sig) : Option (St P × Out) :=
  match e.ty, e.ep.node with
  | .fin, .fin t _ =>
    if e ∈ st.pool then
      let ch := st.chan t
      match s with
      | .offer f =>
        match takeAll st.pool [e, ⟨f, .fin⟩] with
        | none => none
        | some rest =>
          if ch.rx then
            if ch.buf.isSome then some (st, .block)
            else some ({ st with chan := upd st.chan t { ch with buf := some (.sig s) }, pool := e :: rest }, .unit)
          else some ({ st with pool := e :: rest, garb := f.toks ++ st.garb }, .err)
      | _ =>
        if ch.rx then
          if ch.buf.isSome then some (st, .block)
          else some ({ st with chan := upd st.chan t { ch with buf := some (.sig s) } }, .unit)
        else some (st, .err)
    else none
  | _, _ => none

/-- `s.receiver.recv()` on an `End` (`close.rs:13`). -/
def sigRecvStep {P : Type} [DecidableEq P] (st : St P) (e : Entry P) : Option (St P × Out) :=
  match e.ty, e.ep.node with
  | .fin, .fin _ r =>
    if e ∈ st.pool then
      let ch := st.chan r
      match ch.buf with
      | some (.sig s) =>
        let new : List (Entry P) := match s with
          | .offer f => [⟨f, .fin⟩]
          | _ => []
        some ({ st with chan := upd st.chan r { ch with buf := none }, pool := new ++ st.pool }, .signal s)
      | some (.data _ _) => some (st, .stuck)
      | none => if ch.tx then some (st, .block) else some (st, .err)
    else none
  | _, _ => none

/-- Dropping one half: a `Sender` disconnects; a `Receiver` disconnects and drops the buffered message, whose
own halves are then to be dropped (crossbeam's `disconnect_receivers`). -/
def gcTok {P : Type} (st : St P) : Tok → St P
  | .tx c => { st with chan := upd st.chan c { st.chan c with tx := false } }
  | .rx c =>
    { st with chan := upd st.chan c { st.chan c with rx := false, buf := none }
              garb := bufToks (st.chan c) ++ st.garb }
  | .idn _ _ => st

/-- One call. `none`: the Rust compiler rejects the call (wrong type, endpoint not owned). -/
def step {P : Type} [DecidableEq P] (G : Env P) (st : St P) : Op P → Option (St P × Out)
  | .new s =>
    let (st1, here, there) := alloc st s st.nsid 0 true
    some ({ st1 with pool := ⟨here, s⟩ :: ⟨there, s.dual⟩ :: st.pool
                     nsid := st.nsid + 1
                     proto := upd st.proto st.nsid s }, .unit)
  | .send e v => sendStep G st e v
  | .recv e => recvStep G st e
  | .sigSend e s => sigSendStep st e s
  | .sigRecv e => sigRecvStep st e
  | .drop e =>
    match takeAll st.pool [e] with
    | none => none
    | some rest => some ({ st with pool := rest, garb := e.ep.toks ++ st.garb }, .unit)
  | .gc i =>
    match st.garb[i]? with
    | none => none
    | some t => some (gcTok { st with garb := st.garb.eraseIdx i } t, .unit)

/-- States reachable by client code. -/
inductive Reach {P : Type} [DecidableEq P] (G : Env P) : St P → Prop
  | init : Reach G (init P)
  | step {st st' : St P} {op : Op P} {o : Out} : Reach G st → step G st op = some (st', o) → Reach G st'

end Verif.Heap
