import Verif.Model.Heap
/-!
# Model of the TCP and UDP transports

`/repo/src/transport/tcp` and `/repo/src/transport/udp`: calls that move a value through the channel of a session and
bytes through a socket.  The channels are those of `Model/Heap.lean`; a socket is what the operating system keeps
for it, shared by all clones of a `TcpStream` or `UdpSocket`.  A call that waits inside the socket (`write_all`,
`read_exact`, `recv`) or inside the channel of an `End` is a state of its thread, so other threads run meanwhile.

The operating system and the other end of the connection are free: bytes and datagrams arrive at any time and cut
in any way, reads and writes move any number of bytes, any of them may report an error.  Fixed is only:
bytes of a connection and datagrams of a socket are taken in the order in which they have arrived; nothing is accepted for
sending after `shutdown`; end of file is reported only when nothing is left and the other end has finished or `shutdown`
has been called; `shutdown` fails only on a connection that does not exist any more.

Simplifications: a pair `(x, data)` in a channel is one number (`pair`); `ErrorKind::Interrupted` (retried by the
standard library) is no step; the thread started by `fork_tcp` and `fork_udp` is not tied to its endpoint; names of
threads, stack sizes and panic hooks are left out; a call is given up by a panic (of the thread) only where the code panics.
`src/transport/http` is commented out of the crate (`/repo/src/transport/mod.rs:10-16`) and not modelled.
-/
namespace Verif.Transport
open Verif.Types
open Verif.Heap (Val Entry EP Env Sig)

/-- `type TcpData = [u8; 128]`, `type UdpData = [u8; 128]`: `tcp/send.rs:15`, `tcp/recv.rs:14`, `udp/send.rs:14`,
`udp/recv.rs:13`. -/
def size : Nat := 128

/-- `[0_u8; 128]`: `tcp/recv.rs:38`, `udp/recv.rs:37`. -/
def zeros : List UInt8 := List.replicate size 0

/-- The bytes of an array as a number. -/
def num (data : List UInt8) : Nat := data.foldl (fun a b => a * 256 + b.toNat) 0

/-- `(x, *data)`, `tcp/send.rs:39`, `udp/send.rs:37`. -/
def pair (x : Val) (data : List UInt8) : Val := { x with data := x.data * 256 ^ size + num data }

/-- `v.0`, `tcp/recv.rs:46`, `udp/recv.rs:42`. -/
def fst (v : Val) : Val := { v with data := v.data / 256 ^ size }

/-- A TCP connection. -/
structure Stream where
  /-- number of handles (clones) in the hands of client code, outside of calls -/
  free : Nat
  /-- ghost: all bytes accepted for sending -/
  sent : List UInt8
  /-- ghost: all bytes that have arrived -/
  arrived : List UInt8
  /-- how many of them have been read -/
  taken : Nat
  /-- the other end sends no more -/
  ended : Bool
  /-- `shutdown(Shutdown::Both)` has been called -/
  shut : Bool
  /-- the connection has been reset -/
  broken : Bool
  deriving DecidableEq, Repr

/-- A UDP socket. -/
structure Dgram where
  free : Nat
  /-- ghost: the datagrams sent -/
  sent : List (List UInt8)
  /-- ghost: the datagrams that have arrived -/
  arrived : List (List UInt8)
  /-- how many of them have been taken -/
  taken : Nat
  deriving DecidableEq, Repr

def noStream : Stream := ⟨0, [], [], 0, false, false, false⟩

def noDgram : Dgram := ⟨0, [], [], 0⟩

/-- Where a thread is. -/
inductive Call (P : Type) where
  /-- in no call of this model -/
  | idle
  /-- `send_tcp` inside `stream.write_all(data)`: the bytes still to write, the continuation `here` -/
  | writing (c : Nat) (rest : List UInt8) (here : Entry P)
  /-- `recv_tcp` inside `stream.read_exact(&mut data)`: the bytes read so far, the value `v.0`, its endpoints and the
  continuation -/
  | reading (c : Nat) (buf : List UInt8) (x : Val) (es : List (Entry P))
  /-- `recv_udp` inside `socket.recv(&mut data)` -/
  | taking (u : Nat) (x : Val) (es : List (Entry P))
  /-- `close_tcp` inside `s.receiver.recv()` -/
  | closing (c : Nat) (tcp : Bool) (s : Entry P)
  deriving DecidableEq, Repr

/-- The endpoints inside a call. -/
def Call.held {P : Type} : Call P → List (Entry P)
  | .idle => []
  | .writing _ _ here => [here]
  | .reading _ _ _ es => es
  | .taking _ _ es => es
  | .closing _ _ s => [s]

structure St (P : Type) where
  heap : Heap.St P
  tcp : Nat → Stream
  udp : Nat → Dgram
  ntcp : Nat
  nudp : Nat
  thr : Nat → Call P
  /-- the endpoints inside calls; they are not in the hands of the clients -/
  held : List (Entry P)

def init (P : Type) : St P :=
  ⟨Heap.init P, fun _ => noStream, fun _ => noDgram, 0, 0, fun _ => .idle, []⟩

/-- At which step a fork stops: `connect` (or `bind`), `try_clone`, `spawn`, or not at all. -/
inductive Stage where
  | connect
  | clone
  | spawn
  | done
  deriving DecidableEq, Repr

/-- One step: a call by a thread, or the operating system going on. -/
inductive Act (P : Type) where
  /-- any call of `src/binary`, by any thread -/
  | api (op : Heap.Op P)
  | forkTcp (s : STy P) (g : Stage)
  /-- `stream.try_clone()`, and a handle going out of scope -/
  | cloneTcp (c : Nat)
  | dropTcp (c : Nat)
  | sendTcp (t : Nat) (e : Entry P) (x : Val) (data : List UInt8) (c : Nat) (tcp : Bool)
  | write (t n : Nat)
  | writeErr (t : Nat)
  | recvTcp (t : Nat) (e : Entry P) (c : Nat) (tcp : Bool)
  | read (t n : Nat)
  | readEnd (t : Nat)
  | readErr (t : Nat)
  | closeTcp (t : Nat) (e : Entry P) (c : Nat) (tcp : Bool)
  | closeWait (t : Nat) (shutOk : Bool)
  | cancelTcp (t : Nat) (e : Entry P) (c : Nat) (shutOk : Bool)
  /-- bytes arrive; the other end has finished; the connection is reset -/
  | arrive (c : Nat) (bs : List UInt8)
  | finish (c : Nat)
  | reset (c : Nat)
  | forkUdp (s : STy P) (g : Stage)
  | cloneUdp (u : Nat)
  | dropUdp (u : Nat)
  | sendUdp (t : Nat) (e : Entry P) (x : Val) (data : List UInt8) (u : Nat) (udp ok : Bool)
  | recvUdp (t : Nat) (e : Entry P) (u : Nat) (udp : Bool)
  | take (t : Nat)
  | takeErr (t : Nat)
  | cancelUdp (t : Nat) (e : Entry P) (u : Nat)
  /-- a datagram arrives -/
  | deliver (u : Nat) (d : List UInt8)

/-- What a step gives its thread. -/
inductive Ret (P : Type) where
  /-- the call goes on -/
  | waits
  /-- a step of the system, or of a handle -/
  | none
  /-- what a call of `src/binary` returned -/
  | api (o : Heap.Out)
  | okFork (there here : Entry P) (sock : Nat)
  | okSend (here : Entry P)
  | okSendUdp (here : Entry P) (n : Nat)
  /-- the value, its endpoints and the continuation, the data -/
  | okRecv (x : Val) (es : List (Entry P)) (data : List UInt8)
  | okRecvUdp (x : Val) (es : List (Entry P)) (data : List UInt8) (n : Nat)
  | ok
  | err
  | panic
  deriving DecidableEq, Repr

variable {P : Type} [DecidableEq P]

/-- The endpoints a call of `src/binary` uses. -/
def opEps : Heap.Op P → List EP
  | .new _ => []
  | .send e v => e.ep :: v.eps
  | .recv e => [e.ep]
  | .sigSend e (.offer f) => [e.ep, f]
  | .sigSend e _ => [e.ep]
  | .sigRecv e => [e.ep]
  | .drop e => [e.ep]
  | .gc _ => []

/-- None of the endpoints is inside a call. -/
def free (st : St P) (l : List EP) : Bool := l.all fun e => !(st.held.map (·.ep)).contains e

/-- Is the thread in no call? -/
def isIdle (st : St P) (t : Nat) : Bool := match st.thr t with
  | .idle => true
  | _ => false

/-- The receiver of the channel does not exist any more: `s.channel.send(..)` returns `Err`. -/
def gone (h : Heap.St P) (e : Entry P) : Bool := match e.ep.node with
  | .snd c => !(h.chan c).rx
  | _ => false

/-- Values going out of scope. -/
def dropAll (G : Env P) (h : Heap.St P) : List (Entry P) → Option (Heap.St P)
  | [] => some h
  | e :: es => match Heap.step G h (.drop e) with
    | some (h', _) => dropAll G h' es
    | none => none

/-- Thread `t` enters a call that holds `es`. -/
def enter (st : St P) (t : Nat) (k : Call P) : St P :=
  { st with thr := Heap.upd st.thr t k, held := k.held ++ st.held }

/-- Thread `t` leaves its call. -/
def leave (st : St P) (t : Nat) : St P :=
  { st with thr := Heap.upd st.thr t .idle
            held := st.held.filter fun e => !(st.thr t).held.contains e }

def setTcp (st : St P) (c : Nat) (f : Stream → Stream) : St P := { st with tcp := Heap.upd st.tcp c (f (st.tcp c)) }

def setUdp (st : St P) (u : Nat) (f : Dgram → Dgram) : St P := { st with udp := Heap.upd st.udp u (f (st.udp u)) }

/-- A handle goes out of the hands of the clients: into a call, or out of scope. -/
def takeTcp (st : St P) (c : Nat) : St P := setTcp st c fun s => { s with free := s.free - 1 }
def giveTcp (st : St P) (c : Nat) : St P := setTcp st c fun s => { s with free := s.free + 1 }
def takeUdp (st : St P) (u : Nat) : St P := setUdp st u fun s => { s with free := s.free - 1 }
def giveUdp (st : St P) (u : Nat) : St P := setUdp st u fun s => { s with free := s.free + 1 }

/-- The channel half of `send_tcp` (`tcp/send.rs:38-39, 51`) and `send_udp` (`udp/send.rs:36-37, 45`): `let (here, there) =
S::new(); match s.channel.send(((x, *data), there))`.  `inl`: `Err`, the call panics and `here` is dropped;
`inr`: `Ok`, with `here`. -/
def chanSend (G : Env P) (h : Heap.St P) (e : Entry P) (x : Val) (data : List UInt8) :
    Option (Heap.St P ⊕ Heap.St P × Entry P) :=
  match Heap.step G h (.send e (pair x data)) with
  | some (h1, .unit) =>
    match h1.pool with
    | here :: _ =>
      if gone h e then (dropAll G h1 [here]).map .inl
      else some (.inr (h1, here))
    | [] => none
  | _ => none

/-- The channel half of `recv_tcp` (`tcp/recv.rs:37`) and `recv_udp` (`udp/recv.rs:36`): `let (v, s) =
s.channel.recv()?`.  `inl`: `Err`; `inr`: `v.0`, its endpoints and the continuation. -/
def chanRecv (G : Env P) (h : Heap.St P) (e : Entry P) : Option (Heap.St P ⊕ Heap.St P × Val × List (Entry P)) :=
  match Heap.step G h (.recv e) with
  | some (h1, .value v) => some (.inr (h1, fst v, h1.pool.take (v.eps.length + 1)))
  | some (h1, .err) => some (.inl h1)
  | _ => none

/-- `stream.shutdown(Shutdown::Both)`: an error only if the connection does not exist any more. -/
def shutdown (s : Stream) (ok : Bool) : Option Stream :=
  if ok then some { s with shut := true }
  else if s.broken || (s.shut && s.ended) then some s
  else none

/-- `fork_tcp`, `tcp/fork.rs:28-49`.  `TcpStream::connect(address)?` and `stream.try_clone()?` come before the session is
created; if `spawn` fails, the closure with `there` and the clone is dropped, then `here` and `stream`. -/
def forkTcp (G : Env P) (st : St P) (s : STy P) : Stage → Option (St P × Ret P)
  | .connect => some (st, .err)
  | .clone => some ({ st with ntcp := st.ntcp + 1 }, .err)
  | .spawn =>
    match Heap.step G st.heap (.new s) with
    | some (h1, _) =>
      match h1.pool with
      | there :: here :: _ =>
        (dropAll G h1 [there, here]).map fun h2 => ({ st with heap := h2, ntcp := st.ntcp + 1 }, .err)
      | _ => none
    | none => none
  | .done =>
    match Heap.step G st.heap (.new s) with
    | some (h1, _) =>
      match h1.pool with
      | there :: here :: _ =>
        some (setTcp { st with heap := h1, ntcp := st.ntcp + 1 } st.ntcp fun _ => { noStream with free := 2 },
          .okFork there here st.ntcp)
      | _ => none
    | none => none

/-- `fork_udp`, `udp/fork.rs:30-53`: as `fork_tcp`, but `.spawn(..).unwrap()` panics. -/
def forkUdp (G : Env P) (st : St P) (s : STy P) : Stage → Option (St P × Ret P)
  | .connect => some (st, .err)
  | .clone => some ({ st with nudp := st.nudp + 1 }, .err)
  | .spawn =>
    match Heap.step G st.heap (.new s) with
    | some (h1, _) =>
      match h1.pool with
      | there :: here :: _ =>
        (dropAll G h1 [there, here]).map fun h2 => ({ st with heap := h2, nudp := st.nudp + 1 }, .panic)
      | _ => none
    | none => none
  | .done =>
    match Heap.step G st.heap (.new s) with
    | some (h1, _) =>
      match h1.pool with
      | there :: here :: _ =>
        some (setUdp { st with heap := h1, nudp := st.nudp + 1 } st.nudp fun _ => { noDgram with free := 2 },
          .okFork there here st.nudp)
      | _ => none
    | none => none

/-- The beginning of `send_tcp`, `tcp/send.rs:27-53`. -/
def sendTcp (G : Env P) (st : St P) (t : Nat) (e : Entry P) (x : Val) (data : List UInt8) (c : Nat) (tcp : Bool) :
    Option (St P × Ret P) :=
  if isIdle st t && (data.length == size) && decide (0 < (st.tcp c).free) && free st (e.ep :: x.eps) then
    match chanSend G st.heap e x data with
    | some (.inl h) => some (takeTcp { st with heap := h } c, .panic)
    | some (.inr (h, here)) =>
      if tcp then some (enter (takeTcp { st with heap := h } c) t (.writing c data here), .waits)
      else some ({ st with heap := h }, .okSend here)
    | none => none
  else none

/-- One `write` of `stream.write_all(data)?`, `tcp/send.rs:45`: `n` bytes are accepted.  After the last one
`Ok((here, stream))`, `tcp/send.rs:46`. -/
def write (st : St P) (t n : Nat) : Option (St P × Ret P) :=
  match st.thr t with
  | .writing c rest here =>
    if 0 < n ∧ n ≤ rest.length ∧ (st.tcp c).shut = false ∧ (st.tcp c).broken = false then
      let st1 := setTcp st c fun s => { s with sent := s.sent ++ rest.take n }
      if n = rest.length then some (giveTcp (leave st1 t) c, .okSend here)
      else some ({ st1 with thr := Heap.upd st1.thr t (.writing c (rest.drop n) here) }, .waits)
    else none
  | _ => none

/-- `write_all` fails, `tcp/send.rs:45`: `here` and the stream are dropped. -/
def writeErr (G : Env P) (st : St P) (t : Nat) : Option (St P × Ret P) :=
  match st.thr t with
  | .writing _ _ here => (dropAll G st.heap [here]).map fun h => ({ leave st t with heap := h }, .err)
  | _ => none

/-- The beginning of `recv_tcp`, `tcp/recv.rs:28-46`. -/
def recvTcp (G : Env P) (st : St P) (t : Nat) (e : Entry P) (c : Nat) (tcp : Bool) : Option (St P × Ret P) :=
  if isIdle st t && decide (0 < (st.tcp c).free) && free st [e.ep] then
    match chanRecv G st.heap e with
    | some (.inl h) => some (takeTcp { st with heap := h } c, .err)
    | some (.inr (h, x, es)) =>
      if tcp then some (enter (takeTcp { st with heap := h } c) t (.reading c [] x es), .waits)
      else some ({ st with heap := h }, .okRecv x es zeros)
    | none => none
  else none

/-- One `read` of `stream.read_exact(&mut data)?`, `tcp/recv.rs:42`: `n` bytes.  When the array is full,
`Ok((v.0, s, data, stream))`, `tcp/recv.rs:46`. -/
def read (st : St P) (t n : Nat) : Option (St P × Ret P) :=
  match st.thr t with
  | .reading c buf x es =>
    if 0 < n ∧ n ≤ size - buf.length ∧ (st.tcp c).taken + n ≤ (st.tcp c).arrived.length then
      let buf1 := buf ++ ((st.tcp c).arrived.drop (st.tcp c).taken).take n
      let st1 := setTcp st c fun s => { s with taken := s.taken + n }
      if buf1.length = size then some (giveTcp (leave st1 t) c, .okRecv x es buf1)
      else some ({ st1 with thr := Heap.upd st1.thr t (.reading c buf1 x es) }, .waits)
    else none
  | _ => none

/-- `read_exact` fails, `tcp/recv.rs:42`: the value, the continuation and the stream are dropped. -/
def readErr (G : Env P) (st : St P) (t : Nat) : Option (St P × Ret P) :=
  match st.thr t with
  | .reading _ _ _ es => (dropAll G st.heap es).map fun h => ({ leave st t with heap := h }, .err)
  | _ => none

/-- `read` returns `Ok(0)`: `read_exact` fails with `UnexpectedEof`. -/
def readEnd (G : Env P) (st : St P) (t : Nat) : Option (St P × Ret P) :=
  match st.thr t with
  | .reading c _ _ _ =>
    if (st.tcp c).taken = (st.tcp c).arrived.length ∧ ((st.tcp c).ended || (st.tcp c).shut) = true then readErr G st t
    else none
  | _ => none

/-- `s.sender.send(Signal::Stop)?` of `close_tcp`, `tcp/close.rs:23-24`. -/
def closeTcp (G : Env P) (st : St P) (t : Nat) (e : Entry P) (c : Nat) (tcp : Bool) : Option (St P × Ret P) :=
  if isIdle st t && decide (0 < (st.tcp c).free) && free st [e.ep] then
    match Heap.step G st.heap (.sigSend e .stop) with
    | some (h, .unit) => some (enter (takeTcp { st with heap := h } c) t (.closing c tcp e), .waits)
    | some (h, .err) => (dropAll G h [e]).map fun h' => (takeTcp { st with heap := h' } c, .err)
    | _ => none
  else none

/-- The `End` inside a signal. -/
def ends : Sig → List (Entry P)
  | .offer f => [⟨f, .fin⟩]
  | _ => []

/-- `s.receiver.recv()?` and the rest of `close_tcp`, `tcp/close.rs:25-34`: any signal will do (an `End` inside it is
dropped); with `tcp` the stream is shut down, errors ignored. -/
def closeWait (G : Env P) (st : St P) (t : Nat) (shutOk : Bool) : Option (St P × Ret P) :=
  match st.thr t with
  | .closing c tcp e =>
    match Heap.step G st.heap (.sigRecv e) with
    | some (h, .signal s) =>
      match dropAll G h (ends s ++ [e]) with
      | none => none
      | some h' =>
        if tcp then (shutdown (st.tcp c) shutOk).map fun s' =>
          (setTcp { leave st t with heap := h' } c fun _ => s', .ok)
        else some ({ leave st t with heap := h' }, .ok)
    | some (h, .err) => (dropAll G h [e]).map fun h' => ({ leave st t with heap := h' }, .err)
    | _ => none
  | _ => none

/-- `cancel_tcp`, `tcp/cancel.rs:40-44`: `mem::drop(s); stream.shutdown(Shutdown::Both).unwrap(); mem::drop(stream)`. -/
def cancelTcp (G : Env P) (st : St P) (t : Nat) (e : Entry P) (c : Nat) (shutOk : Bool) : Option (St P × Ret P) :=
  if isIdle st t && decide (0 < (st.tcp c).free) && free st [e.ep] then
    match dropAll G st.heap [e] with
    | none => none
    | some h => (shutdown (st.tcp c) shutOk).map fun s' =>
      (takeTcp (setTcp { st with heap := h } c fun _ => s') c, if shutOk then .ok else .panic)
  else none

/-- `send_udp`, `udp/send.rs:25-47`.  A datagram is sent as a whole (`ok`) or not at all. -/
def sendUdp (G : Env P) (st : St P) (t : Nat) (e : Entry P) (x : Val) (data : List UInt8) (u : Nat) (udp ok : Bool) :
    Option (St P × Ret P) :=
  if isIdle st t && (data.length == size) && decide (0 < (st.udp u).free) && free st (e.ep :: x.eps) then
    match chanSend G st.heap e x data with
    | some (.inl h) => some (takeUdp { st with heap := h } u, .panic)
    | some (.inr (h, here)) =>
      if udp then
        if ok then some (setUdp { st with heap := h } u fun s => { s with sent := s.sent ++ [data] },
          .okSendUdp here data.length)
        else (dropAll G h [here]).map fun h' => (takeUdp { st with heap := h' } u, .err)
      else some ({ st with heap := h }, .okSendUdp here 0)
    | none => none
  else none

/-- The beginning of `recv_udp`, `udp/recv.rs:27-42`. -/
def recvUdp (G : Env P) (st : St P) (t : Nat) (e : Entry P) (u : Nat) (udp : Bool) : Option (St P × Ret P) :=
  if isIdle st t && decide (0 < (st.udp u).free) && free st [e.ep] then
    match chanRecv G st.heap e with
    | some (.inl h) => some (takeUdp { st with heap := h } u, .err)
    | some (.inr (h, x, es)) =>
      if udp then some (enter (takeUdp { st with heap := h } u) t (.taking u x es), .waits)
      else some ({ st with heap := h }, .okRecvUdp x es zeros 0)
    | none => none
  else none

/-- `socket.recv(&mut data)?`, `udp/recv.rs:37-42`: the next datagram is copied over the beginning of the array; what does
not fit is discarded. -/
def take (st : St P) (t : Nat) : Option (St P × Ret P) :=
  match st.thr t with
  | .taking u x es =>
    match (st.udp u).arrived[(st.udp u).taken]? with
    | none => none
    | some d =>
      some (giveUdp (leave (setUdp st u fun s => { s with taken := s.taken + 1 }) t) u,
        .okRecvUdp x es (d.take size ++ zeros.drop d.length) (min d.length size))
  | _ => none

/-- `socket.recv` fails, `udp/recv.rs:39`. -/
def takeErr (G : Env P) (st : St P) (t : Nat) : Option (St P × Ret P) :=
  match st.thr t with
  | .taking _ _ es => (dropAll G st.heap es).map fun h => ({ leave st t with heap := h }, .err)
  | _ => none

/-- `cancel_udp`, `udp/cancel.rs:39-42`. -/
def cancelUdp (G : Env P) (st : St P) (t : Nat) (e : Entry P) (u : Nat) : Option (St P × Ret P) :=
  if isIdle st t && decide (0 < (st.udp u).free) && free st [e.ep] then
    (dropAll G st.heap [e]).map fun h => (takeUdp { st with heap := h } u, .ok)
  else none

/-- One step; `none` if it is not possible (the call waits, or the compiler rejects it). -/
def step (G : Env P) (st : St P) : Act P → Option (St P × Ret P)
  | .api op =>
    if free st (opEps op) then (Heap.step G st.heap op).map fun r => ({ st with heap := r.1 }, .api r.2) else none
  | .forkTcp s g => forkTcp G st s g
  | .cloneTcp c => if 0 < (st.tcp c).free then some (giveTcp st c, .none) else none
  | .dropTcp c => if 0 < (st.tcp c).free then some (takeTcp st c, .none) else none
  | .sendTcp t e x data c tcp => sendTcp G st t e x data c tcp
  | .write t n => write st t n
  | .writeErr t => writeErr G st t
  | .recvTcp t e c tcp => recvTcp G st t e c tcp
  | .read t n => read st t n
  | .readEnd t => readEnd G st t
  | .readErr t => readErr G st t
  | .closeTcp t e c tcp => closeTcp G st t e c tcp
  | .closeWait t b => closeWait G st t b
  | .cancelTcp t e c b => cancelTcp G st t e c b
  | .arrive c bs =>
    if c < st.ntcp ∧ (st.tcp c).ended = false then
      some (setTcp st c fun s => { s with arrived := s.arrived ++ bs }, .none)
    else none
  | .finish c => if c < st.ntcp then some (setTcp st c fun s => { s with ended := true }, .none) else none
  | .reset c => if c < st.ntcp then some (setTcp st c fun s => { s with broken := true }, .none) else none
  | .forkUdp s g => forkUdp G st s g
  | .cloneUdp u => if 0 < (st.udp u).free then some (giveUdp st u, .none) else none
  | .dropUdp u => if 0 < (st.udp u).free then some (takeUdp st u, .none) else none
  | .sendUdp t e x data u udp ok => sendUdp G st t e x data u udp ok
  | .recvUdp t e u udp => recvUdp G st t e u udp
  | .take t => take st t
  | .takeErr t => takeErr G st t
  | .cancelUdp t e u => cancelUdp G st t e u
  | .deliver u d =>
    if u < st.nudp then some (setUdp st u fun s => { s with arrived := s.arrived ++ [d] }, .none) else none

/-- A run from the beginning of the program: the steps and what they gave. -/
inductive Run (G : Env P) : List (Act P × Ret P) → St P → Prop
  | init : Run G [] (init P)
  | snoc {ls st a r st'} : Run G ls st → step G st a = some (st', r) → Run G (ls ++ [(a, r)]) st'

end Verif.Transport
