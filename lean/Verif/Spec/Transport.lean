import Verif.Model.Transport
/-!
# Specification vocabulary of the transports

What the calls of a run were and what they returned, read off the run alone; and how the bytes of a connection are
shared out among the calls.
-/
namespace Verif.Spec
open Verif.Transport
open Verif.Heap (Val)

variable {P : Type}

/-- A call that uses the socket: its thread, the bytes given to it (for a receiving call: none), and, once it has returned,
whether it returned `Ok` and the bytes it returned (for a sending call: none). -/
structure Use where
  thread : Nat
  given : List UInt8
  result : Option (Option (List UInt8))
  deriving DecidableEq, Repr

/-- The call of thread `t` returns. -/
def returns (t : Nat) (r : Option (List UInt8)) (us : List Use) : List Use :=
  us.map fun u => if u.thread = t ∧ u.result = none then { u with result := some r } else u

/-- One step: a call of `send_tcp` with `tcp = true` on a clone of the stream `c` goes on to the socket, or such a call returns. -/
def sendUse (c : Nat) (us : List Use) : Act P × Ret P → List Use
  | (.sendTcp t _ _ data c' true, .waits) => if c' = c then us ++ [⟨t, data, none⟩] else us
  | (.write t _, .okSend _) => returns t (some []) us
  | (.writeErr t, .err) => returns t none us
  | _ => us

/-- The calls `send_tcp(x, data, s, stream, true)` on clones of the stream `c` that got as far as the socket, in the order in
which they were made. -/
def sendsOn (c : Nat) (run : List (Act P × Ret P)) : List Use := run.foldl (sendUse c) []

def recvUse (c : Nat) (us : List Use) : Act P × Ret P → List Use
  | (.recvTcp t _ c' true, .waits) => if c' = c then us ++ [⟨t, [], none⟩] else us
  | (.read t _, .okRecv _ _ data) => returns t (some data) us
  | (.readErr t, .err) => returns t none us
  | (.readEnd t, .err) => returns t none us
  | _ => us

/-- The calls `recv_tcp(s, stream, true)` on clones of the stream `c` that got as far as the socket. -/
def recvsOn (c : Nat) (run : List (Act P × Ret P)) : List Use := run.foldl (recvUse c) []

/-- The bytes of a sequence that belong to call number `i`. -/
def bytesOf (i : Nat) (l : List (Nat × UInt8)) : List UInt8 := (l.filter fun p => p.1 = i).map (·.2)

/-- The bytes `bs` are shared out among the calls `us`: every byte belongs to one call. -/
structure Shares (us : List Use) (bs : List UInt8) (l : List (Nat × UInt8)) : Prop where
  bytes : l.map (·.2) = bs
  calls : ∀ p ∈ l, p.1 < us.length

/-- The bytes of each call come one after the other, in the order of the calls. -/
def InOrder (l : List (Nat × UInt8)) : Prop := l.Pairwise fun p q => p.1 ≤ q.1

/-- All calls are made by one thread. -/
def OneThread (us : List Use) : Prop := ∃ t, ∀ u ∈ us, u.thread = t

/-- All calls have returned `Ok`. -/
def EachOk (us : List Use) : Prop := ∀ u ∈ us, ∃ d, u.result = some (some d)

/-- The data returned by the calls that have returned `Ok`. -/
def dataOf (us : List Use) : List (List UInt8) := us.filterMap fun u => u.result.join

/-- A call of `recv_tcp`, `recv_udp` or `recv` that found a message in the channel: its thread, the side of the session it
was made on, and, once it has returned, the value it returned with `Ok`. -/
structure Recv where
  thread : Nat
  sid : Nat
  side : Bool
  result : Option (Option Val)
  deriving DecidableEq, Repr

/-- The call of thread `t` returns. -/
def returnsVal (t : Nat) (r : Option Val) (us : List Recv) : List Recv :=
  us.map fun u => if u.thread = t ∧ u.result = none then { u with result := some r } else u

def valUse (us : List Recv) : Act P × Ret P → List Recv
  | (.recvTcp t e _ _, .waits) => us ++ [⟨t, e.ep.sid, e.ep.side, none⟩]
  | (.recvTcp t e _ _, .okRecv x _ _) => us ++ [⟨t, e.ep.sid, e.ep.side, some (some x)⟩]
  | (.recvUdp t e _ _, .waits) => us ++ [⟨t, e.ep.sid, e.ep.side, none⟩]
  | (.recvUdp t e _ _, .okRecvUdp x _ _ _) => us ++ [⟨t, e.ep.sid, e.ep.side, some (some x)⟩]
  | (.api (.recv e), .api (.value v)) => us ++ [⟨0, e.ep.sid, e.ep.side, some (some (fst v))⟩]
  | (.read t _, .okRecv x _ _) => returnsVal t (some x) us
  | (.take t, .okRecvUdp x _ _ _) => returnsVal t (some x) us
  | (.readErr t, .err) => returnsVal t none us
  | (.readEnd t, .err) => returnsVal t none us
  | (.takeErr t, .err) => returnsVal t none us
  | _ => us

/-- The receiving calls on side `b` of session `s` that found a message, in order. -/
def received (s : Nat) (b : Bool) (run : List (Act P × Ret P)) : List Recv :=
  (run.foldl valUse []).filter fun u => u.sid = s ∧ u.side = b

/-- The value `x` a sending call was given, and the side of the session it was made on. -/
def gives : Act P × Ret P → Option (Nat × Bool × Val)
  | (.sendTcp _ e x _ _ _, _) => some (e.ep.sid, e.ep.side, x)
  | (.sendUdp _ e x _ _ _ _, _) => some (e.ep.sid, e.ep.side, x)
  | (.api (.send e v), _) => some (e.ep.sid, e.ep.side, fst v)
  | _ => none

/-- The values given to sending calls on side `b` of session `s`, in order. -/
def given (s : Nat) (b : Bool) (run : List (Act P × Ret P)) : List Val :=
  (run.filterMap gives).filterMap fun p => if p.1 = s ∧ p.2.1 = b then some p.2.2 else none

/-- The datagrams given to `send_udp(x, data, s, socket, true)` calls that returned `Ok`. -/
def sendsUdp (u : Nat) (run : List (Act P × Ret P)) : List (List UInt8) := run.filterMap fun
  | (.sendUdp _ _ _ data u' true _, .okSendUdp _ _) => if u' = u then some data else none
  | _ => none

/-- The threads inside `recv_udp(s, socket, true)` on clones of `u`, and the data and numbers such calls have
returned with `Ok`, in the order in which they have returned. -/
def takeUse (u : Nat) (s : List Nat × List (List UInt8 × Nat)) : Act P × Ret P → List Nat × List (List UInt8 × Nat)
  | (.recvUdp t _ u' true, .waits) => if u' = u then (t :: s.1, s.2) else s
  | (.take t, .okRecvUdp _ _ data n) => if t ∈ s.1 then (s.1.erase t, s.2 ++ [(data, n)]) else s
  | (.takeErr t, .err) => (s.1.erase t, s.2)
  | _ => s

def takesUdp (u : Nat) (run : List (Act P × Ret P)) : List (List UInt8 × Nat) := (run.foldl (takeUse u) ([], [])).2

/-- The array of `n` bytes `data` holds the datagram `d`, cut if it is too long and followed by zeros; `k` is the
number of bytes of the datagram in it. -/
structure InArray (n : Nat) (d data : List UInt8) (k : Nat) : Prop where
  length : data.length = n
  count : k = min d.length n
  bytes : data.take k = d.take k
  rest : ∀ b ∈ data.drop k, b = 0

end Verif.Spec
