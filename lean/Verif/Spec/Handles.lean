import Verif.Model.Transport
/-!
# Handles of sockets, as a client counts them

From the calls of a run and what they returned only.
-/
namespace Verif.Transport
open Verif.Heap (Entry)

/-- A socket. -/
inductive Sock where
  | tcp (c : Nat)
  | udp (u : Nat)
  deriving DecidableEq, Repr

/-- What a client writes down: the socket of the last call that each thread has begun and that did not return at once; how many handles of each socket it has been
given, by a fork or a clone; and how many are gone. -/
structure Ledger where
  begun : Nat → Option Sock
  made : Sock → Nat
  gone : Sock → Nat

def Ledger.make (L : Ledger) (s : Sock) (n : Nat) : Ledger := { L with made := fun x => if x = s then L.made x + n else L.made x }

def Ledger.lose (L : Ledger) (s : Sock) : Ledger := { L with gone := fun x => if x = s then L.gone x + 1 else L.gone x }

variable {P : Type}

/-- The call gives no handle back: it has closed or cancelled the session, failed, or panicked. -/
def Ret.keeps : Ret P → Bool
  | .ok | .err | .panic => true
  | _ => false

/-- Thread `t` calls a function with a handle of `s`. -/
def Ledger.call (L : Ledger) (t : Nat) (s : Sock) (r : Ret P) : Ledger :=
  match r with
  | .waits => { L with begun := fun x => if x = t then some s else L.begun x }
  | r => if r.keeps then L.lose s else L

/-- The call of thread `t` goes on, or returns. -/
def Ledger.goes (L : Ledger) (t : Nat) (r : Ret P) : Ledger :=
  if r.keeps then match L.begun t with
    | some s => L.lose s
    | none => L
  else L

/-- One more step. -/
def Ledger.note (L : Ledger) : Act P × Ret P → Ledger
  | (.forkTcp _ _, .okFork _ _ c) => L.make (.tcp c) 2
  | (.forkUdp _ _, .okFork _ _ u) => L.make (.udp u) 2
  | (.cloneTcp c, _) => L.make (.tcp c) 1
  | (.cloneUdp u, _) => L.make (.udp u) 1
  | (.dropTcp c, _) => L.lose (.tcp c)
  | (.dropUdp u, _) => L.lose (.udp u)
  | (.sendTcp t _ _ _ c _, r) => L.call t (.tcp c) r
  | (.recvTcp t _ c _, r) => L.call t (.tcp c) r
  | (.closeTcp t _ c _, r) => L.call t (.tcp c) r
  | (.cancelTcp t _ c _, r) => L.call t (.tcp c) r
  | (.sendUdp t _ _ _ u _ _, r) => L.call t (.udp u) r
  | (.recvUdp t _ u _, r) => L.call t (.udp u) r
  | (.cancelUdp t _ u, r) => L.call t (.udp u) r
  | (.write t _, r) => L.goes t r
  | (.writeErr t, r) => L.goes t r
  | (.read t _, r) => L.goes t r
  | (.readEnd t, r) => L.goes t r
  | (.readErr t, r) => L.goes t r
  | (.closeWait t _, r) => L.goes t r
  | (.take t, r) => L.goes t r
  | (.takeErr t, r) => L.goes t r
  | _ => L

/-- What has been written down during a run. -/
def ledger (run : List (Act P × Ret P)) : Ledger := run.foldl Ledger.note ⟨fun _ => none, fun _ => 0, fun _ => 0⟩

/-- Handles in the hands of the clients. -/
def handles (st : St P) : Sock → Nat
  | .tcp c => (st.tcp c).free
  | .udp u => (st.udp u).free

/-- The socket whose handle is inside the call. -/
def Call.sock : Call P → Option Sock
  | .idle => none
  | .writing c _ _ => some (.tcp c)
  | .reading c _ _ _ => some (.tcp c)
  | .closing c _ _ => some (.tcp c)
  | .taking u _ _ => some (.udp u)

/-- A handle is somewhere: the operating system keeps the socket open. -/
def Opened (st : St P) (s : Sock) : Prop := 0 < handles st s ∨ ∃ t, (st.thr t).sock = some s

end Verif.Transport
