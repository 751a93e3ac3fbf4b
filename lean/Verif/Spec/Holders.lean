import Verif.Model.Heap
import Verif.Spec.Fifo
/-!
# Specification vocabulary: who holds what

Plain definitions used in the statements of the properties of the binary layer.
-/
namespace Verif.Heap
open Verif.Types

/-- The type of an endpoint after its next step. -/
def STy.cont {P : Type} : STy P → STy P
  | .send _ _ s => s
  | .recv _ _ s => s
  | .fin => .fin

/-- The type of an endpoint after `n` more steps. -/
def dropK {P : Type} : Nat → STy P → STy P
  | 0, s => s
  | n + 1, s => STy.cont (dropK n s)

/-- The type of side `b` of a session created by `new()` with type `s` (side `true` is the first
endpoint returned). -/
def view {P : Type} (b : Bool) (s : STy P) : STy P := if b then s else s.dual

/-- `f 0 + .. + f (n-1)`. -/
def sumTo : Nat → (Nat → Nat) → Nat
  | 0, _ => 0
  | n + 1, f => sumTo n f + f n

/-- The resources in the hands of client code. -/
def poolToks {P : Type} (p : List (Entry P)) : List Tok := p.flatMap (fun e => e.ep.toks)

/-- Number of holders of a resource: client code, undelivered messages, pending drops. -/
def cnt {P : Type} (st : St P) (t : Tok) : Nat :=
  (poolToks st.pool).count t + sumTo st.next (fun c => (bufToks (st.chan c)).count t) + st.garb.count t

/-- Endpoints inside a message, without the continuation of the session itself. -/
def msgPrin {P : Type} (G : Env P) : Kind P → Msg → List (Entry P)
  | .data _ t _, .data v _ => entries v.eps ((G t v.tag).getD [])
  | .sig, .sig (.offer e) => [⟨e, .fin⟩]
  | _, _ => []

/-- Endpoints passed as values inside the undelivered message of a channel. -/
def bufPrin {P : Type} (G : Env P) (ch : Chan P) : List (Entry P) :=
  match ch.buf with
  | some m => msgPrin G ch.kind m
  | none => []

/-- The current endpoint of a side of a session: held by client code or being passed as a value. -/
def Prin {P : Type} (G : Env P) (st : St P) (e : Entry P) : Prop :=
  e ∈ st.pool ∨ ∃ c, c < st.next ∧ e ∈ bufPrin G (st.chan c)

/-- Any number of API calls, by any threads. -/
inductive Steps {P : Type} [DecidableEq P] (G : Env P) : St P → St P → Prop
  | refl (st : St P) : Steps G st st
  | step {st st1 st2 : St P} {op : Op P} {o : Out} : Steps G st st1 → step G st1 op = some (st2, o) → Steps G st st2

end Verif.Heap

namespace Verif.Spec
open Verif.Heap Verif.Types

/-- The other half of the same channel. -/
def mirror : Tok → Tok
  | .tx c => .rx c
  | .rx c => .tx c
  | .idn s b => .idn s (!b)

/-- Two endpoints are connected: each half of one is the opposite half of the other. -/
def Joined (a b : EP) : Prop := (a.halves.map mirror).Perm b.halves

/-- What side `b` of session `s` still has to receive: sent by the other side, minus already received. -/
def pending {P : Type} (tr : List (Ev P)) (s : Nat) (b : Bool) : List (P × Val) :=
  (sentBy s (!b) tr).drop (rcvdBy s b tr).length

/-- What a session type prescribes: who sends (`true`: the side of this type), and which payload type. -/
def acts {P : Type} : STy P → List (Bool × P)
  | .send _ t s => (true, t) :: acts s
  | .recv _ t s => (false, t) :: acts s
  | .fin => []

/-- What happened on a session: who sent, and which payload type. -/
def sends {P : Type} (s : Nat) (tr : List (Ev P)) : List (Bool × P) :=
  tr.filterMap fun
    | .sent s' b t _ => if s' = s then some (b, t) else none
    | .rcvd _ _ _ _ => none

/-- A half that client code can still reach: held directly, or inside an undelivered message whose receiver
can be reached. -/
inductive Live {P : Type} (st : St P) : Tok → Prop
  | pool {e : Entry P} {t : Tok} : e ∈ st.pool → t ∈ e.ep.halves → Live st t
  | msg {c : Nat} {t : Tok} : t ∈ bufToks (st.chan c) → Live st (.rx c) → Live st t

/-- A half that will be dropped: its drop is in progress, or it is inside an undelivered message whose
receiver will be dropped. -/
inductive Doomed {P : Type} (st : St P) : Tok → Prop
  | now {t : Tok} : t ∈ st.garb → Doomed st t
  | msg {c : Nat} {t : Tok} : t ∈ bufToks (st.chan c) → Doomed st (.rx c) → Doomed st t

/-- Carrying out pending drops, in any order, `n` of them. -/
inductive Drains {P : Type} [DecidableEq P] (G : Env P) (st : St P) : Nat → St P → Prop
  | refl : Drains G st 0 st
  | step {n : Nat} {st1 st2 : St P} {i : Nat} {o : Out} : Drains G st n st1 →
      step G st1 (.gc i) = some (st2, o) → Drains G st (n + 1) st2

/-- No endpoint is passed over a channel older than the endpoint's own channels.  This is how all the choice
functions of the library use endpoints (they are created just before being passed). -/
def Fresh {P : Type} : Op P → Prop
  | .send e v => ∀ c, e.ep.node = .snd c → ∀ f ∈ v.eps, ∀ c', Tok.rx c' ∈ f.halves → c < c'
  | .sigSend e (.offer f) => ∀ t r, e.ep.node = .fin t r → ∀ c', Tok.rx c' ∈ f.halves → t < c'
  | _ => True

/-- States reachable when every call is `Fresh`. -/
inductive FreshReach {P : Type} [DecidableEq P] (G : Env P) : St P → Prop
  | init : FreshReach G (init P)
  | step {st st' : St P} {op : Op P} {o : Out} : FreshReach G st → Fresh op →
      step G st op = some (st', o) → FreshReach G st'

end Verif.Spec
