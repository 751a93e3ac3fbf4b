import Verif.Model.Heap
/-!
# Specification: a session as two unbounded FIFO queues

The specification of a binary session: one queue per direction.  `send` on side `b` appends to the queue
read by the other side; `recv` on side `b` must return the head of the queue read by `b`.
-/
namespace Verif.Spec
open Verif.Heap

/-- `Q sid b`: the values (with their types) that side `b` of session `sid` still has to receive. -/
abbrev Queues (P : Type) := Nat → Bool → List (P × Val)

def setQ {P : Type} (Q : Queues P) (s : Nat) (b : Bool) (q : List (P × Val)) : Queues P :=
  fun s' b' => if s' = s ∧ b' = b then q else Q s' b'

/-- One visible event; `none` if the specification forbids it. -/
def fifoStep {P : Type} [DecidableEq P] (Q : Queues P) : Ev P → Option (Queues P)
  | .sent s b t v => some (setQ Q s (!b) (Q s (!b) ++ [(t, v)]))
  | .rcvd s b t v =>
    match Q s b with
    | [] => none
    | m :: q => if m = (t, v) then some (setQ Q s b q) else none

/-- A sequence of events, from empty queues. -/
def fifoRun {P : Type} [DecidableEq P] (Q : Queues P) : List (Ev P) → Option (Queues P)
  | [] => some Q
  | ev :: evs => match fifoStep Q ev with
    | none => none
    | some Q' => fifoRun Q' evs

def noMsgs (P : Type) : Queues P := fun _ _ => []

/-- Values passed to `send` on side `b` of session `s`, in order. -/
def sentBy {P : Type} (s : Nat) (b : Bool) (tr : List (Ev P)) : List (P × Val) :=
  tr.filterMap fun
    | .sent s' b' t v => if s' = s ∧ b' = b then some (t, v) else none
    | .rcvd _ _ _ _ => none

/-- Values returned by `recv` on side `b` of session `s`, in order. -/
def rcvdBy {P : Type} (s : Nat) (b : Bool) (tr : List (Ev P)) : List (P × Val) :=
  tr.filterMap fun
    | .rcvd s' b' t v => if s' = s ∧ b' = b then some (t, v) else none
    | .sent _ _ _ _ => none

end Verif.Spec
