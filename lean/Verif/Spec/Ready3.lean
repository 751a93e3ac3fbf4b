import Verif.Model.Ready3
import Verif.Spec.Wiring
import Verif.Spec.Indexed
/-!
# Specification of the ready-made operations for three roles (C61)
-/
namespace Verif.Ready3
open Verif.Indexed Verif.Hand3

/-- Values for the stack parameters `R`, `R1`, .. of a signature. -/
def inst (ρ : Nat → Stk) : Stk → Stk
  | .var k => ρ k
  | .fin => .fin
  | .role a r => .role a (inst ρ r)
  | .two a l r => .two a (inst ρ l) (inst ρ r)

/-- The operation can be called on a mesh with this stack and this name, as far as these two decide. -/
def Accepts (f : Fn) (stack : Stk) (name : Str) : Prop := (∃ ρ, inst ρ f.stack = stack) ∧ f.name = name

/-- `slots` are the sessions of a mesh of a three-role session, `v e` being the session at endpoint `e`. -/
def Holds {α : Type} (m : Gen.MeshV) (v : Gen.EP → α) (slots : List α) : Prop :=
  slots.length = 2 ∧ ∀ i e, 1 ≤ i → m.slot i = some e → slots[i - 1]? = some (v e)

/-- Running `f` on these sessions communicates on session `i` and on no other: the outcome of the communication `comm` of
session `i` is the outcome of the call, and if it succeeds the mesh that is handed on (for offers: dropped) has the
continuation there and everything else as it was. -/
def CommunicatesOn {E α X K : Type} (f : Fn) (o : Ops E α X K) (x : Option X)
    (comm : α → Option (Except E (Option X × α))) (pop : K → Option K) (i : Nat) : Prop :=
  ∀ (slots : List α) (stack : K) (s : α), slots.length = 2 → slots[i - 1]? = some s →
    (∀ e, comm s = some (.error e) → f.call o x slots stack = some (.error e)) ∧
    (∀ got s' q, comm s = some (.ok (got, s')) → pop stack = some q →
      f.call o x slots stack = some (.ok ⟨fieldsOf (slots.set (i - 1) s'), q, got⟩))

/-- Sending `x`, as a communication. -/
def sendComm {E α X K : Type} (o : Ops E α X K) (x : X) (s : α) : Option (Except E (Option X × α)) :=
  (o.send x s).map fun r => r.map fun s' => (none, s')

/-- Receiving, as a communication. -/
def recvComm {E α X K : Type} (o : Ops E α X K) (s : α) : Option (Except E (Option X × α)) :=
  (o.recv s).map fun r => r.map fun p => (some p.1, p.2)

end Verif.Ready3
