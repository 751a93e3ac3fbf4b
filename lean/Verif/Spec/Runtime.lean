import Verif.Model.Runtime
/-!
# Specification: what can come of a call
-/
namespace Verif.Runtime
open Verif.Heap (Op Out)

/-- The outcomes a user hopes for: sends and the signals of `close` are delivered, receives return a value or wait, the
signal received is `Stop`.  In particular no error, and no call that the types forbid. -/
def Fine : Op Pay → Out → Prop
  | .send _ _, o => o = .unit
  | .recv _, o => (∃ v, o = .value v) ∨ o = .block
  | .sigSend _ _, o => o = .unit
  | .sigRecv _, o => o = .signal .stop ∨ o = .block
  | _, _ => False

/-- Role `r` can take its next step. -/
def CanGo (Y : Mesh.Sys) (s : RS) (r : Nat) : Prop := ∃ l s', l.actor = some r ∧ RStep Y s.heap s.pos l s'

/-- Role `r` is waiting: the call it makes is a receive and there is nothing to receive. -/
def Waits (Y : Mesh.Sys) (s : RS) (r : Nat) : Prop :=
  ∃ op, Call Y r (s.pos r) op ∧ Heap.step (env Y) s.heap op = some (s.heap, .block)

/-- All roles have returned from `close`. -/
def AllClosed (Y : Mesh.Sys) (s : RS) : Prop := ∀ r, 1 ≤ r → r ≤ Y.n → s.pos r = .closed

/-- An endless schedule: at every moment one step is taken, or none. -/
structure RSchedule (Y : Mesh.Sys) (root : Mesh.Name) (σ : Nat → RS) (lab : Nat → Option RLabel) : Prop where
  start : Start Y root (σ 0)
  step : ∀ k, (∃ l, lab k = some l ∧ RStep Y (σ k).heap (σ k).pos l (σ (k + 1))) ∨ (lab k = none ∧ σ (k + 1) = σ k)

/-- Role `r` takes a step at moment `k`. -/
def RMoves (lab : Nat → Option RLabel) (r k : Nat) : Prop := ∃ l, lab k = some l ∧ l.actor = some r

/-- The scheduler is fair: a role that can go on from now on for ever, does.  Nothing is asked about drops. -/
def RFair (Y : Mesh.Sys) (σ : Nat → RS) (lab : Nat → Option RLabel) : Prop :=
  ∀ r k, (∀ j, k ≤ j → CanGo Y (σ j) r) → ∃ j, k ≤ j ∧ RMoves lab r j

/-- Role `r` has come to the end of its stack, so that nothing is left to do but `close`. -/
def AtEnd (s : RS) (r : Nat) : Prop :=
  (∃ sl, s.pos r = .mesh sl .fin) ∨ (∃ i sl, s.pos r = .ending i sl) ∨ s.pos r = .closed

end Verif.Runtime
