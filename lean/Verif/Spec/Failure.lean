import Verif.Model.Failure
import Verif.Spec.Runtime
/-!
# Specification: what can come of a call when roles fail
-/
namespace Verif.Runtime
open Verif.Heap (Op Out)

/-- The outcomes of a call in the presence of failures: those hoped for, or an error; sends never return an error. -/
def Graceful : Op Pay → Out → Prop
  | .send _ _, o => o = .unit
  | op, o => Fine op o ∨ o = .err

/-- Role `r` can take a step, or give up after an error. -/
def FGo (Y : Mesh.Sys) (s : FS) (r : Nat) : Prop :=
  ∃ l s', l.actor = some r ∧ (∀ x, l ≠ .crash x) ∧ FStep Y s l s'

/-- Role `r` waits. -/
def FWaits (Y : Mesh.Sys) (s : FS) (r : Nat) : Prop := Waits Y ⟨s.heap, s.pos⟩ r

/-- All roles have failed or returned from `close`. -/
def Over (Y : Mesh.Sys) (s : FS) : Prop := ∀ r, 1 ≤ r → r ≤ Y.n → s.dead r = true ∨ s.pos r = .closed

/-- Somebody has failed. -/
def SomeDead (Y : Mesh.Sys) (s : FS) : Prop := ∃ r, 1 ≤ r ∧ r ≤ Y.n ∧ s.dead r = true

/-- Role `r` is at the end of its stack, or was when it failed: nothing was left to do but `close`. -/
def FAtEnd (s : FS) (r : Nat) : Prop := AtEnd ⟨s.heap, s.pos⟩ r

/-- An endless schedule: at every moment one step is taken, or none. -/
structure FSchedule (Y : Mesh.Sys) (root : Mesh.Name) (σ : Nat → FS) (lab : Nat → Option FLabel) : Prop where
  start : Start Y root ⟨(σ 0).heap, (σ 0).pos⟩ ∧ (σ 0).dead = nobody
  step : ∀ k, (∃ l, lab k = some l ∧ FStep Y (σ k) l (σ (k + 1))) ∨ (lab k = none ∧ σ (k + 1) = σ k)

/-- Role `r` takes a step at moment `k`. -/
def FMoves (lab : Nat → Option FLabel) (r k : Nat) : Prop := ∃ l, lab k = some l ∧ l.actor = some r

/-- The scheduler is fair: a role that can go on (or give up after an error) from now on for ever, does; and every pending
drop is carried out some day. -/
structure FFair (Y : Mesh.Sys) (σ : Nat → FS) (lab : Nat → Option FLabel) : Prop where
  roles : ∀ r k, (∀ j, k ≤ j → FGo Y (σ j) r) → ∃ j, k ≤ j ∧ FMoves lab r j
  drops : ∀ k t, t ∈ (σ k).heap.garb → ∃ j, k ≤ j ∧ t ∉ (σ j).heap.garb

end Verif.Runtime
