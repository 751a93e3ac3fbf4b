import Verif.Model.Interleaved
import Verif.Model.Failure
/-!
# Model of interleaved sessions when roles fail

Programs are those of `Model/Interleaved.lean`, the steps of each protocol those of `Model/Failure.lean`.  A thread may give
up a mesh at any time; a thread whose function ends early (because of an error, or a panic) drops all meshes it still holds, of all
protocols, one after the other.  A function may also handle the error of one protocol and go on with the others.

Simplifications: those of `Model/Interleaved.lean` and `Model/Failure.lean`.
-/
namespace Verif.Interleaved
open Verif.Mesh (upd)
open Verif.Runtime

/-- The state of each protocol, and the mesh to which each thread has come. -/
structure FIS where
  sess : Nat → FS
  turn : Nat → Option (Nat × Nat)

/-- Thread `t` holds the mesh of role `r` of protocol `j`: it has neither closed it nor lost it. -/
def FOpen (P : Prog) (sess : Nat → FS) (t j r : Nat) : Prop :=
  j < P.count ∧ (1 ≤ r ∧ r ≤ (P.sys j).n) ∧ P.thread j r = t ∧ (sess j).dead r = false ∧ (sess j).pos r ≠ .closed

/-- How thread `t` may go on: with any mesh it holds; its function has ended when it holds none. -/
def FNext (P : Prog) (sess : Nat → FS) (t : Nat) : Option (Nat × Nat) → Prop
  | some (j, r) => FOpen P sess t j r
  | none => ∀ j r, ¬ FOpen P sess t j r

/-- One step of protocol `j`. -/
inductive FIStep (P : Prog) (s : FIS) : Nat × FLabel → FIS → Prop
  /-- the thread whose turn it is makes the next call on the mesh it has come to; if the call returns an error the mesh is lost
  (expand/recv.rs:166-182, expand/close.rs:13-33) -/
  | call {j l r s' a} : j < P.count → l.actor = some r → (∀ x, l ≠ .crash x) → s.turn (P.thread j r) = some (j, r) →
      FStep (P.sys j) (s.sess j) l s' → FNext P (upd s.sess j s') (P.thread j r) a →
      FIStep P s (j, l) ⟨upd s.sess j s', upd s.turn (P.thread j r) a⟩
  /-- a thread drops one of its meshes: `cancel` (expand/cancel.rs:37-40), or its function ends (expand/fork.rs:96-104, 654-710) -/
  | drop {j r s' a} : j < P.count → FStep (P.sys j) (s.sess j) (.crash r) s' → FNext P (upd s.sess j s') (P.thread j r) a →
      FIStep P s (j, .crash r) ⟨upd s.sess j s', upd s.turn (P.thread j r) a⟩
  /-- a pending drop is carried out -/
  | gc {j s'} : j < P.count → FStep (P.sys j) (s.sess j) (.step .gc) s' →
      FIStep P s (j, .step .gc) ⟨upd s.sess j s', s.turn⟩

/-- All protocols have been started (expand/fork.rs:82-168, 758-787), and nobody has failed. -/
structure FIStart (P : Prog) (s : FIS) : Prop where
  sess : ∀ j, j < P.count → Start (P.sys j) (P.root j) ⟨(s.sess j).heap, (s.sess j).pos⟩ ∧ (s.sess j).dead = nobody
  turn : ∀ t, FNext P s.sess t (s.turn t)

/-- A run. -/
inductive FIRun (P : Prog) : List (Nat × FLabel) → FIS → Prop
  | start {s} : FIStart P s → FIRun P [] s
  | snoc {ls s l s'} : FIRun P ls s → FIStep P s l s' → FIRun P (ls ++ [l]) s'

end Verif.Interleaved
