import Verif.Model.Runtime
/-!
# Model of interleaved sessions: threads that play roles in several protocols

`fork_interleaved_mpst` (`/repo/mpst_seq_proc/src/common_functions/expand/fork.rs:335-787`) starts two protocols at once; one
thread is given a mesh of each and alternates between them as its function is written.  `close_mpst_interleaved!`
(`/repo/mpst_seq_proc/src/interleaved/close_mpst_interleaved.rs:83-150`) is for one thread that holds all meshes of a protocol.
Here any number of protocols run together, every role of each in some thread.

Simplifications: those of `Model/Runtime.lean`, but roles may share threads; the channels of the protocols are
kept apart (no channel belongs to two of them, C16) and meshes are not sent from one protocol into another.
-/
namespace Verif.Interleaved
open Verif.Mesh (Sys Name upd)
open Verif.Runtime

/-- The protocols that run together (numbers `0 .. count - 1`), and the thread of every role: `spawn` in
expand/fork.rs:654-710. -/
structure Prog where
  count : Nat
  sys : Nat → Sys
  root : Nat → Name
  thread : Nat → Nat → Nat

/-- The state: of each protocol; and for each thread the mesh its next call is on, given by protocol and role, `none` when
its function has returned. -/
structure IS where
  sess : Nat → RS
  turn : Nat → Option (Nat × Nat)

/-- Thread `t` holds the mesh of role `r` of protocol `j`, and has not closed it. -/
def Open (P : Prog) (sess : Nat → RS) (t j r : Nat) : Prop :=
  j < P.count ∧ (1 ≤ r ∧ r ≤ (P.sys j).n) ∧ P.thread j r = t ∧ (sess j).pos r ≠ .closed

/-- How the function of thread `t` may go on: with any mesh it holds; it returns when it has closed all of them. -/
def Next (P : Prog) (sess : Nat → RS) (t : Nat) : Option (Nat × Nat) → Prop
  | some (j, r) => Open P sess t j r
  | none => ∀ j r, ¬ Open P sess t j r

/-- One step of protocol `j`: the thread whose turn it is makes the next call on the mesh it has come to, and then goes on
with any mesh; or a pending drop is carried out. -/
inductive IStep (P : Prog) (s : IS) : Nat × RLabel → IS → Prop
  | call {j l r s' a} : j < P.count → l.actor = some r → s.turn (P.thread j r) = some (j, r) →
      RStep (P.sys j) (s.sess j).heap (s.sess j).pos l s' → Next P (upd s.sess j s') (P.thread j r) a →
      IStep P s (j, l) ⟨upd s.sess j s', upd s.turn (P.thread j r) a⟩
  | gc {j s'} : j < P.count → RStep (P.sys j) (s.sess j).heap (s.sess j).pos .gc s' →
      IStep P s (j, .gc) ⟨upd s.sess j s', s.turn⟩

/-- All protocols have been started, expand/fork.rs:82-168, 758-787; every thread may begin with any mesh it was given. -/
structure IStart (P : Prog) (s : IS) : Prop where
  sess : ∀ j, j < P.count → Start (P.sys j) (P.root j) (s.sess j)
  turn : ∀ t, Next P s.sess t (s.turn t)

/-- A run. -/
inductive IRun (P : Prog) : List (Nat × RLabel) → IS → Prop
  | start {s} : IStart P s → IRun P [] s
  | snoc {ls s l s'} : IRun P ls s → IStep P s l s' → IRun P (ls ++ [l]) s'

end Verif.Interleaved
