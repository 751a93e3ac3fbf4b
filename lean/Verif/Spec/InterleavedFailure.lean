import Verif.Model.InterleavedFailure
import Verif.Spec.Interleaved
import Verif.Spec.Failure
/-!
# Specification: protocols that share threads, with failures
-/
namespace Verif.Interleaved
open Verif.Runtime

/-- Thread `t` can make its next call, even if only to find that it returns an error. -/
def FGoes (P : Prog) (s : FIS) (t : Nat) : Prop :=
  ∃ j l r s', l.actor = some r ∧ (∀ x, l ≠ .crash x) ∧ P.thread j r = t ∧ FIStep P s (j, l) s'

/-- In all protocols, all roles have failed or returned from `close`. -/
def AllOver (P : Prog) (s : FIS) : Prop := ∀ j, j < P.count → Over (P.sys j) (s.sess j)

/-- What was done in protocol `j`. -/
def fpart (j : Nat) (ls : List (Nat × FLabel)) : List FLabel := ls.filterMap fun x => if x.1 = j then some x.2 else none

/-- An endless schedule: at every moment one step is taken, or none. -/
structure FISchedule (P : Prog) (σ : Nat → FIS) (lab : Nat → Option (Nat × FLabel)) : Prop where
  start : FIStart P (σ 0)
  step : ∀ k, (∃ l, lab k = some l ∧ FIStep P (σ k) l (σ (k + 1))) ∨ (lab k = none ∧ σ (k + 1) = σ k)

/-- Thread `t` makes a call or drops a mesh at moment `k`. -/
def FIMoves (P : Prog) (lab : Nat → Option (Nat × FLabel)) (t k : Nat) : Prop :=
  ∃ j l r, lab k = some (j, l) ∧ l.actor = some r ∧ P.thread j r = t

/-- The scheduler is fair: a thread that can go on from now on for ever, does; and every pending drop is carried out some
day. -/
structure FIFair (P : Prog) (σ : Nat → FIS) (lab : Nat → Option (Nat × FLabel)) : Prop where
  threads : ∀ t k, (∀ j, k ≤ j → FGoes P (σ j) t) → ∃ j, k ≤ j ∧ FIMoves P lab t j
  drops : ∀ j k t, j < P.count → t ∈ ((σ k).sess j).heap.garb → ∃ i, k ≤ i ∧ t ∉ ((σ i).sess j).heap.garb

/-- From moment `k` on the function of thread `t` makes no call any more: it only drops what it has. -/
def GivesUp (P : Prog) (lab : Nat → Option (Nat × FLabel)) (t k : Nat) : Prop :=
  ∀ i j l r, k ≤ i → lab i = some (j, l) → l.actor = some r → P.thread j r = t → l = .crash r

/-- The thread of role `r` of protocol `j` comes back to this mesh again and again, as long as it holds it. -/
def FAttended (P : Prog) (σ : Nat → FIS) (j r : Nat) : Prop :=
  ∀ k, ∃ i, k ≤ i ∧ (((σ i).sess j).dead r = true ∨ ((σ i).sess j).pos r = .closed ∨
    (σ i).turn (P.thread j r) = some (j, r))

end Verif.Interleaved
