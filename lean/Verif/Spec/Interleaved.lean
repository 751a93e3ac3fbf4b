import Verif.Model.Interleaved
import Verif.Spec.Global
import Verif.Spec.Runtime
/-!
# Specification: protocols that share threads
-/
namespace Verif.Interleaved
open Verif.Mesh (Name Global project)
open Verif.Runtime

/-- The protocols `D 0 .. D (count - 1)` with `n j` roles, started together. -/
def together (count : Nat) (n : Nat → Nat) (D : Nat → Global) (root : Nat → Name) (thread : Nat → Nat → Nat) : Prog :=
  ⟨count, fun j => project (n j) (D j), root, thread⟩

/-- Role `r` of protocol `j` shares its thread with an earlier protocol. -/
def Back (count : Nat) (n : Nat → Nat) (thread : Nat → Nat → Nat) (j r : Nat) : Prop :=
  j < count ∧ (1 ≤ r ∧ r ≤ n j) ∧ ∃ i q, i < j ∧ (1 ≤ q ∧ q ≤ n i) ∧ thread i q = thread j r

/-- Protocols and threads form no cycle: the roles of one protocol run in different threads, and the protocols can be
put in an order in which each has at most one thread in common with those before it. -/
structure Forest (count : Nat) (n : Nat → Nat) (thread : Nat → Nat → Nat) : Prop where
  apart : ∀ j r q, j < count → 1 ≤ r ∧ r ≤ n j → 1 ≤ q ∧ q ≤ n j → thread j r = thread j q → r = q
  link : ∀ j r q, Back count n thread j r → Back count n thread j q → r = q

/-- Thread `t` can make its next call. -/
def Goes (P : Prog) (s : IS) (t : Nat) : Prop :=
  ∃ j l r s', l.actor = some r ∧ P.thread j r = t ∧ IStep P s (j, l) s'

/-- All roles of all protocols have returned from `close`. -/
def Done (P : Prog) (s : IS) : Prop := ∀ j, j < P.count → AllClosed (P.sys j) (s.sess j)

/-- What was done in protocol `j`. -/
def part (j : Nat) (ls : List (Nat × RLabel)) : List RLabel := ls.filterMap fun x => if x.1 = j then some x.2 else none

/-- An endless schedule: at every moment one step is taken, or none. -/
structure ISchedule (P : Prog) (σ : Nat → IS) (lab : Nat → Option (Nat × RLabel)) : Prop where
  start : IStart P (σ 0)
  step : ∀ k, (∃ l, lab k = some l ∧ IStep P (σ k) l (σ (k + 1))) ∨ (lab k = none ∧ σ (k + 1) = σ k)

/-- Thread `t` makes a call at moment `k`. -/
def IMoves (P : Prog) (lab : Nat → Option (Nat × RLabel)) (t k : Nat) : Prop :=
  ∃ j l r, lab k = some (j, l) ∧ l.actor = some r ∧ P.thread j r = t

/-- The scheduler is fair: a thread that can go on from now on for ever, does. -/
def IFair (P : Prog) (σ : Nat → IS) (lab : Nat → Option (Nat × RLabel)) : Prop :=
  ∀ t k, (∀ j, k ≤ j → Goes P (σ j) t) → ∃ j, k ≤ j ∧ IMoves P lab t j

/-- The thread of role `r` of protocol `j` comes back to this mesh again and again, until it has closed it. -/
def Attended (P : Prog) (σ : Nat → IS) (j r : Nat) : Prop :=
  ∀ k, ∃ i, k ≤ i ∧ (((σ i).sess j).pos r = .closed ∨ (σ i).turn (P.thread j r) = some (j, r))

/-- No endless sequence of choices. -/
def Ends (D : Global) (root : Name) : Prop := Acc (fun N' N => ∃ p bs, (D N).tail = .choice p bs ∧ N' ∈ bs) root

end Verif.Interleaved
