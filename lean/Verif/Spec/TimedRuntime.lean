import Verif.Model.TimedRuntime
import Verif.Spec.Failure
import Verif.Spec.Clocks
import Verif.Prop.C19_C21
/-!
# Specification: programs with clocks
-/
namespace Verif.Runtime
open Verif.Mesh (Sys Name)
open Verif.Types (Window)
open Verif.Timed (Clocks)
open Verif.Spec

/-- A transfer at the instant `n` by a role with clocks `cl` whose last call had returned at `last` respects the window: the clock was
inside at some instant `u` of the call, is after the lower bound at `n`, and is not past the upper bound at `n` by more than the time
that went by, from `v` to `b`, between the computation of the time left and the beginning of the wait. -/
def InTime (w : Window) (cl : Clocks) (last n : Nat) : Prop :=
  Unbounded w ∨ ∃ c u v b, cl w.clock = some c ∧ last ≤ u ∧ u ≤ n ∧ Inside w (u - c) ∧ AfterStart w (n - c) ∧
    last ≤ v ∧ v ≤ b ∧ b ≤ n ∧ (0 ≤ w.stop → ((n - c : Nat) : Int) ≤ w.stop * 1000000000 + (b - v : Nat))

/-- The window of the step `l` of a role at `p`: that of the message; that of the enum of a choice which has the branch chosen. -/
def WindowOf (V : Windows) (p : Pos) : RLabel → Window → Prop
  | .sim (.act _ (.send _ m)), w => w = V.msg m
  | .sim (.act _ (.recv _ m)), w => w = V.msg m
  | .sim (.act r (.heed q N)), w => ∃ bs, N ∈ bs ∧ w = V.choice q r bs
  | .sim (.tell r q), w => ∃ N todo old own bs, p = .telling N todo old own ∧ N ∈ bs ∧ w = V.choice r q bs
  | _, _ => False

/-- The step transfers a message. -/
def Transfers : RLabel → Prop
  | .sim (.act _ (.send _ _)) => True
  | .sim (.act _ (.recv _ _)) => True
  | .sim (.act _ (.heed _ _)) => True
  | .sim (.tell _ _) => True
  | _ => False

/-- A window without bounds, written in the one way the functions take as such. -/
def Free (fn : Timed.Fn) (w : Window) : Prop :=
  Unbounded w ∧ w.inclStart = false ∧ w.inclStop = false ∧ (fn = .sendNoReset ∨ w.start ≤ w.stop)

/-- Why a call of role `r` transferred nothing although the other side is there: the window is of a kind the function does not handle; a
clock is missing; the clock was outside the window at some instant `u` between the last call and now, `n`; nothing was there to be received and the upper bound is
reached. -/
def Excuse (s : TS) (r n : Nat) (fn : Timed.Fn) (w : Window) (op : Heap.Op Pay) : Prop :=
  ¬ (Prop.Handled fn w ∨ Free fn w) ∨ (Prop.Handled fn w ∧ (s.clocks r w.clock = none ∨ (w.reset ≠ ' ' ∧ s.clocks r w.reset = none) ∨
  ∃ c, s.clocks r w.clock = some c ∧
    ((∃ u, s.last r ≤ u ∧ u ≤ n ∧ ¬ Accepted w (u - c)) ∨
      (Empty s.fs.heap op ∧ 0 ≤ w.stop ∧ w.stop * 1000000000 ≤ ((n - c : Nat) : Int)))))

/-- A window which the clock value `v` satisfies, at which nothing is changed by a reset, and which all three functions handle. -/
def Fits (v : Nat) (w : Window) : Prop :=
  (v = 0 ∨ w.reset = ' ') ∧ ((Unbounded w ∧ w.inclStart = false ∧ w.inclStop = false ∧ w.start ≤ w.stop) ∨
    (w.start < 18446744073709551616 ∧ 0 ≤ w.stop ∧ w.stop < 18446744073709551616 ∧ Accepted w v))

/-- Role `r` can, now or after some time has passed, take a step or give up, without being made to by nothing. -/
def TGo (Y : Sys) (V : Windows) (s : TS) (r : Nat) : Prop :=
  ∃ l s', l.actor = some r ∧ (∀ x, l ≠ .crash x) ∧ TStep Y V s l s'

/-- An endless schedule: at every moment one step is taken, or none. -/
structure TSchedule (Y : Sys) (V : Windows) (root : Name) (σ : Nat → TS) (lab : Nat → Option TLabel) : Prop where
  start : TStart Y root (σ 0)
  step : ∀ k, (∃ l, lab k = some l ∧ TStep Y V (σ k) l (σ (k + 1))) ∨ (lab k = none ∧ σ (k + 1) = σ k)

/-- Role `r` takes a step at moment `k`. -/
def TMoves (lab : Nat → Option TLabel) (r k : Nat) : Prop := ∃ l, lab k = some l ∧ l.actor = some r

/-- The scheduler is fair: a role that can go on or give up from now on for ever, if one only waits long enough, does; and every pending
drop is carried out some day. -/
structure TFair (Y : Sys) (V : Windows) (σ : Nat → TS) (lab : Nat → Option TLabel) : Prop where
  roles : ∀ r k, (∀ j, k ≤ j → TGo Y V (σ j) r) → ∃ j, k ≤ j ∧ TMoves lab r j
  drops : ∀ k t, t ∈ (σ k).fs.heap.garb → ∃ j, k ≤ j ∧ t ∉ (σ j).fs.heap.garb

end Verif.Runtime
