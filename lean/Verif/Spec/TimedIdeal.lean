import Verif.Spec.TimedRuntime
/-!
# Specification: timed programs whose calls take no time

What the roles do and when, as communicating timed automata: a step happens at one instant, at which the clock of the role
must be in the window, and which becomes the origin of the clock to reset.
-/
namespace Verif.Runtime
open Verif.Mesh (Sys Name upd)
open Verif.Types (Window)
open Verif.Timed (Clocks Fn)
open Verif.Spec

/-- At the instant `t` the clocks `cl` allow a call of `fn` with the window: the window is of a kind the function handles, the clock is there
and accepted, and the clock to reset is there. -/
def Meets (fn : Fn) (w : Window) (cl : Clocks) (t : Nat) : Prop :=
  (Free fn w ∧ (w.reset = ' ' ∨ fn = .sendNoReset)) ∨
  (Prop.Handled fn w ∧ (∃ c, cl w.clock = some c ∧ Accepted w (t - c)) ∧
    (w.reset = ' ' ∨ fn = .sendNoReset ∨ ∃ c, cl w.reset = some c))

/-- The clocks named are set to `t`. -/
def restart (xs : List Char) (t : Nat) (cl : Clocks) : Clocks := fun x => if x ∈ xs then some t else cl x

/-- The clock a window names to be reset, if any. -/
def resetOf (w : Window) : List Char := if w.reset = ' ' then [] else [w.reset]

/-- A run of a program without failures, from the instant `t₀` and the clocks `cl₀` on: its steps with their instants, its state, the clocks of the roles, the clocks each role
has to reset at the end of its choice, and the time. -/
inductive Ideal (Y : Sys) (V : Windows) (root : Name) (cl₀ : Nat → Clocks) (t₀ : Nat) : List (RLabel × Nat) → RS → (Nat → Clocks) → (Nat → List Char) → Nat → Prop
  | start {t} : Start Y root t → (∀ r x c, cl₀ r x = some c → c ≤ t₀) → Ideal Y V root cl₀ t₀ [] t cl₀ (fun _ => []) t₀
  /-- a message, or a choice heard of -/
  | transfer {ls t cl noted now n r fn w op l t'} : Ideal Y V root cl₀ t₀ ls t cl noted now → now ≤ n →
      RStep Y t.heap t.pos l t' → l.actor = some r → TCall Y V r (t.pos r) fn w op l → fn ≠ .sendNoReset → Meets fn w (cl r) n →
      Ideal Y V root cl₀ t₀ (ls ++ [(l, n)]) t' (upd cl r (restart (resetOf w) n (cl r))) noted n
  /-- a role is told the choice -/
  | tell {ls t cl noted now n r w op l t'} : Ideal Y V root cl₀ t₀ ls t cl noted now → now ≤ n →
      RStep Y t.heap t.pos l t' → l.actor = some r → TCall Y V r (t.pos r) .sendNoReset w op l → Meets .sendNoReset w (cl r) n →
      Ideal Y V root cl₀ t₀ (ls ++ [(l, n)]) t' cl (upd noted r (noted r ++ resetOf w)) n
  /-- a choice begins -/
  | decide {ls t cl noted now n r N t'} : Ideal Y V root cl₀ t₀ ls t cl noted now → now ≤ n →
      RStep Y t.heap t.pos (.sim (.act r (.decide N))) t' →
      Ideal Y V root cl₀ t₀ (ls ++ [(.sim (.act r (.decide N)), n)]) t' cl (upd noted r []) n
  /-- a choice ends -/
  | enter {ls t cl noted now n r t'} : Ideal Y V root cl₀ t₀ ls t cl noted now → now ≤ n →
      RStep Y t.heap t.pos (.sim (.enter r)) t' → (∀ x ∈ noted r, ∃ c, cl r x = some c) →
      Ideal Y V root cl₀ t₀ (ls ++ [(.sim (.enter r), n)]) t' (upd cl r (restart (noted r) n (cl r))) noted n
  /-- a step of `close`, or a drop -/
  | calm {ls t cl noted now n l t'} : Ideal Y V root cl₀ t₀ ls t cl noted now → now ≤ n → Untimed l → RStep Y t.heap t.pos l t' →
      Ideal Y V root cl₀ t₀ (ls ++ [(l, n)]) t' cl noted n

/-- If the step is a transfer at the instant `m`, then at `m` the clock of the role is in the window. -/
def OnTime (V : Windows) (s : TS) (l : RLabel) (m : Nat) : Prop :=
  Transfers l → ∃ r w, l.actor = some r ∧ WindowOf V (s.fs.pos r) l w ∧
    (Unbounded w ∨ ∃ c, s.clocks r w.clock = some c ∧ Accepted w (m - c))

end Verif.Runtime
