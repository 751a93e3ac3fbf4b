import Verif.Model.Timed

/-!
# Specification of time windows

A window gives an interval in seconds; a negative bound means no bound.  Clock values are in nanoseconds.
-/
namespace Verif.Spec
open Verif.Types Verif.Timed

/-- The clock value `v` respects the lower bound. -/
def AfterStart (w : Window) (v : Nat) : Prop :=
  0 ≤ w.start →
    if w.inclStart = true then w.start * 1000000000 ≤ (v : Int) else w.start * 1000000000 < (v : Int)

/-- The clock value `v` respects the upper bound. -/
def BeforeStop (w : Window) (v : Nat) : Prop :=
  0 ≤ w.stop →
    if w.inclStop = true then (v : Int) ≤ w.stop * 1000000000 else (v : Int) < w.stop * 1000000000

/-- The clock value `v` is inside the interval. -/
def Inside (w : Window) (v : Nat) : Prop := AfterStart w v ∧ BeforeStop w v

/-- The window has no bound at all. -/
def Unbounded (w : Window) : Prop := w.start < 0 ∧ w.stop < 0

/-- The clock values at which the functions accept to start: inside the interval and, if the lower bound is
exclusive, above it by a whole second at least (see `C19_exclusive_start_rejected` for the values in between). -/
def Accepted (w : Window) (v : Nat) : Prop :=
  Inside w v ∧ (0 ≤ w.start → w.inclStart = false → (w.start + 1) * 1000000000 ≤ (v : Int))

/-- The time left in the window at the clock value `v`, `none` if there is no upper bound. -/
def timeLeft (w : Window) (v : Nat) : Option Nat :=
  if 0 ≤ w.stop then some (w.stop.toNat * 1000000000 - v) else none

/-- How many times a call compares its clock with a bound in order to check the window once. -/
def bounds (w : Window) : Nat := (if 0 ≤ w.start then 1 else 0) + (if 0 ≤ w.stop then 1 else 0)

/-- The number of readings a call makes before it waits, if its clock stays in the window: `send` and `recv` check
the window twice if they have no clock to reset. -/
def readings (fn : Fn) (w : Window) : Nat :=
  if fn ≠ .sendNoReset ∧ w.reset = ' ' then 2 * bounds w else bounds w

end Verif.Spec
