import Verif.Spec.Nuscr
import Verif.Spec.Schedule

/-!
# Specification: carrying out choice-free timed protocols

The steps of a protocol as calls of the timed operations, with the windows written in the generated types, and what it
means that a schedule can be followed.
-/
namespace Verif.NuscrSpec
open Verif.Nuscr Verif.Types Verif.Timed Verif.TimedRun Verif.Spec

/-- The window written in a generated type, `SendTimed<M, 'a', 0, true, 1, false, ' ', ..>`: the clocks are characters, the
bounds numbers. -/
def Params.window (p : Params) : Window where
  clock := p.clock.headD ' '
  start := value p.left
  inclStart := p.leftIncl
  stop := value p.right
  inclStop := p.rightIncl
  reset := p.reset.headD ' '

/-- The steps of a choice-free protocol; a role is given by its position in the header. -/
def steps (title : Text → Text) (roles : List Text) (msgs : List Msg) (i : Nat) : Event :=
  match msgs[i]? with
  | some m => .msg (roles.idxOf m.sender) (roles.idxOf m.receiver) (Params.window (written title m))
  | none => .choice 0 []

/-- The protocol uses one clock, whose name is one character. -/
def OneClock (x : Char) (msgs : List Msg) : Prop :=
  x ≠ ' ' ∧ ∀ m ∈ msgs, m.clock = [x] ∧ (m.reset = none ∨ m.reset = some [x])

/-- The last message before number `i` in which `p` resets its clock. -/
def lastReset (msgs : List Msg) (p : Text) : Nat → Option Nat
  | 0 => none
  | i + 1 =>
    match msgs[i]? with
    | some m => if (m.sender = p ∨ m.receiver = p) ∧ m.reset ≠ none then some i else lastReset msgs p i
    | none => lastReset msgs p i

/-- Whenever two roles exchange a message, both have last reset their clocks in one same message, or not at all. -/
def Together (msgs : List Msg) : Prop :=
  ∀ i m, msgs[i]? = some m → lastReset msgs m.sender i = lastReset msgs m.receiver i

/-- The window has two instants that are `d` nanoseconds apart. -/
def Wide (d : Nat) (m : Msg) : Prop := ∃ t t', Fits m t ∧ Fits m t' ∧ t * 1000000000 + d ≤ t' * 1000000000

/-- The slots of a role come in the order of its messages. -/
def InOrder (S : Schedule) (evs : Nat → Event) : Prop :=
  ∀ i j p q w p' q' w' r, i < j → (p, q, w) ∈ messages (evs i) → (p', q', w') ∈ messages (evs j) → (r = p ∨ r = q) →
    (r = p' ∨ r = q') → (S.slot r i).1 ≤ (S.slot r j).1 ∧ (S.slot r i).2 ≤ (S.slot r j).2

end Verif.NuscrSpec
