import Verif.Model.TimedRun
import Verif.Spec.Clocks

/-!
# Schedules of timed protocols

What is assumed of the channels, and what it means for the roles of a run to be on schedule.
-/
namespace Verif.Spec
open Verif.Types Verif.Timed Verif.TimedRun

/-- The messages of a step: sender, receiver, window. -/
def messages : Event → List (Nat × Nat × Window)
  | .msg p q w => [(p, q, w)]
  | .choice p to => to.map fun x => (p, x.1, x.2)

/-- The function that sends the messages of a step. -/
def sendFn : Event → Fn
  | .msg _ _ _ => .send
  | .choice _ _ => .sendNoReset

/-- The step is well formed: nobody sends to themselves, and a choice is announced once to each role. -/
def WellFormed (ev : Event) : Prop :=
  (∀ p q w, (p, q, w) ∈ messages ev → p ≠ q) ∧ ((messages ev).map fun x => x.2.1).Nodup

/-- The same readings, with a channel that is always ready. -/
def ready (W : World) : World where
  now := W.now
  start := W.start
  xfer k _ := some (W.start k)
  now_le := W.now_le
  start_le := W.start_le
  xfer_le k d t h := by cases h; exact ⟨Nat.le_refl _, W.start_le k⟩
  xfer_timeout k x t h := by cases h; exact Nat.le_add_right _ _

/-- The channels deliver.  `gone m q s` says that before the instant `s` role `q` had dropped its end of the channel of
step `m`.
* A message is put at once into its fresh channel, unless the receiver had dropped its end.
* A receiver drops its end only after it failed: in an earlier step; or in this one for a reason that does not depend
  on the channel; or after having waited for the whole time left in its window.
* A receiver that waits gets the message if it is sent before the end of the wait. -/
structure Delivers (E : Env) (evs : Nat → Event) (cl0 : Nat → Clocks) (gone : Nat → Nat → Nat → Prop) : Prop where
  put : ∀ m p q w, (p, q, w) ∈ messages (evs m) → ∀ d,
    ¬ gone m q ((E.world p m q).start (readings (sendFn (evs m)) w)) →
    ∃ t, (E.world p m q).xfer (readings (sendFn (evs m)) w) d = some t
  drop : ∀ m p q w s, (p, q, w) ∈ messages (evs m) → gone m q s →
    clocksAt E evs cl0 q m = none ∨
    ∃ cl, clocksAt E evs cl0 q m = some cl ∧
      ((run .recv (ready (E.world q m p)) w cl).res ≠ .ok ∨
       ∃ c x, cl w.clock = some c ∧
        timeLeft w ((E.world q m p).now (readings .recv w) - c) = some x ∧
        (E.world q m p).start (readings .recv w) + x < s)
  get : ∀ m p q w ts, (p, q, w) ∈ messages (evs m) → movedAt E evs cl0 p m q = some ts → ∀ d,
    (∀ x, d = some x → ts ≤ (E.world q m p).start (readings .recv w) + x) →
    ∃ t, (E.world q m p).xfer (readings .recv w) d = some t

/-- The channels deliver, and a receiver gets only messages that were sent. -/
structure Transport (E : Env) (evs : Nat → Event) (cl0 : Nat → Clocks) (gone : Nat → Nat → Nat → Prop) : Prop
    extends Delivers E evs cl0 gone where
  only : ∀ m p q w k d t, (p, q, w) ∈ messages (evs m) → (E.world q m p).xfer k d = some t →
    ∃ ts, movedAt E evs cl0 p m q = some ts ∧ ts ≤ t

/-- The step makes role `r` reset its clock `x`. -/
def resets (ev : Event) (r : Nat) (x : Char) : Bool :=
  x != ' ' && (messages ev).any fun a => (a.1 == r || a.2.1 == r) && a.2.2.reset == x

/-- The readings of the time role `r` makes at step `m`. -/
def ReadAt (E : Env) (r m n : Nat) : Prop := (∃ o k, n = (E.world r m o).now k) ∨ ∃ k, n = E.fin r m k

/-- The instant `c` is the creation of the clock `x` of role `r`, or a reading `r` made at a step before `m` that makes
it reset this clock. -/
def SetBefore (E : Env) (evs : Nat → Event) (cl0 : Nat → Clocks) (r : Nat) (x : Char) (m c : Nat) : Prop :=
  cl0 r x = some c ∨ ∃ m', m' < m ∧ resets (evs m') r x = true ∧ ReadAt E r m' c

/-- A schedule: for each role and step the interval in which the role performs its part of the step, and for each role
and clock the interval in which the clock was created. -/
structure Schedule where
  slot : Nat → Nat → Nat × Nat
  origin : Nat → Char → Nat × Nat

/-- The interval in which, according to the schedule, the clock `x` of role `r` was last reset before step `m`. -/
def Schedule.since (S : Schedule) (evs : Nat → Event) (r : Nat) (x : Char) : Nat → Nat × Nat
  | 0 => S.origin r x
  | m + 1 => if resets (evs m) r x then S.slot r m else S.since evs r x m

/-- A window the operations support on both sides: no bound and no reset, or an upper bound and bounds that fit
`u64`. -/
def Supported (w : Window) : Prop :=
  (Unbounded w ∧ w.start ≤ w.stop ∧ w.inclStart = false ∧ w.inclStop = false ∧ w.reset = ' ') ∨
  (0 ≤ w.stop ∧ w.stop < 18446744073709551616 ∧ w.start < 18446744073709551616)

/-- What the schedule asks of role `r` for its part with window `w` of step `m`: the last reset of the clock is over
before, the values the clock can then have are accepted by the window, and the clocks exist. -/
structure Fits (S : Schedule) (evs : Nat → Event) (cl0 : Nat → Clocks) (r m : Nat) (w : Window) : Prop where
  after : (S.since evs r w.clock m).2 ≤ (S.slot r m).1
  values : ∀ v, (S.slot r m).1 - (S.since evs r w.clock m).2 ≤ v → v ≤ (S.slot r m).2 - (S.since evs r w.clock m).1 →
    Accepted w v
  clock : Unbounded w ∨ ∃ c, cl0 r w.clock = some c
  reset : w.reset = ' ' ∨ ∃ c, cl0 r w.reset = some c

/-- The protocol, as far as its step number `N`, fits the schedule: each message can be sent and received in the slots
of its sender and of its receiver, and the slot of the receiver ends after the one of the sender. -/
def FitsSchedule (S : Schedule) (evs : Nat → Event) (cl0 : Nat → Clocks) (N : Nat) : Prop :=
  ∀ m, m < N → WellFormed (evs m) ∧ ∀ p q w, (p, q, w) ∈ messages (evs m) →
    Supported w ∧ (S.slot p m).2 ≤ (S.slot q m).2 ∧ Fits S evs cl0 p m w ∧ Fits S evs cl0 q m w

/-- The roles keep the schedule: their clocks are created, and all their readings of the time are made, in the
intervals it gives. -/
structure OnTime (S : Schedule) (E : Env) (evs : Nat → Event) (cl0 : Nat → Clocks) (N : Nat) : Prop where
  origin : ∀ r x c, cl0 r x = some c → (S.origin r x).1 ≤ c ∧ c ≤ (S.origin r x).2
  sender : ∀ m p q w k, m < N → (p, q, w) ∈ messages (evs m) → k ≤ 5 →
    (S.slot p m).1 ≤ (E.world p m q).now k ∧ (E.world p m q).now k ≤ (S.slot p m).2
  receiver : ∀ m p q w k, m < N → (p, q, w) ∈ messages (evs m) → k ≤ 5 →
    (S.slot q m).1 ≤ (E.world q m p).now k ∧ (E.world q m p).now k ≤ (S.slot q m).2
  chooser : ∀ m p to k, m < N → evs m = .choice p to →
    (S.slot p m).1 ≤ E.fin p m k ∧ E.fin p m k ≤ (S.slot p m).2

end Verif.Spec
