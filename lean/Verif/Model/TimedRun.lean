import Verif.Model.Timed

/-!
# Runs of timed protocols

A run of a timed protocol is a sequence of steps, a path through its interactions.  Each role runs in its own
thread with its own clocks and performs, in order, its part of each step by calling the timed operations.  Time
enters only through the environments of the calls, as in `Verif.Model.Timed`.
-/
namespace Verif.TimedRun
open Verif.Types Verif.Timed

/-- One step of a run: a message from `p` to `q`, or a choice of `p` announced to all of `to`.  Each part carries the
window of its `SendTimed`/`RecvTimed` types, the same one for both sides as the types are dual
(`/repo/src/binary_atmp/struct_trait/send.rs:30-58`, `newSend`). -/
inductive Event where
  | msg (p q : Nat) (w : Window)
  | choice (p : Nat) (to : List (Nat × Window))

/-- The environments of the calls of a run: `world r m o` for the call of role `r` at step `m` with the role `o` on
the other side, `fin r m` the readings of the loop that ends the choice of `r` at step `m`. -/
structure Env where
  world : Nat → Nat → Nat → World
  fin : Nat → Nat → Nat → Nat

/-- What role `r` does at step `m`: the result, its clocks and, for each role on the other side, when the message was
transferred.
Messages: the generated `send(payload, &mut all_clocks)` and `recv(&mut all_clocks)`
(`/repo/mpst_seq_proc/src/common_functions/expand/send.rs:264-296`, `recv.rs:455-482`), which call the binary
functions on the session with the other role.
Choices: `choose_atmp_mpst_multi_to_all!` for the active role
(`/repo/mpst_seq_proc/src/choose_atmp_mpst_multi_to_all.rs:70-241`); `offer_mpst!` for a passive one, which is the
generated `recv` (`/repo/mpst_seq_proc/src/baking_atmp/baking_atmp_with_enum_and_cancel.rs:205-219`).
Simplification: the payloads and the choice of the branch are not represented; the path of a run is given by its
steps. -/
def op (E : Env) (r m : Nat) (ev : Event) (cl : Clocks) : Res × Clocks × List (Nat × Option Nat) :=
  match ev with
  | .msg p q w =>
    if r = p then
      let o := run .send (E.world r m q) w cl
      (o.res, o.clocks, [(q, o.moved)])
    else if r = q then
      let o := run .recv (E.world r m p) w cl
      (o.res, o.clocks, [(p, o.moved)])
    else (.ok, cl, [])
  | .choice p to =>
    if r = p then
      let o := choose (to.map fun x => (E.world r m x.1, x.2)) (E.fin r m) cl
      (o.1, o.2.1, (to.map fun x => x.1).zip o.2.2)
    else
      match to.find? fun x => x.1 == r with
      | some x =>
        let o := run .recv (E.world r m p) x.2 cl
        (o.res, o.clocks, [(p, o.moved)])
      | none => (.ok, cl, [])

/-- The clocks of role `r` when it reaches step `m`; `none` if one of its operations did not return `Ok` before: the
`?` after each call ends the function of the role and drops its sessions, as does a panic. -/
def clocksAt (E : Env) (evs : Nat → Event) (cl0 : Nat → Clocks) (r : Nat) : Nat → Option Clocks
  | 0 => some (cl0 r)
  | m + 1 =>
    match clocksAt E evs cl0 r m with
    | none => none
    | some cl =>
      match op E r m (evs m) cl with
      | (.ok, cl', _) => some cl'
      | _ => none

/-- When role `r` transferred the message it exchanges with role `o` at step `m`, `none` if it did not. -/
def movedAt (E : Env) (evs : Nat → Event) (cl0 : Nat → Clocks) (r m o : Nat) : Option Nat :=
  match clocksAt E evs cl0 r m with
  | none => none
  | some cl => ((op E r m (evs m) cl).2.2.lookup o).join

end Verif.TimedRun
