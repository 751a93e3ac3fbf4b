import Verif.Model.Types

/-!
# Model of the timed operations

Clocks are instants in nanoseconds.  A call reads the time once per `elapsed()` or `Instant::now()`; the
readings are a sequence indexed in the order in which the call makes them.  The transfer itself (crossbeam's
`send_timeout`, `recv_timeout`, `send`, `recv`) is an arbitrary environment constrained only by its timeout.
-/
namespace Verif.Timed
open Verif.Types

/-- Nanoseconds per second (`Duration::from_secs`, `Duration::as_secs`). -/
def nsec : Nat := 1000000000

/-- `all_clocks: &mut HashMap<char, Instant>` (`/repo/src/binary_atmp/recv.rs:29`, `send.rs:30`). -/
abbrev Clocks := Char → Option Nat

/-- The three functions: `binary_atmp::send::send` (`send.rs:19-424`), `binary_atmp::recv::recv`
(`recv.rs:18-409`), `binary_atmp::send::send_without_reset` (`send.rs:429-679`). -/
inductive Fn where
  | send | recv | sendNoReset
  deriving DecidableEq, Repr

/-- How a call ends: `Ok(..)`, `Err(..)` or a panic. -/
inductive Res where
  | ok | err | panic
  deriving DecidableEq, Repr

/-- What a call leaves behind: its result, the clocks, and when the message was transferred, if it was. -/
structure Out where
  res : Res
  clocks : Clocks
  moved : Option Nat

/-- The environment of one call.  `now k` is the `k`-th time reading; `start k` is the instant at which a
waiting operation entered after reading `k` starts to wait; `xfer k d` is the instant at which that operation,
with timeout `d`, transfers the message, `none` if it fails (timeout or peer gone). -/
structure World where
  now : Nat → Nat
  start : Nat → Nat
  xfer : Nat → Option Nat → Option Nat
  now_le : ∀ k, now k ≤ start k
  start_le : ∀ k, start k ≤ now (k + 1)
  xfer_le : ∀ k d t, xfer k d = some t → start k ≤ t ∧ t ≤ now (k + 1)
  xfer_timeout : ∀ k x t, xfer k (some x) = some t → t ≤ start k + x

/-- `own_clock.elapsed()` at reading `k`, for a clock last reset at `c`. -/
def elapsed (W : World) (c k : Nat) : Nat := W.now k - c

/-- `own_clock.elapsed().as_secs()`. -/
def secs (W : World) (c k : Nat) : Nat := elapsed W c k / nsec

/-- `u64::try_from(x)` for `x: i128`. -/
def toU64 (x : Int) : Option Nat :=
  if 0 ≤ x ∧ x < 18446744073709551616 then some x.toNat else none

/-- The outcome of a condition: it held or not, after which the next reading is number `k`; or a `?` in it
returned the conversion error. -/
inductive Check where
  | pass (k : Nat)
  | fail (k : Nat)
  | bad

/-- `u64::try_from(s.start)? <= own_clock.elapsed().as_secs()`, e.g. `send.rs:163`. -/
def fromIncl (W : World) (c : Nat) (b : Int) (k : Nat) : Check :=
  match toU64 b with
  | none => .bad
  | some n => if n ≤ secs W c k then .pass (k + 1) else .fail (k + 1)

/-- `u64::try_from(s.start)? < own_clock.elapsed().as_secs()`, e.g. `send.rs:201`. -/
def fromExcl (W : World) (c : Nat) (b : Int) (k : Nat) : Check :=
  match toU64 b with
  | none => .bad
  | some n => if n < secs W c k then .pass (k + 1) else .fail (k + 1)

/-- `own_clock.elapsed().as_secs() <= u64::try_from(s.end)?`, e.g. `send.rs:52`. -/
def toIncl (W : World) (c : Nat) (b : Int) (k : Nat) : Check :=
  match toU64 b with
  | none => .bad
  | some n => if secs W c k ≤ n then .pass (k + 1) else .fail (k + 1)

/-- `own_clock.elapsed().as_secs() < u64::try_from(s.end)?`, e.g. `send.rs:96`. -/
def toExcl (W : World) (c : Nat) (b : Int) (k : Nat) : Check :=
  match toU64 b with
  | none => .bad
  | some n => if secs W c k < n then .pass (k + 1) else .fail (k + 1)

/-- `&&` between two conditions; the second one is evaluated, with later readings, only if the first held. -/
def both (f g : Nat → Check) (k : Nat) : Check :=
  match f k with
  | .pass k' => g k'
  | .fail k' => .fail k'
  | .bad => .bad

/-- The arms of the `match` on the transfer.  With reset: `send.rs:58-67`, `recv.rs:55-64`; without:
`send.rs:76-80`, `recv.rs:72-76`.  A failed `recv` returns the error, a failed `send` panics.  `unwrap` on a
clock to reset that is not in the map panics, after the transfer. -/
def finish (fn : Fn) (W : World) (reset : Char) (cl : Clocks) (withReset : Bool) (k : Nat) :
    Option Nat → Out
  | none => ⟨if fn = .recv then .err else .panic, cl, none⟩
  | some t =>
    if withReset then
      match cl reset with
      | none => ⟨.panic, cl, some t⟩
      | some _ => ⟨.ok, fun x => if x = reset then some (W.now k) else cl x, some t⟩
    else ⟨.ok, cl, some t⟩

/-- The transfer.  With an upper bound: `send_timeout`/`recv_timeout` with
`Duration::from_secs(u64::try_from(s.end)?) - own_clock.elapsed()`, whose subtraction panics on underflow
(`send.rs:54-57`, `recv.rs:52-54`).  Without: `s.channel.send`/`s.channel.recv` (`send.rs:165`,
`recv.rs:158`). -/
def transfer (fn : Fn) (W : World) (reset : Char) (cl : Clocks) (c : Nat) (withReset : Bool) (k : Nat) :
    Option Int → Out
  | some e =>
    match toU64 e with
    | none => ⟨.err, cl, none⟩
    | some n =>
      if n * nsec < elapsed W c k then ⟨.panic, cl, none⟩
      else finish fn W reset cl withReset (k + 1) (W.xfer k (some (n * nsec - elapsed W c k)))
  | none => finish fn W reset cl withReset (k + 1) (W.xfer k none)

/-- `if cond && s.reset != ' ' {..} else if cond {..} else { panic!("Timeout for clock ..") }`: the condition
is evaluated again, with later readings, by the `else if` (`send.rs:52-85`, `recv.rs:50-81`).
`send_without_reset` has a single `if cond {..} else { panic }` (`send.rs:456-470`). -/
def guarded (fn : Fn) (W : World) (reset : Char) (cl : Clocks) (c : Nat) (cond : Nat → Check)
    (e : Option Int) : Out :=
  let plain := fun k => match cond k with
    | .bad => ⟨.err, cl, none⟩
    | .fail _ => ⟨.panic, cl, none⟩
    | .pass k' => transfer fn W reset cl c false k' e
  if fn = .sendNoReset then plain 0
  else match cond 0 with
    | .bad => ⟨.err, cl, none⟩
    | .pass k => if reset ≠ ' ' then transfer fn W reset cl c true k e else plain k
    | .fail k => plain k

/-- `send`, `recv` and `send_without_reset`.  They have the same shape; the differences are:
the first check (`send.rs:38-41`, `recv.rs:37-39`) is absent from `send_without_reset`; see `guarded` and
`finish` for the others.
No lower bound: `send.rs:44-134`, `recv.rs:42-128`, `send.rs:447-500`.
No bound at all: `send.rs:136-153`, `recv.rs:130-146`, `send.rs:502-519` (a failure panics, also in `recv`).
No upper bound: `send.rs:157-233`, `recv.rs:150-226`, `send.rs:523-568`.
Both: `send.rs:235-422`, `recv.rs:228-406`, `send.rs:570-677`. -/
def run (fn : Fn) (W : World) (w : Window) (cl : Clocks) : Out :=
  if fn ≠ .sendNoReset ∧ w.start > w.stop then ⟨.panic, cl, none⟩
  else if w.start < 0 then
    if w.stop ≥ 0 then
      if w.inclStop then
        match cl w.clock with
        | none => ⟨.panic, cl, none⟩
        | some c => guarded fn W w.reset cl c (toIncl W c w.stop) (some w.stop)
      else
        match cl w.clock with
        | none => ⟨.panic, cl, none⟩
        | some c => guarded fn W w.reset cl c (toExcl W c w.stop) (some w.stop)
    else if !w.inclStart && !w.inclStop then
      match W.xfer 0 none with
      | none => ⟨.panic, cl, none⟩
      | some t => ⟨.ok, cl, some t⟩
    else ⟨.panic, cl, none⟩
  else if w.stop < 0 then
    if w.inclStart then
      match cl w.clock with
      | none => ⟨.panic, cl, none⟩
      | some c => guarded fn W w.reset cl c (fromIncl W c w.start) none
    else
      match cl w.clock with
      | none => ⟨.panic, cl, none⟩
      | some c => guarded fn W w.reset cl c (fromExcl W c w.start) none
  else if w.start > w.stop then ⟨.panic, cl, none⟩
  else
    match cl w.clock with
    | none => ⟨.panic, cl, none⟩
    | some c =>
      match w.inclStart, w.inclStop with
      | true, true => guarded fn W w.reset cl c (both (fromIncl W c w.start) (toIncl W c w.stop)) (some w.stop)
      | true, false => guarded fn W w.reset cl c (both (fromIncl W c w.start) (toExcl W c w.stop)) (some w.stop)
      | false, true => guarded fn W w.reset cl c (both (fromExcl W c w.start) (toIncl W c w.stop)) (some w.stop)
      | false, false => guarded fn W w.reset cl c (both (fromExcl W c w.start) (toExcl W c w.stop)) (some w.stop)

/-- The final loop of the timed choice, `for clock in clocks_to_reset {..}`
(`/repo/mpst_seq_proc/src/choose_atmp_mpst_multi_to_all.rs:223-229`): each named clock is set to the next
time reading; a missing one panics. -/
def resetAll (now : Nat → Nat) : List Char → Nat → Clocks → Res × Clocks
  | [], _, cl => (.ok, cl)
  | r :: rs, k, cl =>
    match cl r with
    | none => (.panic, cl)
    | some _ => resetAll now rs (k + 1) (fun x => if x = r then some (now k) else cl x)

/-- The sends of the timed choice (`choose_atmp_mpst_multi_to_all.rs:115-168`, `219-221`): for each session in
order, note its reset clock, then `send_without_reset(..)?`.  Each send has its own environment.  Returns the
result, the clocks, the transfer times of the sends done, and the clocks to reset. -/
def chooseSends : List (World × Window) → Clocks → Res × Clocks × List (Option Nat) × List Char
  | [], cl => (.ok, cl, [], [])
  | (W, w) :: rest, cl =>
    let noted := if w.reset ≠ ' ' then [w.reset] else []
    match run .sendNoReset W w cl with
    | ⟨.ok, cl', m⟩ =>
      let (r, cl'', ms, rs) := chooseSends rest cl'
      (r, cl'', m :: ms, noted ++ rs)
    | ⟨r, cl', m⟩ => (r, cl', [m], noted)

/-- The whole timed choice, `choose_atmp_mpst_multi_to_all.rs:217-229`: no clock is reset before the last
send. `now` are the readings of the final loop. -/
def choose (steps : List (World × Window)) (now : Nat → Nat) (cl : Clocks) :
    Res × Clocks × List (Option Nat) :=
  match chooseSends steps cl with
  | (.ok, cl', ms, rs) => let (r, cl'') := resetAll now rs 0 cl'; (r, cl'', ms)
  | (r, cl', ms, _) => (r, cl', ms)

/-- `SendTimed::new`, `/repo/src/binary_atmp/struct_trait/send.rs:109-131`: the run-time fields of the two
endpoints (first the sender, then the receiver) are filled from the const parameters `w`. -/
def newSend (w : Window) : Window × Window :=
  (⟨w.clock, w.start, w.inclStart, w.stop, w.inclStop, w.reset⟩,
   ⟨w.clock, w.start, w.inclStart, w.stop, w.inclStop, w.reset⟩)

/-- `RecvTimed::new`, `/repo/src/binary_atmp/struct_trait/recv.rs:108-111`: `let (there, here) =
Self::Dual::new(); (here, there)`; first the receiver. -/
def newRecv (w : Window) : Window × Window :=
  let (there, here) := newSend w
  (here, there)

/-- The parts of a printed constraint. -/
inductive Tok where
  | clk (c : Char) | num (n : Int) | le | lt
  deriving DecidableEq, Repr

/-- `SendTimed::constraint`, `/repo/src/binary_atmp/struct_trait/send.rs:66-93`, as a list of printed items;
`none` is the panic. -/
def constraintSend (w : Window) : Option (List Tok) :=
  if w.start < 0 then
    if w.stop ≥ 0 then
      if w.inclStop then some [.clk w.clock, .le, .num w.stop] else some [.clk w.clock, .lt, .num w.stop]
    else none
  else if w.stop < 0 then
    if w.inclStart then some [.num w.start, .le, .clk w.clock] else some [.num w.start, .lt, .clk w.clock]
  else match w.inclStart, w.inclStop with
    | true, true => some [.num w.start, .le, .clk w.clock, .le, .num w.stop]
    | true, false => some [.num w.start, .le, .clk w.clock, .lt, .num w.stop]
    | false, true => some [.num w.start, .lt, .clk w.clock, .le, .num w.stop]
    | false, false => some [.num w.start, .lt, .clk w.clock, .lt, .num w.stop]

/-- `RecvTimed::constraint`, `/repo/src/binary_atmp/struct_trait/recv.rs:65-92`. -/
def constraintRecv (w : Window) : Option (List Tok) :=
  if w.start < 0 then
    if w.stop ≥ 0 then
      if w.inclStop then some [.clk w.clock, .le, .num w.stop] else some [.clk w.clock, .lt, .num w.stop]
    else none
  else if w.stop < 0 then
    if w.inclStart then some [.num w.start, .le, .clk w.clock] else some [.num w.start, .lt, .clk w.clock]
  else match w.inclStart, w.inclStop with
    | true, true => some [.num w.start, .le, .clk w.clock, .le, .num w.stop]
    | true, false => some [.num w.start, .le, .clk w.clock, .lt, .num w.stop]
    | false, true => some [.num w.start, .lt, .clk w.clock, .le, .num w.stop]
    | false, false => some [.num w.start, .lt, .clk w.clock, .lt, .num w.stop]

end Verif.Timed
