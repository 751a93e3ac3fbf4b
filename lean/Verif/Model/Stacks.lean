import Verif.Model.Types
/-!
# Model of the ordering stacks and names as values

`Role::new`, `continuation`, `continuation_left`, `continuation_right` and `Name::new`, which work on channels of
`crossbeam_channel`.  The hand-written roles (`/repo/src/role/*.rs`, `/repo/src/name/*.rs`), those of the simple macros
(`/repo/src/macros_simple/{role,name}.rs`, `/repo/mpst_seq_proc/src/macros_simple/{roles,names}/*.rs`) and those emitted by
`generate!` (`/repo/mpst_seq_proc/src/common_functions/expand/{role,role_atmp,name}.rs`) have the same bodies; they differ in
the names of the types only.  The values are kept in a store, threads are left out: an operation works on its own value and
on channels, and any interleaving of threads is a sequence of operations.
-/
namespace Verif.Stacks
open Verif.Types

/-- What a channel carries: stacks of a type, or `()`. -/
inductive Load where
  | stack (r : Stack)
  | unit
  deriving DecidableEq, Repr

/-- A value with channels: its type, the channels it holds the sender of, and those it holds the receiver of.
`role/a.rs:30-37` (`sender`), `role/a_to_all.rs:33-44` (`sender1`, `sender2`), `role/end.rs:22-27`, `name/a.rs:23-28`
(`sender`, `receiver`). -/
inductive Kind where
  | stack (r : Stack)
  | name (n : List Char)
  deriving DecidableEq, Repr

/-- A value. -/
structure Obj where
  kind : Kind
  senders : List Nat
  receivers : List Nat
  deriving DecidableEq, Repr

/-- A channel `bounded::<load>(1)`: whether its receiver still exists, and the values in it. -/
structure Chan where
  load : Load
  rx : Bool
  buf : List Obj
  deriving DecidableEq, Repr

/-- The store: channels, by their number, and how many there are. -/
structure Store where
  next : Nat
  chan : Nat → Option Chan

/-- `bounded::<load>(1)`.  `rx = false`: the receiver is bound to `_` and dropped at once. -/
def Store.bounded (st : Store) (load : Load) (rx : Bool) : Store :=
  { next := st.next + 1
    chan := fun c => if c = st.next then some ⟨load, rx, []⟩ else st.chan c }

/-- `Role::new`: `role/a.rs:42-53` and `role/a_dual.rs:42-53`, `role/a_to_all.rs:49-64` and `role/all_to_a.rs:44-59`,
`role/end.rs:32-45`, `role/broadcast.rs:32-45`; `macros_simple/role.rs`, `expand/role.rs:40-51` and the others with the same
body. -/
def newStack (r : Stack) (st : Store) : Obj × Obj × Store :=
  match r with
  | .role a d r' =>
    let normal := st.next
    let st := st.bounded (.stack r') false
    let dual := st.next
    let st := st.bounded (.stack r'.dual) false
    (⟨.stack (.role a d r'), [dual], []⟩, ⟨.stack (.role a (!d) r'.dual), [normal], []⟩, st)
  | .toAll a d r1 r2 =>
    let normal1 := st.next
    let st := st.bounded (.stack r1) false
    let normal2 := st.next
    let st := st.bounded (.stack r2) false
    let dual1 := st.next
    let st := st.bounded (.stack r1.dual) false
    let dual2 := st.next
    let st := st.bounded (.stack r2.dual) false
    (⟨.stack (.toAll a d r1 r2), [dual1, dual2], []⟩, ⟨.stack (.toAll a (!d) r1.dual r2.dual), [normal1, normal2], []⟩, st)
  | .fin =>
    let one := st.next
    let st := st.bounded .unit true
    let two := st.next
    let st := st.bounded .unit true
    (⟨.stack .fin, [one], [two]⟩, ⟨.stack .fin, [two], [one]⟩, st)
  | .broadcast =>
    let one := st.next
    let st := st.bounded .unit true
    let two := st.next
    let st := st.bounded .unit true
    (⟨.stack .broadcast, [one], [two]⟩, ⟨.stack .broadcast, [two], [one]⟩, st)

/-- `Name::new`: `name/a.rs:33-47`, `macros_simple/name.rs`, `expand/name.rs`. -/
def newName (n : List Char) (st : Store) : Obj × Obj × Store :=
  let one := st.next
  let st := st.bounded .unit true
  let two := st.next
  let st := st.bounded .unit true
  (⟨.name n, [one], [two]⟩, ⟨.name n, [two], [one]⟩, st)

/-- How `Sender::send` ends (contract of `crossbeam_channel`): at once with an error if the receiver is gone, which gives
the value back; at once if there is room; else it waits. -/
inductive Sent where
  | disconnected
  | ok (st : Store)
  | waits

/-- `Sender::send` on a channel for one value. -/
def Store.send (st : Store) (c : Nat) (x : Obj) : Sent :=
  match st.chan c with
  | none => .disconnected
  | some ch =>
    if ch.rx = false then .disconnected
    else if ch.buf = [] then .ok { st with chan := fun c' => if c' = c then some { ch with buf := [x] } else st.chan c' }
    else .waits

/-- How a call ends: it does not exist on the value, waits for ever, or returns. -/
inductive Res (α : Type) where
  | noCall
  | waits
  | done (a : α)

/-- Which of the methods is called. -/
inductive Side where | only | left | right
  deriving DecidableEq, Repr

/-- The type of the rest and the position of the sender that a method uses. -/
def methodOf : Side → Stack → Option (Stack × Nat)
  | .only, .role _ _ r => some (r, 0)
  | .left, .toAll _ _ l _ => some (l, 0)
  | .right, .toAll _ _ _ r => some (r, 1)
  | _, _ => none

/-- `continuation` (`role/a.rs:75-79`), `continuation_left` and `continuation_right` (`role/a_to_all.rs:98-109`):
`let (here, there) = R::new(); self.sender.send(there).unwrap_or(()); here`.  In `expand/role_atmp.rs:133-158,307-350` the
result is wrapped in `Ok`. -/
def Obj.continuation (x : Obj) (side : Side) (st : Store) : Res (Obj × Store) :=
  match x.kind with
  | .name _ => .noCall
  | .stack r =>
    match methodOf side r with
    | none => .noCall
    | some (rest, i) =>
      match x.senders[i]? with
      | none => .noCall
      | some c =>
        let (here, there, st) := newStack rest st
        match st.send c there with
        | .waits => .waits
        | .disconnected => .done (here, st)
        | .ok st => .done (here, st)

/-! ## Programs -/

/-- What a program does with stacks and names: makes them, asks for a continuation, drops a value. -/
inductive Op where
  | newStack (r : Stack)
  | newName (n : List Char)
  | next (i : Nat) (side : Side)
  | drop (i : Nat)
  deriving DecidableEq, Repr

/-- The values a program holds, and the store. -/
structure World where
  held : List Obj
  store : Store

/-- At the start there is nothing. -/
def World.init : World := ⟨[], ⟨0, fun _ => none⟩⟩

/-- Dropping a receiver closes the channel and drops what is in it. -/
def Store.close (st : Store) (cs : List Nat) : Store :=
  { st with chan := fun c => if c ∈ cs then (st.chan c).map fun ch => { ch with rx := false, buf := [] } else st.chan c }

/-- One operation.  New values are put in front.  A continuation takes `&self`: the value stays. -/
def World.step (w : World) : Op → Res World
  | .newStack r =>
    let (a, b, st) := Stacks.newStack r w.store
    .done ⟨a :: b :: w.held, st⟩
  | .newName n =>
    let (a, b, st) := Stacks.newName n w.store
    .done ⟨a :: b :: w.held, st⟩
  | .next i side =>
    match w.held[i]? with
    | none => .noCall
    | some x =>
      match x.continuation side w.store with
      | .noCall => .noCall
      | .waits => .waits
      | .done (here, st) => .done ⟨here :: w.held, st⟩
  | .drop i =>
    match w.held[i]? with
    | none => .noCall
    | some x => .done ⟨w.held.eraseIdx i, w.store.close x.receivers⟩

/-- A program: operations in turn. -/
def World.run (w : World) : List Op → Res World
  | [] => .done w
  | o :: os => match w.step o with
    | .noCall => .noCall
    | .waits => .waits
    | .done w' => w'.run os

end Verif.Stacks
