/-!
# Model of the functions made by macros that are given a number of roles and an index

`create_send_mpst_session!`, `create_send_mpst_cancel!`, `create_send_check_cancel!`, `create_recv_mpst_session!` and
`create_offer_mpst_session_multi!` (`/repo/mpst_seq_proc/src/macros_simple/{send,recv,offer}/*.rs`,
`/repo/mpst_seq_proc/src/macros_multiple/multiple/send/*.rs`) each emit one generic function.  The caller of the macro
gives the number `n` of roles and the index `k` of the session to use, called `exclusion`.  The emitted function is kept
as data: the types it declares, its statements, and the mesh it builds.

Left out: lifetimes, visibility, the bounds of the type parameters (all are met by the types of sessions, roles and
messages), and the arms of the wrappers in `/repo/src/macros_simple/{send,recv,offer}.rs` and
`/repo/src/macros_multiple/{send,recv,offer}.rs`, which only pass their arguments on (with `n = 3` and `k = 1` or `2` for
the names that end in `_1` and `_2`).
-/
namespace Verif.Indexed

/-- Identifiers. -/
abbrev Str := List Char

/-- Types of messages in a signature: the parameter `T`, or
`Either<M<S.., R, name>, M<S.., R, name>>`, with the numbers of the parameters. -/
inductive Pay where
  | T
  | either (left : List Nat) (leftStack : Nat) (right : List Nat) (rightStack : Nat) (name : Str)
  deriving DecidableEq, Repr

/-- Types of sessions in a signature: `S{k}`, `End`, `Send<t, s>`, `Recv<t, s>`. -/
inductive Ty where
  | var (k : Nat)
  | fin
  | send (t : Pay) (s : Ty)
  | recv (t : Pay) (s : Ty)
  deriving DecidableEq, Repr

/-- Types of stacks in a signature: `R{k}` (`R` is `var 0`), `RoleEnd`, `role<r>`, `role<l, r>`. -/
inductive Stk where
  | var (k : Nat)
  | fin
  | role (a : Str) (r : Stk)
  | two (a : Str) (l r : Stk)
  deriving DecidableEq, Repr

/-- Emitted statements. -/
inductive Stmt where
  /-- `match s.session1.receiver.try_recv() { Ok(Signal::Cancel) => { cancel(s); panic!("Error") }, _ => {} };` -/
  | check
  /-- `let new_session = send(x, s.session{k});` -/
  | send (k : Nat)
  /-- `let new_session = send_canceled(x, s.session{k})?;` -/
  | sendCanceled (k : Nat)
  /-- `let (v, new_session) = recv(s.session{k})?;` (`e` for `v` in offers) -/
  | recv (k : Nat)
  /-- `let new_stack = s.stack.continuation();` -/
  | pop
  /-- `let new_stack = s.stack.continuation_left();` -/
  | popLeft
  deriving DecidableEq, Repr

/-- Values of the fields of the mesh that is built: `new_session`, or `s.session{k}`. -/
inductive Src where
  | fresh
  | old (k : Nat)
  deriving DecidableEq, Repr

/-- What the function gives back: the mesh (`M<..>`, `Result<M<..>, _>`); the message and the mesh
(`Result<(T, M<..>), _>`); or the result of one of two functions, whose arguments are the meshes of the branches, the mesh
that is built being dropped (`cancel(s); e.either(f, g)`). -/
inductive Ret where
  | mesh (sessions : List Ty) (stack : Stk)
  | pair (sessions : List Ty) (stack : Stk)
  | branches (left : List Nat) (leftStack : Nat) (right : List Nat) (rightStack : Nat)
  deriving DecidableEq, Repr

/-- An emitted function.  `sessions`, `stack`, `name` are the arguments of the type of `s`; `arg` tells whether there is
a parameter `x: T`. -/
structure Fn where
  arg : Bool
  sessions : List Ty
  stack : Stk
  name : Str
  body : List Stmt
  fields : List (Nat × Src)
  ret : Ret
  deriving DecidableEq, Repr

/-- `new_sessions`: create_send_mpst_session.rs:103-117 and the same in the other four. -/
def newFields (n k : Nat) : List (Nat × Src) :=
  (List.range' 1 (n - 1)).map fun i => if i = k then (i, .fresh) else (i, .old i)

/-- `create_send_mpst_session!`: create_send_mpst_session.rs:55-166. -/
def sendFn (receiver sender : Str) (n k : Nat) : Fn :=
  { arg := true
    sessions := (List.range' 1 (n - 1)).map fun i => if i = k then .send .T (.var i) else .var i
    stack := .role receiver (.var 0)
    name := sender
    body := ((List.range' 1 (n - 1)).flatMap fun i => if i ≠ k then [] else [.send i]) ++ [.pop]
    fields := newFields n k
    ret := .mesh ((List.range' 1 (n - 1)).map .var) (.var 0) }

/-- `create_send_mpst_cancel!`: create_send_mpst_cancel.rs:52-171. -/
def sendCancelFn (receiver sender : Str) (n k : Nat) : Fn :=
  { arg := true
    sessions := (List.range' 1 (n - 1)).map fun i => if i = k then .send .T (.var i) else .var i
    stack := .role receiver (.var 0)
    name := sender
    body := ((List.range' 1 (n - 1)).flatMap fun i => if i ≠ k then [] else [.sendCanceled i]) ++ [.pop]
    fields := newFields n k
    ret := .mesh ((List.range' 1 (n - 1)).map .var) (.var 0) }

/-- `create_send_check_cancel!`: create_send_check_cancel.rs:52-181.  The first session is `End`, the others are numbered
from 2; the statement and the fields still range over all sessions. -/
def sendCheckFn (receiver sender : Str) (n k : Nat) : Fn :=
  { arg := true
    sessions := .fin :: (List.range' 2 (n - 2)).map fun i => if i = k then .send .T (.var i) else .var i
    stack := .role receiver (.var 0)
    name := sender
    body := .check :: ((List.range' 1 (n - 1)).flatMap fun i => if i ≠ k then [] else [.sendCanceled i]) ++ [.pop]
    fields := newFields n k
    ret := .mesh (.fin :: (List.range' 2 (n - 2)).map .var) (.var 0) }

/-- `create_recv_mpst_session!`: create_recv_mpst_session.rs:52-174. -/
def recvFn (sender receiver : Str) (n k : Nat) : Fn :=
  { arg := false
    sessions := (List.range' 1 (n - 1)).map fun i => if i = k then .recv .T (.var i) else .var i
    stack := .role sender (.var 0)
    name := receiver
    body := ((List.range' 1 (n - 1)).flatMap fun i => if i ≠ k then [] else [.recv i]) ++ [.pop]
    fields := newFields n k
    ret := .pair ((List.range' 1 (n - 1)).map .var) (.var 0) }

/-- The type `create_offer_type_multi!` declares for `m` roles, applied to parameters: `none` if their number is wrong.
create_offer_type_multi.rs:39-104; for three roles `OfferMpst`, /repo/src/functionmpst/mod.rs:34-35. -/
def offerType (m : Nat) (args : List Nat) (r0 r1 : Nat) (name : Str) : Option Ty :=
  if args.length = 2 * m - 2 then
    some (.recv (.either ((List.range' 1 (m - 1)).map fun i => args.getD (i - 1) 0) r0
      ((List.range' m (m - 1)).map fun i => args.getD (i - 1) 0) r1 name) .fin)
  else none

/-- `create_offer_mpst_session_multi!` with a type made for `m` roles: create_offer_mpst_session_multi.rs:57-225.
`none`: the macro panics (`2 * n - 1` overflows for `n = 0`), or the type is applied to a wrong number of parameters. -/
def offerFn (m : Nat) (role name : Str) (n k : Nat) : Option Fn :=
  if n = 0 then none else
  match (List.range' 1 (n - 1)).mapM fun i =>
      if i ≠ k then some .fin else offerType m (List.range' 1 (2 * n - 2)) 1 2 name with
  | none => none
  | some tys => some
    { arg := false
      sessions := tys
      stack := .two role .fin .fin
      name := name
      body := ((List.range' 1 (n - 1)).flatMap fun i => if i ≠ k then [] else [.recv i]) ++ [.popLeft]
      fields := newFields n k
      ret := .branches (List.range' 1 (n - 1)) 1 (List.range' n (n - 1)) 2 }

/-! ## Running a function -/

/-- What the statements call: sessions are `α`, messages `X`, stacks `K`, and `E` are the ways to fail (an `Err` that is
handed on by `?`, or a panic).  `none`: the call does not exist on the argument.  `poll` looks for a signal on the first
session. -/
structure Ops (E α X K : Type) where
  poll : α → Option (Except E Unit)
  send : X → α → Option (Except E α)
  sendCanceled : X → α → Option (Except E α)
  recv : α → Option (Except E (X × α))
  pop : K → Option K
  popLeft : K → Option K

/-- Variables in scope.  A field or variable that was moved is gone. -/
structure Env (α X K : Type) where
  slots : List (Nat × α)
  x : Option X
  stack : Option K
  fresh : Option α := none
  got : Option X := none
  newStack : Option K := none

/-- Moves field `session{k}` out of `s`. -/
def takeField {α : Type} (k : Nat) : List (Nat × α) → Option (α × List (Nat × α))
  | [] => none
  | (i, a) :: rest =>
    if i = k then some (a, rest)
    else match takeField k rest with
      | none => none
      | some (b, rest') => some (b, (i, a) :: rest')

/-- One statement; `none` if a variable or a field is missing or the call does not exist. -/
def step {E α X K : Type} (o : Ops E α X K) (st : Env α X K) : Stmt → Option (Except E (Env α X K))
  | .check => match st.slots.lookup 1 with
    | none => none
    | some a => (o.poll a).map fun r => r.map fun _ => st
  | .send k => match st.x, takeField k st.slots with
    | some x, some (a, rest) =>
      (o.send x a).map fun r => r.map fun b => { st with x := none, slots := rest, fresh := some b }
    | _, _ => none
  | .sendCanceled k => match st.x, takeField k st.slots with
    | some x, some (a, rest) =>
      (o.sendCanceled x a).map fun r => r.map fun b => { st with x := none, slots := rest, fresh := some b }
    | _, _ => none
  | .recv k => match takeField k st.slots with
    | some (a, rest) =>
      (o.recv a).map fun r => r.map fun p => { st with slots := rest, got := some p.1, fresh := some p.2 }
    | none => none
  | .pop => match st.stack with
    | none => none
    | some q => (o.pop q).map fun q' => .ok { st with stack := none, newStack := some q' }
  | .popLeft => match st.stack with
    | none => none
    | some q => (o.popLeft q).map fun q' => .ok { st with stack := none, newStack := some q' }

/-- The statements in turn; a failure ends the function. -/
def steps {E α X K : Type} (o : Ops E α X K) : Env α X K → List Stmt → Option (Except E (Env α X K))
  | st, [] => some (.ok st)
  | st, s :: rest => match step o st s with
    | none => none
    | some (.error e) => some (.error e)
    | some (.ok st') => steps o st' rest

/-- The fields of the mesh that is built, each moved from where it is. -/
def build {α X K : Type} : Env α X K → List (Nat × Src) → Option (List (Nat × α))
  | _, [] => some []
  | st, (i, .fresh) :: rest => match st.fresh with
    | none => none
    | some a => (build { st with fresh := none } rest).map fun l => (i, a) :: l
  | st, (i, .old k) :: rest => match takeField k st.slots with
    | none => none
    | some (a, slots) => (build { st with slots := slots } rest).map fun l => (i, a) :: l

/-- What a call leaves: the mesh that is built, and the message received. -/
structure Out (α X K : Type) where
  mesh : List (Nat × α)
  stack : K
  got : Option X

/-- A call of the function on the message `x` (if it takes one) and a mesh. -/
def Fn.call {E α X K : Type} (o : Ops E α X K) (f : Fn) (x : Option X) (slots : List α) (stack : K) :
    Option (Except E (Out α X K)) :=
  match steps o { slots := (List.range' 1 slots.length).zip slots, x := x, stack := some stack } f.body with
  | none => none
  | some (.error e) => some (.error e)
  | some (.ok st) => match build st f.fields, st.newStack with
    | some mesh, some q => some (.ok { mesh := mesh, stack := q, got := st.got })
    | _, _ => none

end Verif.Indexed
