import Verif.Model.Types
/-!
# Model of the generated `send`, `recv`, `recv_from_all` and `offer` methods

`/repo/mpst_seq_proc/src/common_functions/expand/{send,recv,offer}.rs` emit one `impl` block per ordered
pair of roles.  An emitted block is kept as data: which session parameters of `Self` are communication
types, which field expressions build the result, which field of `self` is used, and the stack and name
identifiers.  Roles are numbered `1..n`; fields are `session1 .. session{n-1}`.
-/
namespace Verif.SendRecv
open Verif.Types

/-- A field of the mesh built by the method: `session_k: new_session` or `session_k: self.session_k`. -/
inductive Field where
  | fresh
  | old (k : Nat)
  deriving DecidableEq, Repr

/-- One emitted `impl` block.  `comm[k-1]` tells whether parameter `k` of `Self` is `Send<T, S_k>`
(`Recv<T, S_k>` for receptions) rather than `S_k`; `used` is the `X` of `self.sessionX`; `stackRole` is
the role in `Role{..}<R>` (or `RoleAllto{..}`) at the head of the stack and `nameRole` the one in
`Name{..}`; `pops` counts the calls `self.stack.continuation()`. -/
structure Impl where
  comm : List Bool
  fields : List Field
  used : Nat
  stackRole : Nat
  nameRole : Nat
  pops : Nat
  deriving DecidableEq, Repr

/-- The loops `(1..number_roles).map(|k| { let cond = if k >= self { other - 1 } else { other }; .. })`:
`send.rs:28-40`, `recv.rs` (same shape with sender and receiver exchanged), `offer.rs:47-72`. -/
def isComm (self other k : Nat) : Bool :=
  k == (if k ≥ self then other - 1 else other)

/-- The common emission; `self` is the role owning the mesh, `other` the partner. -/
def emit (n self other : Nat) : Impl :=
  { comm := (List.range' 1 (n - 1)).map (isComm self other)
    fields := (List.range' 1 (n - 1)).map fun k => if isComm self other k then .fresh else .old k
    used := if other ≥ self then other - 1 else other
    stackRole := other
    nameRole := self
    pops := 1 }

/-- `send_basic`, `send_canceled`, `send_atmp_canceled`: `send.rs:7-87`, `90-175`, `178-292`.
The three differ only in the binary function called on `self.sessionX`. -/
def sendImpl (n sender receiver : Nat) : Impl := emit n sender receiver

/-- `recv_basic`, `recv`, `recv_atmp` and the `_from_all` variants: `recv.rs:7-93`, `96-183`, `186-273`,
`277-366`, `369-483`, `486-598`. `self` is the receiver. -/
def recvImpl (n sender receiver : Nat) : Impl := emit n receiver sender

/-- The sessions of the `Self` type of `offer`: the slot for the sender is `Recv<Either<..>, End>` and all
others are `End` (`offer.rs:47-72`). Its body calls `recv_from_all`. -/
def offerComm (n sender receiver : Nat) : List Bool :=
  (List.range' 1 (n - 1)).map (isComm receiver sender)

/-- Static types of the emitted block: the type of `session_k` in `Self`. `wrap` adds the communication
(`Send<T, _>`, `Recv<T, _>`, timed or not). -/
def Impl.selfTys {P : Type} (i : Impl) (wrap : STy P → STy P) (S : Nat → STy P) : List (STy P) :=
  (i.comm.zip (List.range' 1 i.comm.length)).map fun (b, k) => if b then wrap (S k) else S k

/-- Type of the mesh returned, as declared: `Mesh<S1, .., S{n-1}, R, Name>` (`send.rs:62-87`). -/
def Impl.retTys {P : Type} (i : Impl) (S : Nat → STy P) : List (STy P) :=
  (List.range' 1 i.comm.length).map S

/-- Execution of the emitted body on a mesh: `act` is the binary operation on the used session, giving
the new session.  Fails where the body would not compile: a field that does not exist, or `act` refusing
the session. -/
def Impl.exec {α : Type} (i : Impl) (act : α → Option α) (slots : List α) : Option (List α) :=
  match slots[i.used - 1]? with
  | none => none
  | some s =>
    match act s with
    | none => none
    | some s' => i.fields.mapM fun
        | .fresh => some s'
        | .old k => slots[k - 1]?

/-- The binary operation at the level of types: `send` on `Send<T, S>` gives `S`. -/
def afterSend {P : Type} [DecidableEq P] (t : P) : STy P → Option (STy P)
  | .send _ t' s => if t = t' then some s else none
  | _ => none

/-- The binary operation at the level of types: `recv` on `Recv<T, S>` gives `S`. -/
def afterRecv {P : Type} [DecidableEq P] (t : P) : STy P → Option (STy P)
  | .recv _ t' s => if t = t' then some s else none
  | _ => none

end Verif.SendRecv
