import Verif.Model.Indexed
import Verif.Model.Hand3
/-!
# Model of the ready-made operations for three roles

`/repo/src/functionmpst/{send,recv,offer}.rs` (functions) and `/repo/src/meshedchannels/impl_{a,b,c}.rs` (methods): the
operations of the roles A, B and C on `MeshedChannels`.  Each is one line: a call of `send_aux_simple!`,
`recv_aux_simple!` or `recv_all_aux_simple!` (`/repo/mpst_seq_proc/src/functionmpst/*_aux_simple.rs`) with an index
written by hand, below a signature written by hand.  They are kept in the form of the functions of
`Verif/Model/Indexed.lean`: the types that are declared, the statements, the mesh that is built.

Left out: lifetimes and bounds, and that `recv_aux_simple!` and `recv_all_aux_simple!` put their statements into a closure
that is called at once (`recv_aux_simple!(s, 1)()`).
-/
namespace Verif.Ready3
open Verif.Indexed Verif.Hand3

/-- The type of the stack entry for a role: `RoleA`, `RoleB`, `RoleC`.  /repo/src/role/{a,b,c}.rs -/
def roleTy : Role3 → Str
  | .A => "RoleA".toList | .B => "RoleB".toList | .C => "RoleC".toList

/-- The type of the stack entry for an offer: /repo/src/role/all_to_{a,b,c}.rs -/
def allTy : Role3 → Str
  | .A => "RoleAlltoA".toList | .B => "RoleAlltoB".toList | .C => "RoleAlltoC".toList

/-- The name of a role: /repo/src/name/{a,b,c}.rs -/
def nameTy : Role3 → Str
  | .A => "NameA".toList | .B => "NameB".toList | .C => "NameC".toList

/-- Functions (`functionmpst`) or methods (`meshedchannels`). -/
inductive Form where | function | method
deriving DecidableEq, Repr

/-- What is written by hand for one operation: which of the two sessions of `s` has the type that is used, the role on
the stack, the name of the mesh, and the index given to the macro. -/
structure Row where
  pos : Nat
  head : Role3
  name : Role3
  index : Nat
deriving DecidableEq, Repr

/-- Sends, by sender and receiver.  Functions: send.rs:67-77 (A to B), 126-136 (B to A), 185-195 (C to A), 244-254 (A to C),
303-313 (B to C), 362-372 (C to B).  Methods: impl_a.rs:31-47, impl_b.rs:30-46, impl_c.rs:30-46. -/
def sendRow : Form → Role3 → Role3 → Option Row
  | .function, .A, .B => some ⟨1, .B, .A, 1⟩
  | .function, .B, .A => some ⟨1, .A, .B, 1⟩
  | .function, .C, .A => some ⟨1, .A, .C, 1⟩
  | .function, .A, .C => some ⟨2, .C, .A, 2⟩
  | .function, .B, .C => some ⟨2, .C, .B, 2⟩
  | .function, .C, .B => some ⟨2, .B, .C, 2⟩
  | .method, .A, .B => some ⟨1, .B, .A, 1⟩
  | .method, .A, .C => some ⟨2, .C, .A, 2⟩
  | .method, .B, .A => some ⟨1, .A, .B, 1⟩
  | .method, .B, .C => some ⟨2, .C, .B, 2⟩
  | .method, .C, .A => some ⟨1, .A, .C, 1⟩
  | .method, .C, .B => some ⟨2, .B, .C, 2⟩
  | _, .A, .A | _, .B, .B | _, .C, .C => none

/-- Receptions, by receiver and sender.  Functions: recv.rs:98-107 (A from B), 171-180 (B from A), 244-253 (C from A),
317-326 (A from C), 390-399 (B from C), 463-472 (C from B).  Methods: impl_a.rs:49-65, impl_b.rs:48-64,
impl_c.rs:48-64. -/
def recvRow : Form → Role3 → Role3 → Option Row
  | .function, .A, .B => some ⟨1, .B, .A, 1⟩
  | .function, .B, .A => some ⟨1, .A, .B, 1⟩
  | .function, .C, .A => some ⟨1, .A, .C, 1⟩
  | .function, .A, .C => some ⟨2, .C, .A, 2⟩
  | .function, .B, .C => some ⟨2, .C, .B, 2⟩
  | .function, .C, .B => some ⟨2, .B, .C, 2⟩
  | .method, .A, .B => some ⟨1, .B, .A, 1⟩
  | .method, .A, .C => some ⟨2, .C, .A, 2⟩
  | .method, .B, .A => some ⟨1, .A, .B, 1⟩
  | .method, .B, .C => some ⟨2, .C, .B, 2⟩
  | .method, .C, .A => some ⟨1, .A, .C, 1⟩
  | .method, .C, .B => some ⟨2, .B, .C, 2⟩
  | _, .A, .A | _, .B, .B | _, .C, .C => none

/-- Receptions of a choice, by receiver and sender.  Functions: recv.rs:482-490 (A from B), 500-508 (A from C), 518-526
(B from A), 536-544 (B from C), 554-562 (C from A), 572-580 (C from B).  Methods: impl_a.rs:67-83, impl_b.rs:66-82,
impl_c.rs:66-82. -/
def recvAllRow : Form → Role3 → Role3 → Option Row
  | .function, .A, .B => some ⟨1, .B, .A, 1⟩
  | .function, .A, .C => some ⟨2, .C, .A, 2⟩
  | .function, .B, .A => some ⟨1, .A, .B, 1⟩
  | .function, .B, .C => some ⟨2, .C, .B, 2⟩
  | .function, .C, .A => some ⟨1, .A, .C, 1⟩
  | .function, .C, .B => some ⟨2, .B, .C, 2⟩
  | .method, .A, .B => some ⟨1, .B, .A, 1⟩
  | .method, .A, .C => some ⟨2, .C, .A, 2⟩
  | .method, .B, .A => some ⟨1, .A, .B, 1⟩
  | .method, .B, .C => some ⟨2, .C, .B, 2⟩
  | .method, .C, .A => some ⟨1, .A, .C, 1⟩
  | .method, .C, .B => some ⟨2, .B, .C, 2⟩
  | _, .A, .A | _, .B, .B | _, .C, .C => none

/-- The types of the sessions of `s`: the one at `pos` is used. -/
def sessionsOf (pos : Nat) (used : Nat → Ty) (other : Nat → Ty) : List Ty :=
  (List.range' 1 2).map fun i => if i = pos then used i else other i

/-- `new_sessions` of the three macros (`for i in 1..3`): send_aux_simple.rs:62-72, recv_aux_simple.rs:52-62,
recv_all_aux_simple.rs:54-64. -/
def fieldsOf3 (index : Nat) : List (Nat × Src) :=
  (List.range' 1 2).map fun i => if i = index then (i, .fresh) else (i, .old i)

/-- `send_mpst_{r}_to_{p}` and the methods `send`; the body is send_aux_simple.rs:57-87. -/
def sendOp (form : Form) (r p : Role3) : Option Fn :=
  (sendRow form r p).map fun w =>
    { arg := true
      sessions := sessionsOf w.pos (fun i => .send .T (.var i)) .var
      stack := .role (roleTy w.head) (.var 0)
      name := nameTy w.name
      body := [.send w.index, .pop]
      fields := fieldsOf3 w.index
      ret := .mesh [.var 1, .var 2] (.var 0) }

/-- `recv_mpst_{r}_from_{p}` and the methods `recv`; the body is recv_aux_simple.rs:48-81. -/
def recvOp (form : Form) (r p : Role3) : Option Fn :=
  (recvRow form r p).map fun w =>
    { arg := false
      sessions := sessionsOf w.pos (fun i => .recv .T (.var i)) .var
      stack := .role (roleTy w.head) (.var 0)
      name := nameTy w.name
      body := [.recv w.index, .pop]
      fields := fieldsOf3 w.index
      ret := .pair [.var 1, .var 2] (.var 0) }

/-- `recv_mpst_{r}_all_from_{p}` and the methods `recv_from_all`; the body is recv_all_aux_simple.rs:50-83. -/
def recvAllOp (form : Form) (r p : Role3) : Option Fn :=
  (recvAllRow form r p).map fun w =>
    { arg := false
      sessions := sessionsOf w.pos (fun i => .recv .T (.var i)) .var
      stack := .two (allTy w.head) .fin .fin
      name := nameTy w.name
      body := [.recv w.index, .popLeft]
      fields := fieldsOf3 w.index
      ret := .pair [.var 1, .var 2] .fin }

/-- What is written by hand for one offer: which session brings the choice, the type of the other session, the role on the
stack, the name, and the reception that is called (receiver and sender). -/
structure OfferRow where
  pos : Nat
  other : Ty
  head : Role3
  name : Role3
  callee : Role3 × Role3
deriving DecidableEq, Repr

/-- Offers, by receiver and sender.  Functions: types offer.rs:21-56, bodies 80-99 (A from B), 123-142 (A from C), 166-185 (B
from A), 209-228 (B from C), 252-271 (C from A), 295-314 (C from B).  Methods: impl_a.rs:85-125, impl_b.rs:84-124,
impl_c.rs:84-124; they call `recv_from_all` of their own type, found by name and stack (`calleeOf` below). -/
def offerRow : Form → Role3 → Role3 → Option OfferRow
  | .function, .A, .B => some ⟨1, .var 5, .B, .A, (.A, .B)⟩
  | .function, .A, .C => some ⟨2, .var 5, .C, .A, (.A, .C)⟩
  | .function, .B, .A => some ⟨1, .var 5, .A, .B, (.B, .A)⟩
  | .function, .B, .C => some ⟨2, .var 5, .C, .B, (.B, .C)⟩
  | .function, .C, .A => some ⟨1, .var 5, .A, .C, (.C, .A)⟩
  | .function, .C, .B => some ⟨2, .var 5, .B, .C, (.C, .B)⟩
  | .method, .A, .B => some ⟨1, .fin, .B, .A, (.A, .B)⟩
  | .method, .A, .C => some ⟨2, .fin, .C, .A, (.A, .C)⟩
  | .method, .B, .A => some ⟨1, .fin, .A, .B, (.B, .A)⟩
  | .method, .B, .C => some ⟨2, .fin, .C, .B, (.B, .C)⟩
  | .method, .C, .A => some ⟨1, .fin, .A, .C, (.C, .A)⟩
  | .method, .C, .B => some ⟨2, .fin, .B, .C, (.C, .B)⟩
  | _, .A, .A | _, .B, .B | _, .C, .C => none

/-- The reception an offer calls: by its name for functions, for methods the one declared for the type of `self`. -/
def calleeOf (form : Form) (w : OfferRow) : Option Fn :=
  match form with
  | .function => recvAllOp .function w.callee.1 w.callee.2
  | .method => recvAllOp .method w.name w.head

/-- `offer_mpst_session_to_{r}_from_{p}` and the methods `offer`: `let (e, s) = <reception>(s)?; cancel(s);
e.either(f, g)`.  The statements are those of the reception, which is called on all of `s`. -/
def offerOp (form : Form) (r p : Role3) : Option Fn :=
  match offerRow form r p with
  | none => none
  | some w => match calleeOf form w with
    | none => none
    | some c => some
      { arg := false
        sessions := sessionsOf w.pos (fun _ => .recv (.either [1, 2] 1 [3, 4] 2 (nameTy w.name)) .fin) (fun _ => w.other)
        stack := .two (allTy w.head) .fin .fin
        name := nameTy w.name
        body := c.body
        fields := c.fields
        ret := .branches [1, 2] 1 [3, 4] 2 }

/-- `create_{send,recv,offer}_mpst_session_1!` and `_2!`: the number of roles and the index they pass on.
/repo/src/macros_simple/send.rs:36-88, recv.rs:34-87, offer.rs:41-100. -/
def shortArgs : (suffix2 : Bool) → Nat × Nat
  | false => (3, 1)
  | true => (3, 2)

end Verif.Ready3
