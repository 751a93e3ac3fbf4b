import Verif.Model.Gen
/-!
# Model of generated code: choices of the last role, forks for one thread

`create_choose_mpst_session_multi_left!`/`_right!` emit one function with which the LAST role (number `n`) of an
`n`-role mesh broadcasts a choice, and `fork_mpst_multi_solo!` a fork that gives all the meshes to one function.
Statements and their meaning are those of `Model/Gen.lean`.

Stacks: `let (stack, _) = <R{r} as Role>::new()` is numbered `2r`; `let (_, stack) = ..`, of type
`<R{r} as Role>::Dual`, is numbered `2r + 1`.
-/
namespace Verif.Gen
open Verif.Maths

/-- Number of a stack type parameter, or of its dual. -/
def stackNo (r : Nat) (dual : Bool) : Nat := 2 * r + (if dual then 1 else 0)

/-- `new_channels`. create_choose_mpst_session_multi_left.rs:222-234, _right.rs:225-240 -/
def lastChannels (n : Nat) (right : Bool) : Option (List Stmt) :=
  (rangeIncl 1 ((n - 1) * (n - 1 + 1) / 2)).mapM fun i =>
    match getTupleDiag (diagAndMatrix n).2 i with
    | none => none
    | some (line, column, _) => some (.newChan (line, column) (column, line) (branchOff n right + i))

/-- `new_stacks` and the stack of the chooser. _left.rs:214, 236-244, 384; _right.rs:219, 242-250, 390 -/
def lastStacks (n : Nat) (right : Bool) : List Stmt :=
  (List.range' 1 (n - 1)).map (fun i => .newStack i (stackNo (3 * (i - 1) + (if right then 2 else 1)) true))
  ++ [.newStack n (stackNo (if right then 3 * n - 1 else 3 * n - 2) false)]

/-- Fields of `choice_{i}`. _left.rs:258-277 -/
def lastFields (n i : Nat) : Option (List (Nat × Name)) :=
  (List.range' 1 (n - 1)).mapM fun j =>
    match getTupleMatrix (diagAndMatrix n).1 i j with
    | none => none
    | some (line, column, _) => some (j, if line = i then (line, column) else (column, line))

/-- `new_choices`. _left.rs:256-295 -/
def lastChoices (n : Nat) : Option (List Stmt) :=
  (List.range' 1 (n - 1)).mapM fun i =>
    match lastFields n i with
    | none => none
    | some fs => some (.mesh i fs i)

/-- `new_sessions_left`: `send(Either::Left(choice_{i}), s.session{i})`. _left.rs:295-309 -/
def lastSends (n : Nat) : List Stmt := (List.range' 1 (n - 1)).map fun i => .sendVar i i

/-- `new_session_meshedchannels`: the new mesh of the chooser; here the test is `line == i`, `i` being the field.
_left.rs:321-335 -/
def lastSender (n : Nat) : Option (List (Nat × Name)) :=
  (List.range' 1 (n - 1)).mapM fun i =>
    match getTupleMatrix (diagAndMatrix n).1 n i with
    | none => none
    | some (line, column, _) => some (i, if line = i then (column, line) else (line, column))

/-- The emitted body. _left.rs:374-417, _right.rs:380-423.  The old mesh, whose sessions are all at their `End`, is
cancelled; that is not modelled. -/
def lastBody (n : Nat) (right : Bool) : Option (List Stmt) :=
  match lastChannels n right, lastChoices n, lastSender n with
  | some cs, some ms, some fs => some (cs ++ lastStacks n right ++ ms ++ lastSends n ++ [.ret fs n])
  | _, _, _ => none

/-- The type declared for slot `j` of the mesh sent to role `i`.  The parameter of the choice type is
`<S{m} as Session>::Dual` if `k == i` and `S{m}` if not (_left.rs:114-151), and the type alias sends the dual of the mesh
of its parameters, left ones first (create_choose_type_multi.rs:71-99): so the slot is declared `S{m}` and
`<S{m} as Session>::Dual` respectively. -/
def lastRecvTy (n : Nat) (right : Bool) (i j : Nat) : Option TyExp :=
  match getTupleMatrix (diagAndMatrix n).1 i j with
  | none => none
  | some (k, _, m) =>
    let param : TyExp := ⟨branchOff n right + m, decide (k = i)⟩
    some ⟨param.sess, !param.dual⟩

/-- The stack declared for the mesh sent to role `i`: the dual of parameter `R0` (left) or `R1` (right) of the choice
type, which is `R{3(i-1)+1}` or `R{3(i-1)+2}`. _left.rs:153-164, create_choose_type_multi.rs:82-97 -/
def lastRecvStack (right : Bool) (i : Nat) : Nat :=
  let params := (List.range' 1 2).map fun j => 3 * (i - 1) + j
  stackNo (params.getD (if right then 1 else 0) 0) true

/-- The types declared for the mesh returned to the chooser. _left.rs:206-215, _right.rs:206-218 -/
def lastSenderTys (n : Nat) (right : Bool) : List TyExp :=
  (List.range' 1 (n - 1)).map fun i =>
    ⟨branchOff n right + ((List.range i).map fun j => n - 1 - j).sum, true⟩

/-- The stack declared for the mesh returned to the chooser: parameter 1 or 2 of its role.
_left.rs:197-204, 214, 364; _right.rs:219, 370 -/
def lastSenderStack (n : Nat) (right : Bool) : Nat :=
  stackNo (if right then 3 * n - 1 else 3 * n - 2) false

/-! ## fork_mpst_multi_solo -/

/-- Body of `fork_mpst_multi_solo!`: channels, stacks and meshes as in `forkBody`, then `f(meshedchannels_1, ..)`
(function number 0). interleaved/fork_mpst_multi_solo.rs:76-84, 143-205, 240-262 -/
def soloBody (n : Nat) : Option (List Stmt) :=
  match forkChannels n 0 0, forkMeshes n 0 with
  | some cs, some ms => some (cs ++ forkStacks n ++ ms ++ [.spawn 0 (rangeIncl 1 n)])
  | _, _ => none

end Verif.Gen
