import Verif.Model.Gen
/-!
# Model of the hand-written three-role choices and fork, and of the macros for three roles

The roles A, B, C are 1, 2, 3.  `session_i_j` is the name `(i, j)`; the session parameter `S{m}` is
the number `m`.  The statements and their semantics are those of `Verif/Model/Gen.lean`.
-/
namespace Verif.Hand3
open Verif.Gen

/-- The three roles. -/
inductive Role3 where | A | B | C
deriving DecidableEq, Repr

/-- Number of a role. -/
def Role3.num : Role3 → Nat | .A => 1 | .B => 2 | .C => 3

/-- The two hand-written APIs: associated functions (`meshedchannels/impl_*.rs`) and free functions
(`functionmpst/choose.rs`), and the functions made by the six macros `create_choose_left_from_..`,
`create_choose_right_from_..` (`macros_simple/choose.rs:253-825`; `create_choose_both_from_..`, 887-1070, makes two). -/
inductive Api where | method | function | macro
deriving DecidableEq, Repr

/-- The three `let (x, y) = <$session_k as Session>::new()`, as (first name, second name).
impl_a.rs:142-144, impl_b.rs:140-142, impl_c.rs:140-142; choose.rs:71-73 (a), 123-125 (b), 175-177 (c);
macros_simple/choose.rs:25-30 (1), 89-94 (2), 153-158 (3). -/
def chans : Api → Role3 → List (Name × Name)
  | .method, .A => [((2,1),(1,2)), ((3,1),(1,3)), ((3,2),(2,3))]
  | .method, .B => [((1,2),(2,1)), ((3,1),(1,3)), ((3,2),(2,3))]
  | .method, .C => [((2,1),(1,2)), ((1,3),(3,1)), ((2,3),(3,2))]
  | .function, .A => [((1,2),(2,1)), ((1,3),(3,1)), ((3,2),(2,3))]
  | .function, .B => [((2,1),(1,2)), ((3,1),(1,3)), ((2,3),(3,2))]
  | .function, .C => [((2,1),(1,2)), ((3,1),(1,3)), ((3,2),(2,3))]
  | .macro, .A => [((1,2),(2,1)), ((1,3),(3,1)), ((3,2),(2,3))]
  | .macro, .B => [((2,1),(1,2)), ((2,3),(3,2)), ((3,1),(1,3))]
  | .macro, .C => [((3,1),(1,3)), ((3,2),(2,3)), ((2,1),(1,2))]

/-- `$session_1, $session_2, $session_3` at the call sites.
impl_a.rs:219-252, impl_b.rs:217-250, impl_c.rs:217-250;
choose.rs `choose_mpst_a!(S2, S3, S0, ..)`, `choose_mpst_b!(S2, S0, S3, ..)`, `choose_mpst_c!(S0, S2, S3, ..)`
and `S4/S5/S1` on the right branch. Identical in the two hand-written APIs; the same for all roles in the macros
(macros_simple/choose.rs:292-294, 397-399, 502-504, 607-609, 712-714, 817-819). -/
def sessArgs : Api → Role3 → (right : Bool) → List Nat
  | .macro, _, false => [2, 3, 0]
  | .macro, _, true  => [4, 5, 1]
  | _, .A, false => [2, 3, 0]
  | _, .A, true  => [4, 5, 1]
  | _, .B, false => [2, 0, 3]
  | _, .B, true  => [4, 1, 5]
  | _, .C, false => [0, 2, 3]
  | _, .C, true  => [1, 4, 5]

/-- `$stack_1, $stack_2, $stack_3`: `R0, R2, R4` on the left, `R1, R3, R5` on the right. Same sites. -/
def stackParams (right : Bool) : List Nat := if right then [1, 3, 5] else [0, 2, 4]

/-- The half of `Role::new()` that is kept: of the stacks of the receivers the second one, of type `<R as Role>::Dual`,
in the functions (choose.rs:75-77) and the macros (macros_simple/choose.rs:31-33), the first one otherwise
(impl_a.rs:146-148). -/
def stackDuals : Api → List Bool
  | .method => [false, false, false]
  | .function => [true, true, false]
  | .macro => [true, true, false]

/-- The stacks made; `R{r}` is numbered `2r`, its dual `2r + 1`. -/
def stackArgs (api : Api) (right : Bool) : List Nat :=
  ((stackParams right).zip (stackDuals api)).map fun x => 2 * x.1 + (if x.2 then 1 else 0)

/-- Fields of `choice_1`, `choice_2` and of the returned mesh. Same in both APIs.
impl_a.rs:153-191, impl_b.rs:151-189, impl_c.rs:151-189; choose.rs:82-119, 134-171, 186-223. -/
def fields : Role3 → List (Nat × Name) × List (Nat × Name) × List (Nat × Name)
  | .A => ([(1,(2,1)),(2,(2,3))], [(1,(3,1)),(2,(3,2))], [(1,(1,2)),(2,(1,3))])
  | .B => ([(1,(1,2)),(2,(1,3))], [(1,(3,1)),(2,(3,2))], [(1,(2,1)),(2,(2,3))])
  | .C => ([(1,(1,2)),(2,(1,3))], [(1,(2,1)),(2,(2,3))], [(1,(3,1)),(2,(3,2))])

/-- Body of `choose_left*` (`right = false`) and `choose_right*`. The wrapping into `Either` and the
cancellation of the old (already used up) mesh are omitted; `name` fields are omitted. -/
def chooseBody3 (api : Api) (r : Role3) (right : Bool) : List Stmt :=
  ((chans api r).zip (sessArgs api r right)).map (fun x => .newChan x.1.1 x.1.2 x.2)
  ++ ((List.range' 1 3).zip (stackArgs api right)).map (fun x => .newStack x.1 x.2)
  ++ [.mesh 1 (fields r).1 1, .mesh 2 (fields r).2.1 2, .sendVar 1 1, .sendVar 2 2, .ret (fields r).2.2 3]

/-- Types declared for the two receivers' meshes and the chooser's result; entries are
`(session1, session2)`. For the methods: impl_a.rs:197-215, 216-218, 235-237; impl_b.rs:195-216, 233-235;
impl_c.rs:195-216, 233-235. For the functions: choose.rs:18-55 with `ChooseMpst`
(functionmpst/mod.rs:45-51) unfolded and double duals cancelled, and the return types.  For the macros:
macros_simple/choose.rs:262-276, 367-381, 472-486, 577-591, 682-696, 787-801, likewise. -/
def declared : Api → Role3 → (right : Bool) → (TyExp × TyExp) × (TyExp × TyExp) × (TyExp × TyExp)
  | .method, .A, false => ((⟨2,false⟩,⟨0,true⟩), (⟨3,false⟩,⟨0,false⟩), (⟨2,true⟩,⟨3,true⟩))
  | .method, .A, true  => ((⟨4,false⟩,⟨1,true⟩), (⟨5,false⟩,⟨1,false⟩), (⟨4,true⟩,⟨5,true⟩))
  | .method, .B, false => ((⟨2,false⟩,⟨0,true⟩), (⟨0,false⟩,⟨3,false⟩), (⟨2,true⟩,⟨3,true⟩))
  | .method, .B, true  => ((⟨4,false⟩,⟨1,true⟩), (⟨1,false⟩,⟨5,false⟩), (⟨4,true⟩,⟨5,true⟩))
  | .method, .C, false => ((⟨0,true⟩,⟨2,false⟩), (⟨0,false⟩,⟨3,false⟩), (⟨2,true⟩,⟨3,true⟩))
  | .method, .C, true  => ((⟨1,true⟩,⟨4,false⟩), (⟨1,false⟩,⟨5,false⟩), (⟨4,true⟩,⟨5,true⟩))
  | .function, .A, false => ((⟨2,true⟩,⟨0,true⟩), (⟨3,true⟩,⟨0,false⟩), (⟨2,false⟩,⟨3,false⟩))
  | .function, .A, true  => ((⟨4,true⟩,⟨1,true⟩), (⟨5,true⟩,⟨1,false⟩), (⟨4,false⟩,⟨5,false⟩))
  | .function, .B, false => ((⟨2,true⟩,⟨0,true⟩), (⟨0,false⟩,⟨3,true⟩), (⟨2,false⟩,⟨3,false⟩))
  | .function, .B, true  => ((⟨4,true⟩,⟨1,true⟩), (⟨1,false⟩,⟨5,true⟩), (⟨4,false⟩,⟨5,false⟩))
  | .function, .C, false => ((⟨0,true⟩,⟨2,true⟩), (⟨0,false⟩,⟨3,true⟩), (⟨2,false⟩,⟨3,false⟩))
  | .function, .C, true  => ((⟨1,true⟩,⟨4,true⟩), (⟨1,false⟩,⟨5,true⟩), (⟨4,false⟩,⟨5,false⟩))
  | .macro, .A, false => ((⟨2,true⟩,⟨0,true⟩), (⟨3,true⟩,⟨0,false⟩), (⟨2,false⟩,⟨3,false⟩))
  | .macro, .A, true  => ((⟨4,true⟩,⟨1,true⟩), (⟨5,true⟩,⟨1,false⟩), (⟨4,false⟩,⟨5,false⟩))
  | .macro, .B, false => ((⟨2,true⟩,⟨0,true⟩), (⟨0,false⟩,⟨3,true⟩), (⟨2,false⟩,⟨3,false⟩))
  | .macro, .B, true  => ((⟨4,true⟩,⟨1,true⟩), (⟨1,false⟩,⟨5,true⟩), (⟨4,false⟩,⟨5,false⟩))
  | .macro, .C, false => ((⟨0,true⟩,⟨2,true⟩), (⟨0,false⟩,⟨3,true⟩), (⟨2,false⟩,⟨3,false⟩))
  | .macro, .C, true  => ((⟨1,true⟩,⟨4,true⟩), (⟨1,false⟩,⟨5,true⟩), (⟨4,false⟩,⟨5,false⟩))

/-- Stacks declared for the two receivers' meshes and the chooser's result, numbered as in `stackArgs`.  Same places; the
parameters of `ChooseMpst` stand for their duals. -/
def declaredStacks : Api → (right : Bool) → Nat × Nat × Nat
  | .method, false => (2 * 0, 2 * 2, 2 * 4)
  | .method, true => (2 * 1, 2 * 3, 2 * 5)
  | _, false => (2 * 0 + 1, 2 * 2 + 1, 2 * 4)
  | _, true => (2 * 1 + 1, 2 * 3 + 1, 2 * 5)

/-- The receivers, in the order of the chooser's `session1`, `session2`. -/
def receivers : Role3 → Role3 × Role3
  | .A => (.B, .C) | .B => (.A, .C) | .C => (.A, .B)

/-- The hand-written `fork_mpst`. functionmpst/fork.rs:150-186. -/
def forkBody3 : List Stmt :=
  [.newChan (1,2) (2,1) 0, .newChan (1,3) (3,1) 1, .newChan (2,3) (3,2) 2,
   .newStack 1 0, .newStack 2 1, .newStack 3 2,
   .mesh 1 [(1,(1,2)),(2,(1,3))] 1, .mesh 2 [(1,(2,1)),(2,(2,3))] 2, .mesh 3 [(1,(3,1)),(2,(3,2))] 3,
   .spawn 1 [1], .spawn 2 [2], .spawn 3 [3]]

/-- Parameter types of `f0, f1, f2`. functionmpst/fork.rs:137-148 -/
def forkDeclared3 : Role3 → TyExp × TyExp
  | .A => (⟨0,false⟩, ⟨1,false⟩)
  | .B => (⟨0,true⟩, ⟨2,false⟩)
  | .C => (⟨1,true⟩, ⟨2,true⟩)

end Verif.Hand3
