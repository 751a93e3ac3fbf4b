import Verif.Model.Maths
/-!
# Model of the generated straight-line code: forks and choices

The proc macros emit straight-line Rust.  We model the emitted code as a list of statements
(`Stmt`) over the very identifiers the macros build with `format!`, and give these statements the
semantics of the Rust they print: `let (a, b) = <S as Session>::new()` binds two fresh connected
endpoints, a struct literal *moves* its operands (a second use of a name is an error, as rustc's
borrow checker would report), `send(mesh, s.session_k)` consumes that session field.

Simplification: `name:` fields (phantom types) are omitted.
-/
namespace Verif.Gen
open Verif.Maths

/-- Identifier `channel_{a}_{b}`. -/
abbrev Name := Nat × Nat

/-- One end of the channel number `chan`, made by `<S{sess} as Session>::new()`.
`dual = false`: first component, of type `S{sess}`; `dual = true`: second, of type `S{sess}::Dual`. -/
structure EP where
  chan : Nat
  sess : Nat
  dual : Bool
deriving DecidableEq, Repr

/-- A session type expression in generated code: `S{sess}` or `<S{sess} as Session>::Dual`. -/
structure TyExp where
  sess : Nat
  dual : Bool
deriving DecidableEq, Repr

/-- The type of an endpoint. -/
def EP.ty (e : EP) : TyExp := ⟨e.sess, e.dual⟩

/-- A `MeshedChannels { session1: .., .., stack }` value: field number to endpoint, and the number of
the type parameter `R{stack}` of its stack. -/
structure MeshV where
  slots : List (Nat × EP)
  stack : Nat
deriving DecidableEq, Repr

/-- The endpoint in field `session{k}`. -/
def MeshV.slot (m : MeshV) (k : Nat) : Option EP := m.slots.lookup k

/-- Emitted statements. -/
inductive Stmt where
  /-- `let (channel_a, channel_b) = <S{sess} as Session>::new();` -/
  | newChan (a b : Name) (sess : Nat)
  /-- `let (stack_{var}, _) = <R{role} as Role>::new();` -/
  | newStack (var role : Nat)
  /-- `let choice_{var} = Mesh { session{k}: channel.., .., stack: stack_{stk} };` -/
  | mesh (var : Nat) (fields : List (Nat × Name)) (stk : Nat)
  /-- `send(choice_{var}, self.session{k})` -/
  | sendVar (var k : Nat)
  /-- `send(Label(Mesh { .. }), s.session{k})` -/
  | sendMesh (fields : List (Nat × Name)) (stk k : Nat)
  /-- the mesh returned to the caller -/
  | ret (fields : List (Nat × Name)) (stk : Nat)
  /-- `spawn(move || f{f}(meshedchannels_{v1}, ..))` -/
  | spawn (f : Nat) (vars : List Nat)

/-- State of the execution of generated code. -/
structure St where
  /-- live channel identifiers -/
  env : Name → Option EP
  /-- live stack variables, with their `R` number -/
  stacks : Nat → Option Nat
  /-- live mesh variables -/
  meshes : Nat → Option MeshV
  /-- meshes sent so far, with the session field used -/
  sent : List (Nat × MeshV)
  /-- returned mesh -/
  out : Option MeshV
  /-- spawned threads with the meshes they received -/
  spawned : List (Nat × List MeshV)
  /-- next channel number -/
  fresh : Nat

/-- Start of a generated function body; channel numbers below `fresh` are already in use elsewhere. -/
def St.init (fresh : Nat) : St := ⟨fun _ => none, fun _ => none, fun _ => none, [], none, [], fresh⟩

/-- Move the named channels out of the environment. -/
def take (env : Name → Option EP) : List (Nat × Name) → Option ((Name → Option EP) × List (Nat × EP))
  | [] => some (env, [])
  | (k, nm) :: rest =>
    match env nm with
    | none => none
    | some e =>
      match take (fun x => if x = nm then none else env x) rest with
      | none => none
      | some (env', es) => some (env', (k, e) :: es)

/-- Build a mesh from its fields and stack variable, moving all operands. -/
def build (st : St) (fields : List (Nat × Name)) (stk : Nat) : Option (St × MeshV) :=
  match take st.env fields, st.stacks stk with
  | some (env', slots), some r =>
    some ({ st with env := env', stacks := fun x => if x = stk then none else st.stacks x }, ⟨slots, r⟩)
  | _, _ => none

/-- Move meshes out of their variables. -/
def takeMeshes (m : Nat → Option MeshV) : List Nat → Option ((Nat → Option MeshV) × List MeshV)
  | [] => some (m, [])
  | v :: vs =>
    match m v with
    | none => none
    | some x =>
      match takeMeshes (fun y => if y = v then none else m y) vs with
      | none => none
      | some (m', xs) => some (m', x :: xs)

/-- Semantics of one statement; `none` is code rustc would reject (undefined or moved name). -/
def step (st : St) : Stmt → Option St
  | .newChan a b s =>
    some { st with
      env := fun x => if x = b then some ⟨st.fresh, s, true⟩
                      else if x = a then some ⟨st.fresh, s, false⟩ else st.env x
      fresh := st.fresh + 1 }
  | .newStack v r => some { st with stacks := fun x => if x = v then some r else st.stacks x }
  | .mesh v fields stk =>
    match build st fields stk with
    | none => none
    | some (st', m) => some { st' with meshes := fun x => if x = v then some m else st'.meshes x }
  | .sendVar v k =>
    match st.meshes v with
    | none => none
    | some m =>
      if k ∈ st.sent.map Prod.fst then none
      else some { st with meshes := fun x => if x = v then none else st.meshes x,
                          sent := st.sent ++ [(k, m)] }
  | .sendMesh fields stk k =>
    match build st fields stk with
    | none => none
    | some (st', m) =>
      if k ∈ st'.sent.map Prod.fst then none else some { st' with sent := st'.sent ++ [(k, m)] }
  | .ret fields stk =>
    match build st fields stk with
    | none => none
    | some (st', m) => some { st' with out := some m }
  | .spawn f vars =>
    match takeMeshes st.meshes vars with
    | none => none
    | some (ms, xs) => some { st with meshes := ms, spawned := st.spawned ++ [(f, xs)] }

/-- Run a generated body. -/
def run : St → List Stmt → Option St
  | st, [] => some st
  | st, s :: ss => match step st s with
    | none => none
    | some st' => run st' ss

/-- `(lo..=hi)` -/
def rangeIncl (lo hi : Nat) : List Nat := List.range' lo (hi + 1 - lo)

/-! ## fork -/

/-- `create_new_channels(1, n(n-1)/2, &diag_w_offset)`, names shifted by `off` and session numbers by
`soff` (both 0 for a plain fork; the second mesh of an interleaved fork uses `off = n1`,
`soff = n1(n1-1)/2`). common_functions/expand/aux_fork.rs:142-161; fork.rs:82-83, 522-567. -/
def forkChannels (n off soff : Nat) : Option (List Stmt) :=
  (rangeIncl 1 ((n - 1) * n / 2)).mapM fun i =>
    match getTupleDiag (diagAndMatrixWOffset n).2 i with
    | none => none
    | some (line, column, _) =>
      some (.newChan (off + line, off + column) (off + column, off + line) (soff + i))

/-- `create_new_roles(1, n)`: `let (role_{i}, _) = <R{i} as Role>::new()`.
aux_fork.rs:56-66 -/
def forkStacks (n : Nat) : List Stmt := (rangeIncl 1 n).map fun i => .newStack i i

/-- The fields of `meshedchannels_{off+i}`. aux_fork.rs:172-187; fork.rs:571-585, 605-631. -/
def forkFields (n off i : Nat) : Option (List (Nat × Name)) :=
  (List.range' 1 (n - 1)).mapM fun j =>
    match getTupleMatrix (diagAndMatrix n).1 i j with
    | none => none
    | some (line, column, _) =>
      some (j, if line = i then (off + line, off + column) else (off + column, off + line))

/-- `create_new_meshedchannels(1, n, ..)`. aux_fork.rs:164-203; fork.rs:569-652. -/
def forkMeshes (n off : Nat) : Option (List Stmt) :=
  (rangeIncl 1 n).mapM fun i =>
    match forkFields n off i with
    | none => none
    | some fs => some (.mesh (off + i) fs (off + i))

/-- One `spawn` per role. fork.rs:88-107 -/
def forkThreads (n : Nat) : List Stmt := (rangeIncl 1 n).map fun i => .spawn i [i]

/-- Body of the generated `fork_mpst` for `n` roles. fork.rs:145-168 (`fork_atmp_mpst`, fork.rs:172-330,
and `macros_multiple/multiple/fork_mpst_multi.rs` emit the same statements). -/
def forkBody (n : Nat) : Option (List Stmt) :=
  match forkChannels n 0 0, forkMeshes n 0 with
  | some cs, some ms => some (cs ++ forkStacks n ++ ms ++ forkThreads n)
  | _, _ => none

/-- Declared parameter type of `F{i}`, session `j`: `S{soff+m}` or its dual. fork.rs:43-58, 394-409, 447-462 -/
def forkParamTy (n soff i j : Nat) : Option TyExp :=
  match getTupleMatrix (diagAndMatrixWOffset n).1 i j with
  | none => none
  | some (k, _, m) => some ⟨soff + m, if k = i then false else true⟩

/-! ## interleaved fork -/

/-- Index of the mesh given to thread `f{i}`. fork.rs:656-662 -/
def interleavedOffset (n1 idx1 idx2 i : Nat) : Nat :=
  if i < idx1 then i
  else if i ≥ idx1 ∧ i < n1 - 1 + idx2 then i + 1
  else i + 2

/-- Threads of `fork_interleaved_mpst`; the interleaved thread is numbered 0. fork.rs:654-710 -/
def interleavedThreads (n1 idx1 n2 idx2 : Nat) : List Stmt :=
  (rangeIncl 1 (n1 + n2 - 2)).map (fun i => .spawn i [interleavedOffset n1 idx1 idx2 i])
  ++ [.spawn 0 [idx1, n1 + idx2]]

/-- Body of `fork_interleaved_mpst`. fork.rs:758-787.  `fork_atmp_interleaved_mpst`, fork.rs:792-1259, makes the same channels,
meshes and threads; each function is also given an empty map of clocks, the interleaved one a map per mesh. -/
def interleavedBody (n1 idx1 n2 idx2 : Nat) : Option (List Stmt) :=
  match forkChannels n1 0 0, forkChannels n2 n1 ((n1 - 1) * n1 / 2), forkMeshes n1 0, forkMeshes n2 n1 with
  | some c1, some c2, some m1, some m2 =>
    some (c1 ++ c2 ++ forkStacks (n1 + n2) ++ m1 ++ m2 ++ interleavedThreads n1 idx1 n2 idx2)
  | _, _, _, _ => none

/-- Function number `F{..}` whose parameter is declared with role `i` of mesh one. fork.rs:415 -/
def interleavedFnOne (idx1 i : Nat) : Nat := if i < idx1 then i else i - 1

/-- Function number `F{..}` whose parameter is declared with role `i` of mesh two. fork.rs:468-470 -/
def interleavedFnTwo (n1 idx2 i : Nat) : Nat := n1 + (if i < idx2 then i - 1 else i - 2)

/-! ## choose_left / choose_right -/

/-- Offset of the session type parameters of a branch: left `S{m}`, right `S{diff*(diff+1)/2+m}`.
choose.rs:631-634, 662-667 -/
def branchOff (n : Nat) (right : Bool) : Nat :=
  if right then (n - 1) * (n - 1 + 1) / 2 else 0

/-- `choose_left_channels` / `choose_right_channels`. choose.rs:786-833 -/
def chooseChannels (n sender : Nat) (right : Bool) : Option (List Stmt) :=
  (rangeIncl 1 ((n - 1) * n / 2)).mapM fun j =>
    match getLineColumnFromDiag (diagAndMatrix n).2 j with
    | none => none
    | some (line, column) =>
      some (.newChan
        (if sender ≠ line then (line, column) else (column, line))
        (if sender ≠ line then (column, line) else (line, column))
        (branchOff n right + j))

/-- `new_stacks_receivers_*` and the sender's stack. choose.rs:835-849, 1052, 1102 -/
def chooseStacks (n : Nat) (right : Bool) : List Stmt :=
  (List.range' 1 (n - 1)).map (fun j => .newStack j (2 * (j - 1) + (if right then 2 else 1)))
  ++ [.newStack n (if right then 2 * n else 2 * n - 1)]

/-- `new_sessions_receiver` of receiver `j`. choose.rs:880-900 -/
def chooseRecvFields (n j : Nat) : List (Nat × Name) :=
  (List.range' 1 (n - 1)).map fun k => (k, if j > k then (j, k) else (j, k + 1))

/-- `new_meshedchannels_receivers`. choose.rs:877-939 -/
def chooseRecvMeshes (n sender : Nat) : List Stmt :=
  ((rangeIncl 1 n).filter (fun j => sender ≠ j)).map fun j =>
    .mesh (if j > sender then j - 1 else j) (chooseRecvFields n j) (if j > sender then j - 1 else j)

/-- `new_sessions_sender_*`: `send(Either::..(choice_{j}), self.session{j})`. choose.rs:941-975 -/
def chooseSends (n : Nat) : List Stmt := (List.range' 1 (n - 1)).map fun j => .sendVar j j

/-- `new_meshedchannels_sender`: fields of the sender's new mesh. choose.rs:990-1011 -/
def chooseSenderFields (n sender : Nat) : List (Nat × Name) :=
  ((rangeIncl 1 n).filter (fun j => sender ≠ j)).map fun j =>
    (if j < sender then j else j - 1, (sender, j))

/-- Body of the generated `choose_left` (`right = false`) / `choose_right` of role `sender`.
choose.rs:1043-1135 (`choose_basic`, choose.rs:11-573, emits the same). -/
def chooseBody (n sender : Nat) (right : Bool) : Option (List Stmt) :=
  match chooseChannels n sender right with
  | none => none
  | some cs => some (cs ++ chooseStacks n right ++ chooseRecvMeshes n sender ++ chooseSends n
      ++ [.ret (chooseSenderFields n sender) n])

/-- Declared type of slot `k` in the mesh sent to receiver `j`. choose.rs:613-675 -/
def chooseRecvTy (n sender : Nat) (right : Bool) (j k : Nat) : Option TyExp :=
  match getTupleMatrix (diagAndMatrix n).1 j k,
        getTupleMatrix (diagAndMatrix n).1 sender (if j > sender then j - 1 else j) with
  | some (l, _, m), some (_, _, m1) =>
    some ⟨branchOff n right + m, if l = j ∨ m1 = m then false else true⟩
  | _, _ => none

/-- Declared stack parameter number of the mesh sent to receiver `j`. choose.rs:677-703 -/
def chooseRecvStack (sender : Nat) (right : Bool) (j : Nat) : Nat :=
  if right then (if j > sender then 2 * (j - 1) else 2 * (j - 1) + 2)
  else (if j > sender then 2 * (j - 1) - 1 else 2 * (j - 1) + 1)

/-- Declared types of the mesh returned to the sender, in field order. choose.rs:746-785 -/
def chooseSenderTys (n sender : Nat) (right : Bool) : Option (List TyExp) :=
  ((rangeIncl 1 n).filter (fun j => j ≠ sender)).mapM fun j =>
    match getTupleMatrix (diagAndMatrix n).1 sender (if j > sender then j - 1 else j) with
    | none => none
    | some (_, _, m) => some ⟨branchOff n right + m, true⟩

/-! ## choose_mpst_multi_to_all (enum choices) -/

/-- `new_channels`. choose_mpst_multi_to_all.rs:71-83 (session types are inferred; numbered by position).
choose_atmp_mpst_multi_to_all.rs:79-91, macros_http/choose/choose_mpst_multi_http_to_all.rs and, per function,
macros_multiple/multiple/choose/create_fn_choose_mpst_multi_to_all_bundle.rs:135-147 are identical. -/
def toAllChannels (n : Nat) : Option (List Stmt) :=
  (rangeIncl 1 ((n - 1) * (n - 1 + 1) / 2)).mapM fun i =>
    match getTupleDiag (diag n) i with
    | none => none
    | some (line, column, _) => some (.newChan (line, column) (column, line) i)

/-- `new_roles`. choose_mpst_multi_to_all.rs:85-92 -/
def toAllStacks (n : Nat) : List Stmt := (rangeIncl 1 n).map fun i => .newStack i i

/-- `all_send`. choose_mpst_multi_to_all.rs:107-155 -/
def toAllSends (n excl : Nat) : List Stmt :=
  (List.range' 1 (n - 1)).map fun i =>
    let temp := if i ≥ excl then i + 1 else i
    .sendMesh ((List.range' 1 (n - 1)).map fun j => (j, if j < temp then (temp, j) else (temp, j + 1))) i i

/-- `new_meshedchannels`: fields of the mesh kept by the chooser. choose_mpst_multi_to_all.rs:157-175 -/
def toAllSenderFields (n excl : Nat) : List (Nat × Name) :=
  (List.range' 1 (n - 1)).map fun i => (i, if i < excl then (excl, i) else (excl, i + 1))

/-- Body of `choose_mpst_multi_to_all!`. choose_mpst_multi_to_all.rs:177-216; of the HTTP variant, which sends with
`send_http` (macros_http/choose/choose_mpst_multi_http_to_all.rs:150-231); and of each function of
`create_fn_choose_mpst_multi_to_all_bundle!` (create_fn_choose_mpst_multi_to_all_bundle.rs:149-330), which puts the
remaining sessions back into `s` after each send. -/
def toAllBody (n excl : Nat) : Option (List Stmt) :=
  match toAllChannels n with
  | none => none
  | some cs => some (cs ++ toAllStacks n ++ toAllSends n excl ++ [.ret (toAllSenderFields n excl) n])

end Verif.Gen
