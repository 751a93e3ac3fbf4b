import Verif.Model.Nuscr
import Verif.Model.Baking

/-!
# Model of the names in the generated file

What the file written by the top-down generator declares and which names it uses, including the items that the call of
`generate_atmp!` in it emits.  Rust keeps types and values apart; macros have a space of their own and are not considered.
A name that the file does not declare is looked up in the prelude.

Not modelled: names of fields, of methods, of type parameters and of local variables other than those bound by `main`
(none of them is looked up among the items of the file), and the macros `offer_mpst`, `choose_mpst_.._to_all` (C54).
-/
namespace Verif.Nuscr

/-- The name spaces of Rust. -/
inductive Space where
  | types | values
  deriving DecidableEq, Repr

/-- What a name stands for: an item of another crate brought in by `use`, one known without any declaration (the prelude,
primitive types, crates, `Self`), a structure or the function emitted by `generate_atmp!`, or one of the items written by
the generator. -/
inductive Source where
  | library | prelude | emitted | fork | struct | session | stack | enum | endpoint | function | main
  deriving DecidableEq, Repr

/-- A declared item, or the item that is meant where a name is used.  `args` is its number of parameters, or the number
of arguments written. -/
structure Entry where
  space : Space
  name : Text
  source : Source
  args : Nat
  deriving DecidableEq, Repr

/-- The `use` lines, `code_generate/imports.rs:18-36`; `branching` says whether there are branches.  `HashMap` has a
third parameter with a default. -/
def imports (branching : Bool) : List Entry :=
  [⟨.types, "End".toList, .library, 0⟩, ⟨.types, "RecvTimed".toList, .library, 8⟩,
    ⟨.types, "SendTimed".toList, .library, 8⟩] ++
  (if branching then [⟨.types, "RoleBroadcast".toList, .library, 0⟩] else []) ++
  [⟨.types, "RoleEnd".toList, .library, 0⟩, ⟨.types, "HashMap".toList, .library, 2⟩,
    ⟨.types, "Error".toList, .library, 0⟩, ⟨.types, "Instant".toList, .library, 0⟩]

/-- The name of the mesh, `code_generate/imports.rs:40`. -/
def meshName : Text := "MeshedChannels".toList

/-- The structures emitted for the roles, `mpst_seq_proc/src/common_functions/expand/role_atmp.rs:8-27,130-157`,
`expand/name.rs:8-20`, in the order of `Baking.core`.  All have named fields, so that they are no values. -/
def emittedRoles (roles : List Text) : List Entry :=
  (roles.flatMap fun a => [⟨.types, Baking.roleId a, .emitted, 1⟩, ⟨.types, Baking.dualId a, .emitted, 1⟩,
    ⟨.types, Baking.toAllId a, .emitted, 2⟩, ⟨.types, Baking.allToId a, .emitted, 2⟩]) ++
  roles.map fun a => ⟨.types, Baking.nameId a, .emitted, 0⟩

/-- All items emitted by `generate_atmp!(MeshedChannels, ..)`: `expand/meshedchannels.rs:101-118`, the roles, and
`fork_mpst` with one argument per role, `expand/fork.rs:269-284`. -/
def emittedItems (roles : List Text) : List Entry :=
  ⟨.types, meshName, .emitted, roles.length + 1⟩ :: emittedRoles roles ++
    [⟨.values, Baking.forkId, .fork, roles.length⟩]

mutual
/-- The items of the file named in a type of an emitted `impl` block. -/
def patUses : Baking.Pat → List Entry
  | .app (.here s) args => ⟨.types, s, .emitted, args.length⟩ :: patUsesList args
  | .app _ args => patUsesList args
  | .var _ => []
  | .dual _ => []
/-- See `patUses`. -/
def patUsesList : List Baking.Pat → List Entry
  | [] => []
  | p :: ps => patUses p ++ patUsesList ps
end

/-- The items named in an emitted item. -/
def itemUses : Baking.Item → List Entry
  | .block b => patUses b.self ++ b.methods.flatMap fun m => m.2.flatMap patUses
  | _ => []

/-- The names without a declaration in the code emitted by `generate_atmp!`, of which all uses are without a path:
`String`, `Self` (`expand/role_atmp.rs:57-58,43`), `Box` and `Ok` (`134-138`), `FnOnce` and `Err` (`expand/fork.rs:215,255`),
`Result` (`baking_atmp/baking_atmp_with_enum_and_cancel.rs:205`), `drop` (`expand/close_atmp.rs:60`), the types of the
constants (`expand/send.rs:250-255`), and the crates at the beginning of paths. -/
def emittedPrelude : List Entry :=
  [⟨.types, "String".toList, .prelude, 0⟩, ⟨.types, "Self".toList, .prelude, 0⟩, ⟨.types, "Box".toList, .prelude, 1⟩,
    ⟨.types, "FnOnce".toList, .prelude, 1⟩, ⟨.types, "Result".toList, .prelude, 2⟩, ⟨.types, "char".toList, .prelude, 0⟩,
    ⟨.types, "i128".toList, .prelude, 0⟩, ⟨.types, "bool".toList, .prelude, 0⟩, ⟨.types, "std".toList, .prelude, 0⟩,
    ⟨.types, "mpstthree".toList, .prelude, 0⟩, ⟨.types, "crossbeam_channel".toList, .prelude, 0⟩,
    ⟨.types, "either".toList, .prelude, 0⟩, ⟨.values, "Ok".toList, .prelude, 1⟩, ⟨.values, "Err".toList, .prelude, 1⟩,
    ⟨.values, "drop".toList, .prelude, 1⟩]

/-- The names in the emitted code. -/
def emittedUses (roles : List Text) : List Entry :=
  ((Baking.expand .atmp meshName roles).getD []).flatMap itemUses ++ emittedPrelude

/-- `struct X;` is a type and a value, `struct X { payload: T }` only a type, `code_generate/structs.rs:20-63`. -/
def structItems (s : Struct) : List Entry :=
  ⟨.types, s.1, .struct, 0⟩ ::
    match s.2 with
    | none => [⟨.values, s.1, .struct, 0⟩]
    | some _ => []

/-- The type of the field. -/
def structUses (s : Struct) : List Entry :=
  match s.2 with
  | none => []
  | some t => [⟨.types, t, .struct, 0⟩]

/-- What is used in a session type, `sender_messages.rs:16-32`, `receiver_messages.rs:15-31`, `process_line.rs:236-246`,
`258-268`, `code_generate/sessions.rs:36`. -/
def rhsUses : Rhs → List Entry
  | .send p next => [⟨.types, "SendTimed".toList, .library, 8⟩, ⟨.types, p.message, .struct, 0⟩, ⟨.types, next, .session, 0⟩]
  | .recv p next => [⟨.types, "RecvTimed".toList, .library, 8⟩, ⟨.types, p.message, .struct, 0⟩, ⟨.types, next, .session, 0⟩]
  | .sendChoice c => [⟨.types, "SendTimed".toList, .library, 8⟩, ⟨.types, c, .enum, 0⟩, ⟨.types, "End".toList, .library, 0⟩]
  | .recvChoice c => [⟨.types, "RecvTimed".toList, .library, 8⟩, ⟨.types, c, .enum, 0⟩, ⟨.types, "End".toList, .library, 0⟩]
  | .fin => [⟨.types, "End".toList, .library, 0⟩]

/-- What is used in a stack type, `sender_stacks.rs:14-19`, `process_line.rs:280-303`, `code_generate/stacks.rs:30`. -/
def stackUses : StackRhs → List Entry
  | .role r next => [⟨.types, ['R', 'o', 'l', 'e'] ++ r, .emitted, 1⟩, ⟨.types, next, .stack, 0⟩]
  | .last r => [⟨.types, ['R', 'o', 'l', 'e'] ++ r, .emitted, 1⟩, ⟨.types, "RoleEnd".toList, .library, 0⟩]
  | .broadcast => [⟨.types, "RoleBroadcast".toList, .library, 0⟩]
  | .fin => [⟨.types, "RoleEnd".toList, .library, 0⟩]

/-- What is used in an endpoint type, `code_generate/endpoints.rs:27-50`. -/
def endpointUses (e : Text × List Text × Text × Text) : List Entry :=
  ⟨.types, meshName, .emitted, e.2.1.length + 2⟩ :: (e.2.1.map fun s => ⟨.types, s, .session, 0⟩) ++
    [⟨.types, e.2.2.1, .stack, 0⟩, ⟨.types, e.2.2.2, .emitted, 0⟩]

/-- What is used in a function, `code_generate/fn_endpoints.rs:31-52`. -/
def functionUses (f : (Text × Text × Nat) × Text) : List Entry :=
  [⟨.types, f.2, .endpoint, 0⟩, ⟨.types, "HashMap".toList, .library, 2⟩, ⟨.types, "char".toList, .prelude, 0⟩,
    ⟨.types, "Instant".toList, .library, 0⟩, ⟨.types, "Result".toList, .prelude, 2⟩, ⟨.types, "Box".toList, .prelude, 1⟩,
    ⟨.types, "Error".toList, .library, 0⟩, ⟨.values, "Ok".toList, .prelude, 1⟩]

/-- The names of a file: its items, the names it uses with the item that is meant, the variants of each enum, and the
variables bound together by `main`. -/
structure File where
  items : List Entry
  uses : List Entry
  variants : List (List Text)
  threads : List Text

/-- The items of the file, in the order of `generator.rs:93-102`. -/
def fileItems (branching : Bool) (lower : Text → Text) (ss : List Struct) (p : Program) : List Entry :=
  imports branching ++ emittedItems p.roles ++ ss.flatMap structItems ++
    p.sessions.map (fun d => ⟨.types, d.1, .session, 0⟩) ++ p.stacks.map (fun d => ⟨.types, d.1, .stack, 0⟩) ++
    p.enums.map (fun d => ⟨.types, d.1, .enum, 0⟩) ++ p.endpoints.map (fun d => ⟨.types, d.1, .endpoint, 0⟩) ++
    p.functions.map (fun f => ⟨.values, fnName lower f.1, .function, 2⟩) ++ [⟨.values, "main".toList, .main, 0⟩]

/-- The names used in it.  `main` calls `fork_mpst` with the functions, `code_generate/fn_main.rs:13-30`. -/
def fileUses (lower : Text → Text) (ss : List Struct) (p : Program) : List Entry :=
  emittedUses p.roles ++ ss.flatMap structUses ++ p.sessions.flatMap (fun d => rhsUses d.2) ++
    p.stacks.flatMap (fun d => stackUses d.2) ++
    p.enums.flatMap (fun d => d.2.map fun v => ⟨.types, v.2, .endpoint, 0⟩) ++ p.endpoints.flatMap endpointUses ++
    p.functions.flatMap functionUses ++
    ⟨.values, Baking.forkId, .fork, p.main.length⟩ :: p.main.map (fun f => ⟨.values, fnName lower f, .function, 2⟩)

/-- `thread_{role}`, `code_generate/fn_main.rs:17`. -/
def threadName (lower : Text → Text) (r : Text) : Text := "thread_".toList ++ lower r

/-- The names of a file with given structures and program. -/
def fileOf (branching : Bool) (lower : Text → Text) (ss : List Struct) (p : Program) : File where
  items := fileItems branching lower ss p
  uses := fileUses lower ss p
  variants := p.enums.map fun d => d.2.map (·.1)
  threads := p.roles.map (threadName lower)

/-- The generated file, `generator.rs:93-102`; the arguments are those of `structs`, and `to_lowercase`. -/
def file (titleCase : Text → Text) (white : Char → Bool) (lower : Text → Text) (ordP : List Text → List Text)
    (ord : List Nat → List (Text × Text) → List (Text × Text)) (lines : List Line) : Except Fault File := do
  let k ← reading (typeName titleCase white) lines
  let ss ← structs titleCase white ordP ord lines
  .ok (fileOf (!k.main.subTrees.isEmpty) lower ss (programOf k.roles k.main))

end Verif.Nuscr
