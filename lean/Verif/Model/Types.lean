/-!
# Model of the session, role and name types

Rust types are modelled as terms; `P` is the (arbitrary) set of payload types.  Associated types become
functions on terms, the static string functions become functions to lists of characters.
-/
namespace Verif.Types

/-- The const parameters of a timed step, `/repo/src/binary_atmp/struct_trait/send.rs:24-60`
(`CLOCK`, `START`, `INCLUDE_START`, `END`, `INCLUDE_END`, `RESET`); `i128` is modelled by `Int`. -/
structure Window where
  clock : Char
  start : Int
  inclStart : Bool
  stop : Int
  inclStop : Bool
  reset : Char
  deriving DecidableEq, Repr

/-- Binary session types.  `send none T S` is `Send<T, S>` (`/repo/src/binary/struct_trait/send.rs:14-22`),
`send (some w) T S` is `SendTimed<T, .., S>` (`/repo/src/binary_atmp/struct_trait/send.rs:24-60`),
and likewise `recv` (`binary/struct_trait/recv.rs:12-21`, `binary_atmp/struct_trait/recv.rs`);
`fin` is `End` (`binary/struct_trait/end.rs:9-16`). -/
inductive STy (P : Type) where
  | send (w : Option Window) (t : P) (s : STy P)
  | recv (w : Option Window) (t : P) (s : STy P)
  | fin
  deriving DecidableEq, Repr

/-- `type Dual`: `binary/struct_trait/send.rs:25`, `recv.rs:24`, `end.rs:30`,
`binary_atmp/struct_trait/send.rs:107`, `binary_atmp/struct_trait/recv.rs:106`. -/
def STy.dual {P : Type} : STy P → STy P
  | .send w t s => .recv w t s.dual
  | .recv w t s => .send w t s.dual
  | .fin => .fin

/-- Ordering stacks.  `role a d R` is `Role{a}<R>` (`d = false`, `/repo/src/role/a.rs:29-40`) or
`Role{a}Dual<R>` (`d = true`, `/repo/src/role/a_dual.rs`); `toAll a d R1 R2` is `Role{a}toAll<R1, R2>`
(`d = false`, `/repo/src/role/a_to_all.rs`) or `RoleAllto{a}<R1, R2>` (`d = true`, `all_to_a.rs`).
Role identifiers are strings, as in the generated roles
(`/repo/mpst_seq_proc/src/common_functions/expand/role.rs`). -/
inductive Stack where
  | role (a : List Char) (isDual : Bool) (r : Stack)
  | toAll (a : List Char) (isDual : Bool) (l r : Stack)
  | fin
  | broadcast
  deriving DecidableEq, Repr

/-- `type Dual` of roles: `role/a.rs:40`, `role/a_dual.rs:40`, `role/a_to_all.rs:47`, `role/all_to_a.rs:42`,
`role/end.rs:30`, `role/broadcast.rs:30`. -/
def Stack.dual : Stack → Stack
  | .role a d r => .role a (!d) r.dual
  | .toAll a d l r => .toAll a (!d) l.dual r.dual
  | .fin => .fin
  | .broadcast => .broadcast

/-- `MeshedChannels<S1, .., S{n-1}, R, N>`: `/repo/src/meshedchannels/mod.rs:77-92` for three roles,
`/repo/mpst_seq_proc/src/common_functions/expand/meshedchannels.rs:6-211` for `n`. -/
structure Mesh (P : Type) where
  sessions : List (STy P)
  stack : Stack
  name : List Char
  deriving DecidableEq, Repr

/-- `type Dual` of a mesh: `meshedchannels/mod.rs:95`; the name is kept. -/
def Mesh.dual {P : Type} (m : Mesh P) : Mesh P :=
  { sessions := m.sessions.map STy.dual, stack := m.stack.dual, name := m.name }

/-- `head_str` of sessions: `binary/struct_trait/send.rs:32`, `recv.rs:31`, `end.rs:48`; the timed
versions print the same words. -/
def STy.headStr {P : Type} : STy P → List Char
  | .send _ _ _ => ['S', 'e', 'n', 'd']
  | .recv _ _ _ => ['R', 'e', 'c', 'v']
  | .fin => ['E', 'n', 'd']

/-- `tail_str` of sessions: `binary/struct_trait/send.rs:36`, `recv.rs:35`, `end.rs:52`:
`format!("{}<{}>", S::head_str(), S::tail_str())`. -/
def STy.tailStr {P : Type} : STy P → List Char
  | .send _ _ s => s.headStr ++ '<' :: (s.tailStr ++ ['>'])
  | .recv _ _ s => s.headStr ++ '<' :: (s.tailStr ++ ['>'])
  | .fin => []

/-- `head_str` of roles: `role/a.rs:56`, `role/a_dual.rs:56`, `role/a_to_all.rs:67`, `role/all_to_a.rs:62`,
`role/end.rs:48`, `role/broadcast.rs:48`; names as in `expand/role.rs:8-14`. -/
def Stack.headStr : Stack → List Char
  | .role a d _ => ['R', 'o', 'l', 'e'] ++ a ++ (if d then ['D', 'u', 'a', 'l'] else [])
  | .toAll a d _ _ => if d then ['R', 'o', 'l', 'e', 'A', 'l', 'l', 't', 'o'] ++ a else ['R', 'o', 'l', 'e'] ++ a ++ ['t', 'o', 'A', 'l', 'l']
  | .fin => ['R', 'o', 'l', 'e', 'E', 'n', 'd']
  | .broadcast => ['R', 'o', 'l', 'e', 'B', 'r', 'o', 'a', 'd', 'c', 'a', 's', 't']

/-- `tail_str` of roles: `role/a.rs:60`, `role/a_to_all.rs:71-79`
(`format!("{}<{}> + {}<{}>", ..)`), `role/end.rs:52`. -/
def Stack.tailStr : Stack → List Char
  | .role _ _ r => r.headStr ++ '<' :: (r.tailStr ++ ['>'])
  | .toAll _ _ l r => l.headStr ++ '<' :: (l.tailStr ++ '>' :: ' ' :: '+' :: ' ' ::
      (r.headStr ++ '<' :: (r.tailStr ++ ['>'])))
  | .fin => []
  | .broadcast => []

/-- `head_str` of a mesh: `meshedchannels/mod.rs:121-129` (`expand/meshedchannels.rs:159-168` for `n` roles), one line per
component. -/
def Mesh.headStr {P : Type} (m : Mesh P) : List Char :=
  m.sessions.flatMap (fun s => s.headStr ++ ['\n']) ++ m.stack.headStr ++ ['\n'] ++ (['N', 'a', 'm', 'e'] ++ m.name)

/-- `tail_str` of a mesh: `meshedchannels/mod.rs:131-143`, `expand/meshedchannels.rs:171-182`. -/
def Mesh.tailStr {P : Type} (m : Mesh P) : List Char :=
  m.sessions.flatMap (fun s => s.headStr ++ '<' :: (s.tailStr ++ '>' :: ['\n']))
    ++ m.stack.headStr ++ '<' :: (m.stack.tailStr ++ '>' :: '\n' :: (['N', 'a', 'm', 'e'] ++ m.name ++ ['<', '>']))

end Verif.Types
