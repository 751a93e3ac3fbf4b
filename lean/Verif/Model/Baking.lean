import Verif.Model.Gen
import Verif.Model.SendRecv
/-!
# Model of what `generate!` and `generate_atmp!` emit

`/repo/src/baking/mod.rs:94-180` and `/repo/src/baking_atmp/mod.rs` hand the names to a proc macro, which emits the
struct of the mesh, the structs of the roles and names, one `impl` block per method and partner, the fork function and
some macros (`/repo/mpst_seq_proc/src/baking/*.rs`, `baking_atmp/*.rs`).  An `impl` block is kept as the *pattern* of
its `Self` type, over the type parameters the block declares, with the methods it defines and the mesh types they hand
on.  Bodies of the methods are the subject of `Model/SendRecv.lean`, `Model/Gen.lean`, `Model/Close.lean`.

Not modelled: the trait implementations of the structs (`Role`, `Name`, `Session`: `Model/Types.lean`), lifetimes, and
the conditions `R::Dual: Role` on the structs.
-/
namespace Verif.Baking
open Verif.Gen Verif.SendRecv

/-- Identifiers. -/
abbrev Str := List Char

/-- Head of a Rust type: the types of the crate are named by full paths in emitted code
(`mpstthree::binary::struct_trait::send::Send`, ..), `here` is a type of the module in which the macro is called,
`other` any further type or constant. -/
inductive Head where
  | send | sendTimed | recv | recvTimed | fin | roleEnd | either
  | here (s : Str)
  | other (s : Str)
  deriving DecidableEq, Repr

/-- Closed Rust types (and constants): a head with its arguments. -/
inductive RTy where
  | app (h : Head) (args : List RTy)

/-- Parameters declared by an `impl` block: `S{k}: Session`, `R{k}: Role` (`R` is `R 0`), `T: Send`, `N: Name`, and the
constants `CLOCK`, `START`, `INCLUDE_START`, `END`, `INCLUDE_END`, `RESET` (`C 0` .. `C 5`). -/
inductive TVar where
  | S (k : Nat)
  | R (k : Nat)
  | T
  | N
  | C (k : Nat)
  deriving DecidableEq, Repr

/-- Types written in an `impl` block; `dual k` is `<S{k} as Session>::Dual`. -/
inductive Pat where
  | var (v : TVar)
  | dual (k : Nat)
  | app (h : Head) (args : List Pat)

/-- Methods of a mesh. -/
inductive Method where
  | send | recv | recvFromAll | offer | chooseLeft | chooseRight | close | cancel
  deriving DecidableEq, Repr

/-- An emitted `impl` block: the parameters it declares, its `Self` type and, for each method, the mesh types the caller
goes on with. -/
structure Block where
  params : List TVar
  self : Pat
  methods : List (Method × List Pat)

/-- Emitted items. -/
inductive Item where
  | struct (name : Str)
  | block (b : Block)
  | macroRules (name : Str)
  | func (name : Str)

/-! ## Names -/

/-- `Role{role}`, `expand/role.rs:8`. -/
def roleId (a : Str) : Str := ['R', 'o', 'l', 'e'] ++ a
/-- `Role{role}Dual`, `expand/role.rs:10`. -/
def dualId (a : Str) : Str := ['R', 'o', 'l', 'e'] ++ a ++ ['D', 'u', 'a', 'l']
/-- `Role{role}toAll`, `expand/role.rs:12`. -/
def toAllId (a : Str) : Str := ['R', 'o', 'l', 'e'] ++ a ++ ['t', 'o', 'A', 'l', 'l']
/-- `RoleAllto{role}`, `expand/role.rs:14`. -/
def allToId (a : Str) : Str := ['R', 'o', 'l', 'e', 'A', 'l', 'l', 't', 'o'] ++ a
/-- `Name{role}`, `expand/name.rs:8`. -/
def nameId (a : Str) : Str := ['N', 'a', 'm', 'e'] ++ a
/-- `format!("choose_mpst_{elt}_to_all").to_lowercase()`, `expand/choose.rs:1152-1155`, `1801-1804`.  Simplified:
lower case of ASCII letters only. -/
def macroId (a : Str) : Str :=
  ("choose_mpst_".toList ++ a ++ "_to_all".toList).map Char.toLower

/-- `all_roles.get(i - 1)`.  The `panic!` for a missing role is left out: the loops run over `1..=all_roles.len()`
(`parsing.rs:16`, `baking_basic.rs:63-158`). -/
def roleAt (roles : List Str) (i : Nat) : Str := (roles[i - 1]?).getD []

/-! ## `impl` blocks -/

/-- A mesh type `M<sessions, stack, name>`. -/
def meshP (M : Str) (sessions : List Pat) (stack name : Pat) : Pat := .app (.here M) (sessions ++ [stack, name])

/-- The six constants of a timed communication, in the order of the parameters (`send.rs:208-217`). -/
def consts : List Pat := (List.range 6).map fun k => .var (.C k)

/-- `Send<t, s>`, or `SendTimed<t, CLOCK, .., RESET, s>` (`send.rs:36`, `208-217`, `choose.rs:1329-1352`). -/
def sendP (timed : Bool) (t s : Pat) : Pat :=
  if timed then .app .sendTimed (t :: consts ++ [s]) else .app .send [t, s]

/-- `Recv<t, s>`, or `RecvTimed<t, CLOCK, .., RESET, s>` (`recv.rs:36`, `399-408`, `offer.rs:259-281`). -/
def recvP (timed : Bool) (t s : Pat) : Pat :=
  if timed then .app .recvTimed (t :: consts ++ [s]) else .app .recv [t, s]

/-- `S1, .., S{n-1}` (`aux_baking.rs:10-14`). -/
def sessionVars (n : Nat) : List Pat := (List.range' 1 (n - 1)).map fun k => .var (.S k)

/-- Declarations of the sessions `S1 .. S{m}` (`aux_baking.rs:17-24`). -/
def sessionParams (m : Nat) : List TVar := (List.range' 1 m).map .S

/-- Declarations of the constants (`send.rs:240-247`). -/
def constParams (timed : Bool) : List TVar := if timed then (List.range 6).map .C else []

/-- `send_basic`, `send_canceled` (`send.rs:7-87`, `90-175`), `send_atmp_canceled` (`send.rs:178-292`): the `impl` header
and the mesh returned. -/
def sendBlock (timed : Bool) (M : Str) (roles : List Str) (n sender receiver : Nat) : Block :=
  { params := sessionParams (n - 1) ++ [.R 0, .T] ++ constParams timed
    self := meshP M
      ((List.range' 1 (n - 1)).map fun k =>
        if isComm sender receiver k then sendP timed (.var .T) (.var (.S k)) else .var (.S k))
      (.app (.here (roleId (roleAt roles receiver))) [.var (.R 0)])
      (.app (.here (nameId (roleAt roles sender))) [])
    methods := [(.send, [meshP M (sessionVars n) (.var (.R 0)) (.app (.here (nameId (roleAt roles sender))) [])])] }

/-- `recv_basic`, `recv` (`recv.rs:7-93`, `96-183`), `recv_atmp` (`recv.rs:369-483`). -/
def recvBlock (timed : Bool) (M : Str) (roles : List Str) (n receiver sender : Nat) : Block :=
  { params := sessionParams (n - 1) ++ [.R 0, .T] ++ constParams timed
    self := meshP M
      ((List.range' 1 (n - 1)).map fun k =>
        if isComm receiver sender k then recvP timed (.var .T) (.var (.S k)) else .var (.S k))
      (.app (.here (roleId (roleAt roles sender))) [.var (.R 0)])
      (.app (.here (nameId (roleAt roles receiver))) [])
    methods := [(.recv, [meshP M (sessionVars n) (.var (.R 0)) (.app (.here (nameId (roleAt roles receiver))) [])])] }

/-- `recv_from_all_basic`, `recv_from_all` (`recv.rs:186-273`, `277-366`), `recv_from_all_atmp` (`recv.rs:486-598`). -/
def recvFromAllBlock (timed : Bool) (M : Str) (roles : List Str) (n receiver sender : Nat) : Block :=
  { params := sessionParams (n - 1) ++ [.T] ++ constParams timed
    self := meshP M
      ((List.range' 1 (n - 1)).map fun k =>
        if isComm receiver sender k then recvP timed (.var .T) (.var (.S k)) else .var (.S k))
      (.app (.here (allToId (roleAt roles sender))) [.app .roleEnd [], .app .roleEnd []])
      (.app (.here (nameId (roleAt roles receiver))) [])
    methods := [(.recvFromAll,
      [meshP M (sessionVars n) (.app .roleEnd []) (.app (.here (nameId (roleAt roles receiver))) [])])] }

/-- `offer_basic`, `offer` (`offer.rs:7-110`, `113-216`), `offer_atmp` (`offer.rs:219-361`): the two meshes are the
arguments of the two functions given by the caller. -/
def offerBlock (timed : Bool) (M : Str) (roles : List Str) (n sender receiver : Nat) : Block :=
  let name : Pat := .app (.here (nameId (roleAt roles receiver))) []
  let left := meshP M ((List.range' 1 (n - 1)).map fun k => .var (.S k)) (.var (.R 1)) name
  let right := meshP M ((List.range' n (n - 1)).map fun k => .var (.S k)) (.var (.R 2)) name
  { params := sessionParams (2 * n - 2) ++ [.R 1, .R 2] ++ constParams timed
    self := meshP M
      ((List.range' 1 (n - 1)).map fun k =>
        if isComm receiver sender k then recvP timed (.app .either [left, right]) (.app .fin []) else .app .fin [])
      (.app (.here (allToId (roleAt roles sender))) [.app .roleEnd [], .app .roleEnd []])
      name
    methods := [(.offer, [left, right])] }

/-- `S{m}` or its dual, as `Model/Gen.lean` computes it. -/
def tyP (t : TyExp) : Pat := if t.dual then .dual t.sess else .var (.S t.sess)

/-- The mesh of one branch sent to receiver `j`: `left_sessions`/`right_sessions`, `stack_left`/`stack_right`,
`receiver_ident` (`choose.rs:48-145`); `none` is the `panic!` of the lookup in the matrix. -/
def branchP (M : Str) (roles : List Str) (n sender : Nat) (right : Bool) (j : Nat) : Option Pat :=
  match (List.range' 1 (n - 1)).mapM (fun k => chooseRecvTy n sender right j k) with
  | none => none
  | some tys => some (meshP M (tys.map tyP) (.var (.R (chooseRecvStack sender right j)))
      (.app (.here (nameId (roleAt roles j))) []))

/-- `choose_sessions` (`choose.rs:45-175`): the sender's session towards receiver `j`. -/
def chooseSessionP (timed : Bool) (M : Str) (roles : List Str) (n sender j : Nat) : Option Pat :=
  match branchP M roles n sender false j, branchP M roles n sender true j with
  | some l, some r => some (sendP timed (.app .either [l, r]) (.app .fin []))
  | _, _ => none

/-- `choose_basic`, `choose` (`choose.rs:11-573`, `576-1138`), `choose_atmp` (`choose.rs:1188-1787`). -/
def chooseBlock (timed : Bool) (M : Str) (roles : List Str) (n sender : Nat) : Option Block :=
  let name : Pat := .app (.here (nameId (roleAt roles sender))) []
  match ((rangeIncl 1 n).filter (fun j => sender ≠ j)).mapM (chooseSessionP timed M roles n sender),
        chooseSenderTys n sender false, chooseSenderTys n sender true with
  | some ss, some ls, some rs => some
    { params := sessionParams ((n - 1) * n) ++ (rangeIncl 1 (2 * n)).map .R ++ constParams timed
      self := meshP M ss
        (.app (.here (toAllId (roleAt roles sender))) [.var (.R (2 * n - 1)), .var (.R (2 * n))]) name
      methods := [(.chooseLeft, [meshP M (ls.map tyP) (.var (.R (2 * n - 1))) name]),
                  (.chooseRight, [meshP M (rs.map tyP) (.var (.R (2 * n))) name])] }
  | _, _, _ => none

/-- `close` (`close.rs:6-66`), `close_atmp` (`close_atmp.rs:6-68`). -/
def closeBlock (M : Str) (n : Nat) : Block :=
  { params := [.N]
    self := meshP M ((List.range' 1 (n - 1)).map fun _ => .app .fin []) (.app .roleEnd []) (.var .N)
    methods := [(.close, [])] }

/-- `cancel` (`cancel.rs:6-44`). -/
def cancelBlock (M : Str) (n : Nat) : Block :=
  { params := sessionParams (n - 1) ++ [.R 0, .N]
    self := meshP M (sessionVars n) (.var (.R 0)) (.var .N)
    methods := [(.cancel, [])] }

/-! ## Expansion -/

/-- The loops `(1..=n).map(|a| (1..=n).filter_map(|b| if a != b { Some(..) } else { None }))`
(`baking_basic.rs:63-146`). -/
def pairs (n : Nat) : List (Nat × Nat) :=
  (rangeIncl 1 n).flatMap fun a => ((rangeIncl 1 n).filter (fun b => a ≠ b)).map fun b => (a, b)

/-- `create_role_structs`, `create_atmp_role_structs` (`aux_baking.rs:27-37`, `expand/role.rs:17-178`,
`expand/role_atmp.rs`): four structs per role. -/
def roleStructs (roles : List Str) : List Item :=
  roles.flatMap fun a => [.struct (roleId a), .struct (dualId a), .struct (toAllId a), .struct (allToId a)]

/-- `create_name_structs` (`aux_baking.rs:40-42`, `expand/name.rs:10-20`). -/
def nameStructs (roles : List Str) : List Item := roles.map fun a => .struct (nameId a)

/-- Structs and methods, in the order of `quote!` (`baking_basic.rs:163-182`, and the same in
`baking_with_enum.rs`, `baking_with_cancel.rs`, `baking_with_enum_and_cancel.rs`, `baking_atmp_with_enum_and_cancel.rs`,
and for each of the two meshes in `baking_interleaved_with_enum_and_cancel.rs:353-371`, `376-397`). -/
def core (timed : Bool) (M : Str) (roles : List Str) : Option (List Item) :=
  let n := roles.length
  match (rangeIncl 1 n).mapM (chooseBlock timed M roles n) with
  | none => none
  | some chooses => some (
      [.struct M] ++ roleStructs roles ++ nameStructs roles
      ++ (pairs n).map (fun p => .block (sendBlock timed M roles n p.1 p.2))
      ++ (pairs n).map (fun p => .block (recvBlock timed M roles n p.1 p.2))
      ++ (pairs n).map (fun p => .block (recvFromAllBlock timed M roles n p.1 p.2))
      ++ (pairs n).map (fun p => .block (offerBlock timed M roles n p.2 p.1))
      ++ chooses.map .block
      ++ [.block (closeBlock M n), .block (cancelBlock M n)])

/-- The kinds of `generate!` for one mesh (`/repo/src/baking/mod.rs:96-138`), and `generate_atmp!`
(`/repo/src/baking_atmp/mod.rs:10-21`). -/
inductive Kind where
  | basic | recursive | cancel | recAndCancel | atmp
  deriving DecidableEq, Repr

/-- Timed communications. -/
def Kind.timed : Kind → Bool
  | .atmp => true
  | _ => false

/-- `choose_mpst_create_multi_to_all` (`choose.rs:1141-1185`) and its timed version (`choose.rs:1789-1846`): one macro per
role. -/
def chooseMacros (roles : List Str) : List Item := roles.map fun a => .macroRules (macroId a)

/-- `fork_mpst` (`fork.rs:110`, `269`). -/
def forkId : Str := "fork_mpst".toList
/-- `offer_mpst` (`baking_basic.rs:185`). -/
def offerId : Str := "offer_mpst".toList
/-- `offer_cancel_mpst` (`baking_with_cancel.rs:184`). -/
def offerCancelId : Str := "offer_cancel_mpst".toList

/-- Macros and functions after the methods (`baking_basic.rs:184-201`, `baking_with_enum.rs:187-207`,
`baking_with_cancel.rs:183-201`, `baking_with_enum_and_cancel.rs:187-207`,
`baking_atmp_with_enum_and_cancel.rs:199-218`). -/
def tailItems (kind : Kind) (roles : List Str) : List Item :=
  match kind with
  | .basic => [.macroRules offerId, .func forkId]
  | .cancel => [.macroRules offerCancelId, .func forkId]
  | .recursive => [.func forkId] ++ chooseMacros roles ++ [.macroRules offerId]
  | .recAndCancel => [.func forkId] ++ chooseMacros roles ++ [.macroRules offerId]
  | .atmp => chooseMacros roles ++ [.func forkId, .macroRules offerId]

/-- `expand` of the macros for one mesh. -/
def expand (kind : Kind) (M : Str) (roles : List Str) : Option (List Item) :=
  match core kind.timed M roles with
  | none => none
  | some items => some (items ++ tailItems kind roles)

/-- `expand` for two meshes (`baking_interleaved_with_enum_and_cancel.rs:96-401`,
`baking_atmp_interleaved_with_enum_and_cancel.rs:97-420`); only the timed version defines `offer_mpst`. -/
def expandInterleaved (timed : Bool) (M₁ : Str) (roles₁ : List Str) (M₂ : Str) (roles₂ : List Str) (func : Str) :
    Option (List Item) :=
  match core timed M₁ roles₁, core timed M₂ roles₂ with
  | some one, some two => some (one ++ chooseMacros roles₁ ++ two ++ chooseMacros roles₂ ++ [.func func]
      ++ (if timed then [.macroRules offerId] else []))
  | _, _ => none

/-! ## Reading the names -/

/-- Tokens handed to the proc macro. -/
inductive Tok where
  | ident (s : Str)
  | punct (c : Char)
  | lit (s : Str)
  | group (ts : List Tok)

/-- Identifiers of a list of tokens (`parenthesised.rs:45-55`, and the inner loops). -/
def idents : List Tok → List Str
  | [] => []
  | .ident s :: ts => s :: idents ts
  | _ :: ts => idents ts

/-- The loop over the groups of `get_all_roles` (`parenthesised.rs:26-34`). -/
def groupIdents : List Tok → List Str
  | [] => []
  | .group g :: ts => idents g ++ groupIdents ts
  | _ :: ts => groupIdents ts

/-- `get_all_roles` (`parenthesised.rs:21-41`). -/
def getAllRoles (ts : List Tok) : List Str :=
  if groupIdents ts = [] then idents ts else groupIdents ts

/-- Elements of one group for `parenthesised_groups`: identifiers are kept, a group is kept as it is, anything else
panics (`parenthesised.rs:62-71`).  Simplified: a group inside a group is refused, since it is no name of a role. -/
def groupNames : List Tok → Option (List Str)
  | [] => some []
  | .ident s :: ts => (groupNames ts).map (s :: ·)
  | _ :: _ => none

/-- `parenthesised_groups` (`parenthesised.rs:57-77`). -/
def parenthesisedGroups : List Tok → Option (List Str)
  | [] => some []
  | .group g :: ts =>
    match groupNames g, parenthesisedGroups ts with
    | some a, some b => some (a ++ b)
    | _, _ => none
  | _ :: ts => parenthesisedGroups ts

/-- What the arms `"basic"`, `"recursive"`, `"cancel"`, `"rec_and_cancel"` of `generate!` pass on for the roles:
`$( $all_roles , )+` (`/repo/src/baking/mod.rs:99-138`). -/
def rolesWithCommas (roles : List Str) : List Tok := roles.flatMap fun a => [.ident a, .punct ',']

/-- What the interleaved arms pass on: `( $( ( $all_roles_one ) )+ )` (`/repo/src/baking/mod.rs:139-179`); the outer
parentheses are read by `syn::parenthesized!`. -/
def rolesInGroups (roles : List Str) : List Tok := roles.map fun a => .group [.ident a]

end Verif.Baking
