import Verif.Model.Baking
import Verif.Spec.Wiring
/-!
# Specification: the calls a mesh type allows

How Rust reads `impl` blocks (a method exists on a closed type exactly if the type is an instance of the `Self` type of
a block that defines the method, for arguments that meet the declared bounds), the types of the meshes of a protocol,
and the calls the protocol prescribes.
-/
namespace Verif.Baking
open Verif.Spec

/-- What the compiler knows about traits: which types implement `Session`, `Role`, `Name` and `std::marker::Send`, and
the associated type `Dual` of sessions. -/
structure Traits where
  session : RTy → Prop
  role : RTy → Prop
  name : RTy → Prop
  payload : RTy → Prop
  dual : RTy → RTy

/-- The bound declared with a parameter; constants have none. -/
def Traits.holds (W : Traits) : TVar → RTy → Prop
  | .S _, t => W.session t
  | .R _, t => W.role t
  | .T, t => W.payload t
  | .N, t => W.name t
  | .C _, _ => True

mutual
/-- A written type, for given values of the parameters. -/
def inst (d : RTy → RTy) (σ : TVar → RTy) : Pat → RTy
  | .var v => σ v
  | .dual k => d (σ (.S k))
  | .app h args => .app h (instList d σ args)
/-- See `inst`. -/
def instList (d : RTy → RTy) (σ : TVar → RTy) : List Pat → List RTy
  | [] => []
  | p :: ps => inst d σ p :: instList d σ ps
end

/-- Method `m` exists on the closed type `t`, and the caller goes on with the types `next`. -/
def Has (W : Traits) (items : List Item) (m : Method) (t : RTy) (next : List RTy) : Prop :=
  ∃ b, Item.block b ∈ items ∧ ∃ ps, (m, ps) ∈ b.methods ∧ ∃ σ : TVar → RTy,
    (∀ v ∈ b.params, W.holds v (σ v)) ∧ inst W.dual σ b.self = t ∧ ps.map (inst W.dual σ) = next

/-- Two blocks have a common `Self` type, whatever the bounds and the duals are. -/
def Overlap (b c : Block) : Prop := ∃ d σ τ, inst d σ b.self = inst d τ c.self

/-- Names of the structs of a list of items, in order. -/
def structNames (items : List Item) : List Str :=
  items.filterMap fun | .struct s => some s | _ => none

/-- Names of the macros. -/
def macroNames (items : List Item) : List Str :=
  items.filterMap fun | .macroRules s => some s | _ => none

/-- Names of the functions. -/
def funcNames (items : List Item) : List Str :=
  items.filterMap fun | .func s => some s | _ => none

mutual
/-- The parameter occurs in the written type, outside of associated types. -/
def Pat.shows : Pat → TVar → Prop
  | .var v, w => v = w
  | .dual _, _ => False
  | .app _ args, w => showsList args w
/-- See `Pat.shows`. -/
def showsList : List Pat → TVar → Prop
  | [], _ => False
  | p :: ps, w => p.shows w ∨ showsList ps w
end

mutual
/-- The parameter occurs in the written type. -/
def Pat.uses : Pat → TVar → Prop
  | .var v, w => v = w
  | .dual k, w => w = .S k
  | .app _ args, w => usesList args w
/-- See `Pat.uses`. -/
def usesList : List Pat → TVar → Prop
  | [], _ => False
  | p :: ps, w => p.uses w ∨ usesList ps w
end

/-- The block is well-formed: what it declares is determined by `Self`, and what it uses is declared. -/
def WellFormed (b : Block) : Prop :=
  (∀ v ∈ b.params, b.self.shows v) ∧ (∀ v, b.self.uses v → v ∈ b.params) ∧
    ∀ m ps, (m, ps) ∈ b.methods → ∀ p ∈ ps, ∀ v, p.uses v → v ∈ b.params

/-- Blocks of one list may not define one method for a common type. -/
def Apart (x y : Item) : Prop :=
  ∀ b c, x = .block b → y = .block c → (∃ m ps qs, (m, ps) ∈ b.methods ∧ (m, qs) ∈ c.methods) → ¬ Overlap b c

/-! ## Types of meshes -/

/-- `Role{a}<r>`. -/
def roleTy (a : Str) (r : RTy) : RTy := .app (.here ("Role".toList ++ a)) [r]
/-- `Role{a}toAll<l, r>`. -/
def toAllTy (a : Str) (l r : RTy) : RTy := .app (.here ("Role".toList ++ a ++ "toAll".toList)) [l, r]
/-- `RoleEnd`. -/
def roleEndTy : RTy := .app .roleEnd []
/-- `RoleAllto{a}<RoleEnd, RoleEnd>`. -/
def allToTy (a : Str) : RTy := .app (.here ("RoleAllto".toList ++ a)) [roleEndTy, roleEndTy]
/-- `Name{a}`. -/
def nameTy (a : Str) : RTy := .app (.here ("Name".toList ++ a)) []
/-- `End`. -/
def endTy : RTy := .app .fin []
/-- `Either<l, r>`. -/
def eitherTy (l r : RTy) : RTy := .app .either [l, r]

/-- `Send<t, s>` or `SendTimed<t, cs, s>`. -/
def sendTy (timed : Bool) (cs : List RTy) (t s : RTy) : RTy :=
  if timed then .app .sendTimed (t :: cs ++ [s]) else .app .send [t, s]

/-- `Recv<t, s>` or `RecvTimed<t, cs, s>`. -/
def recvTy (timed : Bool) (cs : List RTy) (t s : RTy) : RTy :=
  if timed then .app .recvTimed (t :: cs ++ [s]) else .app .recv [t, s]

/-- The `i`-th role, from 1. -/
def roleName (roles : List Str) (i : Nat) : Str := (roles[i - 1]?).getD []

/-- The type of a mesh of role `i` whose session with role `j` is `F j`: the sessions are those with the other roles in
ascending order. -/
def meshTy (M : Str) (roles : List Str) (i : Nat) (F : Nat → RTy) (stack : RTy) : RTy :=
  .app (.here M) ((List.range' 1 (roles.length - 1)).map (fun k => F (partner i k)) ++ [stack, nameTy (roleName roles i)])

/-! ## Choices -/

/-- In a branch, the sessions of two roles other than `s` are dual, and those of the lower one, as well as those with
`s`, are sessions. -/
def BranchOk (W : Traits) (n s : Nat) (B : Nat → Nat → RTy) : Prop :=
  (∀ j q, IsRole n j → IsRole n q → j ≠ s → q ≠ s → j < q → B q j = W.dual (B j q)) ∧
  (∀ j q, IsRole n j → IsRole n q → j ≠ s → q ≠ s → j < q → W.session (B j q)) ∧
  (∀ j, IsRole n j → j ≠ s → W.session (B j s))

/-- The type of the mesh of a role that makes a choice. -/
def chooseTy (timed : Bool) (M : Str) (roles : List Str) (s : Nat) (cs : List RTy) (B : Bool → Nat → Nat → RTy)
    (P : Bool → Nat → RTy) : RTy :=
  meshTy M roles s (fun q => sendTy timed cs
      (eitherTy (meshTy M roles q (B false q) (P false q)) (meshTy M roles q (B true q) (P true q))) endTy)
    (toAllTy (roleName roles s) (P false s) (P true s))

/-! ## Protocols and their types -/

/-- Protocols with binary choices: a message from `a` to `b` with payload `t` (and time constraints `cs` in the timed
case), or a choice of role `a` told to all other roles. -/
inductive Proto where
  | fin
  | msg (a b : Nat) (cs : List RTy) (t : RTy) (g : Proto)
  | choice (a : Nat) (cs : List RTy) (l r : Proto)

/-- The stack of role `i`. -/
def stackOf (roles : List Str) : Proto → Nat → RTy
  | .fin, _ => roleEndTy
  | .msg a b _ _ g, i =>
    if i = a then roleTy (roleName roles b) (stackOf roles g i)
    else if i = b then roleTy (roleName roles a) (stackOf roles g i)
    else stackOf roles g i
  | .choice a _ l r, i =>
    if i = a then toAllTy (roleName roles a) (stackOf roles l i) (stackOf roles r i) else allToTy (roleName roles a)

/-- The session of role `i` with role `j`. -/
def sessionOf (timed : Bool) (M : Str) (roles : List Str) : Proto → Nat → Nat → RTy
  | .fin, _, _ => endTy
  | .msg a b cs t g, i, j =>
    if i = a ∧ j = b then sendTy timed cs t (sessionOf timed M roles g i j)
    else if i = b ∧ j = a then recvTy timed cs t (sessionOf timed M roles g i j)
    else sessionOf timed M roles g i j
  | .choice a cs l r, i, j =>
    if i = a then sendTy timed cs
      (eitherTy (meshTy M roles j (fun q => sessionOf timed M roles l j q) (stackOf roles l j))
        (meshTy M roles j (fun q => sessionOf timed M roles r j q) (stackOf roles r j))) endTy
    else if j = a then recvTy timed cs
      (eitherTy (meshTy M roles i (fun q => sessionOf timed M roles l i q) (stackOf roles l i))
        (meshTy M roles i (fun q => sessionOf timed M roles r i q) (stackOf roles r i))) endTy
    else endTy

/-- The type of the mesh of role `i`. -/
def typeOf (timed : Bool) (M : Str) (roles : List Str) (g : Proto) (i : Nat) : RTy :=
  meshTy M roles i (sessionOf timed M roles g i) (stackOf roles g i)

/-- What the protocol lets role `i` do next, and the types with which it goes on.  `recv_from_all` is the step `offer`
makes inside: it leaves a mesh without communications. -/
def Next (timed : Bool) (M : Str) (roles : List Str) : Proto → Nat → Method → List RTy → Prop
  | .fin, _, m, next => m = .close ∧ next = []
  | .msg a b _ _ g, i, m, next =>
    if i = a then m = .send ∧ next = [typeOf timed M roles g i]
    else if i = b then m = .recv ∧ next = [typeOf timed M roles g i]
    else Next timed M roles g i m next
  | .choice a _ l r, i, m, next =>
    if i = a then (m = .chooseLeft ∧ next = [typeOf timed M roles l i])
      ∨ (m = .chooseRight ∧ next = [typeOf timed M roles r i])
    else (m = .offer ∧ next = [typeOf timed M roles l i, typeOf timed M roles r i])
      ∨ (m = .recvFromAll ∧ next = [meshTy M roles i (fun _ => endTy) roleEndTy])

/-- Messages go between two different roles among `1..n`, choices are made by one of them, payloads may be sent to other
threads, and a timed communication has its six constants. -/
def Proto.Valid (W : Traits) (n : Nat) : Proto → Prop
  | .fin => True
  | .msg a b cs t g => IsRole n a ∧ IsRole n b ∧ a ≠ b ∧ cs.length = 6 ∧ W.payload t ∧ g.Valid W n
  | .choice a cs l r => IsRole n a ∧ cs.length = 6 ∧ l.Valid W n ∧ r.Valid W n

/-- The types of the crate and of the generated code implement the traits as they do in the code
(`binary/struct_trait/*.rs`, `binary_atmp/struct_trait/*.rs`, `expand/role.rs`, `expand/name.rs`,
`expand/meshedchannels.rs`). -/
structure Lawful (W : Traits) (timed : Bool) (M : Str) (roles : List Str) : Prop where
  end_session : W.session endTy
  send_session : ∀ cs t s, W.payload t → W.session s → W.session (sendTy timed cs t s)
  recv_session : ∀ cs t s, W.payload t → W.session s → W.session (recvTy timed cs t s)
  end_dual : W.dual endTy = endTy
  send_dual : ∀ cs t s, W.dual (sendTy timed cs t s) = recvTy timed cs t (W.dual s)
  recv_dual : ∀ cs t s, W.dual (recvTy timed cs t s) = sendTy timed cs t (W.dual s)
  roleEnd_role : W.role roleEndTy
  role_role : ∀ a r, W.role r → W.role (roleTy a r)
  toAll_role : ∀ a l r, W.role l → W.role r → W.role (toAllTy a l r)
  allTo_role : ∀ a, W.role (allToTy a)
  name_name : ∀ a, W.name (nameTy a)
  mesh_payload : ∀ i F F' s s', (∀ j, W.session (F j)) → (∀ j, W.session (F' j)) → W.role s → W.role s' →
    W.payload (eitherTy (meshTy M roles i F s) (meshTy M roles i F' s'))

/-! ## Whole runs of a role -/

/-- The calls of role `i` along one run of the protocol, up to `close`. -/
def Path : Proto → Nat → List Method → Prop
  | .fin, _, ms => ms = [.close]
  | .msg a b _ _ g, i, ms =>
    if i = a then ∃ rest, ms = .send :: rest ∧ Path g i rest
    else if i = b then ∃ rest, ms = .recv :: rest ∧ Path g i rest
    else Path g i ms
  | .choice a _ l r, i, ms =>
    if i = a then (∃ rest, ms = .chooseLeft :: rest ∧ Path l i rest) ∨ ∃ rest, ms = .chooseRight :: rest ∧ Path r i rest
    else ∃ rest, ms = .offer :: rest ∧ (Path l i rest ∨ Path r i rest)

/-- A program over a mesh of type `t` that compiles: each call exists on the type at hand and the program goes on with
one of the types the call hands on, until it calls `close`.  `recv_from_all` and `cancel` are left out. -/
inductive Calls (W : Traits) (items : List Item) : RTy → List Method → Prop
  | close {t next} : Has W items .close t next → Calls W items t [.close]
  | step {m t next t' ms} : m ≠ .cancel → m ≠ .recvFromAll → m ≠ .close → Has W items m t next → t' ∈ next →
      Calls W items t' ms → Calls W items t (m :: ms)

/-! ## Names -/

/-- No name of a generated struct of a role is that of another one, apart from the names of one role given twice. -/
def NamesApart (roles : List Str) : Prop :=
  ∀ a ∈ roles, ∀ b ∈ roles, a ≠ b ++ "Dual".toList ∧ a ≠ b ++ "toAll".toList ∧ a ≠ "Allto".toList ++ b ∧
    a ++ "Dual".toList ≠ "Allto".toList ++ b ∧ a ++ "toAll".toList ≠ "Allto".toList ++ b

/-- The struct of a mesh has a name of its own. -/
def MeshApart (M : Str) (roles : List Str) : Prop :=
  ∀ a ∈ roles, M ≠ "Role".toList ++ a ∧ M ≠ "Role".toList ++ a ++ "Dual".toList ∧ M ≠ "Role".toList ++ a ++ "toAll".toList ∧
    M ≠ "RoleAllto".toList ++ a ∧ M ≠ "Name".toList ++ a

end Verif.Baking
