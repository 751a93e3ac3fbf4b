import Mathlib.Data.List.Forall2
import Verif.Spec.Nuscr

/-!
# Specification: timed global protocols with loops and a choice

The shape the generator supports: messages and beginnings of loops, then a choice whose branches are messages, each
possibly followed by a jump to one of the loops.
-/
namespace Verif.NuscrSpec
open Verif.Nuscr

/-- What may precede the choice. -/
inductive Item where
  | msg (m : Msg)
  | loop (name : Text)
  deriving DecidableEq

/-- A branch: its messages, and the loop it continues, if any. -/
structure Branch where
  msgs : List Msg
  back : Option Text
  deriving DecidableEq

/-- A protocol with a choice of one branch or more. -/
structure Proto where
  name : Text
  roles : List Text
  pre : List Item
  chooser : Text
  first : Branch
  others : List Branch

def Proto.branches (P : Proto) : List Branch := P.first :: P.others

/-- The lines of an item. -/
def Item.line : Item → Line
  | .msg m => ⟨0, 0, false, .message m⟩
  | .loop l => ⟨1, 0, false, .loop l⟩

def Branch.lines (b : Branch) : List Line :=
  b.msgs.map (fun m => ⟨0, 0, false, .message m⟩) ++
    match b.back with
    | some l => [⟨0, 0, false, .jump l⟩]
    | none => []

/-- The number of loops. -/
def loopCount : List Item → Nat
  | [] => 0
  | .msg _ :: is => loopCount is
  | .loop _ :: is => loopCount is + 1

/-- The text of the protocol: the header, the items, the choice with its branches, and a closing bracket for the choice,
for each loop and for the protocol. -/
def Proto.lines (P : Proto) : List Line :=
  ⟨1, 0, false, .global P.name P.roles⟩ :: P.pre.map Item.line ++
    ⟨1, 0, false, .choice P.chooser⟩ :: P.first.lines ++
    P.others.flatMap (fun b => ⟨1, 1, false, .or⟩ :: b.lines) ++
    List.replicate (loopCount P.pre + 2) ⟨0, 1, false, .other⟩

/-- The messages among the items. -/
def messagesOf : List Item → List Msg
  | [] => []
  | .msg m :: is => m :: messagesOf is
  | .loop _ :: is => messagesOf is

/-- All messages of the protocol. -/
def Proto.messages (P : Proto) : List Msg := messagesOf P.pre ++ P.branches.flatMap (·.msgs)

/-- The messages from the beginning of the loop `l` to the choice; of several loops of that name, the innermost. -/
def loopBody (l : Text) : List Item → Option (List Msg)
  | [] => none
  | .msg _ :: is => loopBody l is
  | .loop x :: is =>
    match loopBody l is with
    | some b => some b
    | none => if x = l then some (messagesOf is) else none

/-- What is exchanged from the beginning of a branch to the end of the protocol or to the next choice. -/
def Proto.exchanges (P : Proto) (b : Branch) : List Msg :=
  b.msgs ++
    match b.back with
    | some l => (loopBody l P.pre).getD []
    | none => []

/-- How a binary session goes on after its exchanges: it ends, or a value of an enum is sent or received. -/
inductive Tail where
  | fin
  | sends (enum : Text)
  | receives (enum : Text)
  deriving DecidableEq

def Tail.dual : Tail → Tail
  | .fin => .fin
  | .sends e => .receives e
  | .receives e => .sends e

/-- What the alias `a` stands for, given the generated definitions. -/
inductive MeansTo (defs : List (Text × Rhs)) : Text → List Step → Tail → Prop where
  | fin (a) : (a, Rhs.fin) ∈ defs → MeansTo defs a [] .fin
  | sends (a e) : (a, Rhs.sendChoice e) ∈ defs → MeansTo defs a [] (.sends e)
  | receives (a e) : (a, Rhs.recvChoice e) ∈ defs → MeansTo defs a [] (.receives e)
  | send (a p b ss t) : (a, Rhs.send p b) ∈ defs → MeansTo defs b ss t → MeansTo defs a (.send p :: ss) t
  | recv (a p b ss t) : (a, Rhs.recv p b) ∈ defs → MeansTo defs b ss t → MeansTo defs a (.recv p :: ss) t

/-- What a stack alias stands for: the list of roles, and whether it ends with `RoleBroadcast`. -/
inductive MeansStackTo (defs : List (Text × StackRhs)) : Text → List Text → Bool → Prop where
  | fin (a) : (a, StackRhs.fin) ∈ defs → MeansStackTo defs a [] false
  | broadcast (a) : (a, StackRhs.broadcast) ∈ defs → MeansStackTo defs a [] true
  | last (a r) : (a, StackRhs.last r) ∈ defs → MeansStackTo defs a [r] false
  | role (a r b rs c) : (a, StackRhs.role r b) ∈ defs → MeansStackTo defs b rs c → MeansStackTo defs a (r :: rs) c

/-- How a session of `p` with `q` ends at a choice of `chooser`: `enum q` is the type sent to `q`. -/
def atChoice (chooser : Text) (enum : Text → Text) (p q : Text) : Tail :=
  if p = chooser then .sends (enum q) else if q = chooser then .receives (enum p) else .fin

/-- The generated endpoint type `e` is the one of `p` for the exchanges `msgs`, after which the protocol ends
(`chooser = none`) or `chooser` chooses. -/
def IsEndpoint (title : Text → Text) (prog : Program) (enum : Text → Text) (e p : Text) (msgs : List Msg)
    (chooser : Option Text) : Prop :=
  ∃ sessions stack, (e, sessions, stack, ['N', 'a', 'm', 'e'] ++ p) ∈ prog.endpoints ∧
    List.Forall₂ (fun q session => MeansTo prog.sessions session (view title p q msgs)
        (match chooser with
          | some x => atChoice x enum p q
          | none => .fin))
      (prog.roles.filter (· ≠ p)) sessions ∧
    match chooser with
    | none => MeansStackTo prog.stacks stack (partners p msgs) false
    | some x =>
      if p = x then MeansStackTo prog.stacks stack (partners p msgs) true
      else MeansStackTo prog.stacks stack (partners p msgs ++ [x]) false

end Verif.NuscrSpec
