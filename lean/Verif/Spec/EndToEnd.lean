import Verif.Spec.Global
import Verif.Spec.NuscrChoice
import Verif.Spec.NuscrText
/-!
# Specification: from a protocol to the program it describes

What the types of a generated file stand for, as the mesh types of `Model/Mesh.lean`, and the executions of a protocol, read
from the protocol alone.
-/
namespace Verif.EndToEnd
open Verif.Nuscr Verif.NuscrSpec

/-- The protocols: messages only, or messages and beginnings of loops and then a choice. -/
inductive Plan where
  | straight (name : Text) (roles : List Text) (msgs : List Msg)
  | choice (P : Proto)

def Plan.lines : Plan → List Line
  | .straight name roles msgs => protocol name roles msgs
  | .choice P => P.lines

def Plan.roles : Plan → List Text
  | .straight _ roles _ => roles
  | .choice P => P.roles

/-! ## What a protocol prescribes -/

/-- A message is exchanged, or `x` chooses the branch number `i`. -/
inductive Happening where
  | exchange (m : Msg)
  | choice (x : Text) (i : Nat)

/-- What may happen from the choice on; `true` if that is all up to the end, `false` if the choice is waited for. -/
inductive After (P : Proto) : Bool → List Happening → Prop
  | wait : After P false []
  | ends {i b} : P.branches[i]? = some b → b.back = none →
      After P true (.choice P.chooser i :: b.msgs.map .exchange)
  | again {i b l body c tr} : P.branches[i]? = some b → b.back = some l → loopBody l P.pre = some body → After P c tr →
      After P c (.choice P.chooser i :: (b.msgs.map .exchange ++ (body.map .exchange ++ tr)))

/-- What may happen from the beginning. -/
inductive Execution : Plan → Bool → List Happening → Prop
  | straight {name roles msgs} : Execution (.straight name roles msgs) true (msgs.map .exchange)
  | choice {P c tr} : After P c tr → Execution (.choice P) c ((messagesOf P.pre).map .exchange ++ tr)

/-! ## What a generated file stands for -/

section
variable (prog : Program) (code : Params → Nat)

/-- Roles are numbered from 1, in the order of the file. -/
def number (p : Text) : Nat := prog.roles.idxOf p + 1

/-- The enum `e` has one variant for each branch, in order, and the variants carry the endpoints of `q` for them. -/
def Carries (branch : Nat → Text → Text) (k : Nat) (e q : Text) : Prop :=
  ∃ variants, (e, variants) ∈ prog.enums ∧ variants.map (·.2) = (List.range k).map fun i => branch i q

/-- What an alias for a session of `p` with `q` stands for.  The branches are numbered from 1. -/
inductive SessionIs (branch : Nat → Text → Text) (k : Nat) (p q : Text) : Text → Mesh.Sess → Prop
  | fin (a) : (a, Rhs.fin) ∈ prog.sessions → SessionIs branch k p q a .fin
  | send (a x b T) : (a, Rhs.send x b) ∈ prog.sessions → SessionIs branch k p q b T → SessionIs branch k p q a (.send (code x) T)
  | recv (a x b T) : (a, Rhs.recv x b) ∈ prog.sessions → SessionIs branch k p q b T → SessionIs branch k p q a (.recv (code x) T)
  | sendChoice (a e) : (a, Rhs.sendChoice e) ∈ prog.sessions → Carries prog branch k e q →
      SessionIs branch k p q a (.sendChoice (List.range' 1 k))
  | recvChoice (a e) : (a, Rhs.recvChoice e) ∈ prog.sessions → Carries prog branch k e p →
      SessionIs branch k p q a (.recvChoice (List.range' 1 k))

/-- What an alias for a stack stands for. -/
inductive StackIs : Text → Mesh.Stack → Prop
  | fin (a) : (a, StackRhs.fin) ∈ prog.stacks → StackIs a .fin
  | broadcast (a) : (a, StackRhs.broadcast) ∈ prog.stacks → StackIs a .broadcast
  | last (a r) : (a, StackRhs.last r) ∈ prog.stacks → StackIs a (.role (number prog r) .fin)
  | role (a r b T) : (a, StackRhs.role r b) ∈ prog.stacks → StackIs b T → StackIs a (.role (number prog r) T)

/-- What an endpoint type of `p` stands for: the sessions with the other roles, in order, and the stack. -/
def EndpointIs (branch : Nat → Text → Text) (k : Nat) (e p : Text) (M : Mesh.Mesh) : Prop :=
  ∃ sessions stack, (e, sessions, stack, ['N', 'a', 'm', 'e'] ++ p) ∈ prog.endpoints ∧
    List.Forall₂ (fun q session => SessionIs prog code branch k p q session (M.sess (number prog q)))
      (prog.roles.filter (· ≠ p)) sessions ∧
    StackIs prog stack M.stack

/-- The generated file stands for `Y`: `main` starts one function for each role, its parameter has the type of that role
in `Y` at the beginning, and the variants of the enums carry the types of the branches of `Y`. -/
def Reads (Y : Mesh.Sys) : Prop :=
  ∃ (branch : Nat → Text → Text) (k : Nat), Y.n = prog.roles.length ∧ prog.main.map (·.1) = prog.roles ∧
    (∀ f ∈ prog.main, ∃ e, (f, e) ∈ prog.functions ∧
      EndpointIs prog code branch k e f.1 (Y.types 0 (number prog f.1))) ∧
    ∀ i < k, ∀ p ∈ prog.roles, EndpointIs prog code branch k (branch i p) p (Y.types (i + 1) (number prog p))

/-- What `p` does when something happens. -/
def does (title : Text → Text) (p : Text) : Happening → Option Mesh.Act
  | .exchange m =>
    if m.sender = p then some (.send (number prog m.receiver) (code (written title m)))
    else if m.receiver = p then some (.recv (number prog m.sender) (code (written title m)))
    else none
  | .choice x i => if x = p then some (.decide (i + 1)) else some (.heed (number prog x) (i + 1))

/-! ## The program -/

variable (title : Text → Text)

/-- A message, in numbers. -/
def comm (m : Msg) : Mesh.Comm := ⟨number prog m.sender, number prog m.receiver, code (written title m)⟩

/-- The choice, in numbers. -/
def tailOf (k : Nat) (x : Option Text) : Mesh.Tail :=
  match x with
  | some x => .choice (number prog x) (List.range' 1 k)
  | none => .fin

/-- The protocol, in numbers: block 0 is its beginning, block `i + 1` the branch number `i`. -/
def globalOf : Plan → Mesh.Global
  | .straight _ _ msgs, _ => ⟨msgs.map (comm prog code title), .fin⟩
  | .choice P, 0 => ⟨(messagesOf P.pre).map (comm prog code title), tailOf prog P.branches.length (some P.chooser)⟩
  | .choice P, i + 1 =>
    match P.branches[i]? with
    | some b => ⟨(P.exchanges b).map (comm prog code title),
        tailOf prog P.branches.length (b.back.map fun _ => P.chooser)⟩
    | none => ⟨[], .fin⟩

/-- The program whose types are the projections of the protocol. -/
def system (s : Plan) : Mesh.Sys := Mesh.project prog.roles.length (globalOf prog code title s)

end

/-- The text is a way of writing the protocol, which has two or more different roles, and the generator accepts it. -/
structure Accepted (title : Text → Text) (C : NuscrText.Classes) (s : Plan) (text : List Text) (prog : Program) : Prop where
  usual : NuscrTextSpec.Usual C
  written : NuscrTextSpec.IsText C s.lines text
  distinct : s.roles.Nodup
  two : 2 ≤ s.roles.length
  ok : NuscrText.generatorText title C text = .ok prog

end Verif.EndToEnd
