import Verif.Model.Nuscr

/-!
# Specification: choice-free timed global protocols

A protocol is the list of its messages.  What the generated type aliases mean is defined by following them.
-/
namespace Verif.NuscrSpec
open Verif.Nuscr

/-- The lines of a choice-free protocol: the header, the messages, the closing bracket. -/
def protocol (name : Text) (roles : List Text) (msgs : List Msg) : List Line :=
  ⟨1, 0, false, .global name roles⟩ :: (msgs.map fun m => ⟨0, 0, false, .message m⟩) ++ [⟨0, 1, false, .other⟩]

/-- One step of a binary session. -/
inductive Step where
  | send (p : Params)
  | recv (p : Params)
  deriving DecidableEq

def Step.dual : Step → Step
  | .send p => .recv p
  | .recv p => .send p

/-- What the type of a message has to say: its name, clock and window as they stand in the protocol (`[0;5)` contains 0 and
not 5), and the clock it resets, or a blank. -/
def written (title : Text → Text) (m : Msg) : Params :=
  { message := title m.message, clock := m.clock,
    left := m.leftBound, leftIncl := decide (m.leftBracket = .opening),
    right := m.rightBound, rightIncl := decide (m.rightBracket = .closing),
    reset := match m.reset with | some c => c | none => [' '] }

theorem params_written (title : Text → Text) (m : Msg) : m.params title = written title m := by
  cases m with
  | mk a b c d e f g h r p => cases r <;> cases f <;> cases h <;> rfl

/-- The part of the protocol between `p` and `q`, seen by `p`. -/
def view (title : Text → Text) (p q : Text) (msgs : List Msg) : List Step :=
  msgs.filterMap fun m =>
    if m.sender = p ∧ m.receiver = q then some (.send (written title m))
    else if m.sender = q ∧ m.receiver = p then some (.recv (written title m))
    else none

/-- The partners of `p`, in the order of the protocol. -/
def partners (p : Text) (msgs : List Msg) : List Text :=
  msgs.filterMap fun m => if m.sender = p then some m.receiver else if m.receiver = p then some m.sender else none

/-- What the alias `a` stands for, given the generated definitions. -/
inductive Means (defs : List (Text × Rhs)) : Text → List Step → Prop where
  | fin (a) : (a, Rhs.fin) ∈ defs → Means defs a []
  | send (a p b ss) : (a, Rhs.send p b) ∈ defs → Means defs b ss → Means defs a (.send p :: ss)
  | recv (a p b ss) : (a, Rhs.recv p b) ∈ defs → Means defs b ss → Means defs a (.recv p :: ss)

/-- What a stack alias stands for: the list of roles. -/
inductive MeansStack (defs : List (Text × StackRhs)) : Text → List Text → Prop where
  | fin (a) : (a, StackRhs.fin) ∈ defs → MeansStack defs a []
  | role (a r b rs) : (a, StackRhs.role r b) ∈ defs → MeansStack defs b rs → MeansStack defs a (r :: rs)

/-- A message names two distinct roles of the protocol. -/
def Valid (roles : List Text) (m : Msg) : Prop := m.sender ∈ roles ∧ m.receiver ∈ roles ∧ m.sender ≠ m.receiver

instance (roles : List Text) (m : Msg) : Decidable (Valid roles m) := by unfold Valid; infer_instance

/-- The text consists of ASCII digits, and there is one. -/
def Numeral (t : Text) : Prop := t ≠ [] ∧ ∀ c ∈ t, 48 ≤ c.toNat ∧ c.toNat ≤ 57

/-- The number a numeral stands for. -/
def value : Text → Nat
  | [] => 0
  | c :: cs => (c.toNat - 48) * 10 ^ cs.length + value cs

/-- The instant `t`, a number of seconds, lies in the window of the message. -/
def Fits (m : Msg) (t : Int) : Prop :=
  (if m.leftBracket = .opening then (value m.leftBound : Int) ≤ t else (value m.leftBound : Int) < t) ∧
  (if m.rightBracket = .closing then t ≤ (value m.rightBound : Int) else t < (value m.rightBound : Int))

/-- `p` takes part in the message. -/
def Involved (p : Text) (m : Msg) : Prop := m.sender = p ∨ m.receiver = p

end Verif.NuscrSpec
