import Verif.Model.Broadcast
/-!
# Specification vocabulary for broadcast cancellation
-/
namespace Verif.Broadcast

/-- A protocol with at least one participant, all its choices made by participants. -/
structure Proto.Wf (P : Proto) : Prop where
  two : 2 ≤ P.n
  chooser : ∀ g, g < P.total → 2 ≤ P.chooser g ∧ P.chooser g ≤ P.n

/-- `p` is a participant. -/
def Proto.Part (P : Proto) (p : Nat) : Prop := 2 ≤ p ∧ p ≤ P.n

/-- Participants stop only by raising a cancellation, or because of somebody else's stopping: nobody
drops its session without a word. -/
def NoQuit (ls : List Label) : Prop := ∀ p, Label.quit p ∉ ls

/-- Nobody stops on its own. -/
def NoCancel (ls : List Label) : Prop := ∀ p, Label.quit p ∉ ls ∧ Label.raise p ∉ ls

/-- Nothing can happen any more, except participants finding nothing when they check. -/
def Stuck (P : Proto) (s : S) : Prop := ∀ l s', Step P s l s' → ∃ p, l = .pass p

/-- The number of steps, not counting fruitless checks. -/
def effective (ls : List Label) : Nat := (ls.filter (fun l => match l with | .pass _ => false | _ => true)).length

end Verif.Broadcast
