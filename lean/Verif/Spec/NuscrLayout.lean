import Verif.Model.Nuscr

/-!
# The layout of a protocol text

Two protocols differing in layout only: lines that say nothing, and opening brackets of choices and loops that stand on
the next line.
-/
namespace Verif.NuscrLayout
open Verif.Nuscr

/-- A line in which there is nothing: no bracket, and nothing but blanks or nothing that is an instruction. -/
def Silent (l : Line) : Prop := l.opens = 0 ∧ l.closes = 0 ∧ (l.empty = true ∨ l.kind = .other)

/-- The line starts a choice. -/
def isChoice : Kind → Bool
  | .choice _ => true
  | _ => false

/-- The line starts a choice or a loop. -/
def isBlock : Kind → Bool
  | .choice _ => true
  | .loop _ => true
  | _ => false

/-- The place, with `d` brackets open and a choice started before if `c`, is inside the protocol and not after the end of
a choice at its outermost level. -/
def Inside (d : Nat) (c : Bool) : Prop := 1 ≤ d ∧ (c = true → 2 ≤ d)

/-- `ls'` differs from `ls` in layout only; `d` brackets are open, and `c` is whether a choice has been started. -/
inductive Layout : Nat → Bool → List Line → List Line → Prop where
  | nil (d c) : Layout d c [] []
  | line (d c l ls ls') : Layout (d + l.opens - l.closes) (c || isChoice l.kind) ls ls' → Layout d c (l :: ls) (l :: ls')
  | silent (d c l ls ls') : Silent l → Inside d c → ls ≠ [] → Layout d c ls ls' → Layout d c ls (l :: ls')
  | bracket (d c k ls ls') : isBlock k = true → Inside d c → ls ≠ [] → Layout (d + 1) (c || isChoice k) ls ls' →
      Layout d c (⟨1, 0, false, k⟩ :: ls) (⟨0, 0, false, k⟩ :: ⟨1, 0, false, .other⟩ :: ls')

end Verif.NuscrLayout
