import Mathlib.Data.List.Forall2
import Verif.Model.NuscrText

/-!
# Specification: protocol texts

What a regular expression describes, independently of the matcher, and the ways of writing each line of a protocol.
-/
namespace Verif.NuscrTextSpec
open Verif.Nuscr Verif.NuscrText

/-- The texts described by a regular expression. -/
def Describes (C : Classes) : Rx → Text → Prop
  | .eps, s => s = []
  | .cls x, s => ∃ a, s = [a] ∧ x.has C a = true
  | .seq a b, s => ∃ u v, s = u ++ v ∧ Describes C a u ∧ Describes C b v
  | .alt a b, s => Describes C a s ∨ Describes C b s
  | .star a, s => ∃ l : List Text, s = l.flatten ∧ ∀ u ∈ l, Describes C a u
  | .cap _ a, s => Describes C a s

/-- The classes `\w` and `\d` contain no blank and no punctuation of the notation. -/
structure Usual (C : Classes) : Prop where
  word : ∀ c ∈ [' ', '(', ')', '[', ']', '{', '}', ';', ',', '/'], C.word c = false
  digit : ∀ c ∈ [' ', '(', ')', '[', ']', '{', '}', ';', ',', '/'], C.digit c = false

def IsWord (C : Classes) (t : Text) : Prop := t ≠ [] ∧ ∀ c ∈ t, C.word c = true
def IsNumber (C : Classes) (t : Text) : Prop := t ≠ [] ∧ ∀ c ∈ t, C.digit c = true

/-- Some blanks. -/
def blanks (n : Nat) : Text := List.replicate n ' '

/-- At least one blank. -/
def gap (n : Nat) : Text := ' ' :: blanks n

def bracketText : Bracket → Text
  | .opening => ['[']
  | .closing => [']']

/-- A message; `g` says how many more blanks than necessary there are at each place, `payload` and `m.reset` may be
absent. -/
def messageText (g : Nat → Nat) (payload : Option Text) (m : Msg) : Text := List.flatten
  [blanks (g 0), m.message, ['('], payload.getD [], [')'], gap (g 1), ['f', 'r', 'o', 'm'], gap (g 2), m.sender, gap (g 3),
    ['t', 'o'], gap (g 4), m.receiver, gap (g 5), ['w', 'i', 't', 'h', 'i', 'n'], gap (g 6), bracketText m.leftBracket,
    blanks (g 7), m.leftBound, blanks (g 8), [';'], blanks (g 9), m.rightBound, blanks (g 10), bracketText m.rightBracket,
    gap (g 11), ['u', 's', 'i', 'n', 'g'], gap (g 12), m.clock, gap (g 13), ['a', 'n', 'd'], gap (g 14),
    ['r', 'e', 's', 'e', 't', 't', 'i', 'n', 'g'], gap (g 15), ['('], m.reset.getD [], [')'], blanks (g 16), [';'],
    blanks (g 17)]

/-- The fields of the message are words and numbers, and its payload is the one written. -/
structure Wellwritten (C : Classes) (payload : Option Text) (m : Msg) : Prop where
  agrees : m.payload = payload.getD []
  message : IsWord C m.message
  payload : ∀ x, payload = some x → IsWord C x
  sender : IsWord C m.sender
  receiver : IsWord C m.receiver
  leftBound : IsNumber C m.leftBound
  rightBound : IsNumber C m.rightBound
  clock : IsWord C m.clock
  reset : ∀ x, m.reset = some x → IsWord C x

/-- The list of the roles: each after exactly one blank, separated by commas with any number of blanks around. -/
def rolesText : List (Text × Nat × Nat) → Text
  | [] => []
  | [r] => ['r', 'o', 'l', 'e', ' '] ++ r.1 ++ blanks r.2.1
  | r :: s :: rs => ['r', 'o', 'l', 'e', ' '] ++ r.1 ++ blanks r.2.1 ++ [','] ++ blanks r.2.2 ++ rolesText (s :: rs)

/-- The header of a protocol. -/
def headerText (g : Nat → Nat) (name : Text) (rs : List (Text × Nat × Nat)) : Text := List.flatten
  [blanks (g 0), ['t', 'i', 'm', 'e', 'd'], gap (g 1), ['g', 'l', 'o', 'b', 'a', 'l'], gap (g 2),
    ['p', 'r', 'o', 't', 'o', 'c', 'o', 'l'], gap (g 3), name, ['('], rolesText rs, [')'], blanks (g 4), ['{'],
    blanks (g 5)]

/-- The beginning of a loop. -/
def loopText (g : Nat → Nat) (name : Text) : Text := List.flatten
  [blanks (g 0), ['r', 'e', 'c'], gap (g 1), name, blanks (g 2), ['{'], blanks (g 3)]

/-- A choice. -/
def choiceText (g : Nat → Nat) (x : Text) : Text := List.flatten
  [blanks (g 0), ['c', 'h', 'o', 'i', 'c', 'e'], gap (g 1), ['a', 't'], gap (g 2), x, blanks (g 3), ['{'], blanks (g 4)]

/-- The line between two branches. -/
def orText (g : Nat → Nat) : Text := List.flatten
  [blanks (g 0), ['}'], blanks (g 1), ['o', 'r'], blanks (g 2), ['{'], blanks (g 3)]

/-- A jump to the beginning of a loop. -/
def jumpText (g : Nat → Nat) (name : Text) : Text := List.flatten
  [blanks (g 0), ['c', 'o', 'n', 't', 'i', 'n', 'u', 'e'], gap (g 1), name, blanks (g 2), [';'], blanks (g 3)]

/-- A closing bracket. -/
def closeText (g : Nat → Nat) : Text := List.flatten [blanks (g 0), ['}'], blanks (g 1)]

/-- The line `l` may be written as the text `t`. -/
inductive Written (C : Classes) : Line → Text → Prop where
  | header (name rs) (g : Nat → Nat) : IsWord C name → rs ≠ [] → (∀ r ∈ rs, IsWord C r.1) →
    Written C ⟨1, 0, false, .global name (rs.map (·.1))⟩ (headerText g name rs)
  | message (m payload) (g : Nat → Nat) : Wellwritten C payload m →
    Written C ⟨0, 0, false, .message m⟩ (messageText g payload m)
  | loop (name) (g : Nat → Nat) : IsWord C name → Written C ⟨1, 0, false, .loop name⟩ (loopText g name)
  | choice (x) (g : Nat → Nat) : IsWord C x → Written C ⟨1, 0, false, .choice x⟩ (choiceText g x)
  | or (g : Nat → Nat) : Written C ⟨1, 1, false, .or⟩ (orText g)
  | jump (name) (g : Nat → Nat) : IsWord C name → Written C ⟨0, 0, false, .jump name⟩ (jumpText g name)
  | close (g : Nat → Nat) : Written C ⟨0, 1, false, .other⟩ (closeText g)

/-- The text, a list of lines, is a way of writing the protocol. -/
def IsText (C : Classes) (protocol : List Line) (text : List Text) : Prop := List.Forall₂ (Written C) protocol text

end Verif.NuscrTextSpec
