import Verif.Spec.NuscrText

/-!
# Specification: protocols without times

The ways of writing the lines of a protocol for a tool that knows no times: the header without the word `timed`, messages
without interval, clock and reset, the other lines as they are.
-/
namespace Verif.NuscrTextSpec
open Verif.Nuscr Verif.NuscrText

/-- A message without its times, behind `n` blanks. -/
def plainMessage (n : Nat) (message payload sender receiver : Text) : Text := List.flatten
  [blanks n, message, ['('], payload, [')', ' '], ['f', 'r', 'o', 'm', ' '], sender, [' '], ['t', 'o', ' '], receiver, [';']]

/-- The header without its first word. -/
def plainHeader (g : Nat → Nat) (name : Text) (rs : List (Text × Nat × Nat)) : Text := List.flatten
  [blanks (g 0), blanks (g 1), ['g', 'l', 'o', 'b', 'a', 'l'], gap (g 2), ['p', 'r', 'o', 't', 'o', 'c', 'o', 'l'], gap (g 3),
    name, ['('], rolesText rs, [')'], blanks (g 4), ['{'], blanks (g 5)]

/-- No blank follows a role whose name ends in `timed`. -/
def Clear (rs : List (Text × Nat × Nat)) : Prop := ∀ r ∈ rs, ['t', 'i', 'm', 'e', 'd'] <:+ r.1 → r.2.1 = 0

/-- `t` is a way of writing the line `l`, with times, and `t'` the same without. -/
inductive Plain (C : Classes) : Line → Text → Text → Prop where
  | header (name rs) (g : Nat → Nat) : IsWord C name → rs ≠ [] → (∀ r ∈ rs, IsWord C r.1) →
    Plain C ⟨1, 0, false, .global name (rs.map (·.1))⟩ (headerText g name rs) (plainHeader g name rs)
  | message (m payload) (g : Nat → Nat) : Wellwritten C payload m →
    Plain C ⟨0, 0, false, .message m⟩ (messageText g payload m) (plainMessage (g 0) m.message m.payload m.sender m.receiver)
  | same (l t) : Written C l t → (∀ name roles, l.kind ≠ .global name roles) → (∀ m, l.kind ≠ .message m) → Plain C l t t

/-- The header, if the line is one, is clear. -/
def ClearLine (t : Text) : Prop := ∀ g name rs, t = headerText g name rs → Clear rs

end Verif.NuscrTextSpec
