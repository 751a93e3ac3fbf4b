import Verif.Spec.TypeText

/-!
# Types as Rust names them

`std::any::type_name` gives the path of every type and puts a comma and a blank between arguments.
-/
namespace Verif.Spec
open Verif.Check

/-- A type with the path of its name. -/
inductive PTy where
  | mk (path : List Str) (name : Str) (args : List PTy)

/-- `a::b::Name`. -/
def token : List Str → Str → Str
  | [], n => n
  | s :: p, n => s ++ [':', ':'] ++ token p n

mutual
  /-- `a::b::Head<A1, .., An>`. -/
  def PTy.print : PTy → Str
    | .mk p n [] => token p n
    | .mk p n (a :: as) => token p n ++ '<' :: (a.print ++ printRest as) ++ ['>']
  /-- `, A2, .., An`. -/
  def printRest : List PTy → Str
    | [] => []
    | a :: as => [',', ' '] ++ a.print ++ printRest as
end

mutual
  /-- The type without the paths. -/
  def PTy.erase : PTy → Ty
    | .mk _ n as => .mk n (eraseAll as)
  def eraseAll : List PTy → List Ty
    | [] => []
    | a :: as => a.erase :: eraseAll as
end

mutual
  /-- All paths and names in a type. -/
  def PTy.nodes : PTy → List (List Str × Str)
    | .mk p n as => (p, n) :: nodesAll as
  def nodesAll : List PTy → List (List Str × Str)
    | [] => []
    | a :: as => a.nodes ++ nodesAll as
end

/-- An identifier: not empty, no brackets, commas, blanks, ampersands, colons. -/
def Ident (s : Str) : Prop := s ≠ [] ∧ ∀ ch ∈ s, Plain ch ∧ ch ≠ ':'

/-- Names and paths are made of identifiers, and a path with its name occurs in another one at most at its beginning, as in
`a::Req` and `a::Request`, with no further `::` after it. -/
structure WellNamed (nodes : List (List Str × Str)) : Prop where
  ident : ∀ x ∈ nodes, Ident x.2 ∧ ∀ s ∈ x.1, Ident s
  apart : ∀ x ∈ nodes, ∀ y ∈ nodes, x.1 ≠ [] → token x.1 x.2 <:+: token y.1 y.2 →
    ∃ u, token y.1 y.2 = token x.1 x.2 ++ u ∧ ':' ∉ u

/-- `X` is made of letters. -/
def Letters (x : Str) : Prop := x ≠ [] ∧ ∀ ch ∈ x, (65 ≤ ch.toNat ∧ ch.toNat ≤ 90) ∨ (97 ≤ ch.toNat ∧ ch.toNat ≤ 122)

/-- The letters `Name` do not occur in a text. -/
def NoName (s : Str) : Prop := ¬ ['N', 'a', 'm', 'e'] <:+: s

/-- `q` is the type `MeshedChannels<fields, NameX>` with some paths. -/
structure MeshType (q : PTy) (fields : List Ty) (x : Str) : Prop where
  shape : ∃ path head args npath, q = .mk path head (args ++ [.mk npath (['N', 'a', 'm', 'e'] ++ x) []]) ∧
    eraseAll args = fields ∧ (∀ y ∈ nodesAll args, NoName y.2) ∧ NoName (token path head)
  letters : Letters x
  named : WellNamed q.nodes

end Verif.Spec
