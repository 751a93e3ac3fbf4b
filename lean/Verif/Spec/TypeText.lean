import Verif.Model.CheckText

/-!
# Printed types

Generic types as terms, and how Rust prints them (up to white space and references, see `Prints`).
-/
namespace Verif.Spec
open Verif.Check

/-- A type: a head applied to arguments. -/
inductive Ty where
  | mk (head : Str) (args : List Ty)

/-- A character that may occur in the name of a type. -/
def Plain (c : Char) : Prop := c ≠ '<' ∧ c ≠ '>' ∧ c ≠ ',' ∧ c ≠ '&' ∧ isWs c = false

mutual
  /-- `Head` or `Head<A1,..,An>`. -/
  def Ty.print : Ty → Str
    | .mk h [] => h
    | .mk h (a :: as) => h ++ '<' :: (a.print ++ printMore as) ++ ['>']
  /-- `,A2,..,An`. -/
  def printMore : List Ty → Str
    | [] => []
    | a :: as => ',' :: (a.print ++ printMore as)
end

mutual
  /-- All the names in the type are plain. -/
  def Ty.Ok : Ty → Prop
    | .mk h as => (∀ c ∈ h, Plain c) ∧ AllOk as
  def AllOk : List Ty → Prop
    | [] => True
    | a :: as => a.Ok ∧ AllOk as
end

/-- The text `s` is a printed form of `t`: it may contain additional white space and `&`. -/
def Prints (s : Str) (t : Ty) : Prop := s.filter (fun c => !(c == '&' || isWs c)) = t.print

/-- Binary session types over arbitrary payload types. -/
inductive Sess where
  | send (p : Ty) (k : Sess)
  | recv (p : Ty) (k : Sess)
  | fin

def Sess.dual : Sess → Sess
  | .send p k => .recv p k.dual
  | .recv p k => .send p k.dual
  | .fin => .fin

/-- `Send<P,K>`, `Recv<P,K>`, `End`. -/
def Sess.ty : Sess → Ty
  | .send p k => .mk ['S', 'e', 'n', 'd'] [p, k.ty]
  | .recv p k => .mk ['R', 'e', 'c', 'v'] [p, k.ty]
  | .fin => .mk ['E', 'n', 'd'] []

/-- All payload names are plain. -/
def Sess.Ok : Sess → Prop
  | .send p k => p.Ok ∧ k.Ok
  | .recv p k => p.Ok ∧ k.Ok
  | .fin => True

end Verif.Spec
