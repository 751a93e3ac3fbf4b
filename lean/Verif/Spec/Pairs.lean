/-!
# Specification: pairs of roles

Roles are `1..n`.  An unordered pair of distinct roles is written `(l, c)` with `l < c`.
-/
namespace Verif.Spec

/-- `(l, c)` is a pair of distinct roles among `1..n`, smaller first. -/
def IsPair (n l c : Nat) : Prop := 1 ≤ l ∧ l < c ∧ c ≤ n

instance (n l c : Nat) : Decidable (IsPair n l c) := by unfold IsPair; infer_instance

/-- Strict lexicographic order on pairs. -/
def LexLt (p q : Nat × Nat) : Prop := p.1 < q.1 ∨ (p.1 = q.1 ∧ p.2 < q.2)

/-- The `j`-th partner (`1 ≤ j ≤ n-1`) of role `i`: the roles other than `i` in ascending order. -/
def partner (i j : Nat) : Nat := if j < i then j else j + 1

/-- Position of role `other` among the roles different from `self`, in ascending order. -/
def slotOf (self other : Nat) : Nat := if other < self then other else other - 1

/-- Rank (from 1) of the pair `(l, c)` in the lexicographic order of the pairs over `1..n`:
`n-1` pairs start with `1`, `n-2` with `2`, ... -/
def rowStart (n : Nat) : Nat → Nat
  | 0 => 0
  | l + 1 => rowStart n l + (n - (l + 1))

/-- See `rowStart`. -/
def pairRank (n l c : Nat) : Nat := rowStart n (l - 1) + (c - l)

end Verif.Spec
