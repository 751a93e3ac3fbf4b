import Verif.Proof.MathsLex
/-!
# C17: the pair enumeration is a bijection

Specification vocabulary (`Verif/Spec/Pairs.lean`): `IsPair n l c` is `1 ≤ l < c ≤ n`, `LexLt` the
lexicographic order, `partner i j` the `j`-th role different from `i`.
-/
namespace Verif.Prop
open Verif.Maths Verif.Spec

/-- The diagonal enumeration lists exactly the pairs of distinct roles, in strictly increasing
lexicographic order (hence each once), numbered `1, 2, .., n(n-1)/2` in that order. -/
theorem C17_diag (n : Nat) (h : 1 ≤ n) :
    (∀ l c, (∃ k, (l, c, k) ∈ diag n) ↔ IsPair n l c) ∧
    ((diag n).map fun t => (t.1, t.2.1)).Pairwise LexLt ∧
    (diag n).map (fun t => t.2.2) = List.range' 1 (n * (n - 1) / 2) := by
  refine ⟨?_, diag_sorted n h, diag_indices n h⟩
  intro l c
  constructor
  · rintro ⟨k, hk⟩; exact ((mem_diag n h _).1 hk).1
  · intro hp; exact ⟨pairRank n l c, (mem_diag n h (l, c, pairRank n l c)).2 ⟨hp, rfl⟩⟩

/-- Row `i` of the matrix has `n-1` entries, and its `j`-th entry is the entry of the diagonal
enumeration for the pair formed by `i` and its `j`-th partner. A lookup outside is a panic. -/
theorem C17_matrix (n i : Nat) (hi : 1 ≤ i) (hin : i ≤ n) :
    (∀ j, 1 ≤ j → j ≤ n - 1 → ∃ l c k, getTupleMatrix (diagAndMatrix n).1 i j = some (l, c, k) ∧
      (l, c, k) ∈ diag n ∧ ((l = i ∧ c = partner i j) ∨ (l = partner i j ∧ c = i))) ∧
    (∀ j, j = 0 ∨ n - 1 < j → getTupleMatrix (diagAndMatrix n).1 i j = none) := by
  constructor
  · intro j h1 h2
    refine ⟨_, _, _, getTupleMatrix_diag n i j hi hin h1 h2, ?_, ?_⟩
    · rw [mem_diag n (by omega)]
      refine ⟨?_, rfl⟩
      unfold IsPair ordPair partner
      (repeat' split) <;> simp only <;> omega
    · unfold ordPair; split <;> simp
  · rintro j (rfl | hj)
    · simp [getTupleMatrix]
    · unfold getTupleMatrix diagAndMatrix
      rw [if_neg (by omega)]
      have hr : (List.range' 1 n)[i - 1]? = some i := by
        rw [List.getElem?_range' (by omega)]; congr 1; omega
      simp only [List.getElem?_map, hr, Option.map]
      rw [List.getElem?_eq_none]
      rw [matrixRow_length n i hi hin]; omega

/-- The inverse lookup by index returns the pair carrying that index, and panics on every other index. -/
theorem C17_line_column (n k : Nat) (h : 1 ≤ n) :
    (∀ l c, getLineColumnFromDiag (diag n) k = some (l, c) ↔ (l, c, k) ∈ diag n) ∧
    (getLineColumnFromDiag (diag n) k = none ↔ ¬ (1 ≤ k ∧ k ≤ n * (n - 1) / 2)) := by
  have hidx := diag_indices n h
  have hnone : ∀ (d : List Triple), getLineColumnFromDiag d k = none ↔ ∀ t ∈ d, t.2.2 ≠ k := by
    intro d
    induction d with
    | nil => simp [getLineColumnFromDiag]
    | cons a as ih =>
      unfold getLineColumnFromDiag
      by_cases e : a.2.2 = k
      · simp [e]
      · simp only [e, if_false]; rw [ih]; simp only [List.mem_cons, forall_eq_or_imp, ne_eq, e, not_false_iff, true_and]
  have hmem : ∀ (d : List Triple) l c, getLineColumnFromDiag d k = some (l, c) → (l, c, k) ∈ d := by
    intro d l c
    induction d with
    | nil => simp [getLineColumnFromDiag]
    | cons a as ih =>
      unfold getLineColumnFromDiag
      by_cases e : a.2.2 = k
      · simp only [e, if_true, Option.some.injEq, Prod.mk.injEq]
        rintro ⟨e1, e2⟩
        have : a = (l, c, k) := by rw [← e, ← e1, ← e2]
        rw [this]; simp
      · simp only [e, if_false]
        intro h; exact List.mem_cons_of_mem _ (ih h)
  refine ⟨fun l c => ⟨hmem _ l c, fun hm => getLineColumn_of_mem _ (l, c, k) hm (diag_index_inj n h)⟩, ?_⟩
  rw [hnone]
  constructor
  · intro hk hr
    have : k ∈ (diag n).map (fun t => t.2.2) := by
      rw [hidx]; simp only [List.mem_range'_1]; omega
    obtain ⟨t, ht, e⟩ := List.mem_map.1 this
    exact hk t ht e
  · intro hk t ht e
    have : k ∈ (diag n).map (fun t => t.2.2) := List.mem_map.2 ⟨t, ht, e⟩
    rw [hidx] at this
    simp only [List.mem_range'_1] at this
    omega

/-- The "offset" variant used by the forks has one additional entry, mentioning the role `n+1` that
does not exist; every lookup the generators make gives the same answer as the plain variant. -/
theorem C17_offset (n : Nat) (h : 1 ≤ n) :
    diagWOffset n = diag n ++ [(n, n + 1, n * (n - 1) / 2 + 1)] ∧
    (∀ i, 1 ≤ i → i ≤ n * (n - 1) / 2 →
      getTupleDiag (diagAndMatrixWOffset n).2 i = getTupleDiag (diagAndMatrix n).2 i) ∧
    (∀ i j, 1 ≤ i → i ≤ n → 1 ≤ j → j ≤ n - 1 →
      getTupleMatrix (diagAndMatrixWOffset n).1 i j = getTupleMatrix (diagAndMatrix n).1 i j) := by
  refine ⟨diagWOffset_eq n h, ?_, fun i j a b c d => getTupleMatrixW_eq n i j a b c d⟩
  intro i h1 h2
  have hl := Verif.Gen.diag_length n h
  rw [Nat.mul_comm] at hl
  unfold getTupleDiag diagAndMatrixWOffset diagAndMatrix
  simp only
  rw [if_neg (by omega), if_neg (by omega), diagWOffset_eq n h, List.getElem?_append_left (by omega)]

/-- Non-vacuity: the enumeration for four roles. -/
example : diag 4 = [(1,2,1),(1,3,2),(1,4,3),(2,3,4),(2,4,5),(3,4,6)] := by decide
example : (diagAndMatrix 4).1[2]? = some [(1,3,2),(2,3,4),(3,4,6)] := by decide
example : IsPair 4 2 3 ∧ partner 3 2 = 2 ∧ partner 3 3 = 4 := by decide

end Verif.Prop
