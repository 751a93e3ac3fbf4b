import Verif.Proof.GenWire
/-! The enumeration of pairs is lexicographically sorted. -/
namespace Verif.Maths
open Verif.Spec

theorem rowStart_mono (n : Nat) {a b : Nat} (h : a ≤ b) : rowStart n a ≤ rowStart n b := by
  induction h with
  | refl => exact Nat.le_refl _
  | step _ ih => rw [rowStart_mono_step]; omega

theorem pairRank_lex {n l c l' c' : Nat} (h : IsPair n l c) (h' : IsPair n l' c')
    (hl : LexLt (l, c) (l', c')) : pairRank n l c < pairRank n l' c' := by
  unfold IsPair at *
  unfold pairRank
  rcases hl with hl | ⟨e, hl⟩
  · simp only at hl
    have h1 := rowStart_mono n (show l ≤ l' - 1 by omega)
    have h2 : rowStart n l = rowStart n (l - 1) + (n - l) := by
      obtain ⟨m, rfl⟩ : ∃ m, l = m + 1 := ⟨l - 1, by omega⟩
      rw [rowStart_mono_step]; simp
    omega
  · simp only at e hl
    subst e; omega

theorem diag_sorted (n : Nat) (h : 1 ≤ n) :
    ((diag n).map fun t => (t.1, t.2.1)).Pairwise LexLt := by
  rw [List.pairwise_map, List.pairwise_iff_getElem]
  intro i j hi hj hij
  have h1 := diag_index n h i _ (List.getElem?_eq_getElem hi)
  have h2 := diag_index n h j _ (List.getElem?_eq_getElem hj)
  have m1 := (mem_diag n h _).1 (List.getElem_mem hi)
  have m2 := (mem_diag n h _).1 (List.getElem_mem hj)
  generalize (diag n)[i] = a at *
  generalize (diag n)[j] = b at *
  apply Classical.byContradiction
  intro hn
  unfold LexLt at hn
  simp only at hn
  have : LexLt (b.1, b.2.1) (a.1, a.2.1) ∨ (a.1 = b.1 ∧ a.2.1 = b.2.1) := by
    unfold LexLt; simp only; omega
  rcases this with hl | ⟨e1, e2⟩
  · have := pairRank_lex m2.1 m1.1 hl; omega
  · rw [e1, e2] at m1; omega

theorem diag_indices (n : Nat) (h : 1 ≤ n) :
    (diag n).map (fun t => t.2.2) = List.range' 1 (n * (n - 1) / 2) := by
  have hl := Verif.Gen.diag_length n h
  rw [Nat.mul_comm] at hl
  apply List.ext_getElem
  · simp [hl]
  · intro i h1 h2
    have h1' : i < (diag n).length := by simpa using h1
    have := diag_index n h i _ (List.getElem?_eq_getElem h1')
    simp only [List.getElem_map, List.getElem_range', this]
    omega

end Verif.Maths
