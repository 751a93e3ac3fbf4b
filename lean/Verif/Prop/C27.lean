import Verif.Model.CheckGraph

/-!
# C27: the search for the bound `k`
-/
namespace Verif.Prop
open Verif.Check

/-- `k` is the least bound, from 1 on, with which the tool succeeds. -/
def LeastSuccess (kmc : Nat → Bool) (k : Nat) : Prop := 1 ≤ k ∧ kmc k = true ∧ ∀ j, 1 ≤ j → j < k → kmc j = false

theorem kmcLoop_spec (kmc : Nat → Bool) : ∀ (n k : Nat), n = 50 - k → k ≤ 50 →
    k ≤ kmcLoop kmc k ∧ kmcLoop kmc k ≤ 50 ∧ (∀ j, k ≤ j → j < kmcLoop kmc k → kmc j = false) ∧
    (kmcLoop kmc k < 50 → kmc (kmcLoop kmc k) = true) := by
  intro n
  induction n with
  | zero =>
    intro k hn hk
    have : k = 50 := by omega
    subst this
    unfold kmcLoop
    rw [if_neg (by omega)]
    exact ⟨by omega, by omega, fun j h1 h2 => by omega, fun h => by omega⟩
  | succ n ih =>
    intro k hn hk
    unfold kmcLoop
    split
    · rename_i h
      obtain ⟨h1, h2, h3, h4⟩ := ih (k + 1) (by omega) (by omega)
      refine ⟨by omega, h2, ?_, h4⟩
      intro j hj hlt
      by_cases he : j = k
      · subst he; exact h.1
      · exact h3 j (by omega) hlt
    · rename_i h
      refine ⟨by omega, hk, fun j h1 h2 => by omega, ?_⟩
      intro hlt
      cases hb : kmc k with
      | true => rfl
      | false => exact absurd ⟨hb, hlt⟩ h

/-- C27, full for bounds below the limit.  The checker reports `Some(k)` exactly for the least bound with which the
external tool succeeds, if there is one below 50.  (The bound 50 itself is the missing case, `C27_limit`.) -/
theorem C27_least_partial (kmc : Nat → Bool) (k : Nat) :
    kmcSearch kmc = some k ↔ LeastSuccess kmc k ∧ k < 50 := by
  obtain ⟨h1, h2, h3, h4⟩ := kmcLoop_spec kmc 49 1 rfl (by omega)
  unfold kmcSearch LeastSuccess
  simp only
  constructor
  · intro h
    split at h
    · cases h
    · have := Option.some.inj h
      subst this
      exact ⟨⟨h1, h4 (by omega), h3⟩, by omega⟩
  · rintro ⟨⟨k1, k2, k3⟩, k4⟩
    have : kmcLoop kmc 1 = k := by
      rcases Nat.lt_trichotomy (kmcLoop kmc 1) k with h | h | h
      · have a := k3 _ h1 h
        rw [h4 (by omega)] at a
        cases a
      · exact h
      · have a := h3 k k1 h
        rw [k2] at a
        cases a
    rw [this, if_neg (by omega)]

/-- C27, full for bounds below the limit.  `None` is reported exactly when the tool succeeds with no bound
below 50. -/
theorem C27_none_partial (kmc : Nat → Bool) :
    kmcSearch kmc = none ↔ ∀ j, 1 ≤ j → j < 50 → kmc j = false := by
  obtain ⟨h1, h2, h3, h4⟩ := kmcLoop_spec kmc 49 1 rfl (by omega)
  unfold kmcSearch
  simp only
  constructor
  · intro h
    split at h
    · rename_i he
      rw [he] at h3
      exact h3
    · cases h
  · intro h
    by_cases he : kmcLoop kmc 1 = 50
    · rw [if_pos he]
    · exfalso
      have a := h _ h1 (by omega)
      rw [h4 (by omega)] at a
      cases a

/-- The property fails at the limit: a protocol that is 50-MC but not k-MC for any smaller bound is reported
as `None`, although the tool was run with 50 and succeeded. -/
theorem C27_limit : LeastSuccess (fun k => k == 50) 50 ∧ kmcSearch (fun k => k == 50) = none := by
  refine ⟨⟨by omega, rfl, fun j _ h => ?_⟩, ?_⟩
  · simp; omega
  · rw [C27_none_partial]
    intro j _ h
    simp; omega

/-- A tool that succeeds from 3 on. -/
example : kmcSearch (fun k => decide (3 ≤ k)) = some 3 := by
  rw [C27_least_partial]
  refine ⟨⟨by omega, rfl, fun j _ h => ?_⟩, by omega⟩
  simp; omega

end Verif.Prop
