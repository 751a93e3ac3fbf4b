/-!
# Runs, continued by a scheduler
-/
namespace Verif.Continue

variable {S L : Type} {start : S → Prop} {step : S → L → S → Prop}

/-- Schedules of any kind of steps. -/
structure Sched (start : S → Prop) (step : S → L → S → Prop) (σ : Nat → S) (lab : Nat → Option L) : Prop where
  start : start (σ 0)
  step : ∀ k, (∃ l, lab k = some l ∧ step (σ k) l (σ (k + 1))) ∨ (lab k = none ∧ σ (k + 1) = σ k)

/-- Runs of any kind of steps. -/
inductive Run (start : S → Prop) (step : S → L → S → Prop) : List L → S → Prop
  | start {s} : start s → Run start step [] s
  | snoc {ls s l s'} : Run start step ls s → step s l s' → Run start step (ls ++ [l]) s'

/-- A run, as a schedule that ends in doing nothing. -/
theorem run_schedule {ls : List L} {s : S} (h : Run start step ls s) :
    ∃ σ lab, Sched start step σ lab ∧ (∀ k l, ls[k]? = some l → lab k = some l) ∧ ∀ k, ls.length ≤ k → σ k = s ∧ lab k = none := by
  induction h with
  | @start s hs => exact ⟨fun _ => s, fun _ => none, ⟨hs, fun k => .inr ⟨rfl, rfl⟩⟩, by simp, fun _ _ => ⟨rfl, rfl⟩⟩
  | @snoc ls s1 l s2 _ hl ih =>
    obtain ⟨σ, lab, hS, hlab, h⟩ := ih
    refine ⟨fun k => if k ≤ ls.length then σ k else s2, fun k => if k = ls.length then some l else lab k, ⟨?_, ?_⟩, ?_, ?_⟩
    · simpa using hS.start
    · intro k
      rcases Nat.lt_trichotomy k ls.length with hk | hk | hk
      · have a1 : k ≤ ls.length := by omega
        have a2 : k + 1 ≤ ls.length := by omega
        have a3 : k ≠ ls.length := by omega
        simp only [a1, a2, a3, if_true, if_false]
        exact hS.step k
      · subst hk
        left
        refine ⟨l, by simp, ?_⟩
        simp only [Nat.le_refl, if_true]
        rw [if_neg (by omega), (h _ (Nat.le_refl _)).1]
        exact hl
      · right
        have a1 : ¬ k ≤ ls.length := by omega
        have a2 : ¬ k + 1 ≤ ls.length := by omega
        have a3 : k ≠ ls.length := by omega
        simp only [a1, a2, a3, if_false]
        exact ⟨(h k (by omega)).2, trivial⟩
    · intro k l' hk
      by_cases e : k = ls.length
      · subst e; simp at hk; simp [hk]
      · simp only [e, if_false]
        apply hlab
        have : k < (ls ++ [l]).length := (List.getElem?_eq_some_iff.1 hk).1
        simp only [List.length_append, List.length_cons, List.length_nil] at this
        rwa [List.getElem?_append_left (by omega)] at hk
    · intro k hk
      simp only [List.length_append, List.length_cons, List.length_nil] at hk
      have a1 : ¬ k ≤ ls.length := by omega
      have a3 : k ≠ ls.length := by omega
      simp only [a1, a3, if_false]
      exact ⟨trivial, (h k (by omega)).2⟩

/-- A run, continued as a scheduler `f` decides. -/
theorem run_continue {ls : List L} {s : S} (h : Run start step ls s) (f : Nat → S → Option L × S)
    (hf : ∀ a s, (∃ l, (f a s).1 = some l ∧ step s l (f a s).2) ∨ ((f a s).1 = none ∧ (f a s).2 = s)) :
    ∃ σ lab, Sched start step σ lab ∧ σ ls.length = s ∧ (∀ k l, ls[k]? = some l → lab k = some l) ∧
      ∀ a, lab (ls.length + a) = (f a (σ (ls.length + a))).1 ∧ σ (ls.length + a + 1) = (f a (σ (ls.length + a))).2 := by
  obtain ⟨σ0, lab0, hS0, hl0, he0⟩ := run_schedule h
  let τ : Nat → S := fun a => Nat.rec s (fun a s => (f a s).2) a
  have τs : ∀ a, τ (a + 1) = (f a (τ a)).2 := fun _ => rfl
  let L' := ls.length
  let σ : Nat → S := fun k => if k < L' then σ0 k else τ (k - L')
  let lab : Nat → Option L := fun k => if k < L' then lab0 k else (f (k - L') (τ (k - L'))).1
  have σL : ∀ a, σ (L' + a) = τ a := fun a => by
    simp [σ]; omega
  have labL : ∀ a, lab (L' + a) = (f a (τ a)).1 := fun a => by
    simp [lab]; omega
  have hτ0 : τ 0 = s := rfl
  have hSch : Sched start step σ lab := by
    refine ⟨?_, ?_⟩
    · by_cases hL : 0 < L'
      · simp only [σ, hL, if_true]; exact hS0.start
      · have e : L' = 0 := by omega
        have h0 := (he0 0 (by omega)).1
        have : σ 0 = σ0 0 := by rw [h0, ← hτ0, ← σL 0, e]
        rw [this]; exact hS0.start
    · intro k
      by_cases hk : k < L'
      · have e1 : σ k = σ0 k := by simp only [σ, hk, if_true]
        have e2 : lab k = lab0 k := by simp only [lab, hk, if_true]
        have e3 : σ (k + 1) = σ0 (k + 1) := by
          by_cases hk1 : k + 1 < L'
          · simp only [σ, hk1, if_true]
          · have e : k + 1 = L' + 0 := by omega
            rw [e, σL, hτ0]
            exact ((he0 L' (Nat.le_refl _)).1).symm
        rw [e1, e2, e3]; exact hS0.step k
      · obtain ⟨a, rfl⟩ : ∃ a, k = L' + a := ⟨k - L', by omega⟩
        rw [σL, labL, Nat.add_assoc, σL, τs]
        exact hf a (τ a)
  refine ⟨σ, lab, hSch, σL 0, ?_, fun a => ⟨?_, ?_⟩⟩
  · intro k l hk
    have : k < L' := (List.getElem?_eq_some_iff.1 hk).1
    simp only [lab, this, if_true]
    exact hl0 k l hk
  · rw [show ls.length = L' from rfl, labL, σL]
  · rw [show ls.length = L' from rfl, Nat.add_assoc, σL, σL, τs]

end Verif.Continue
