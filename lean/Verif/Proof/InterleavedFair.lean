import Verif.Proof.Continue
import Verif.Proof.InterleavedFailure
/-!
# Every run of interleaved protocols can be continued fairly
-/
namespace Verif.Interleaved
open Verif.Mesh (Sys Name Global project upd Part)
open Verif.Runtime

theorem irun_run {P : Prog} {ls s} (h : IRun P ls s) : Continue.Run (IStart P) (IStep P) ls s := by
  induction h with
  | start hs => exact .start hs
  | snoc _ hs ih => exact .snoc ih hs

theorem firun_run {P : Prog} {ls s} (h : FIRun P ls s) : Continue.Run (FIStart P) (FIStep P) ls s := by
  induction h with
  | start hs => exact .start hs
  | snoc _ hs ih => exact .snoc ih hs

/-- Without failures. -/
theorem ifair_exists {P : Prog} {ls : List (Nat × RLabel)} {s : IS} (h : IRun P ls s) :
    ∃ σ lab, ISchedule P σ lab ∧ IFair P σ lab ∧ σ ls.length = s ∧ ∀ k l, ls[k]? = some l → lab k = some l := by
  classical
  have next : ∀ (a : Nat) (s : IS), ∃ x : Option (Nat × RLabel) × IS,
      ((∃ l, x.1 = some l ∧ IStep P s l x.2) ∨ (x.1 = none ∧ x.2 = s)) ∧
      (∀ t, Runtime.turn a = .inl t → Goes P s t → ∃ j l r, x.1 = some (j, l) ∧ l.actor = some r ∧ P.thread j r = t) := by
    intro a s
    by_cases hg : ∃ t, Runtime.turn a = .inl t ∧ Goes P s t
    · obtain ⟨t, ht, j, l, r, s', h1, h2, h3⟩ := hg
      exact ⟨(some (j, l), s'), .inl ⟨_, rfl, h3⟩, fun t' e _ => by rw [ht] at e; cases e; exact ⟨j, l, r, rfl, h1, h2⟩⟩
    · exact ⟨(none, s), .inr ⟨rfl, rfl⟩, fun t e hx => absurd ⟨t, e, hx⟩ hg⟩
  choose f hf using next
  obtain ⟨σ, lab, hS, h1, h2, h3⟩ := Continue.run_continue (irun_run h) f fun a s => (hf a s).1
  refine ⟨σ, lab, ⟨hS.start, hS.step⟩, fun t k hg => ?_, h1, h2⟩
  obtain ⟨a, ha, ht⟩ := turn_again (.inl t) k
  obtain ⟨j, l, r, e1, e2, e3⟩ := (hf a (σ (ls.length + a))).2 t ht (hg _ (by omega))
  exact ⟨ls.length + a, by omega, j, l, r, by rw [(h3 a).1]; exact e1, e2, e3⟩

section
variable {count : Nat} {n : Nat → Nat} {D : Nat → Global} {root : Nat → Name} {thread : Nat → Nat → Nat}

/-- With failures: nobody drops anything of itself from then on. -/
theorem fifair_exists (w : ∀ j, j < count → Global.Wf (n j) (D j)) {ls : List (Nat × FLabel)} {s : FIS}
    (h : FIRun (together count n D root thread) ls s) :
    ∃ σ lab, FISchedule (together count n D root thread) σ lab ∧ FIFair (together count n D root thread) σ lab ∧
      σ ls.length = s ∧ (∀ k l, ls[k]? = some l → lab k = some l) ∧
      ∀ k, ls.length ≤ k → ∀ j x, lab k ≠ some (j, .crash x) := by
  classical
  let P := together count n D root thread
  -- whose turn it is: that of thread or drop `turn b`, and of protocol `j`
  have next : ∀ (a : Nat) (s : FIS), ∃ x : Option (Nat × FLabel) × FIS,
      ((∃ l, x.1 = some l ∧ FIStep P s l x.2 ∧ ∀ j y, l ≠ (j, .crash y)) ∨ (x.1 = none ∧ x.2 = s)) ∧
      (∀ t, Runtime.turn a.unpair.2 = .inl t → FGoes P s t → ∃ j l r, x.1 = some (j, l) ∧ l.actor = some r ∧ P.thread j r = t) ∧
      (∀ t, Runtime.turn a.unpair.2 = .inr t → a.unpair.1.unpair.2 < count → Heap.Inv (env (P.sys a.unpair.1.unpair.2)) (s.sess a.unpair.1.unpair.2).heap →
        t ∉ (x.2.sess a.unpair.1.unpair.2).heap.garb) := by
    intro a s
    cases ht : Runtime.turn a.unpair.2 with
    | inl t =>
      by_cases hg : FGoes P s t
      · obtain ⟨j, l, r, s', h1, h2, h3, h4⟩ := hg
        exact ⟨(some (j, l), s'), .inl ⟨_, rfl, h4, fun j' y e => by cases e; exact h2 _ rfl⟩,
          fun t' e _ => by cases e; exact ⟨j, l, r, rfl, h1, h3⟩, by simp⟩
      · exact ⟨(none, s), .inr ⟨rfl, rfl⟩, fun t' e hx => by cases e; exact absurd hx hg, by simp⟩
    | inr t =>
      generalize a.unpair.1.unpair.2 = j
      by_cases hg : j < count ∧ Heap.Inv (env (P.sys j)) (s.sess j).heap ∧ t ∈ (s.sess j).heap.garb
      · obtain ⟨i, st', o, h1, h2⟩ := gc_removes hg.2.1 hg.2.2
        have hstep : FStep (P.sys j) (s.sess j) (.step .gc) ⟨st', (s.sess j).pos, (s.sess j).dead⟩ :=
          .step (.gc h1) (by simp [RLabel.actor])
        refine ⟨(some (j, .step .gc), ⟨upd s.sess j ⟨st', (s.sess j).pos, (s.sess j).dead⟩, s.turn⟩),
          .inl ⟨_, rfl, .gc hg.1 hstep, by simp⟩, by simp, fun t' e _ _ => ?_⟩
        cases e
        simpa [upd] using h2
      · exact ⟨(none, s), .inr ⟨rfl, rfl⟩, by simp, fun t' e h1 h2 => by cases e; exact fun hm => hg ⟨h1, h2, hm⟩⟩
  choose f hf using next
  obtain ⟨σ, lab, hS, h1, h2, h3⟩ := Continue.run_continue (firun_run h) f fun a s => by
    rcases (hf a s).1 with ⟨l, h1, h2, -⟩ | h1
    · exact .inl ⟨l, h1, h2⟩
    · exact .inr h1
  have hSch : FISchedule P σ lab := ⟨hS.start, hS.step⟩
  refine ⟨σ, lab, hSch, ⟨fun t k hg => ?_, fun j k t hj _ => ?_⟩, h1, h2, ?_⟩
  · obtain ⟨b, hb, ht⟩ := turn_again (.inl t) k
    have hb' : b ≤ Nat.pair 0 b := Nat.right_le_pair _ _
    obtain ⟨j, l, r, e1, e2, e3⟩ := (hf (Nat.pair 0 b) (σ (ls.length + Nat.pair 0 b))).2.1 t (by simpa using ht) (hg _ (by omega))
    exact ⟨ls.length + Nat.pair 0 b, by omega, j, l, r, by rw [(h3 _).1]; exact e1, e2, e3⟩
  · obtain ⟨b, hb, ht⟩ := turn_again (.inr t) k
    let a := Nat.pair (Nat.pair 0 j) b
    have ea1 : a.unpair.1.unpair.2 = j := by simp [a]
    have ea2 : a.unpair.2 = b := by simp [a]
    have hb' : b ≤ a := Nat.right_le_pair _ _
    refine ⟨ls.length + a + 1, by omega, ?_⟩
    rw [(h3 a).2]
    have := (hf a (σ (ls.length + a))).2.2 t (by rw [ea2]; exact ht)
    rw [ea1] at this
    refine this hj ?_
    obtain ⟨ls', hrun⟩ := fsched_run (fschedule_part hSch (j := j) hj) (ls.length + a)
    obtain ⟨_, _, _, -, R⟩ := frun_sim (w j hj) hrun
    exact Heap.reach_inv R.reach
  · intro k hk j x
    obtain ⟨a, rfl⟩ : ∃ a, k = ls.length + a := ⟨k - ls.length, by omega⟩
    rw [(h3 a).1]
    rcases (hf a (σ (ls.length + a))).1 with ⟨l, e1, -, e2⟩ | ⟨e1, -⟩
    · rw [e1]; intro e; cases e; exact e2 j x rfl
    · rw [e1]; simp

end

end Verif.Interleaved
