import Verif.Proof.FailureWait
import Mathlib.Data.Nat.Pairing
/-!
# Every run can be continued fairly
-/
namespace Verif.Runtime
open Verif.Mesh (Sys Name Part Global project)
open Verif.Heap hiding upd

/-- Whose turn it is at moment `a`: the turn of a role, or a resource to be dropped if its drop is pending. -/
def turn (a : Nat) : Nat ⊕ Tok :=
  match a.unpair.2.unpair with
  | (0, b) => .inl b
  | (1, b) => .inr (.tx b)
  | (2, b) => .inr (.rx b)
  | (3, b) => .inr (.idn b true)
  | (_, b) => .inr (.idn b false)

theorem turn_again (x : Nat ⊕ Tok) (k : Nat) : ∃ a, k ≤ a ∧ turn a = x := by
  obtain ⟨i, hi⟩ : ∃ i, ∀ b, turn (Nat.pair b i) = x := by
    cases x with
    | inl b => exact ⟨Nat.pair 0 b, fun _ => by simp [turn]⟩
    | inr t =>
      cases t with
      | tx b => exact ⟨Nat.pair 1 b, fun _ => by simp [turn]⟩
      | rx b => exact ⟨Nat.pair 2 b, fun _ => by simp [turn]⟩
      | idn b c =>
        cases c with
        | true => exact ⟨Nat.pair 3 b, fun _ => by simp [turn]⟩
        | false => exact ⟨Nat.pair 4 b, fun _ => by simp [turn]⟩
  exact ⟨Nat.pair k i, Nat.left_le_pair _ _, hi k⟩

theorem gc_removes {P : Type} [DecidableEq P] {E : Env P} {st : Heap.St P} (inv : Heap.Inv E st) {t : Tok} (ht : t ∈ st.garb) :
    ∃ i st' o, Heap.step E st (.gc i) = some (st', o) ∧ t ∉ st'.garb := by
  obtain ⟨i, hi, e⟩ := List.getElem_of_mem ht
  have hi' : st.garb[i]? = some t := by rw [List.getElem?_eq_getElem hi, e]
  obtain ⟨st', o, hs⟩ : ∃ st' o, Heap.step E st (.gc i) = some (st', o) := by
    simp only [Heap.step, hi']; exact ⟨_, _, rfl⟩
  refine ⟨i, st', o, hs, fun hm => ?_⟩
  have inv' := Heap.inv_step inv hs
  have hc := garb_cnt hm
  simp only [Heap.step, hi'] at hs
  cases t with
  | tx c =>
    cases hs
    rw [inv'.ctx] at hc
    simp [gcTok, Heap.upd] at hc
  | rx c =>
    cases hs
    rw [inv'.crx] at hc
    simp [gcTok, Heap.upd] at hc
  | idn a b =>
    cases hs
    have h1 := inv.cid a b
    have h2 : st.garb.count (.idn a b) ≤ 1 := by unfold Heap.cnt at h1; omega
    have h3 : Tok.idn a b ∈ st.garb.eraseIdx i := hm
    have hp : st.garb.Perm (st.garb[i] :: st.garb.eraseIdx i) := (List.getElem_cons_eraseIdx_perm hi).symm
    rw [hp.count_eq, e, List.count_cons_self] at h2
    have : 0 < (st.garb.eraseIdx i).count (.idn a b) := List.count_pos_iff.2 h3
    omega

/-- A run, as a schedule that ends in doing nothing. -/
theorem frun_schedule {Y : Sys} {root : Name} {ls : List FLabel} {s : FS} (h : FRun Y root ls s) :
    ∃ σ lab, FSchedule Y root σ lab ∧ (∀ k l, ls[k]? = some l → lab k = some l) ∧ ∀ k, ls.length ≤ k → σ k = s ∧ lab k = none := by
  induction h with
  | @start s hs => exact ⟨fun _ => ⟨s.heap, s.pos, nobody⟩, fun _ => none, ⟨⟨hs, rfl⟩, fun k => .inr ⟨rfl, rfl⟩⟩, by simp, fun _ _ => ⟨rfl, rfl⟩⟩
  | @snoc ls s1 l s2 _ hl ih =>
    obtain ⟨σ, lab, hS, hlab, h⟩ := ih
    refine ⟨fun k => if k ≤ ls.length then σ k else s2, fun k => if k = ls.length then some l else lab k, ⟨?_, ?_⟩, ?_, ?_⟩
    · simpa using hS.start
    · intro k
      rcases Nat.lt_trichotomy k ls.length with hk | hk | hk
      · have a1 : k ≤ ls.length := by omega
        have a2 : k + 1 ≤ ls.length := by omega
        have a3 : k ≠ ls.length := by omega
        simp only [a1, a2, a3, if_true, if_false]
        exact hS.step k
      · subst hk
        left
        refine ⟨l, by simp, ?_⟩
        simp only [Nat.le_refl, if_true]
        rw [if_neg (by omega), (h _ (Nat.le_refl _)).1]
        exact hl
      · right
        have a1 : ¬ k ≤ ls.length := by omega
        have a2 : ¬ k + 1 ≤ ls.length := by omega
        have a3 : k ≠ ls.length := by omega
        simp only [a1, a2, a3, if_false]
        exact ⟨(h k (by omega)).2, trivial⟩
    · intro k l' hk
      by_cases e : k = ls.length
      · subst e; simp at hk; simp [hk]
      · simp only [e, if_false]
        apply hlab
        have : k < (ls ++ [l]).length := (List.getElem?_eq_some_iff.1 hk).1
        simp only [List.length_append, List.length_cons, List.length_nil] at this
        rwa [List.getElem?_append_left (by omega)] at hk
    · intro k hk
      simp only [List.length_append, List.length_cons, List.length_nil] at hk
      have a1 : ¬ k ≤ ls.length := by omega
      have a3 : k ≠ ls.length := by omega
      simp only [a1, a3, if_false]
      exact ⟨trivial, (h k (by omega)).2⟩

/-- Every run can be continued by a fair schedule in which nobody fails of itself. -/
theorem ffair_exists {n : Nat} {D : Global} (w : Global.Wf n D) {root : Name} {ls : List FLabel} {s : FS}
    (h : FRun (project n D) root ls s) : ∃ σ lab, FSchedule (project n D) root σ lab ∧ FFair (project n D) σ lab ∧
      σ ls.length = s ∧ (∀ k l, ls[k]? = some l → lab k = some l) ∧ ∀ k, ls.length ≤ k → ∀ x, lab k ≠ some (.crash x) := by
  classical
  obtain ⟨σ0, lab0, hS0, hl0, he0⟩ := frun_schedule h
  have next : ∀ (a : Nat) (s : FS), ∃ x : Option FLabel × FS,
      ((∃ l, x.1 = some l ∧ FStep (project n D) s l x.2 ∧ ∀ y, l ≠ .crash y) ∨ (x.1 = none ∧ x.2 = s)) ∧
      (∀ r, turn a = .inl r → FGo (project n D) s r → ∃ l, x.1 = some l ∧ l.actor = some r) ∧
      (∀ t, turn a = .inr t → Heap.Inv (env (project n D)) s.heap → t ∉ x.2.heap.garb) := by
    intro a s
    cases ht : turn a with
    | inl r =>
      by_cases hg : FGo (project n D) s r
      · obtain ⟨l, s', h1, h2, h3⟩ := hg
        exact ⟨(some l, s'), .inl ⟨l, rfl, h3, h2⟩, fun r' e _ => by cases e; exact ⟨l, rfl, h1⟩, by simp⟩
      · exact ⟨(none, s), .inr ⟨rfl, rfl⟩, fun r' e hx => by cases e; exact absurd hx hg, by simp⟩
    | inr t =>
      by_cases hg : Heap.Inv (env (project n D)) s.heap ∧ t ∈ s.heap.garb
      · obtain ⟨i, st', o, h1, h2⟩ := gc_removes hg.1 hg.2
        exact ⟨(some (.step .gc), ⟨st', s.pos, s.dead⟩), .inl ⟨_, rfl, .step (.gc h1) (by simp [RLabel.actor]), by simp⟩, by simp,
          fun t' e _ => by cases e; exact h2⟩
      · exact ⟨(none, s), .inr ⟨rfl, rfl⟩, by simp, fun t' e hx => by cases e; exact fun hm => hg ⟨hx, hm⟩⟩
  choose f hf using next
  let τ : Nat → FS := fun a => Nat.rec s (fun a s => (f a s).2) a
  have τs : ∀ a, τ (a + 1) = (f a (τ a)).2 := fun _ => rfl
  let L := ls.length
  let σ : Nat → FS := fun k => if k < L then σ0 k else τ (k - L)
  let lab : Nat → Option FLabel := fun k => if k < L then lab0 k else (f (k - L) (τ (k - L))).1
  have σL : ∀ a, σ (L + a) = τ a := fun a => by simp [σ]
  have labL : ∀ a, lab (L + a) = (f a (τ a)).1 := fun a => by simp [lab]
  have hτ0 : τ 0 = s := rfl
  have hSch : FSchedule (project n D) root σ lab := by
    refine ⟨?_, ?_⟩
    · by_cases hL : 0 < L
      · simp only [σ, hL, if_true]; exact hS0.start
      · have e : L = 0 := by omega
        have h0 := (he0 0 (by omega)).1
        have : σ 0 = σ0 0 := by rw [h0, ← hτ0, ← σL 0, e]
        rw [this]; exact hS0.start
    · intro k
      by_cases hk : k < L
      · have e1 : σ k = σ0 k := by simp only [σ, hk, if_true]
        have e2 : lab k = lab0 k := by simp only [lab, hk, if_true]
        have e3 : σ (k + 1) = σ0 (k + 1) := by
          by_cases hk1 : k + 1 < L
          · simp only [σ, hk1, if_true]
          · have e : k + 1 = L + 0 := by omega
            rw [e, σL, hτ0]
            exact ((he0 L (Nat.le_refl _)).1).symm
        rw [e1, e2, e3]; exact hS0.step k
      · obtain ⟨a, rfl⟩ : ∃ a, k = L + a := ⟨k - L, by omega⟩
        rw [σL, labL, Nat.add_assoc, σL, τs]
        rcases (hf a (τ a)).1 with ⟨l, h1, h2, -⟩ | h1
        · exact .inl ⟨l, h1, h2⟩
        · exact .inr h1
  have inv : ∀ k, Heap.Inv (env (project n D)) (σ k).heap := fun k => by
    obtain ⟨ls, hrun⟩ := fsched_run hSch k
    obtain ⟨_, _, _, -, R⟩ := frun_sim w hrun
    exact reach_inv R.reach
  refine ⟨σ, lab, hSch, ⟨?_, ?_⟩, σL 0, ?_, ?_⟩
  · intro r k hg
    obtain ⟨a, h1, h2⟩ := turn_again (.inl r) k
    refine ⟨L + a, by omega, ?_⟩
    have := (hf a (τ a)).2.1 r h2 (by rw [← σL]; exact hg _ (by omega))
    obtain ⟨l, h3, h4⟩ := this
    exact ⟨l, by rw [labL]; exact h3, h4⟩
  · intro k t _
    obtain ⟨a, h1, h2⟩ := turn_again (.inr t) k
    refine ⟨L + a + 1, by omega, ?_⟩
    rw [Nat.add_assoc, σL, τs]
    exact (hf a (τ a)).2.2 t h2 (by rw [← σL]; exact inv _)
  · intro k l hk
    have : k < L := (List.getElem?_eq_some_iff.1 hk).1
    simp only [lab, this, if_true]
    exact hl0 k l hk
  · intro k hk x
    obtain ⟨a, rfl⟩ : ∃ a, k = L + a := ⟨k - L, by have : L ≤ k := hk; omega⟩
    rw [labL]
    rcases (hf a (τ a)).1 with ⟨l, h1, h2, h3⟩ | ⟨h1, -⟩
    · rw [h1]; intro e; cases e; exact h3 x rfl
    · rw [h1]; simp

end Verif.Runtime
