import Verif.Proof.MeshFair
/-!
# When one role has come to the end of a projected program, all will
-/
namespace Verif.Mesh

section
variable {n : Nat} {D : Global} {root : Name} {σ : Nat → S} {lab : Nat → Option Label} {G : Nat → Ghost}

/-- A finished role cannot move. -/
theorem finished_stays (h : Schedule (project n D) root σ lab) {r k : Nat} (hf : Finished (σ k) r) :
    ∀ j, k ≤ j → ¬ Moves lab r j ∧ Finished (σ j) r := by
  have stuck : ∀ j, Finished (σ j) r → ¬ Moves lab r j := by
    rintro j ⟨M, hM, hk⟩ ⟨l, h1, ha⟩
    rcases h.step j with ⟨l', h1', hs⟩ | ⟨h1', _⟩
    · rw [h1] at h1'; cases h1'
      generalize σ (j + 1) = s' at hs
      cases hs <;> simp only [Label.actor] at ha <;> subst ha <;> simp_all
    · rw [h1] at h1'; cases h1'
  intro j hj
  obtain ⟨d, rfl⟩ : ∃ d, j = k + d := ⟨j - k, by omega⟩
  have : Finished (σ (k + d)) r := by
    induction d with
    | zero => exact hf
    | succ d ih =>
      have hd := ih (by omega)
      have hm := stuck _ hd
      obtain ⟨M, hM, hk⟩ := hd
      rcases h.step (k + d) with ⟨l, h1, hs⟩ | ⟨_, h2⟩
      · have hne : r ≠ l.actor := fun e => hm ⟨l, h1, e.symm⟩
        exact ⟨M, by rw [show k + (d + 1) = k + d + 1 by omega, (step_other hs hne).1]; exact hM, hk⟩
      · exact ⟨M, by rw [show k + (d + 1) = k + d + 1 by omega, h2]; exact hM, hk⟩
  exact ⟨stuck _ this, this⟩

/-- Choices are never undone. -/
theorem paths (hG : ∀ k, (∃ ls, Inv n D root (G k) ls (σ k)) ∧ Link n D σ lab k (G k) (G (k + 1))) (k d : Nat) :
    (G k).top ≤ (G (k + d)).top ∧ ∀ x, x ≤ (G k).top → (G (k + d)).path x = (G k).path x := by
  induction d with
  | zero => exact ⟨Nat.le_refl _, fun _ _ => rfl⟩
  | succ d ih =>
    obtain ⟨h1, h2⟩ := ih
    rcases (hG (k + d)).2 with ⟨l, _, h3, h4, _, _⟩ | ⟨_, h3⟩
    · exact ⟨Nat.le_trans h1 h3, fun x hx => (h4 x (Nat.le_trans hx h1)).trans (h2 x hx)⟩
    · rw [show k + (d + 1) = k + d + 1 by omega, h3]; exact ⟨h1, h2⟩

/-- When no choice is made any more, every role takes finitely many steps. -/
theorem quiet (h : Schedule (project n D) root σ lab)
    (hG : ∀ k, (∃ ls, Inv n D root (G k) ls (σ k)) ∧ Link n D σ lab k (G k) (G (k + 1))) {k : Nat}
    (htop : ∀ d, (G (k + d)).top = (G k).top) {p : Nat} (hp : Part n p) : ∃ j, k ≤ j ∧ ∀ i, j ≤ i → ¬ Moves lab p i := by
  by_contra hno
  have hno' : ∀ d, ∃ i, k + d ≤ i ∧ Moves lab p i := fun d => by
    by_contra hx
    exact hno ⟨k + d, by omega, fun i hi hm => hx ⟨i, hi, hm⟩⟩
  have hbound : ∀ d, work n D (G (k + d)) (σ (k + d)) p ≤ base D (G k).path ((G k).top + 1) * (n + 2) + (n + 1) := by
    intro d
    obtain ⟨ls', hI'⟩ := (hG (k + d)).1
    have hpath := (paths hG k d).2
    rw [← base_congr (path := (G (k + d)).path) (path' := (G k).path) (fun x hx => hpath x (by omega)), ← htop d]
    have hle : base D (G (k + d)).path ((G (k + d)).gst p) + (G (k + d)).idx p ≤
        base D (G (k + d)).path ((G (k + d)).top + 1) := by
      have hle := hI'.le p hp
      cases hP : (σ (k + d)).pos p with
      | mesh M' =>
        obtain ⟨hg', hi', -⟩ := hI'.mesh p hp M' hP
        have := base_mono (D := D) (path := (G (k + d)).path) (g := (G (k + d)).gst p + 1) (g' := (G (k + d)).top + 1) (by omega)
        rw [← hg'] at hi'
        simp only [base, blk] at *
        omega
      | telling N rest =>
        obtain ⟨t1, t2, -⟩ := hI'.tell p hp N rest hP
        rw [t2]
        exact base_mono (by omega)
    have := Nat.mul_le_mul_right (n + 2) hle
    have := sub_le n ((σ (k + d)).pos p)
    simp only [work]; omega
  have mono : ∀ d e, work n D (G (k + d)) (σ (k + d)) p ≤ work n D (G (k + d + e)) (σ (k + d + e)) p := by
    intro d e
    induction e with
    | zero => exact Nat.le_refl _
    | succ e ihe =>
      refine Nat.le_trans ihe ?_
      by_cases hm : Moves lab p (k + d + e)
      · exact Nat.le_of_lt (work_move hG hm)
      · obtain ⟨a1, a2, a3, a4, a5, a6, _⟩ := stay_step h hG hp hm
        obtain ⟨ls', hI'⟩ := (hG (k + d + e)).1
        have := hI'.le p hp
        exact Nat.le_of_eq (work_congr a3 a4 (fun x hx => a5 x (by omega)) a1).symm
  have grow : ∀ W, ∃ d, W ≤ work n D (G (k + d)) (σ (k + d)) p := by
    intro W
    induction W with
    | zero => exact ⟨0, Nat.zero_le _⟩
    | succ W ihW =>
      obtain ⟨d, hd⟩ := ihW
      obtain ⟨j, hj, hm⟩ := hno' d
      obtain ⟨e, rfl⟩ : ∃ e, j = k + d + e := ⟨j - (k + d), by omega⟩
      have h1 := mono d e
      have h2 := work_move hG hm
      exact ⟨d + e + 1, by rw [show k + (d + e + 1) = k + d + e + 1 by omega]; omega⟩
  obtain ⟨d, hd⟩ := grow (base D (G k).path ((G k).top + 1) * (n + 2) + (n + 1) + 1)
  have := hbound d
  omega

/-- When no choice is made any more, everybody finishes. -/
theorem steady (w : Global.Wf n D) (h : Schedule (project n D) root σ lab) (hf : Fair (project n D) σ lab)
    (hG : ∀ k, (∃ ls, Inv n D root (G k) ls (σ k)) ∧ Link n D σ lab k (G k) (G (k + 1))) {k : Nat}
    (htop : ∀ d, (G (k + d)).top = (G k).top) {p : Nat} (hp : Part n p) : ∃ j, k ≤ j ∧ Finished (σ j) p := by
  obtain ⟨j, hj, hq⟩ := quiet h hG htop hp
  refine ⟨j, hj, ?_⟩
  by_contra hno
  obtain ⟨i, hi, hm⟩ := moves w h hf hG hp hno
  exact hq i hi hm

/-- Once a role is finished, no choice is made any more. -/
theorem top_const (w : Global.Wf n D) (h : Schedule (project n D) root σ lab)
    (hG : ∀ k, (∃ ls, Inv n D root (G k) ls (σ k)) ∧ Link n D σ lab k (G k) (G (k + 1))) {r : Nat} (hr : Part n r) {k : Nat}
    (hfin : Finished (σ k) r) (d : Nat) : (G (k + d)).top = (G k).top := by
  have st := fun d => stay h hG hr (k := k) d (fun i h1 _ => (finished_stays h hfin i h1).1)
  obtain ⟨ls', hI'⟩ := (hG (k + d)).1
  obtain ⟨ls0, hI0⟩ := (hG k).1
  have key : ∀ j ls, Inv n D root (G j) ls (σ j) → Finished (σ j) r → (G j).top = (G j).gst r := by
    intro j ls hI hF
    obtain ⟨-, ht⟩ := finished_end w hI hr hF
    obtain ⟨M, hM, -⟩ := hF
    have hg := (hI.mesh r hr M hM).1
    have hle := hI.le r hr
    rcases Nat.lt_or_ge ((G j).gst r) (G j).top with h1 | h1
    · obtain ⟨p', bs, h3, _⟩ := hI.sel _ h1
      rw [hg, ht] at h3; cases h3
    · omega
  rw [key _ _ hI' (finished_stays h hfin _ (by omega)).2, key _ _ hI0 hfin, (st d).2.2.1]

/-- Once a role is finished, every other one finishes. -/
theorem ends (w : Global.Wf n D) (h : Schedule (project n D) root σ lab) (hf : Fair (project n D) σ lab)
    (hG : ∀ k, (∃ ls, Inv n D root (G k) ls (σ k)) ∧ Link n D σ lab k (G k) (G (k + 1))) {r : Nat} (hr : Part n r) {k : Nat}
    (hfin : Finished (σ k) r) {p : Nat} (hp : Part n p) : ∃ j, k ≤ j ∧ Finished (σ j) p :=
  steady w h hf hG (top_const w h hG hr hfin) hp

/-- The work of a role never shrinks. -/
theorem work_mono (h : Schedule (project n D) root σ lab)
    (hG : ∀ k, (∃ ls, Inv n D root (G k) ls (σ k)) ∧ Link n D σ lab k (G k) (G (k + 1))) {p : Nat} (hp : Part n p) {k j : Nat}
    (hj : k ≤ j) : work n D (G k) (σ k) p ≤ work n D (G j) (σ j) p := by
  induction hj with
  | refl => exact Nat.le_refl _
  | @step e _ ihe =>
    refine Nat.le_trans ihe ?_
    by_cases hm : Moves lab p e
    · exact Nat.le_of_lt (work_move hG hm)
    · obtain ⟨a1, a2, a3, a4, a5, a6, _⟩ := stay_step h hG hp hm
      obtain ⟨ls', hI'⟩ := (hG e).1
      have := hI'.le p hp
      exact Nat.le_of_eq (work_congr a3 a4 (fun x hx => a5 x (by omega)) a1).symm

/-- A role that moves again and again does any amount of work. -/
theorem busy (h : Schedule (project n D) root σ lab)
    (hG : ∀ k, (∃ ls, Inv n D root (G k) ls (σ k)) ∧ Link n D σ lab k (G k) (G (k + 1))) {p : Nat} (hp : Part n p) {k : Nat}
    (hinf : ∀ j, k ≤ j → ∃ i, j ≤ i ∧ Moves lab p i) (W : Nat) : ∃ j, k ≤ j ∧ W ≤ work n D (G j) (σ j) p := by
  induction W with
  | zero => exact ⟨k, Nat.le_refl _, Nat.zero_le _⟩
  | succ W ih =>
    obtain ⟨j, h1, h2⟩ := ih
    obtain ⟨i, h3, hm⟩ := hinf j h1
    have h4 := work_mono h hG hp h3
    have h5 := work_move hG hm
    exact ⟨i + 1, by omega, by omega⟩

/-- For finitely many roles, a common moment. -/
theorem together {P : Nat → Nat → Prop} (hmono : ∀ p i j, i ≤ j → P p i → P p j) {k : Nat}
    (h : ∀ p, Part n p → ∃ j, k ≤ j ∧ P p j) : ∃ j, k ≤ j ∧ ∀ p, Part n p → P p j := by
  have : ∀ m, m ≤ n → ∃ j, k ≤ j ∧ ∀ p, 1 ≤ p → p ≤ m → P p j := by
    intro m
    induction m with
    | zero => intro _; exact ⟨k, Nat.le_refl _, fun p h1 h2 => by omega⟩
    | succ m ih =>
      intro hm
      obtain ⟨j, h1, h2⟩ := ih (by omega)
      obtain ⟨i, h3, h4⟩ := h (m + 1) ⟨by omega, hm⟩
      refine ⟨max i j, by omega, fun p hp1 hp2 => ?_⟩
      rcases Nat.lt_or_ge m p with h5 | h5
      · have : p = m + 1 := by omega
        subst this; exact hmono _ i _ (by omega) h4
      · exact hmono _ j _ (by omega) (h2 p hp1 h5)
  obtain ⟨j, h1, h2⟩ := this n (Nat.le_refl _)
  exact ⟨j, h1, fun p hp => h2 p hp.1 hp.2⟩

theorem all_end (w : Global.Wf n D) (h : Schedule (project n D) root σ lab) (hf : Fair (project n D) σ lab) {r : Nat}
    (hr : Part n r) {k : Nat} (hfin : Finished (σ k) r) : ∃ j, k ≤ j ∧ ∀ p, Part n p → Finished (σ j) p := by
  obtain ⟨G, hG⟩ := ghosts w h
  exact together (P := fun p j => Finished (σ j) p) (fun p i j hij hp => (finished_stays h hp j hij).2)
    (fun p hp => ends w h hf hG hr hfin hp)

/-- If every sequence of choices comes to an end, there is a moment from which on no choice is made. -/
theorem topped (hG : ∀ k, (∃ ls, Inv n D root (G k) ls (σ k)) ∧ Link n D σ lab k (G k) (G (k + 1)))
    (hacc : Acc (fun N' N => ∃ p bs, (D N).tail = .choice p bs ∧ N' ∈ bs) root) :
    ∃ k, ∀ d, (G (k + d)).top = (G k).top := by
  by_contra hno
  have hup : ∀ k, ∃ d, (G k).top < (G (k + d)).top := by
    intro k
    by_contra hcon
    refine hno ⟨k, fun d => ?_⟩
    have := (paths hG k d).1
    rcases Nat.lt_or_ge (G k).top (G (k + d)).top with h2 | h2
    · exact absurd ⟨d, h2⟩ hcon
    · omega
  have key : ∀ N, Acc (fun N' N => ∃ p bs, (D N).tail = .choice p bs ∧ N' ∈ bs) N →
      ∀ k g, g ≤ (G k).top → (G k).path g = N → False := by
    intro N hN
    induction hN with
    | intro N _ ih =>
      intro k g hg hpath
      obtain ⟨d, hd⟩ := hup k
      obtain ⟨ls', hI'⟩ := (hG (k + d)).1
      obtain ⟨p, bs, h2, h3, -⟩ := hI'.sel g (by omega)
      have h4 := (paths hG k d).2 g hg
      unfold blk at h2
      rw [h4, hpath] at h2
      exact ih _ ⟨p, bs, h2, h3⟩ (k + d) (g + 1) (by omega) rfl
  obtain ⟨ls, hI⟩ := (hG 0).1
  exact key root hacc 0 0 (Nat.zero_le _) hI.start

/-- A protocol in which every sequence of choices comes to an end is carried out to its end. -/
theorem terminates (w : Global.Wf n D) (h : Schedule (project n D) root σ lab) (hf : Fair (project n D) σ lab)
    (hacc : Acc (fun N' N => ∃ p bs, (D N).tail = .choice p bs ∧ N' ∈ bs) root) :
    ∃ j, ∀ p, Part n p → Finished (σ j) p := by
  obtain ⟨G, hG⟩ := ghosts w h
  have h1 : Part n 1 := ⟨Nat.le_refl _, by have := w.1; omega⟩
  obtain ⟨k, hk⟩ := topped hG hacc
  obtain ⟨j, -, hj⟩ := steady w h hf hG hk h1
  obtain ⟨i, -, hi⟩ := all_end w h hf h1 hj
  exact ⟨i, hi⟩

end

end Verif.Mesh
