import Verif.Proof.MeshLive
/-!
# No role of a projected program waits forever
-/
namespace Verif.Mesh

theorem step_other {Y : Sys} {s s' : S} {l : Label} (h : Step Y s l s') {r : Nat} (hr : r ≠ l.actor) :
    s'.pos r = s.pos r ∧ s'.gen r = s.gen r := by
  cases h <;> simp_all [upd, Label.actor]

/-- Steps of others only add to the end of the queues a role reads. -/
theorem step_queue {Y : Sys} {s s' : S} {l : Label} (h : Step Y s l s') {r : Nat} (hr : r ≠ l.actor) (g q : Nat) {x y}
    (hq : s.queue (g, q, r) = x :: y) : ∃ y', s'.queue (g, q, r) = x :: y' := by
  cases h with
  | send => 
    simp only [upd]
    split
    · rename_i e; rw [← e, hq]; exact ⟨_, rfl⟩
    · exact ⟨y, hq⟩
  | recv =>
    simp only [Label.actor] at hr
    simp [upd, hr, hq]
  | decide => exact ⟨y, hq⟩
  | tell =>
    simp only [upd]
    split
    · rename_i e; rw [← e, hq]; exact ⟨_, rfl⟩
    · exact ⟨y, hq⟩
  | enter => exact ⟨y, hq⟩
  | heed =>
    simp only [Label.actor] at hr
    simp [upd, hr, hq]

/-- Nobody can keep a role from moving. -/
theorem persist {Y : Sys} {s s' : S} {l : Label} (h : Step Y s l s') {r : Nat} (hr : r ≠ l.actor) (hc : CanMove Y s r) :
    CanMove Y s' r := by
  obtain ⟨e1, e2⟩ := step_other h hr
  obtain ⟨l', s'', ha, hs⟩ := hc
  cases hs with
  | send h1 h2 h3 h4 h5 => 
    simp only [Label.actor] at ha; subst ha
    exact ⟨_, _, rfl, .send h1 h2 (e1 ▸ h3) h4 h5⟩
  | recv h1 h2 h3 h4 h5 h6 =>
    simp only [Label.actor] at ha; subst ha
    obtain ⟨y', hy⟩ := step_queue h hr _ _ h6
    exact ⟨_, _, rfl, .recv h1 h2 (e1 ▸ h3) h4 h5 (by rw [e2]; exact hy)⟩
  | decide h1 h2 h3 h4 h5 h6 =>
    simp only [Label.actor] at ha; subst ha
    exact ⟨_, _, rfl, .decide h1 h2 (e1 ▸ h3) h4 h5 h6⟩
  | tell h1 h2 h3 =>
    simp only [Label.actor] at ha; subst ha
    exact ⟨_, _, rfl, .tell h1 h2 (e1 ▸ h3)⟩
  | enter h1 h2 h3 =>
    simp only [Label.actor] at ha; subst ha
    exact ⟨_, _, rfl, .enter h1 h2 (e1 ▸ h3)⟩
  | heed h1 h2 h3 h4 h5 h6 =>
    simp only [Label.actor] at ha; subst ha
    obtain ⟨y', hy⟩ := step_queue h hr _ _ h6
    exact ⟨_, _, rfl, .heed h1 h2 (e1 ▸ h3) h4 h5 (by rw [e2]; exact hy)⟩

section
variable {n : Nat} {D : Global} {root : Name} {σ : Nat → S} {lab : Nat → Option Label}

/-- What one moment does to the ghost state. -/
def Link (n : Nat) (D : Global) (σ : Nat → S) (lab : Nat → Option Label) (k : Nat) (G G' : Ghost) : Prop :=
  (∃ l, lab k = some l ∧ Ext n D G (σ k) G' (σ (k + 1)) l.actor) ∨ (lab k = none ∧ G' = G)

/-- A sequence of ghost states for the whole schedule. -/
theorem ghosts (w : Global.Wf n D) (h : Schedule (project n D) root σ lab) :
    ∃ G : Nat → Ghost, ∀ k, (∃ ls, Inv n D root (G k) ls (σ k)) ∧ Link n D σ lab k (G k) (G (k + 1)) := by
  classical
  have next : ∀ k (G : Ghost), (∃ ls, Inv n D root G ls (σ k)) →
      ∃ G', (∃ ls, Inv n D root G' ls (σ (k + 1))) ∧ Link n D σ lab k G G' := by
    rintro k G ⟨ls, hG⟩
    rcases h.step k with ⟨l, h1, h2⟩ | ⟨h1, h2⟩
    · obtain ⟨G', h3, h4⟩ := inv_step w hG h2
      exact ⟨G', ⟨_, h3⟩, .inl ⟨l, h1, h4⟩⟩
    · exact ⟨G, ⟨ls, by rw [h2]; exact hG⟩, .inr ⟨h1, rfl⟩⟩
  let f : (k : Nat) → { G : Ghost // ∃ ls, Inv n D root G ls (σ k) } := fun k =>
    Nat.rec (motive := fun k => { G : Ghost // ∃ ls, Inv n D root G ls (σ k) })
      ⟨⟨fun _ => root, 0, fun _ => 0, fun _ => 0⟩, [], by rw [h.start]; exact inv_init n D root⟩
      (fun k G => ⟨(next k G.1 G.2).choose, (next k G.1 G.2).choose_spec.1⟩) k
  exact ⟨fun k => (f k).1, fun k => ⟨(f k).2, (next k (f k).1 (f k).2).choose_spec.2⟩⟩

variable {G : Nat → Ghost}

theorem stay_step (h : Schedule (project n D) root σ lab)
    (hG : ∀ k, (∃ ls, Inv n D root (G k) ls (σ k)) ∧ Link n D σ lab k (G k) (G (k + 1))) {r : Nat} (hr : Part n r) {k : Nat}
    (hm : ¬ Moves lab r k) : (σ (k + 1)).pos r = (σ k).pos r ∧ (σ (k + 1)).gen r = (σ k).gen r ∧
      (G (k + 1)).gst r = (G k).gst r ∧ (G (k + 1)).idx r = (G k).idx r ∧
      (∀ x, x ≤ (G k).top → (G (k + 1)).path x = (G k).path x) ∧ (G k).top ≤ (G (k + 1)).top ∧
      (CanMove (project n D) (σ k) r → CanMove (project n D) (σ (k + 1)) r) := by
  rcases (hG k).2 with ⟨l, h1, h2, h3, h4, h5⟩ | ⟨h1, h2⟩
  · have hne : r ≠ l.actor := fun e => hm ⟨l, h1, e.symm⟩
    rcases h.step k with ⟨l', h1', h2'⟩ | ⟨h1', _⟩
    · rw [h1] at h1'; cases h1'
      obtain ⟨e1, e2⟩ := step_other h2' hne
      obtain ⟨e3, e4⟩ := h4 r hne
      exact ⟨e1, e2, e3, e4, h3, h2, persist h2' hne⟩
    · rw [h1] at h1'; cases h1'
  · rcases h.step k with ⟨l', h1', h2'⟩ | ⟨h1', h2'⟩
    · rw [h1] at h1'; cases h1'
    · rw [h2, h2']; exact ⟨rfl, rfl, rfl, rfl, fun _ _ => rfl, Nat.le_refl _, id⟩

/-- While a role does not move, nothing about it changes. -/
theorem stay (h : Schedule (project n D) root σ lab)
    (hG : ∀ k, (∃ ls, Inv n D root (G k) ls (σ k)) ∧ Link n D σ lab k (G k) (G (k + 1))) {r : Nat} (hr : Part n r) {k : Nat}
    (d : Nat) (hm : ∀ j, k ≤ j → j < k + d → ¬ Moves lab r j) :
      (σ (k + d)).pos r = (σ k).pos r ∧ (σ (k + d)).gen r = (σ k).gen r ∧
      (G (k + d)).gst r = (G k).gst r ∧ (G (k + d)).idx r = (G k).idx r ∧
      (∀ x, x ≤ (G k).top → (G (k + d)).path x = (G k).path x) ∧ (G k).top ≤ (G (k + d)).top ∧
      (CanMove (project n D) (σ k) r → CanMove (project n D) (σ (k + d)) r) := by
  induction d with
  | zero => exact ⟨rfl, rfl, rfl, rfl, fun _ _ => rfl, Nat.le_refl _, id⟩
  | succ d ih =>
    obtain ⟨a1, a2, a3, a4, a5, a6, a7⟩ := ih (fun j h1 h2 => hm j h1 (by omega))
    obtain ⟨b1, b2, b3, b4, b5, b6, b7⟩ := stay_step h hG hr (hm (k + d) (by omega) (by omega))
    refine ⟨b1.trans a1, b2.trans a2, b3.trans a3, b4.trans a4, fun x hx => ?_, Nat.le_trans a6 b6, fun hc => b7 (a7 hc)⟩
    exact (b5 x (Nat.le_trans hx a6)).trans (a5 x hx)

theorem ahead_congr {G G' : Ghost} {r : Nat} (h1 : G'.gst r = G.gst r) (h2 : G'.idx r = G.idx r)
    (h3 : ∀ x, x ≤ G.gst r → G'.path x = G.path x) : ahead D G' r = ahead D G r := by
  unfold ahead nxt blk
  rw [h1, h2, h3 _ (Nat.le_refl _), base_congr (path := G'.path) (path' := G.path) (fun x hx => h3 x (by omega))]

theorem work_congr {G G' : Ghost} {s s' : S} {r : Nat} (h1 : G'.gst r = G.gst r) (h2 : G'.idx r = G.idx r)
    (h3 : ∀ x, x ≤ G.gst r → G'.path x = G.path x) (h4 : s'.pos r = s.pos r) : work n D G' s' r = work n D G s r := by
  unfold work
  rw [h1, h2, h4, base_congr (path := G'.path) (path' := G.path) (fun x hx => h3 x (by omega))]

theorem can_moves (h : Schedule (project n D) root σ lab) (hf : Fair (project n D) σ lab)
    (hG : ∀ k, (∃ ls, Inv n D root (G k) ls (σ k)) ∧ Link n D σ lab k (G k) (G (k + 1))) {r : Nat} (hr : Part n r) {k : Nat}
    (hc : CanMove (project n D) (σ k) r) : ∃ j, k ≤ j ∧ Moves lab r j := by
  by_contra hno
  have hno' : ∀ j, k ≤ j → ¬ Moves lab r j := fun j hj hm => hno ⟨j, hj, hm⟩
  apply hno
  apply hf
  intro j hj
  have := (stay h hG hr (k := k) (j - k) (fun i h1 _ => hno' i h1)).2.2.2.2.2.2 hc
  rwa [Nat.add_sub_of_le hj] at this

theorem work_move (hG : ∀ k, (∃ ls, Inv n D root (G k) ls (σ k)) ∧ Link n D σ lab k (G k) (G (k + 1))) {r k : Nat}
    (hm : Moves lab r k) : work n D (G k) (σ k) r < work n D (G (k + 1)) (σ (k + 1)) r := by
  obtain ⟨l, h1, h2⟩ := hm
  rcases (hG k).2 with ⟨l', h1', _, _, _, h5⟩ | ⟨h1', _⟩
  · rw [h1] at h1'; cases h1'; rw [← h2]; exact h5
  · rw [h1] at h1'; cases h1'

/-- A role that is not finished moves at some later moment. -/
theorem moves (w : Global.Wf n D) (h : Schedule (project n D) root σ lab) (hf : Fair (project n D) σ lab)
    (hG : ∀ k, (∃ ls, Inv n D root (G k) ls (σ k)) ∧ Link n D σ lab k (G k) (G (k + 1))) {r : Nat} (hr : Part n r) {k : Nat}
    (hfin : ¬ Finished (σ k) r) : ∃ j, k ≤ j ∧ Moves lab r j := by
  induction hA : ahead D (G k) r using Nat.strongRecOn generalizing r k with
  | _ A ih =>
    by_contra hno
    have hno' : ∀ j, k ≤ j → ¬ Moves lab r j := fun j hj hm => hno ⟨j, hj, hm⟩
    have st := fun d => stay h hG hr (k := k) d (fun i h1 _ => hno' i h1)
    obtain ⟨ls0, hI0⟩ := (hG k).1
    have hle0 := hI0.le r hr
    have hA' : ∀ d, ahead D (G (k + d)) r = A := by
      intro d
      obtain ⟨_, _, a3, a4, a5, _, _⟩ := st d
      rw [← hA]
      exact ahead_congr a3 a4 (fun x hx => a5 x (by omega))
    have hfin' : ∀ d, ¬ Finished (σ (k + d)) r := by
      intro d hx
      apply hfin
      unfold Finished at *
      rwa [(st d).1] at hx
    have hstuck : ∀ d, ¬ CanMove (project n D) (σ (k + d)) r := by
      intro d hc
      obtain ⟨j, hj, hm⟩ := can_moves h hf hG hr hc
      exact hno' j (by omega) hm
    obtain ⟨M, p, k0, hM, hk0, hp, hpr, _, _, _⟩ := blocked w hI0 hr hfin (hstuck 0)
    -- at every later moment `r` waits for the same partner
    have hwait : ∀ d, ¬ Finished (σ (k + d)) p ∧
        (CanMove (project n D) (σ (k + d)) p ∨ ahead D (G (k + d)) p < A) ∧
        work n D (G (k + d)) (σ (k + d)) p ≤ base D (G k).path ((σ k).gen r + 1) * (n + 2) + (n + 1) := by
      intro d
      obtain ⟨ls', hI'⟩ := (hG (k + d)).1
      obtain ⟨M', p', k', hM', hk', _, _, b1, b2, b3⟩ := blocked w hI' hr (hfin' d) (hstuck d)
      obtain ⟨a1, a2, a3, a4, a5, a6, _⟩ := st d
      rw [a1, hM] at hM'
      cases hM'
      rw [hk0] at hk'
      cases hk'
      rw [hA' d] at b2
      rw [a2] at b3
      refine ⟨b1, b2, ?_⟩
      have hg := (hI0.mesh r hr M hM).1
      rw [base_congr (path := (G (k + d)).path) (path' := (G k).path) (fun x hx => a5 x (by omega))] at b3
      exact b3
    have again : ∀ d, ∃ e, d ≤ e ∧ Moves lab p (k + e) := by
      intro d
      obtain ⟨b1, b2, _⟩ := hwait d
      have : ∃ j, k + d ≤ j ∧ Moves lab p j := by
        rcases b2 with b2 | b2
        · exact can_moves h hf hG hp b2
        · exact ih _ b2 hp b1 rfl
      obtain ⟨j, hj, hm⟩ := this
      exact ⟨j - k, by omega, by rwa [Nat.add_sub_of_le (by omega)]⟩
    have mono : ∀ d e, work n D (G (k + d)) (σ (k + d)) p ≤ work n D (G (k + d + e)) (σ (k + d + e)) p := by
      intro d e
      induction e with
      | zero => exact Nat.le_refl _
      | succ e ihe =>
        refine Nat.le_trans ihe ?_
        by_cases hm : Moves lab p (k + d + e)
        · exact Nat.le_of_lt (work_move hG hm)
        · obtain ⟨a1, a2, a3, a4, a5, a6, _⟩ := stay_step h hG hp hm
          obtain ⟨ls', hI'⟩ := (hG (k + d + e)).1
          have := hI'.le p hp
          exact Nat.le_of_eq (work_congr a3 a4 (fun x hx => a5 x (by omega)) a1).symm
    have grow : ∀ W, ∃ d, W ≤ work n D (G (k + d)) (σ (k + d)) p := by
      intro W
      induction W with
      | zero => exact ⟨0, Nat.zero_le _⟩
      | succ W ihW =>
        obtain ⟨d, hd⟩ := ihW
        obtain ⟨e, he, hm⟩ := again d
        have h1 := mono d (e - d)
        have h2 := work_move hG hm
        have e1 : k + d + (e - d) = k + e := by omega
        rw [e1] at h1
        exact ⟨e + 1, by have : k + (e + 1) = k + e + 1 := by omega
                         rw [this]; omega⟩
    obtain ⟨d, hd⟩ := grow (base D (G k).path ((σ k).gen r + 1) * (n + 2) + (n + 1) + 1)
    have := (hwait d).2.2
    omega

end

end Verif.Mesh
