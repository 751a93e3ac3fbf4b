import Verif.Proof.RuntimeFull
/-!
# Under a fair schedule nobody waits forever
-/
namespace Verif.Runtime
open Verif.Mesh (Sys Name Sess Stack Label upd Part Global project S others mem_others Finished CanMove)
open Verif.Types (STy)
open Verif.Heap hiding upd
open Verif.Spec Verif.SendRecv
open Verif.Gen (slot_partner partner_slot slot_range partner_role slotOf_inj partner_inj)

/-- A step changes the position of its actor only. -/
theorem rstep_other {Y : Sys} {h pos l st} (hs : RStep Y h pos l st) {r : Nat} (hr : l.actor ≠ some r) : st.pos r = pos r := by
  cases hs <;> simp only [RLabel.actor, Label.actor, ne_eq, Option.some.injEq] at hr <;> simp [upd, Ne.symm hr, Ne.symm (Ne.intro hr)]

/-- The steps of the protocol in a schedule. -/
def mlab (lab : Nat → Option RLabel) (k : Nat) : Option Label :=
  match lab k with
  | some (.sim x) => some x
  | _ => none

section
variable {n : Nat} {D : Global} {root : Name} {σ : Nat → RS} {lab : Nat → Option RLabel}

/-- The queues of the protocol, for the whole schedule. -/
theorem shadow (w : Global.Wf n D) (h : RSchedule (project n D) root σ lab) :
    ∃ m : Nat → S, (∀ k, ∃ ls id T, Rel n D root ls nobody (σ k).heap (σ k).pos (m k) id T) ∧
      Mesh.Schedule (project n D) root m (mlab lab) := by
  classical
  have next : ∀ k (s : S), (∃ ls id T, Rel n D root ls nobody (σ k).heap (σ k).pos s id T) →
      ∃ s', (∃ ls id T, Rel n D root ls nobody (σ (k + 1)).heap (σ (k + 1)).pos s' id T) ∧
        ((∃ l, mlab lab k = some l ∧ Mesh.Step (project n D) s l s') ∨ (mlab lab k = none ∧ s' = s)) := by
    rintro k s ⟨ls, id, T, R⟩
    rcases h.step k with ⟨l, h1, h2⟩ | ⟨h1, h2⟩
    · obtain ⟨s', id', T', -, h3⟩ := sim_step w R h2 fun _ _ => rfl
      refine ⟨s', ?_⟩
      cases l with
      | sim x => exact ⟨⟨_, _, _, h3.2⟩, .inl ⟨x, by simp [mlab, h1], h3.1⟩⟩
      | _ => exact ⟨⟨_, _, _, h3.2⟩, .inr ⟨by simp [mlab, h1], h3.1⟩⟩
    · exact ⟨s, ⟨ls, id, T, by rw [h2]; exact R⟩, .inr ⟨by simp [mlab, h1], rfl⟩⟩
  have hn : 1 ≤ n := by have := w.1; omega
  let f : (k : Nat) → { s : S // ∃ ls id T, Rel n D root ls nobody (σ k).heap (σ k).pos s id T } := fun k =>
    Nat.rec (motive := fun k => { s : S // ∃ ls id T, Rel n D root ls nobody (σ k).heap (σ k).pos s id T })
      ⟨_, _, _, _, start_spec hn h.start⟩
      (fun k s => ⟨(next k s.1 s.2).choose, (next k s.1 s.2).choose_spec.1⟩) k
  exact ⟨fun k => (f k).1, fun k => (f k).2, rfl, fun k => (next k (f k).1 (f k).2).choose_spec.2⟩

variable {m : Nat → S}

/-- Steps of `close` are made by finished roles. -/
theorem close_finished (w : Global.Wf n D) {ls h pos s id T} (R : Rel n D root ls nobody h pos s id T) {l st}
    (hs : RStep (project n D) h pos l st) {r} (ha : l.actor = some r) (hl : ∀ x, l ≠ .sim x) : Finished s r := by
  have key : ∀ x, Part n x → ((∃ sl, pos x = .mesh sl .fin) ∨ ∃ i sl, pos x = .ending i sl) → Finished s x := by
    intro x hx hp
    have hpos := R.posr x hx
    rcases hp with ⟨sl, hp⟩ | ⟨i, sl, hp⟩
    · rw [hp] at hpos; obtain ⟨M, h1, h2, -⟩ := hpos; exact ⟨M, h1, h2.symm⟩
    · rw [hp] at hpos; obtain ⟨M, h1, h2, -⟩ := hpos; exact ⟨M, h1, h2⟩
  cases hs with
  | closing h1 h2 h3 => cases ha; exact key _ ⟨h1, h2⟩ (.inl ⟨_, h3⟩)
  | stop h1 h2 h3 => cases ha; exact key _ ⟨h1, h2⟩ (.inr ⟨_, _, h3⟩)
  | wait h1 h2 h3 => cases ha; exact key _ ⟨h1, h2⟩ (.inr ⟨_, _, h3⟩)
  | done h1 h2 h3 => cases ha; exact key _ ⟨h1, h2⟩ (.inr ⟨_, _, h3⟩)
  | gc => cases ha
  | _ => exact absurd rfl (hl _)

theorem finished_pos {ls dead h pos s id T} (R : Rel n D root ls dead h pos s id T) {r} (hr : Part n r) :
    Finished s r ↔ AtEnd ⟨h, pos⟩ r := by
  have hpos := R.posr r hr
  unfold AtEnd
  constructor
  · rintro ⟨M, hM, hk⟩
    change _ ∨ _ ∨ pos r = _
    cases hp : pos r with
    | closed => exact .inr (.inr rfl)
    | ending i sl => exact .inr (.inl ⟨i, sl, hp⟩)
    | telling N todo old ow => rw [hp] at hpos; have h1 := hpos.1; rw [hM] at h1; cases h1
    | mesh sl k =>
      rw [hp] at hpos
      obtain ⟨M', hM', hk', -⟩ := hpos
      rw [hM] at hM'; cases hM'
      rw [hk] at hk'; subst hk'
      exact .inl ⟨sl, hp⟩
  · rintro (⟨sl, hp⟩ | ⟨i, sl, hp⟩ | hp) <;> change pos r = _ at hp <;> rw [hp] at hpos
    · obtain ⟨M, h1, h2, -⟩ := hpos; exact ⟨M, h1, h2.symm⟩
    · obtain ⟨M, h1, h2, -⟩ := hpos; exact ⟨M, h1, h2⟩
    · exact hpos

theorem shadow_fair (w : Global.Wf n D) (h : RSchedule (project n D) root σ lab) (hf : RFair (project n D) σ lab)
    (hR : ∀ k, ∃ ls id T, Rel n D root ls nobody (σ k).heap (σ k).pos (m k) id T)
    (hm : Mesh.Schedule (project n D) root m (mlab lab)) : Mesh.Fair (project n D) m (mlab lab) := by
  intro r k hc
  have hr : Part n r := by
    obtain ⟨l, s', ha, hs⟩ := hc k (Nat.le_refl _)
    cases hs <;> simp only [Label.actor] at ha <;> subst ha <;> exact ⟨by assumption, by assumption⟩
  have hgo : ∀ j, k ≤ j → CanGo (project n D) (σ j) r := by
    intro j hj
    obtain ⟨ls, id, T, R⟩ := hR j
    rcases next_step w R hr with h1 | h1 | ⟨-, h1⟩
    · exact absurd (hc j hj) (Prop.finished_stuck ((finished_pos R hr).2 (.inr (.inr h1))))
    · exact h1
    · exact absurd (hc j hj) h1
  obtain ⟨j, hj, l, h1, h2⟩ := hf r k hgo
  obtain ⟨ls, id, T, R⟩ := hR j
  rcases h.step j with ⟨l', h1', hs⟩ | ⟨h1', _⟩
  · rw [h1] at h1'; cases h1'
    by_cases hl : ∃ x, l = .sim x
    · obtain ⟨x, rfl⟩ := hl
      exact ⟨j, hj, x, by simp [mlab, h1], by simpa [RLabel.actor] using h2⟩
    · exact absurd (hc j hj) (Prop.finished_stuck (close_finished w R hs h2 (fun x hx => hl ⟨x, hx⟩)))
  · rw [h1] at h1'; cases h1'

/-! ## Closing -/

/-- How far a role has come with `close`. -/
def phase (n : Nat) : Pos → Nat
  | .closed => 2 * (n - 1) + 2
  | .ending i _ => i + 1
  | _ => 0

theorem phase_step {ls h pos s id T} (R : Rel n D root ls nobody h pos s id T) {l st}
    (hs : RStep (project n D) h pos l st) {r} (hfin : Finished s r) :
    phase n (st.pos r) = phase n (pos r) + (if l.actor = some r then 1 else 0) := by
  by_cases ha : l.actor = some r
  · rw [if_pos ha]
    have hr : Part n r := by
      cases hs <;> simp only [RLabel.actor, Label.actor, Option.some.injEq, reduceCtorEq] at ha <;> subst ha <;>
        exact ⟨by assumption, by assumption⟩
    cases hs with
    | closing h1 h2 h3 => cases ha; simp [upd, h3, phase]
    | stop h1 h2 h3 => cases ha; simp [upd, h3, phase]
    | wait h1 h2 h3 => cases ha; simp [upd, h3, phase]
    | done h1 h2 h3 h4 => cases ha; change _ = 2 * (n - 1) at h4; simp [upd, h3, phase, h4]
    | gc => cases ha
    | _ =>
      exfalso
      simp only [RLabel.actor, Label.actor, Option.some.injEq] at ha
      subst ha
      have := (finished_pos R hr).1 hfin
      unfold AtEnd at this
      simp_all
  · rw [if_neg ha, rstep_other hs ha, Nat.add_zero]

variable (w : Global.Wf n D) (h : RSchedule (project n D) root σ lab)
  (hR : ∀ k, ∃ ls id T, Rel n D root ls nobody (σ k).heap (σ k).pos (m k) id T)
  (hm : Mesh.Schedule (project n D) root m (mlab lab))

include h hR hm in
theorem phase_mono {r k} (hfin : Finished (m k) r) {j} (hj : k ≤ j) : phase n ((σ k).pos r) ≤ phase n ((σ j).pos r) := by
  obtain ⟨d, rfl⟩ : ∃ d, j = k + d := ⟨j - k, by omega⟩
  induction d with
  | zero => exact Nat.le_refl _
  | succ d ih =>
    refine Nat.le_trans (ih (by omega)) ?_
    obtain ⟨ls, id, T, R⟩ := hR (k + d)
    rcases h.step (k + d) with ⟨l, -, hs⟩ | ⟨-, h2⟩
    · have := phase_step R hs ((Mesh.finished_stays hm hfin (k + d) (by omega)).2)
      rw [show k + (d + 1) = k + d + 1 by omega]
      omega
    · rw [show k + (d + 1) = k + d + 1 by omega, h2]

include h hR hm in
/-- A finished role that can go on until phase `t` comes to phase `t`. -/
theorem reach_phase (hf : RFair (project n D) σ lab) {r k t} (hfin : Finished (m k) r)
    (hgo : ∀ j, k ≤ j → phase n ((σ j).pos r) < t → CanGo (project n D) (σ j) r) :
    ∃ j, k ≤ j ∧ t ≤ phase n ((σ j).pos r) := by
  by_contra hno
  have hno' : ∀ j, k ≤ j → phase n ((σ j).pos r) < t := fun j hj => by
    rcases Nat.lt_or_ge (phase n ((σ j).pos r)) t with h1 | h1
    · exact h1
    · exact absurd ⟨j, hj, h1⟩ hno
  have grow : ∀ W, ∃ j, k ≤ j ∧ W ≤ phase n ((σ j).pos r) := by
    intro W
    induction W with
    | zero => exact ⟨k, Nat.le_refl _, Nat.zero_le _⟩
    | succ W ih =>
      obtain ⟨j, hj, hW⟩ := ih
      obtain ⟨i, hi, l, h1, h2⟩ := hf r j (fun i hi => hgo i (by omega) (hno' i (by omega)))
      have hF := (Mesh.finished_stays hm hfin i (by omega)).2
      obtain ⟨ls, id, T, R⟩ := hR i
      rcases h.step i with ⟨l', h1', hs⟩ | ⟨h1', _⟩
      · rw [h1] at h1'; cases h1'
        have h3 := phase_step R hs hF
        rw [if_pos h2] at h3
        have h4 := phase_mono h hR hm (Mesh.finished_stays hm hfin j hj).2 hi
        exact ⟨i + 1, by omega, by omega⟩
      · rw [h1] at h1'; cases h1'
  obtain ⟨j, hj, h1⟩ := grow t
  have := hno' j hj
  omega

include w h hR hm in
/-- When all roles are finished, all return from `close`. -/
theorem closes (hf : RFair (project n D) σ lab) {k} (hfin : ∀ r, Part n r → Finished (m k) r) :
    ∃ j, k ≤ j ∧ AllClosed (project n D) (σ j) := by
  have stays : ∀ r, Part n r → ∀ j, k ≤ j → Finished (m j) r := fun r hr j hj => (Mesh.finished_stays hm (hfin r hr) j hj).2
  -- all signals are sent
  have h1 : ∃ J, k ≤ J ∧ ∀ r, Part n r → ∀ j, J ≤ j → n ≤ phase n ((σ j).pos r) := by
    apply Mesh.together (P := fun r J => ∀ j, J ≤ j → n ≤ phase n ((σ j).pos r))
    · intro p i j hij hp j' hj'; exact hp j' (by omega)
    · intro r hr
      obtain ⟨j, hj, ht⟩ := reach_phase h hR hm hf (t := n) (hfin r hr) (fun j hj hlt => by
        obtain ⟨ls, id, T, R⟩ := hR j
        rcases (finished_pos R hr).1 (stays r hr j hj) with ⟨sl, hp⟩ | ⟨i, sl, hp⟩ | hp <;> change (σ j).pos r = _ at hp
        · exact ⟨_, _, rfl, .closing hr.1 hr.2 hp (closing_spec w R hr rfl hp).1⟩
        · rw [hp] at hlt
          simp only [phase] at hlt
          obtain ⟨e', k', g1, g2, g3⟩ := stop_fine w R hr hp (by omega)
          exact ⟨_, _, rfl, .stop hr.1 hr.2 hp (by change i < n - 1; omega) g1 g2⟩
        · rw [hp] at hlt; simp only [phase] at hlt; omega)
      exact ⟨j, hj, fun j' hj' => Nat.le_trans ht (phase_mono h hR hm (stays r hr j hj) hj')⟩
  obtain ⟨J, hJ, hsent⟩ := h1
  have hn := w.1
  have h2 : ∃ j, J ≤ j ∧ ∀ r, Part n r → ∀ j', j ≤ j' → 2 * (n - 1) + 2 ≤ phase n ((σ j').pos r) := by
    apply Mesh.together (P := fun r J => ∀ j, J ≤ j → 2 * (n - 1) + 2 ≤ phase n ((σ j).pos r))
    · intro p i j hij hp j' hj'; exact hp j' (by omega)
    · intro r hr
      obtain ⟨j, hj, ht⟩ := reach_phase h hR hm hf (t := 2 * (n - 1) + 2) (stays r hr J hJ) (fun j hj hlt => by
        obtain ⟨ls, id, T, R⟩ := hR j
        rcases (finished_pos R hr).1 (stays r hr j (by omega)) with ⟨sl, hp⟩ | ⟨i, sl, hp⟩ | hp <;>
          change (σ j).pos r = _ at hp
        · have := hsent r hr j hj
          rw [hp] at this; simp only [phase] at this; omega
        · have hi := hsent r hr j hj
          rw [hp] at hi
          simp only [phase] at hi
          have hpos := R.posr r hr
          rw [hp] at hpos
          obtain ⟨-, -, -, -, hi2⟩ := hpos
          rcases Nat.lt_or_ge i (2 * (n - 1)) with h5 | h5
          · obtain ⟨e', g1, g2⟩ := wait_fine w R hr hp (by omega) h5
            obtain ⟨a1, a2⟩ := partner_role (isRole hr) (k := i - (n - 1) + 1) (by omega) (by omega)
            have hsentTo : sentTo (partner r (i - (n - 1) + 1)) r ((σ j).pos (partner r (i - (n - 1) + 1))) = true := by
              have hq := hsent _ (ofRole a1) j hj
              have hs := slot_range a1 (isRole hr) a2
              cases hpq : (σ j).pos (partner r (i - (n - 1) + 1)) with
              | closed => rfl
              | ending i' sl' =>
                rw [hpq] at hq; simp only [phase] at hq
                simp only [sentTo, decide_eq_true_eq]; omega
              | mesh => rw [hpq] at hq; simp only [phase] at hq; omega
              | telling => rw [hpq] at hq; simp only [phase] at hq; omega
            rw [if_pos hsentTo] at g2
            obtain ⟨k', g2, g3⟩ := g2
            exact ⟨_, _, rfl, .wait hr.1 hr.2 hp (by change n - 1 ≤ i; omega) g1 g2⟩
          · obtain ⟨k', g1, -⟩ := done_spec R hr rfl hp (by omega)
            exact ⟨_, _, rfl, .done hr.1 hr.2 hp (by change i = 2 * (n - 1); omega) g1⟩
        · rw [hp] at hlt; simp only [phase] at hlt; omega)
      exact ⟨j, hj, fun j' hj' => Nat.le_trans ht (phase_mono h hR hm (stays r hr j (by omega)) hj')⟩
  obtain ⟨j, hj, hcl⟩ := h2
  refine ⟨j, by omega, fun r hr1 hr2 => ?_⟩
  have hr : Part n r := ⟨hr1, hr2⟩
  have := hcl r hr j (Nat.le_refl _)
  obtain ⟨ls, id, T, R⟩ := hR j
  rcases (finished_pos R hr).1 (stays r hr j (by omega)) with ⟨sl, hp⟩ | ⟨i, sl, hp⟩ | hp <;> change (σ j).pos r = _ at hp
  · rw [hp] at this; simp only [phase] at this; omega
  · have hpos := R.posr r hr
    rw [hp] at hpos this
    obtain ⟨-, -, -, -, hi2⟩ := hpos
    simp only [phase] at this; omega
  · exact hp

/-- While a role does not move it stays where it is. -/
theorem stands (h : RSchedule (project n D) root σ lab) {r k j} (hj : k ≤ j) (hno : ∀ i, k ≤ i → ¬ RMoves lab r i) :
    (σ j).pos r = (σ k).pos r := by
  obtain ⟨d, rfl⟩ : ∃ d, j = k + d := ⟨j - k, by omega⟩
  induction d with
  | zero => rfl
  | succ d ih =>
    rw [← ih (by omega), show k + (d + 1) = k + d + 1 by omega]
    rcases h.step (k + d) with ⟨l, h1, hs⟩ | ⟨-, h2⟩
    · exact rstep_other hs (fun e => hno (k + d) (by omega) ⟨l, h1, e⟩)
    · rw [h2]

end

end Verif.Runtime
