import Verif.Proof.FailureClean
import Verif.Proof.RuntimeFair
import Verif.Prop.C07
/-!
# Fair schedules with failing roles
-/
namespace Verif.Runtime
open Verif.Mesh (Sys Name Sess Stack Label upd Part Global project S others mem_others Finished CanMove)
open Verif.Types (STy)
open Verif.Heap hiding upd
open Verif.Spec Verif.SendRecv
open Verif.Gen (slot_partner partner_slot slot_range partner_role slotOf_inj partner_inj)

/-- A step concerns its actor only. -/
theorem fstep_other {Y : Sys} {s l s'} (hs : FStep Y s l s') {r : Nat} (hr : l.actor ≠ some r) :
    s'.pos r = s.pos r ∧ s'.dead r = s.dead r := by
  cases hs with
  | step h1 h2 => exact ⟨rstep_other h1 hr, rfl⟩
  | @fail r' => 
    simp only [FLabel.actor, ne_eq, Option.some.injEq] at hr
    simp [upd, Ne.symm (Ne.intro hr), fun e : r = r' => hr e.symm]
  | @crash r' => 
    simp only [FLabel.actor, ne_eq, Option.some.injEq] at hr
    simp [upd, Ne.symm (Ne.intro hr), fun e : r = r' => hr e.symm]

/-- Actors are alive. -/
theorem fstep_live {Y : Sys} {s l s'} (hs : FStep Y s l s') {r : Nat} (hr : l.actor = some r) :
    s.dead r = false ∧ 1 ≤ r ∧ r ≤ Y.n := by
  cases hs with
  | step h1 h2 =>
    refine ⟨h2 r hr, ?_⟩
    cases h1 <;> simp only [FLabel.actor, RLabel.actor, Label.actor, Option.some.injEq, reduceCtorEq] at hr <;> subst hr <;>
      exact ⟨by assumption, by assumption⟩
  | fail h1 h2 h3 => cases hr; exact ⟨h3, h1, h2⟩
  | crash h1 h2 h3 => cases hr; exact ⟨h3, h1, h2⟩

/-- The failed stay failed. -/
theorem fstep_dead {Y : Sys} {s l s'} (hs : FStep Y s l s') {r : Nat} (hr : s.dead r = true) :
    s'.dead r = true ∧ s'.pos r = s.pos r := by
  have : l.actor ≠ some r := fun e => by have := (fstep_live hs e).1; rw [hr] at this; cases this
  obtain ⟨h1, h2⟩ := fstep_other hs this
  exact ⟨h2.trans hr, h1⟩

/-- The steps of the protocol in a schedule. -/
def fmlab (lab : Nat → Option FLabel) (k : Nat) : Option Label :=
  match lab k with
  | some (.step (.sim x)) => some x
  | _ => none

/-- The queues of the protocol and the session numbers, for the whole schedule. -/
structure Film (n : Nat) (D : Global) (root : Name) (σ : Nat → FS) (lab : Nat → Option FLabel) (m : Nat → S) (id : Nat → Ids)
    (T : Nat → Nat) : Prop where
  rel : ∀ k, ∃ ls, Rel n D root ls (σ k).dead (σ k).heap (σ k).pos (m k) (id k) (T k)
  sched : Mesh.Schedule (project n D) root m (fmlab lab)
  grows : ∀ k, Grows (T k) (id k) (T (k + 1)) (id (k + 1))

section
variable {n : Nat} {D : Global} {root : Name} {σ : Nat → FS} {lab : Nat → Option FLabel}

theorem film (w : Global.Wf n D) (h : FSchedule (project n D) root σ lab) : ∃ m id T, Film n D root σ lab m id T := by
  classical
  have next : ∀ k (x : S × Ids × Nat), (∃ ls, Rel n D root ls (σ k).dead (σ k).heap (σ k).pos x.1 x.2.1 x.2.2) →
      ∃ y : S × Ids × Nat, (∃ ls, Rel n D root ls (σ (k + 1)).dead (σ (k + 1)).heap (σ (k + 1)).pos y.1 y.2.1 y.2.2) ∧
        ((∃ l, fmlab lab k = some l ∧ Mesh.Step (project n D) x.1 l y.1) ∨ (fmlab lab k = none ∧ y.1 = x.1)) ∧
        Grows x.2.2 x.2.1 y.2.2 y.2.1 := by
    rintro k ⟨s, id, T⟩ ⟨ls, R⟩
    rcases h.step k with ⟨l, h1, h2⟩ | ⟨h1, h2⟩
    · obtain ⟨s', id', T', gr, h3⟩ := fsim_step w R h2
      refine ⟨⟨s', id', T'⟩, ?_⟩
      split at h3
      · rename_i x
        exact ⟨⟨_, h3.2⟩, .inl ⟨x, by simp [fmlab, h1], h3.1⟩, gr⟩
      · rename_i hno
        refine ⟨⟨_, h3.2⟩, .inr ⟨?_, h3.1⟩, gr⟩
        unfold fmlab; rw [h1]
        split
        · rename_i e; cases e; exact absurd rfl (hno _)
        · rfl
    · exact ⟨⟨s, id, T⟩, ⟨ls, by rw [h2]; exact R⟩, .inr ⟨by simp [fmlab, h1], rfl⟩, .same⟩
  have hn : 1 ≤ n := by have := w.1; omega
  have h0 : ∃ x : S × Ids × Nat, x.1 = .init (project n D) root ∧
      ∃ ls, Rel n D root ls (σ 0).dead (σ 0).heap (σ 0).pos x.1 x.2.1 x.2.2 := by
    have h1 := start_spec hn h.start.1
    rw [← h.start.2] at h1
    exact ⟨⟨_, _, _⟩, rfl, _, h1⟩
  let f : (k : Nat) → { x : S × Ids × Nat // ∃ ls, Rel n D root ls (σ k).dead (σ k).heap (σ k).pos x.1 x.2.1 x.2.2 } := fun k =>
    Nat.rec (motive := fun k => { x : S × Ids × Nat // ∃ ls, Rel n D root ls (σ k).dead (σ k).heap (σ k).pos x.1 x.2.1 x.2.2 })
      ⟨h0.choose, h0.choose_spec.2⟩
      (fun k s => ⟨(next k s.1 s.2).choose, (next k s.1 s.2).choose_spec.1⟩) k
  exact ⟨fun k => (f k).1.1, fun k => (f k).1.2.1, fun k => (f k).1.2.2, fun k => (f k).2,
    ⟨h0.choose_spec.1, fun k => (next k (f k).1 (f k).2).choose_spec.2.1⟩,
    fun k => (next k (f k).1 (f k).2).choose_spec.2.2⟩

/-- The states of a schedule are those of runs. -/
theorem fsched_run {Y : Sys} (h : FSchedule Y root σ lab) (k : Nat) : ∃ ls, FRun Y root ls (σ k) := by
  induction k with
  | zero =>
    have h1 := h.start.2
    have h2 := FRun.start h.start.1
    rw [← h1] at h2
    exact ⟨_, h2⟩
  | succ k ih =>
    obtain ⟨ls, hr⟩ := ih
    rcases h.step k with ⟨l, -, hs⟩ | ⟨-, e⟩
    · exact ⟨_, .snoc hr hs⟩
    · rw [e]; exact ⟨ls, hr⟩

theorem fstep_closed {Y : Sys} {s l s'} (hs : FStep Y s l s') {r : Nat} (hr : s.pos r = .closed) : s'.pos r = .closed := by
  by_cases h : l.actor = some r
  · cases hs with
    | step h1 h2 =>
      cases h1 <;> simp only [FLabel.actor, RLabel.actor, Mesh.Label.actor, Option.some.injEq, reduceCtorEq] at h <;>
        subst h <;> simp_all
    | fail => exact hr
    | crash => exact hr
  · rw [(fstep_other hs h).1]; exact hr

theorem closed_stays {Y : Sys} (h : FSchedule Y root σ lab) {r k j} (hj : k ≤ j) (hc : (σ k).pos r = .closed) :
    (σ j).pos r = .closed := by
  induction hj with
  | refl => exact hc
  | step _ ih =>
    rcases h.step _ with ⟨l, -, hs⟩ | ⟨-, e⟩
    · exact fstep_closed hs ih
    · rw [e]; exact ih

/-- The failed stay failed. -/
theorem dead_stays (h : FSchedule (project n D) root σ lab) {r k j} (hj : k ≤ j) (hd : (σ k).dead r = true) :
    (σ j).dead r = true ∧ (σ j).pos r = (σ k).pos r := by
  obtain ⟨d, rfl⟩ : ∃ d, j = k + d := ⟨j - k, by omega⟩
  induction d with
  | zero => exact ⟨hd, rfl⟩
  | succ d ih =>
    obtain ⟨h1, h2⟩ := ih (by omega)
    rw [show k + (d + 1) = k + d + 1 by omega]
    rcases h.step (k + d) with ⟨l, -, hs⟩ | ⟨-, h3⟩
    · obtain ⟨h4, h5⟩ := fstep_dead hs h1
      exact ⟨h4, h5.trans h2⟩
    · rw [h3]; exact ⟨h1, h2⟩

theorem dead_still (h : FSchedule (project n D) root σ lab) {r k j} (hj : k ≤ j) (hd : (σ k).dead r = true) :
    ¬ FMoves lab r j := by
  rintro ⟨l, h1, h2⟩
  rcases h.step j with ⟨l', h1', hs⟩ | ⟨h1', _⟩
  · rw [h1] at h1'; cases h1'
    have := (fstep_live hs h2).1
    rw [(dead_stays h hj hd).1] at this; cases this
  · rw [h1] at h1'; cases h1'

/-- While a role does not move it stays where it is. -/
theorem fstands (h : FSchedule (project n D) root σ lab) {r k j} (hj : k ≤ j) (hno : ∀ i, k ≤ i → ¬ FMoves lab r i) :
    (σ j).pos r = (σ k).pos r ∧ (σ j).dead r = (σ k).dead r := by
  obtain ⟨d, rfl⟩ : ∃ d, j = k + d := ⟨j - k, by omega⟩
  induction d with
  | zero => exact ⟨rfl, rfl⟩
  | succ d ih =>
    obtain ⟨h1, h2⟩ := ih (by omega)
    rw [← h1, ← h2, show k + (d + 1) = k + d + 1 by omega]
    rcases h.step (k + d) with ⟨l, h3, hs⟩ | ⟨-, h3⟩
    · exact fstep_other hs (fun e => hno (k + d) (by omega) ⟨l, h3, e⟩)
    · rw [h3]; exact ⟨rfl, rfl⟩

/-- `close` only goes forward. -/
theorem fphase_step {s l s'} (hs : FStep (project n D) s l s') (r : Nat) :
    phase n (s.pos r) ≤ phase n (s'.pos r) ∧
      (l.actor = some r → (∀ x, l ≠ .step (.sim x)) → s'.dead r = true ∨ phase n (s.pos r) < phase n (s'.pos r)) := by
  by_cases ha : l.actor = some r
  · cases hs with
    | @step l t h1 h2 =>
      cases h1 with
      | closing h1 h2 h3 => cases ha; simp [upd, h3, phase]
      | stop h1 h2 h3 => cases ha; simp [upd, h3, phase]
      | wait h1 h2 h3 => cases ha; simp [upd, h3, phase]
      | done h1 h2 h3 h4 => cases ha; change _ = 2 * (n - 1) at h4; simp [upd, h3, phase, h4]
      | gc => cases ha
      | _ =>
        simp only [FLabel.actor, RLabel.actor, Label.actor, Option.some.injEq] at ha
        subst ha
        refine ⟨?_, fun _ hx => absurd rfl (hx _)⟩
        simp_all [phase, upd]
    | fail => cases ha; simp [upd]
    | crash => cases ha; simp [upd]
  · rw [(fstep_other hs ha).1]
    exact ⟨Nat.le_refl _, fun h => absurd h ha⟩

theorem phase_le {ls dead h pos s id T} (R : Rel n D root ls dead h pos s id T) {r} (hr : Part n r) :
    phase n (pos r) ≤ 2 * (n - 1) + 2 := by
  have hpos := R.posr r hr
  cases hp : pos r with
  | ending i sl =>
    rw [hp] at hpos
    obtain ⟨-, -, -, -, h1⟩ := hpos
    simp only [phase]; omega
  | _ => simp [phase]

variable {m : Nat → S} {id : Nat → Ids} {T : Nat → Nat}

/-- A role that takes finitely many steps of the protocol takes finitely many steps. -/
theorem fquiet (h : FSchedule (project n D) root σ lab) (F : Film n D root σ lab m id T) {r} (hr : Part n r) {k}
    (hq : ∀ i, k ≤ i → ¬ Mesh.Moves (fmlab lab) r i) : ∃ j, k ≤ j ∧ ∀ i, j ≤ i → ¬ FMoves lab r i := by
  by_contra hno
  have again : ∀ d, k ≤ d → ∃ i, d ≤ i ∧ FMoves lab r i := fun d hd => by
    by_contra hx
    exact hno ⟨d, hd, fun i hi hm => hx ⟨i, hi, hm⟩⟩
  have alive : ∀ j, (σ j).dead r = false := fun j => by
    cases hd : (σ j).dead r with
    | false => rfl
    | true =>
      obtain ⟨i, hi, hm⟩ := again (max j k) (by omega)
      exact absurd hm (dead_still h (by omega) hd)
  have mono : ∀ j d, phase n ((σ j).pos r) ≤ phase n ((σ (j + d)).pos r) := by
    intro j d
    induction d with
    | zero => exact Nat.le_refl _
    | succ d ih =>
      refine Nat.le_trans ih ?_
      rw [show j + (d + 1) = j + d + 1 by omega]
      rcases h.step (j + d) with ⟨l, -, hs⟩ | ⟨-, h2⟩
      · exact (fphase_step hs r).1
      · rw [h2]
  have grow : ∀ W, ∃ j, k ≤ j ∧ W ≤ phase n ((σ j).pos r) := by
    intro W
    induction W with
    | zero => exact ⟨k, Nat.le_refl _, Nat.zero_le _⟩
    | succ W ih =>
      obtain ⟨j, hj, hW⟩ := ih
      obtain ⟨i, hi, l, h1, h2⟩ := again j hj
      have h3 := mono j (i - j)
      rw [show j + (i - j) = i by omega] at h3
      rcases h.step i with ⟨l', h1', hs⟩ | ⟨h1', _⟩
      · rw [h1] at h1'; cases h1'
        rcases (fphase_step hs r).2 h2 (fun x hx => by
          subst hx
          exact hq i (by omega) ⟨x, by simp [fmlab, h1], by simpa [FLabel.actor, RLabel.actor] using h2⟩) with h4 | h4
        · rw [alive] at h4; cases h4
        · exact ⟨i + 1, by omega, by omega⟩
      · rw [h1] at h1'; cases h1'
  obtain ⟨j, -, h1⟩ := grow (2 * (n - 1) + 3)
  obtain ⟨ls, R⟩ := F.rel j
  have := phase_le R hr
  omega

/-- When nobody moves any more, the drops come to an end too. -/
theorem drained (h : FSchedule (project n D) root σ lab) (F : Film n D root σ lab m id T)
    (hf : ∀ k t, t ∈ (σ k).heap.garb → ∃ j, k ≤ j ∧ t ∉ (σ j).heap.garb) {k} (hq : ∀ r, Part n r → ∀ i, k ≤ i → ¬ FMoves lab r i) :
    ∃ j, k ≤ j ∧ (σ j).heap.garb = [] ∧ ∀ i, j ≤ i → σ i = σ j := by
  -- only drops are carried out
  have hstep : ∀ i, k ≤ i → (∃ g o, Heap.step (env (project n D)) (σ i).heap (.gc g) = some ((σ (i + 1)).heap, o)) ∨
      σ (i + 1) = σ i := by
    intro i hi
    rcases h.step i with ⟨l, h1, hs⟩ | ⟨-, h2⟩
    · cases ha : l.actor with
      | some r =>
        obtain ⟨-, a, b⟩ := fstep_live hs ha
        exact absurd ⟨l, h1, ha⟩ (hq r ⟨a, b⟩ i hi)
      | none =>
        left
        generalize σ (i + 1) = s' at hs
        clear h1
        cases hs with
        | step h1 h2 =>
          cases h1 <;> simp only [FLabel.actor, RLabel.actor, reduceCtorEq] at ha
          exact ⟨_, _, by assumption⟩
        | fail => cases ha
        | crash => cases ha
    · exact .inr h2
  -- there are finitely many
  have fin : ∀ L, ∀ i, k ≤ i → Prop.loose (σ i).heap ≤ L → ∃ j, i ≤ j ∧ ∀ i', j ≤ i' → σ i' = σ j := by
    intro L
    induction L with
    | zero =>
      intro i hi hL
      refine ⟨i, Nat.le_refl _, fun i' hi' => ?_⟩
      obtain ⟨d, rfl⟩ : ∃ d, i' = i + d := ⟨i' - i, by omega⟩
      induction d with
      | zero => rfl
      | succ d ih =>
        have e := ih (by omega)
        rcases hstep (i + d) (by omega) with ⟨g, o, hs⟩ | h2
        · obtain ⟨ls, R⟩ := F.rel (i + d)
          have := Prop.gc_loose (reach_inv R.reach) hs
          rw [e] at this; omega
        · rw [show i + (d + 1) = i + d + 1 by omega, h2, e]
    | succ L ih =>
      intro i hi hL
      by_cases hex : ∃ d, σ (i + d) ≠ σ i
      · -- the first change
        have : ∃ d, σ (i + d) = σ i ∧ σ (i + d + 1) ≠ σ i := by
          by_contra hno
          obtain ⟨d, hd⟩ := hex
          apply hd
          clear hd
          induction d with
          | zero => rfl
          | succ d ihd =>
            by_contra hx
            exact hno ⟨d, ihd, hx⟩
        obtain ⟨d, h1, h2⟩ := this
        rcases hstep (i + d) (by omega) with ⟨g, o, hs⟩ | h3
        · obtain ⟨ls, R⟩ := F.rel (i + d)
          have := Prop.gc_loose (reach_inv R.reach) hs
          rw [h1] at this
          obtain ⟨j, hj, hc⟩ := ih (i + d + 1) (by omega) (by omega)
          exact ⟨j, by omega, hc⟩
        · exact absurd (h3.trans h1) h2
      · refine ⟨i, Nat.le_refl _, fun i' hi' => ?_⟩
        obtain ⟨d, rfl⟩ : ∃ d, i' = i + d := ⟨i' - i, by omega⟩
        by_contra hx
        exact hex ⟨d, hx⟩
  obtain ⟨j, hj, hc⟩ := fin _ k (Nat.le_refl _) (Nat.le_refl _)
  refine ⟨j, hj, ?_, hc⟩
  cases hg : (σ j).heap.garb with
  | nil => rfl
  | cons t ts =>
    obtain ⟨i, hi, hn⟩ := hf j t (by rw [hg]; simp)
    rw [hc i hi, hg] at hn
    exact absurd (by simp) hn

/-- With a terminating protocol there is a moment after which nobody moves. -/
theorem fstop (w : Global.Wf n D) (h : FSchedule (project n D) root σ lab) (F : Film n D root σ lab m id T)
    (hacc : Acc (fun N' N => ∃ p bs, (D N).tail = .choice p bs ∧ N' ∈ bs) root) :
    ∃ k, ∀ r, Part n r → ∀ i, k ≤ i → ¬ FMoves lab r i := by
  obtain ⟨G, hG⟩ := Mesh.ghosts w F.sched
  obtain ⟨k, hk⟩ := Mesh.topped hG hacc
  obtain ⟨k2, -, hk2⟩ := Mesh.together (n := n) (k := k) (P := fun r j => ∀ i, j ≤ i → ¬ FMoves lab r i)
    (fun p i j hij hp i' hi' => hp i' (by omega)) (fun p hp => by
      obtain ⟨j, hj, hq⟩ := Mesh.quiet F.sched hG hk hp
      obtain ⟨i, hi, hx⟩ := fquiet h F hp hq
      exact ⟨i, by omega, hx⟩)
  exact ⟨k2, hk2⟩

/-- With a terminating protocol everything comes to an end. -/
theorem fterminates (w : Global.Wf n D) (h : FSchedule (project n D) root σ lab) (hf : FFair (project n D) σ lab)
    (hacc : Acc (fun N' N => ∃ p bs, (D N).tail = .choice p bs ∧ N' ∈ bs) root) :
    ∃ j, Over (project n D) (σ j) ∧ (σ j).heap.garb = [] ∧ ∀ i, j ≤ i → σ i = σ j := by
  obtain ⟨m, id, T, F⟩ := film w h
  obtain ⟨k2, hk2⟩ := fstop w h F hacc
  obtain ⟨j, hj, hg, hc⟩ := drained h F hf.drops hk2
  refine ⟨j, ?_, hg, hc⟩
  intro r h1 h2
  cases hd : (σ j).dead r with
  | true => exact .inl rfl
  | false =>
    right
    by_contra hnc
    obtain ⟨ls, R⟩ := F.rel j
    obtain ⟨x, hx, hgo⟩ := fprogress w R hg ⟨h1, h2⟩ hd hnc
    obtain ⟨i, hi, hm⟩ := hf.roles x j (fun i hi => by rw [hc i hi]; exact hgo)
    exact hk2 x hx i (by omega) hm

end

end Verif.Runtime
