import Verif.Proof.FailureFair
/-!
# No living role waits forever
-/
namespace Verif.Runtime
open Verif.Mesh (Sys Name Sess Stack Label upd Part Global project S others mem_others Finished CanMove Ghost)
open Verif.Heap hiding upd
open Verif.Spec Verif.SendRecv
open Verif.Gen (slot_partner partner_slot slot_range partner_role slotOf_inj partner_inj)

theorem dropAll_steps {Y : Sys} : ∀ {es : List (Entry Pay)} {h h'}, dropAll Y h es = some h' → Steps (env Y) h h'
  | [], h, h', e => by cases e; exact .refl _
  | x :: es, h, h', e => by
    unfold dropAll at e
    split at e
    · cases e
    · rename_i h1 _ hs
      exact steps_trans (.step (.refl _) hs) (dropAll_steps e)

theorem news_steps {Y : Sys} {N : Name} : ∀ (ss : List Gen.Stmt) (h : Heap.St Pay), Steps (env Y) h (news Y N h ss).1
  | [], h => by unfold news; exact .refl _
  | x :: ss, h => by
    unfold news
    split
    · exact .refl _
    · rename_i heq
      cases heq
      split
      · exact .refl _
      · rename_i h1 _ hs
        split
        · exact steps_trans (.step (.refl _) hs) (news_steps _ h1)
        · exact .step (.refl _) hs
    · rename_i heq
      cases heq
      exact news_steps _ _

/-- A step of the programs is a sequence of calls. -/
theorem fstep_steps {Y : Sys} {s l s'} (hs : FStep Y s l s') : Steps (env Y) s.heap s'.heap := by
  cases hs with
  | step h1 h2 =>
    cases h1 with
    | send _ _ _ _ _ h => exact .step (.refl _) h
    | recv _ _ _ _ _ h => exact .step (.refl _) h
    | @decide r sl N body g h' l _ _ _ _ _ _ _ _ _ h =>
      have := news_steps (Y := Y) (N := N) body s.heap
      rw [h] at this; exact this
    | tell _ _ _ _ h _ h' => exact .step (.step (.refl _) h) h'
    | enter => exact .refl _
    | heed _ _ _ _ _ h _ _ _ h' => exact steps_trans (.step (.refl _) h) (dropAll_steps h')
    | closing => exact .refl _
    | stop _ _ _ _ _ h => exact .step (.refl _) h
    | wait _ _ _ _ _ h => exact .step (.refl _) h
    | done _ _ _ _ h => exact dropAll_steps h
    | gc h => exact .step (.refl _) h
  | fail _ _ _ _ h h' => exact steps_trans (.step (.refl _) h) (dropAll_steps h')
  | crash _ _ _ _ h => exact dropAll_steps h

section
variable {n : Nat} {D : Global} {root : Name} {σ : Nat → FS} {lab : Nat → Option FLabel} {m : Nat → S} {id : Nat → Ids} {T : Nat → Nat}
  {G : Nat → Ghost}

theorem fsched_steps {Y : Sys} (h : FSchedule Y root σ lab) (k : Nat) : Steps (env Y) (σ k).heap (σ (k + 1)).heap := by
  rcases h.step k with ⟨l, -, hs⟩ | ⟨-, e⟩
  · exact fstep_steps hs
  · rw [e]; exact .refl _

theorem moves_fmoves {r i} (hm : Mesh.Moves (fmlab lab) r i) : FMoves lab r i := by
  obtain ⟨l, h1, h2⟩ := hm
  unfold fmlab at h1
  split at h1
  · rename_i x hx
    cases h1
    exact ⟨_, hx, by simp [FLabel.actor, RLabel.actor, h2]⟩
  · cases h1

/-- Before the end a role that moves and does not fail follows the protocol. -/
theorem fmoves_sim (h : FSchedule (project n D) root σ lab) (F : Film n D root σ lab m id T) {r i} (hr : Part n r)
    (hm : FMoves lab r i) (hd : (σ (i + 1)).dead r = false) (hf : ¬ Finished (m i) r) : Mesh.Moves (fmlab lab) r i := by
  obtain ⟨l, h1, h2⟩ := hm
  rcases h.step i with ⟨l', h1', hs⟩ | ⟨h1', _⟩
  · rw [h1] at h1'; cases h1'
    obtain ⟨ls, R⟩ := F.rel i
    have hpos := R.posr r hr
    have hend : ∀ a sl, (σ i).pos r ≠ .ending a sl := by
      intro a sl e
      rw [e] at hpos
      obtain ⟨M, h3, h4, -⟩ := hpos
      exact hf ⟨M, h3, h4⟩
    have hfin : ∀ sl, (σ i).pos r ≠ .mesh sl .fin := by
      intro sl e
      rw [e] at hpos
      obtain ⟨M, h3, h4, -⟩ := hpos
      exact hf ⟨M, h3, h4.symm⟩
    have key : ∀ x, l = .step (.sim x) → Mesh.Moves (fmlab lab) r i := by
      rintro x rfl
      exact ⟨x, by simp [fmlab, h1], by simpa [FLabel.actor, RLabel.actor] using h2⟩
    generalize σ (i + 1) = t at hs hd
    clear h1
    cases hs with
    | step g1 g2 =>
      cases g1 <;> simp only [FLabel.actor, RLabel.actor, Option.some.injEq, reduceCtorEq] at h2 <;>
        first
        | exact key _ rfl
        | (subst h2; exact absurd (by assumption) (hend _ _))
        | (subst h2; exact absurd (by assumption) (hfin _))
    | fail => simp only [FLabel.actor, Option.some.injEq] at h2; subst h2; simp [upd] at hd
    | crash => simp only [FLabel.actor, Option.some.injEq] at h2; subst h2; simp [upd] at hd
  · rw [h1] at h1'; cases h1'

theorem live_before (h : FSchedule (project n D) root σ lab) {r k j} (hj : k ≤ j) (hd : (σ j).dead r = false) :
    (σ k).dead r = false := by
  cases hx : (σ k).dead r with
  | false => rfl
  | true => rw [(dead_stays h hj hx).1] at hd; cases hd

/-- Role `x` is sending the meshes of one of the first `g` choices. -/
def Tells (σ : Nat → FS) (m : Nat → S) (g x i : Nat) : Prop :=
  (σ i).dead x = false ∧ (m i).gen x + 1 ≤ g ∧ ∃ N todo old ow, (σ i).pos x = .telling N todo old ow

/-- Telling comes to an end. -/
theorem untold (w : Global.Wf n D) (h : FSchedule (project n D) root σ lab) (F : Film n D root σ lab m id T)
    (hf : FFair (project n D) σ lab)
    (hG : ∀ k, (∃ ls, Mesh.Inv n D root (G k) ls (m k)) ∧ Mesh.Link n D m (fmlab lab) k (G k) (G (k + 1))) {x} (hx : Part n x)
    {g k} (hg : g ≤ (G k).top) : ∃ j, k ≤ j ∧ ∀ i, j ≤ i → ¬ Tells σ m g x i := by
  by_contra hcon
  have hinf : ∀ j, k ≤ j → ∃ i, j ≤ i ∧ Tells σ m g x i := fun j hj => by
    by_contra hno
    exact hcon ⟨j, hj, fun i hi ht => hno ⟨i, hi, ht⟩⟩
  have live : ∀ i, (σ i).dead x = false := fun i => by
    obtain ⟨j, h1, h2⟩ := hinf (max i k) (by omega)
    exact live_before h (by omega : i ≤ j) h2.1
  have again : ∀ j, k ≤ j → ∃ i, j ≤ i ∧ Mesh.Moves (fmlab lab) x i := by
    intro j hj
    obtain ⟨i, h1, h2, h3, N, todo, old, ow, h4⟩ := hinf j hj
    by_contra hno
    have hno' : ∀ e, i ≤ e → ¬ Mesh.Moves (fmlab lab) x e := fun e he hm => hno ⟨e, by omega, hm⟩
    have tell : ∀ e, i ≤ e → ∃ N todo old ow, (σ e).pos x = .telling N todo old ow := by
      intro e he
      obtain ⟨d, rfl⟩ : ∃ d, e = i + d := ⟨e - i, by omega⟩
      have st := (Mesh.stay F.sched hG hx (k := i) d (fun a ha _ => hno' a ha)).1
      obtain ⟨ls, R⟩ := F.rel i
      have hpos := R.posr x hx
      rw [h4] at hpos
      obtain ⟨ls', R'⟩ := F.rel (i + d)
      have hpos' := R'.posr x hx
      rw [hpos.1] at st
      cases hp : (σ (i + d)).pos x with
      | telling N todo old ow => exact ⟨_, _, _, _, rfl⟩
      | mesh sl k => rw [hp] at hpos'; obtain ⟨M, h5, -⟩ := hpos'; rw [st] at h5; cases h5
      | ending a sl => rw [hp] at hpos'; obtain ⟨M, h5, -⟩ := hpos'; rw [st] at h5; cases h5
      | closed => rw [hp] at hpos'; obtain ⟨M, h5, -⟩ := hpos'; rw [st] at h5; cases h5
    obtain ⟨e, he, hm⟩ := hf.roles x i (fun e he => by
      obtain ⟨ls, R⟩ := F.rel e
      obtain ⟨N, todo, old, ow, hp⟩ := tell e he
      rcases fnext w R hx (live e) with h5 | h5 | ⟨-, -, q, c, h5, -⟩
      · rw [hp] at h5; cases h5
      · exact h5
      · rw [hp] at h5; cases h5)
    refine hno' e he (fmoves_sim h F hx hm (live _) ?_)
    rintro ⟨M, h5, -⟩
    obtain ⟨N, todo, old, ow, hp⟩ := tell e he
    obtain ⟨ls, R⟩ := F.rel e
    have hpos := R.posr x hx
    rw [hp] at hpos
    rw [hpos.1] at h5; cases h5
  obtain ⟨j, h1, h2⟩ := Mesh.busy F.sched hG hx again (Mesh.base D (G k).path (g + 1) * (n + 2) + (n + 1) + 1)
  obtain ⟨i, h3, -, h4, N, todo, old, ow, h5⟩ := hinf j h1
  have h6 := Mesh.work_mono F.sched hG hx h3
  obtain ⟨ls, R⟩ := F.rel i
  have hpos := R.posr x hx
  rw [h5] at hpos
  obtain ⟨ls', hI⟩ := (hG i).1
  obtain ⟨t1, t2, -⟩ := hI.tell x hx _ _ hpos.1
  have hpath : Mesh.base D (G i).path (g + 1) = Mesh.base D (G k).path (g + 1) := by
    obtain ⟨d, rfl⟩ : ∃ d, i = k + d := ⟨i - k, by omega⟩
    exact Mesh.base_congr fun y hy => (Mesh.paths hG k d).2 y (by omega)
  have h7 : Mesh.base D (G i).path ((G i).gst x) ≤ Mesh.base D (G i).path (g + 1) := Mesh.base_mono (by omega)
  have h8 := Nat.mul_le_mul_right (n + 2) (hpath ▸ h7)
  have h9 := Mesh.sub_le n ((m i).pos x)
  simp only [Mesh.work, t2, Nat.add_zero] at h6 h2
  omega

/-- Nobody waits forever for a role that has failed. -/
theorem dead_frees (w : Global.Wf n D) (h : FSchedule (project n D) root σ lab) (F : Film n D root σ lab m id T)
    (hf : FFair (project n D) σ lab)
    (hG : ∀ k, (∃ ls, Mesh.Inv n D root (G k) ls (m k)) ∧ Mesh.Link n D m (fmlab lab) k (G k) (G (k + 1))) {r} (hr : Part n r) {k}
    (hd : (σ k).dead r = false) (hc : (σ k).pos r ≠ .closed) (hno : ∀ i, k ≤ i → ¬ FMoves lab r i) {q c}
    (ha : awaiting n r ((σ k).pos r) = some (q, c)) (hq : (σ k).dead q = true) : False := by
  have hgk : (m k).gen r ≤ (G k).top := by
    obtain ⟨ls, hI⟩ := (hG k).1
    have := hI.le r hr
    cases hp : (m k).pos r with
    | mesh M => have := (hI.mesh r hr M hp).1; omega
    | telling N rest => have := (hI.tell r hr N rest hp).1; omega
  obtain ⟨j, hj, hun⟩ := Mesh.together (n := n) (k := k) (P := fun x j => ∀ i, j ≤ i → ¬ Tells σ m ((m k).gen r) x i)
    (fun p a b hab hp i hi => hp i (by omega)) (fun x hx => untold w h F hf hG hx hgk)
  -- a moment after which `r` can go on, for ever
  have step : ∀ i, j ≤ i → FGo (project n D) (σ i) r ∨ (((σ i).heap.chan c).tx = true ∧ Adrift (σ i).heap (.tx c)) := by
    intro i hi
    obtain ⟨e1, e2⟩ := fstands h (by omega : k ≤ i) hno
    obtain ⟨ls, R⟩ := F.rel i
    rcases fnext w R hr (by rw [e2]; exact hd) with h1 | h1 | ⟨-, -, q', c', h1, h2, -, -, h3, -⟩
    · exact absurd (e1 ▸ h1) hc
    · exact .inl h1
    · rw [e1, ha] at h1
      cases h1
      refine .inr ⟨h2, h3.resolve_left ?_⟩
      have hgen : (m i).gen r = (m k).gen r := by
        obtain ⟨d, rfl⟩ : ∃ d, i = k + d := ⟨i - k, by omega⟩
        exact (Mesh.stay F.sched hG hr (k := k) d (fun a ha _ hm => hno a ha (moves_fmoves hm))).2.1
      rintro (⟨h4, -⟩ | ⟨x, N, todo, old, ow, hx, h4, h5, h6, -⟩)
      · rw [(dead_stays h (by omega : k ≤ i) hq).1] at h4; cases h4
      · exact hun x hx i hi ⟨h4, by rw [← hgen]; exact h6, N, todo, old, ow, h5⟩
  have inv : ∀ i, Heap.Inv (env (project n D)) (σ i).heap := fun i => by
    obtain ⟨ls, R⟩ := F.rel i
    exact reach_inv R.reach
  obtain ⟨a, ha1, ha2⟩ : ∃ a, k ≤ a ∧ ∀ i, a ≤ i → FGo (project n D) (σ i) r := by
    by_cases hall : ∀ i, j ≤ i → FGo (project n D) (σ i) r
    · exact ⟨j, hj, hall⟩
    · obtain ⟨i, hi, hg⟩ : ∃ i, j ≤ i ∧ ¬ FGo (project n D) (σ i) r := by
        by_contra hx
        exact hall fun i hi => by
          by_contra hg
          exact hx ⟨i, hi, hg⟩
      obtain ⟨b, hb1, hb2⟩ := doomed_dropped (H := fun i => (σ i).heap) inv (fsched_steps h) hf.drops ((step i hi).resolve_left hg).2
      refine ⟨b, by omega, fun e he => (step e (by omega)).resolve_right fun hx => ?_⟩
      have := ((hb2 e he).1 c rfl).2
      rw [hx.1] at this; cases this
  obtain ⟨e, he, hm⟩ := hf.roles r a ha2
  exact hno e (by omega) hm

/-- If a role stands still, somewhere down the line it waits. -/
theorem stuck_waits (w : Global.Wf n D) (h : FSchedule (project n D) root σ lab) (F : Film n D root σ lab m id T)
    (hf : FFair (project n D) σ lab) {r} (hr : Part n r) {k} (hd : (σ k).dead r = false) (hc : (σ k).pos r ≠ .closed)
    (hno : ∀ i, k ≤ i → ¬ FMoves lab r i) (j : Nat) (hj : k ≤ j) : ∃ i, j ≤ i ∧
      ∃ q c, awaiting n r ((σ i).pos r) = some (q, c) ∧ Part n q ∧ q ≠ r ∧
        ((∃ sl k, (σ i).pos r = .mesh sl (.role q k)) ∨ (Finished (m i) r ∧ sentTo q r ((σ i).pos q) = false)) := by
  by_contra hx
  obtain ⟨e, he, hm⟩ := hf.roles r j (fun i hi => by
    obtain ⟨e1, e2⟩ := fstands h (by omega : k ≤ i) hno
    obtain ⟨ls, R⟩ := F.rel i
    rcases fnext w R hr (by rw [e2]; exact hd) with h1 | h1 | ⟨-, -, q, c, h1, -, h2, h3, -, h4⟩
    · exact absurd (e1 ▸ h1) hc
    · exact h1
    · exact absurd ⟨i, hi, q, c, h1, h2, h3, h4⟩ hx)
  exact hno e (by omega) hm

/-- Nobody stands still before the end of its part. -/
theorem fmoves (w : Global.Wf n D) (h : FSchedule (project n D) root σ lab) (F : Film n D root σ lab m id T)
    (hf : FFair (project n D) σ lab)
    (hG : ∀ k, (∃ ls, Mesh.Inv n D root (G k) ls (m k)) ∧ Mesh.Link n D m (fmlab lab) k (G k) (G (k + 1))) {r} (hr : Part n r) {k}
    (hd : (σ k).dead r = false) (hfin : ¬ Finished (m k) r) : ∃ j, k ≤ j ∧ FMoves lab r j := by
  induction hA : Mesh.ahead D (G k) r using Nat.strongRecOn generalizing r k with
  | _ A ih =>
    by_contra hcon
    have hno : ∀ j, k ≤ j → ¬ FMoves lab r j := fun j hj hm => hcon ⟨j, hj, hm⟩
    have st := fun d => Mesh.stay F.sched hG hr (k := k) d (fun i h1 _ hm => hno i h1 (moves_fmoves hm))
    have live : ∀ j, k ≤ j → (σ j).dead r = false := fun j hj => by rw [(fstands h hj hno).2]; exact hd
    obtain ⟨ls0, hI0⟩ := (hG k).1
    have hle0 := hI0.le r hr
    have hA' : ∀ d, Mesh.ahead D (G (k + d)) r = A := by
      intro d
      obtain ⟨_, _, a3, a4, a5, _, _⟩ := st d
      rw [← hA]
      exact Mesh.ahead_congr a3 a4 (fun x hx => a5 x (by omega))
    have hfin' : ∀ d, ¬ Finished (m (k + d)) r := by
      intro d hx
      apply hfin
      unfold Finished at *
      rwa [(st d).1] at hx
    have hncl : ∀ j, k ≤ j → (σ j).pos r ≠ .closed := by
      intro j hj hx
      obtain ⟨d, rfl⟩ : ∃ d, j = k + d := ⟨j - k, by omega⟩
      obtain ⟨ls, R⟩ := F.rel (k + d)
      have := R.posr r hr
      rw [hx] at this
      exact hfin' d this
    have go : ∀ {p j}, Part n p → (∀ i, j ≤ i → (σ i).dead p = false) → CanMove (project n D) (m j) p → ¬ Finished (m j) p →
        ∃ i, j ≤ i ∧ FMoves lab p i := by
      intro p j hp hl hcm hnf
      by_contra hx
      have hx' : ∀ i, j ≤ i → ¬ FMoves lab p i := fun i hi hm => hx ⟨i, hi, hm⟩
      apply hx
      apply hf.roles
      intro i hi
      obtain ⟨d, rfl⟩ : ∃ d, i = j + d := ⟨i - j, by omega⟩
      have st' := Mesh.stay F.sched hG hp (k := j) d (fun i h1 _ hm => hx' i h1 (moves_fmoves hm))
      obtain ⟨ls, R⟩ := F.rel (j + d)
      rcases fnext w R hp (hl _ hi) with h1 | h1 | ⟨-, h1, -⟩
      · exfalso
        apply hnf
        have := R.posr p hp
        rw [h1] at this
        unfold Finished
        rw [← st'.1]; exact this
      · exact h1
      · exact absurd (st'.2.2.2.2.2.2 hcm) h1
    have hstuck : ∀ d, ¬ CanMove (project n D) (m (k + d)) r := by
      intro d hcm
      obtain ⟨j, hj, hm⟩ := go hr (fun i hi => live i (by omega)) hcm (hfin' d)
      exact hno j (by omega) hm
    obtain ⟨M, p, k0, hM, hk0, hp, hpr, _, _, _⟩ := Mesh.blocked w hI0 hr hfin (hstuck 0)
    -- at every later moment `r` waits for the same partner
    have hwait : ∀ d, ¬ Finished (m (k + d)) p ∧
        (CanMove (project n D) (m (k + d)) p ∨ Mesh.ahead D (G (k + d)) p < A) ∧
        Mesh.work n D (G (k + d)) (m (k + d)) p ≤ Mesh.base D (G k).path ((m k).gen r + 1) * (n + 2) + (n + 1) := by
      intro d
      obtain ⟨ls', hI'⟩ := (hG (k + d)).1
      obtain ⟨M', p', k', hM', hk', _, _, b1, b2, b3⟩ := Mesh.blocked w hI' hr (hfin' d) (hstuck d)
      obtain ⟨a1, a2, a3, a4, a5, a6, _⟩ := st d
      rw [a1, hM] at hM'
      cases hM'
      rw [hk0] at hk'
      cases hk'
      rw [hA' d] at b2
      rw [a2] at b3
      refine ⟨b1, b2, ?_⟩
      have hg := (hI0.mesh r hr M hM).1
      rw [Mesh.base_congr (path := (G (k + d)).path) (path' := (G k).path) (fun x hx => a5 x (by omega))] at b3
      exact b3
    by_cases hdead : ∃ j, k ≤ j ∧ (σ j).dead p = true
    · obtain ⟨j, hj, hdj⟩ := hdead
      obtain ⟨i, hi, q, c, h1, -, -, h2⟩ := stuck_waits w h F hf hr hd (hncl k (Nat.le_refl _)) hno j hj
      obtain ⟨d, rfl⟩ : ∃ d, i = k + d := ⟨i - k, by omega⟩
      have hq : q = p := by
        rcases h2 with ⟨sl, k2, hpos⟩ | ⟨h3, -⟩
        · obtain ⟨ls, R⟩ := F.rel (k + d)
          have hp' := R.posr r hr
          rw [hpos] at hp'
          obtain ⟨M', hM', hk', -⟩ := hp'
          rw [(st d).1, hM] at hM'; cases hM'
          rw [hk0] at hk'; cases hk'; rfl
        · exact absurd h3 (hfin' d)
      subst hq
      exact dead_frees w h F hf hG hr (live _ (by omega)) (hncl _ (by omega)) (fun e he => hno e (by omega)) h1
        (dead_stays h hi hdj).1
    · have hlp : ∀ j, k ≤ j → (σ j).dead p = false := fun j hj => by
        cases hx : (σ j).dead p with
        | false => rfl
        | true => exact absurd ⟨j, hj, hx⟩ hdead
      obtain ⟨j, hj, hW⟩ := Mesh.busy F.sched hG hp (k := k) (fun j hj => by
        obtain ⟨d, rfl⟩ : ∃ d, j = k + d := ⟨j - k, by omega⟩
        obtain ⟨b1, b2, -⟩ := hwait d
        have : ∃ i, k + d ≤ i ∧ FMoves lab p i := by
          rcases b2 with b2 | b2
          · exact go hp (fun i hi => hlp i (by omega)) b2 b1
          · exact ih _ b2 hp (hlp _ (by omega)) b1 rfl
        obtain ⟨i, hi, hm⟩ := this
        obtain ⟨d', rfl⟩ : ∃ d', i = k + d' := ⟨i - k, by omega⟩
        exact ⟨_, hi, fmoves_sim h F hp hm (hlp _ (by omega)) (hwait d').1⟩)
        (Mesh.base D (G k).path ((m k).gen r + 1) * (n + 2) + (n + 1) + 1)
      obtain ⟨d, rfl⟩ : ∃ d, j = k + d := ⟨j - k, by omega⟩
      have := (hwait d).2.2
      omega

/-- A role that has not sent its signal can go on. -/
theorem unsent_go (w : Global.Wf n D) {ls dead h pos s id T} (R : Rel n D root ls dead h pos s id T) {q r} (hq : Part n q)
    (hr : Part n r) (hne : q ≠ r) (hdq : dead q = false) (hfq : Finished s q) (hns : sentTo q r (pos q) = false) :
    FGo (project n D) ⟨h, pos, dead⟩ q := by
  obtain ⟨M, hM, hk⟩ := hfq
  have hpos := R.posr q hq
  cases hp : pos q with
  | closed => rw [hp] at hns; cases hns
  | telling N todo old ow => rw [hp] at hpos; have h1 := hpos.1; rw [hM] at h1; cases h1
  | mesh sl k =>
    rw [hp] at hpos
    obtain ⟨M', hM', hk', -⟩ := hpos
    rw [hM] at hM'; cases hM'
    rw [hk] at hk'; subst hk'
    exact go_step' hdq ⟨_, _, rfl, .closing hq.1 hq.2 hp (closing_spec w R hq hdq hp).1⟩
  | ending i sl =>
    have h1 : i < n - 1 := by
      rw [hp] at hns
      simp only [sentTo, decide_eq_false_iff_not] at hns
      have := slot_range (isRole hq) (isRole hr) hne
      omega
    obtain ⟨e', g1, ⟨k', g2, g3⟩ | g2, -⟩ := stop_spec w R hq hdq hp h1
    · exact go_step' hdq ⟨_, _, rfl, .stop hq.1 hq.2 hp h1 g1 g2⟩
    · exact go_fail R hq hdq (by rw [hp]; exact .stop h1 g1) g2

/-- Nobody stands still for ever, except after `close` or a failure. -/
theorem flive (w : Global.Wf n D) (h : FSchedule (project n D) root σ lab) (hf : FFair (project n D) σ lab) {r} (hr : Part n r) {k}
    (hd : (σ k).dead r = false) (hc : (σ k).pos r ≠ .closed) : ∃ j, k ≤ j ∧ FMoves lab r j := by
  obtain ⟨m, id, T, F⟩ := film w h
  obtain ⟨G, hG⟩ := Mesh.ghosts w F.sched
  by_cases hfin : Finished (m k) r
  · by_contra hcon
    have hno : ∀ j, k ≤ j → ¬ FMoves lab r j := fun j hj hm => hcon ⟨j, hj, hm⟩
    have hall : ∀ i, k ≤ i → Finished (m i) r := fun i hi => (Mesh.finished_stays F.sched hfin i hi).2
    obtain ⟨j, hj, hq⟩ := Mesh.together (n := n) (k := k) (P := fun p j => ∀ i, j ≤ i → ¬ FMoves lab p i)
      (fun p a b hab hp i hi => hp i (by omega)) (fun p hp => by
        obtain ⟨j, hj, hq⟩ := Mesh.quiet F.sched hG (Mesh.top_const w F.sched hG hr hfin) hp
        obtain ⟨i, hi, hx⟩ := fquiet h F hp hq
        exact ⟨i, by omega, hx⟩)
    obtain ⟨i, hi, q, c, h1, hqp, hne, h2⟩ := stuck_waits w h F hf hr hd hc hno j hj
    obtain ⟨e1, e2⟩ := fstands h (by omega : k ≤ i) hno
    have hns : sentTo q r ((σ i).pos q) = false := by
      rcases h2 with ⟨sl, k2, hp⟩ | ⟨-, h2⟩
      · obtain ⟨ls, R⟩ := F.rel i
        have hpos := R.posr r hr
        rw [hp] at hpos
        obtain ⟨M', hM', hk', -⟩ := hpos
        obtain ⟨M, hM, hk⟩ := hall i (by omega)
        rw [hM] at hM'; cases hM'
        rw [hk] at hk'; cases hk'
      · exact h2
    cases hdq : (σ i).dead q with
    | true => exact dead_frees w h F hf hG hr (by rw [e2]; exact hd) (by rw [e1]; exact hc) (fun e he => hno e (by omega)) h1 hdq
    | false =>
      by_cases hfq : Finished (m i) q
      · obtain ⟨e, he, hm⟩ := hf.roles q i (fun e he => by
          obtain ⟨ls, R⟩ := F.rel e
          obtain ⟨f1, f2⟩ := fstands h he (fun a ha => hq q hqp a (by omega))
          exact unsent_go w R hqp hr hne (by rw [f2]; exact hdq) ((Mesh.finished_stays F.sched hfq e he).2) (by rw [f1]; exact hns))
        exact hq q hqp e (by omega) hm
      · obtain ⟨e, he, hm⟩ := fmoves w h F hf hG hqp hdq hfq
        exact hq q hqp e (by omega) hm
  · exact fmoves w h F hf hG hr hd hfin

end

end Verif.Runtime
