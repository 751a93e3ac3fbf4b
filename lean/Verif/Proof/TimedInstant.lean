import Verif.Proof.TimedClocks
/-!
# Programs with clocks: runs at one instant, and fair schedules
-/
namespace Verif.Runtime
open Verif.Mesh (Sys Name Label upd Part Global project)
open Verif.Types (Window)
open Verif.Timed (Clocks Fn Res World run resetAll Out)
open Verif.Heap (Op)
open Verif.Spec Verif.SendRecv Verif.Prop

variable {n : Nat} {D : Global} {root : Name} {V : Windows} {s s' : TS}

/-! ## One instant -/

theorem fits_run {fn : Fn} {v : Nat} {w : Window} (h : Fits v w) :
    run fn (still v fun _ => false) w (fun _ => some 0) = ⟨.ok, fun _ => some 0, some v⟩ := by
  obtain ⟨h0, ⟨⟨a, b⟩, c1, c2, d⟩ | ⟨a, b, c, d⟩⟩ := h
  · unfold run
    rw [if_neg (by omega), if_pos a, if_neg (by omega), if_pos (by simp [c1, c2])]
    simp [still]
  · have hH : Handled fn w := ⟨a, c, fun ⟨_, x⟩ => by omega, .inl b⟩
    obtain ⟨r1, t, r2, -, -, r3⟩ := run_ok (W := still v fun _ => false) (cl := fun _ => some 0) hH rfl
      (fun k _ => by simpa [still] using d) ⟨v, by simp [still]⟩ (.inr (.inr ⟨0, rfl⟩))
    have ht := run_still r2
    subst ht
    have hcl : (run fn (still t fun _ => false) w fun _ => some 0).clocks = fun _ => some 0 := by
      rw [r3]
      split
      · rename_i hx
        rcases h0 with h0 | h0
        · funext x; simp [still, h0]
        · exact absurd h0 hx.2
      · rfl
    generalize hg : run fn (still t fun _ => false) w (fun _ => some 0) = o at r1 r2 hcl ⊢
    obtain ⟨x, y, z⟩ := o
    simp only at r1 r2 hcl
    subst r1 r2 hcl
    rfl

theorem resetAll_zero : ∀ (l : List Char) (k : Nat), resetAll (fun _ => 0) l k (fun _ => some 0) = (.ok, fun _ => some 0)
  | [], _ => rfl
  | r :: rs, k => by
    unfold resetAll
    simp only
    rw [show (fun x => if x = r then some 0 else some 0) = (fun _ : Char => some 0) by funext x; simp]
    exact resetAll_zero rs (k + 1)

/-- At the instant `v`, and every clock started at 0. -/
structure At (v : Nat) (s : TS) : Prop where
  clocks : ∀ r, s.clocks r = fun _ => some 0
  last : ∀ r, s.last r = v
  now : s.now = v
  noted : v = 0 ∨ ∀ r, s.noted r = []
  doomed : ∀ r, s.doomed r = false
  alive : s.fs.dead = nobody

theorem at_call {Y : Sys} {v r fn w op l f} (ha : At v s) (hw : Fits v w) (hc : TCall Y V r (s.fs.pos r) fn w op l)
    (hs : FStep Y s.fs (.step l) f) (hg : ¬ Gone s.fs.heap op) : ∃ s', TStep Y V s (.go l) s' ∧ s'.fs = f ∧ At v s' := by
  refine ⟨_, .call (n := v) (m := v) (Nat.le_of_eq ha.now) ⟨by rw [ha.alive]; rfl, ha.doomed r⟩ hc hs hg (W := still v fun _ => false)
    (fun k => ⟨Nat.le_of_eq (ha.last r), Nat.le_refl _⟩) (by rw [ha.clocks]; exact fits_run hw), rfl, ?_⟩
  refine ⟨fun q => ?_, fun q => ?_, rfl, ?_, ha.doomed, ?_⟩
  · simp only [upd]; split
    · rfl
    · exact ha.clocks q
  · simp only [upd]; split
    · rfl
    · exact ha.last q
  · rcases hw.1 with h | h
    · exact .inl h
    · refine ha.noted.imp id fun hn q => ?_
      simp only
      rw [if_neg (by simp [h])]
      exact hn q
  · cases hs; exact ha.alive

/-- Every run without failures can be gone through at one instant, if all windows allow it. -/
theorem instant (w : Global.Wf n D) {ls : List RLabel} {t : RS} (h : RRun (project n D) root ls t) {v : Nat}
    (hm : ∀ m, Fits v (V.msg m)) (hc : ∀ p q bs, Fits v (V.choice p q bs)) :
    ∃ s, TRun (project n D) V root (ls.map .go) s ∧ s.fs = ⟨t.heap, t.pos, nobody⟩ ∧ At v s := by
  induction h with
  | @start t hs =>
    refine ⟨⟨⟨t.heap, t.pos, nobody⟩, fun _ _ => some 0, fun _ => v, fun _ => [], fun _ => false, v⟩, .start ⟨hs, rfl, ?_, fun _ => rfl, fun _ => rfl⟩, rfl,
      ⟨fun _ => rfl, fun _ => rfl, rfl, .inr fun _ => rfl, fun _ => rfl, rfl⟩⟩
    intro r x c e
    cases e
    exact Nat.zero_le _
  | @snoc ls t l t' hrun hs ih =>
    obtain ⟨s, hT, hfs, ha⟩ := ih
    suffices hx : ∃ s', TStep (project n D) V s (.go l) s' ∧ s'.fs = ⟨t'.heap, t'.pos, nobody⟩ ∧ At v s' by
      obtain ⟨s', h1, h2, h3⟩ := hx
      exact ⟨s', by rw [List.map_append]; exact .snoc hT h1, h2, h3⟩
    have hF : FStep (project n D) s.fs (.step l) ⟨t'.heap, t'.pos, nobody⟩ := by
      rw [hfs]
      exact FStep.step (s := ⟨t.heap, t.pos, nobody⟩) hs (fun _ _ => rfl)
    obtain ⟨_, _, _, -, R⟩ := frun_sim w (trun_frun hT)
    have hdead : ∀ x, s.fs.dead x = false := fun x => by rw [hfs]; rfl
    have hgone : ∀ {r fn win op l}, Part n r → TCall (project n D) V r (s.fs.pos r) fn win op l → ¬ Gone s.fs.heap op := by
      intro r fn win op l hr hc hg
      obtain ⟨x, -, hx⟩ := gone_dead w R hr (hdead r) hc hg
      rw [hdead x] at hx; cases hx
    have calm : Untimed l → ∃ s', TStep (project n D) V s (.go l) s' ∧ s'.fs = ⟨t'.heap, t'.pos, nobody⟩ ∧ At v s' := fun hu =>
      ⟨_, .calm (Nat.le_refl _) hu (fun x _ => ha.doomed x) hF, rfl, ha.clocks, ha.last, ha.now, ha.noted, ha.doomed, rfl⟩
    have hp : s.fs.pos = t.pos := by rw [hfs]
    have call : ∀ {r fn win op}, Part n r → Fits v win → TCall (project n D) V r (t.pos r) fn win op l →
        ∃ s', TStep (project n D) V s (.go l) s' ∧ s'.fs = ⟨t'.heap, t'.pos, nobody⟩ ∧ At v s' := by
      intro r fn win op hr hw hc
      rw [← hp] at hc
      exact at_call ha hw hc hF (hgone hr hc)
    cases hs with
    | @send r sl q k e w' m K d h' e' rest sl' a1 a2 a3 a4 a5 =>
      exact call ⟨a1, a2⟩ (hm m) (by rw [a3]; exact .send (d := d) a4 a5)
    | @recv r sl q k e w' m K v' h' e' rest sl' a1 a2 a3 a4 a5 =>
      exact call ⟨a1, a2⟩ (hm m) (by rw [a3]; exact .recv a4 a5)
    | @heed r sl q e w' x bs v' h1 new e' rest sl1 h2 a1 a2 a3 a4 a5 =>
      exact call ⟨a1, a2⟩ (hc _ _ _) (by rw [a3]; exact .heed (N := v'.tag) a4 a5)
    | @tell r N k ms todo old ow e h1 e' rest h2 a1 a2 a3 a4 a5 =>
      have hpos := R.posr r ⟨a1, a2⟩
      rw [hp, a3] at hpos
      obtain ⟨-, -, hall⟩ := hpos
      obtain ⟨-, -, -, x, bs, x1, -, -, x4, -⟩ := hall (k, ms) (by simp)
      simp only at x1 x4
      rw [a4] at x1; cases x1
      exact call ⟨a1, a2⟩ (hc _ _ _) (by rw [a3]; exact .tell a4 x4)
    | decide =>
      refine ⟨_, .decide (Nat.le_refl _) (ha.doomed _) hF, rfl, ha.clocks, ha.last, ha.now, ha.noted.imp id fun hn q => ?_, ha.doomed, rfl⟩
      simp only [upd]; split
      · rfl
      · exact hn q
    | @enter r =>
      have hres : resetAll (fun _ => v) (s.noted r) 0 (s.clocks r) = (.ok, fun _ => some 0) := by
        rw [ha.clocks]
        rcases ha.noted with e | e
        · subst e; exact resetAll_zero _ _
        · rw [e]; rfl
      refine ⟨_, .enter (n := v) (Nat.le_of_eq ha.now) ⟨hdead r, ha.doomed r⟩ (fun _ => ⟨Nat.le_of_eq (ha.last r), Nat.le_refl _⟩) hF hres, rfl,
        fun q => ?_, fun q => ?_, rfl, ha.noted, ha.doomed, rfl⟩
      · simp only [upd]; split
        · rfl
        · exact ha.clocks q
      · simp only [upd]; split
        · rfl
        · exact ha.last q
    | closing => exact calm trivial
    | stop => exact calm trivial
    | wait => exact calm trivial
    | done => exact calm trivial
    | gc => exact calm trivial

/-! ## Fair schedules -/

theorem trun_run {Y : Sys} {ls} (h : TRun Y V root ls s) : Continue.Run (TStart Y root) (TStep Y V) ls s := by
  induction h with
  | start hs => exact .start hs
  | snoc _ hs ih => exact .snoc ih hs

theorem tfair_exists (w : Global.Wf n D) {ls : List TLabel} (h : TRun (project n D) V root ls s) :
    ∃ σ lab, TSchedule (project n D) V root σ lab ∧ TFair (project n D) V σ lab ∧
      σ ls.length = s ∧ (∀ k l, ls[k]? = some l → lab k = some l) ∧ ∀ k, ls.length ≤ k → ∀ x, lab k ≠ some (.crash x) := by
  classical
  have next : ∀ (a : Nat) (s : TS), ∃ x : Option TLabel × TS,
      ((∃ l, x.1 = some l ∧ TStep (project n D) V s l x.2 ∧ ∀ y, l ≠ .crash y) ∨ (x.1 = none ∧ x.2 = s)) ∧
      (∀ r, turn a = .inl r → TGo (project n D) V s r → ∃ l, x.1 = some l ∧ l.actor = some r) ∧
      (∀ t, turn a = .inr t → Heap.Inv (env (project n D)) s.fs.heap → t ∉ x.2.fs.heap.garb) := by
    intro a s
    cases ht : turn a with
    | inl r =>
      by_cases hg : TGo (project n D) V s r
      · obtain ⟨l, s', h1, h2, h3⟩ := hg
        exact ⟨(some l, s'), .inl ⟨l, rfl, h3, h2⟩, fun r' e _ => by cases e; exact ⟨l, rfl, h1⟩, by simp⟩
      · exact ⟨(none, s), .inr ⟨rfl, rfl⟩, fun r' e hx => by cases e; exact absurd hx hg, by simp⟩
    | inr t =>
      by_cases hg : Heap.Inv (env (project n D)) s.fs.heap ∧ t ∈ s.fs.heap.garb
      · obtain ⟨i, st', o, h1, h2⟩ := gc_removes hg.1 hg.2
        have hstep : FStep (project n D) s.fs (.step .gc) ⟨st', s.fs.pos, s.fs.dead⟩ := .step (.gc h1) (by simp [RLabel.actor])
        exact ⟨(some (.go .gc), _), .inl ⟨_, rfl, .calm (Nat.le_refl _) trivial (by simp [RLabel.actor]) hstep, by simp⟩, by simp,
          fun t' e _ => by cases e; exact h2⟩
      · exact ⟨(none, s), .inr ⟨rfl, rfl⟩, by simp, fun t' e hx => by cases e; exact fun hm => hg ⟨hx, hm⟩⟩
  choose f hf using next
  obtain ⟨σ, lab, hS, h1, h2, h3⟩ := Continue.run_continue (trun_run h) f fun a s => by
    rcases (hf a s).1 with ⟨l, h1, h2, -⟩ | h1
    · exact .inl ⟨l, h1, h2⟩
    · exact .inr h1
  have hSch : TSchedule (project n D) V root σ lab := ⟨hS.start, hS.step⟩
  refine ⟨σ, lab, hSch, ⟨fun r k hg => ?_, fun k t _ => ?_⟩, h1, h2, ?_⟩
  · obtain ⟨a, ha, ht⟩ := turn_again (.inl r) k
    obtain ⟨l, e1, e2⟩ := (hf a (σ (ls.length + a))).2.1 r ht (hg _ (by omega))
    exact ⟨ls.length + a, by omega, l, by rw [(h3 a).1]; exact e1, e2⟩
  · obtain ⟨a, ha, ht⟩ := turn_again (.inr t) k
    refine ⟨ls.length + a + 1, by omega, ?_⟩
    rw [(h3 a).2]
    refine (hf a (σ (ls.length + a))).2.2 t ht ?_
    obtain ⟨ls', hrun⟩ := fsched_run (tsched_fsched hSch) (ls.length + a)
    obtain ⟨_, _, _, -, R⟩ := frun_sim w hrun
    exact Heap.reach_inv R.reach
  · intro k hk x
    obtain ⟨a, rfl⟩ : ∃ a, k = ls.length + a := ⟨k - ls.length, by omega⟩
    rw [(h3 a).1]
    rcases (hf a (σ (ls.length + a))).1 with ⟨l, e1, -, e2⟩ | ⟨e1, -⟩
    · rw [e1]; intro e; cases e; exact e2 x rfl
    · rw [e1]; simp

/-- A role that is not in a choice and not at its end makes a timed call. -/
theorem tcall_exists (w : Global.Wf n D) {ls} (h : TRun (project n D) V root ls s) {r sl q k} (hr : Part n r) (hd : s.fs.dead r = false)
    (hp : s.fs.pos r = .mesh sl (.role q k)) : ∃ fn win op l, fn ≠ .sendNoReset ∧ TCall (project n D) V r (s.fs.pos r) fn win op l := by
  obtain ⟨_, _, _, -, R⟩ := frun_sim w (trun_frun h)
  obtain ⟨G, hI, -⟩ := R.inv
  obtain ⟨M, f, hM, hk, hq, hne, hok, hu, f1, f2, f3, f4, f5, f6⟩ := R.at_role w hr hd hp
  obtain ⟨-, -, hsh⟩ := Mesh.shape_role w hI hr hM hk
  have hf : sl[(recvImpl n q r).used - 1]? = some f := by
    rw [show recvImpl n q r = emit n r q from rfl, hu]; exact f1
  have hf' : sl[(sendImpl n r q).used - 1]? = some f := by
    rw [show sendImpl n r q = emit n r q from rfl, hu]; exact f1
  rw [hp]
  rcases hsh with ⟨m, K, e⟩ | ⟨m, K, e, -⟩ | ⟨bs, e, -⟩ <;> rw [e] at f4
  · exact ⟨_, _, _, _, by simp, .send (d := 0) hf' f4⟩
  · exact ⟨_, _, _, _, by simp, .recv hf f4⟩
  · exact ⟨_, _, _, _, by simp, .heed (N := 0) hf f4⟩

end Verif.Runtime
