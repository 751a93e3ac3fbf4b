import Verif.Proof.TimedGone
import Verif.Proof.TimedRun
import Verif.Proof.Continue
import Verif.Proof.FailureFair
import Verif.Proof.FailureSched
import Verif.Spec.TimedRuntime
import Verif.Prop.C19_C21
import Verif.Prop.C45
/-!
# Programs with clocks
-/
namespace Verif.Runtime
open Verif.Mesh (Sys Name Label upd Part Global project)
open Verif.Types (Window)
open Verif.Timed (Clocks Fn Res World run resetAll Out)
open Verif.Heap (Op)
open Verif.Spec Verif.SendRecv

variable {n : Nat} {D : Global} {root : Name} {V : Windows} {s s' : TS}

/-! ## Without the time -/

theorem tstep_fstep {Y : Sys} {l} (h : TStep Y V s l s') : FStep Y s.fs l.erase s'.fs := by
  cases h with
  | calm _ _ _ h => exact h
  | decide _ _ h => exact h
  | call _ _ _ h => exact h
  | spoiled _ _ _ h => exact h
  | enter _ _ _ h => exact h
  | missing _ _ _ _ _ h => exact h
  | late _ _ _ _ _ _ h => exact h
  | fail _ _ _ h => exact h
  | down _ _ h => exact h
  | crash _ h => exact h

theorem trun_frun {Y : Sys} {ls} (h : TRun Y V root ls s) : FRun Y root (ls.map TLabel.erase) s.fs := by
  induction h with
  | @start s hs =>
    have := FRun.start hs.start
    simp only at this
    rw [← hs.alive] at this
    exact this
  | snoc _ hs ih => rw [List.map_append]; exact .snoc ih (tstep_fstep hs)

theorem tsched_fsched {Y : Sys} {σ : Nat → TS} {lab} (h : TSchedule Y V root σ lab) :
    FSchedule Y root (fun k => (σ k).fs) (fun k => (lab k).map TLabel.erase) := by
  refine ⟨⟨h.start.start, h.start.alive⟩, fun k => ?_⟩
  rcases h.step k with ⟨l, h1, h2⟩ | ⟨h1, h2⟩
  · exact .inl ⟨l.erase, by simp [h1], tstep_fstep h2⟩
  · exact .inr ⟨by simp [h1], by simp [h2]⟩

theorem tsched_run {Y : Sys} {σ : Nat → TS} {lab} (h : TSchedule Y V root σ lab) (k : Nat) : ∃ ls, TRun Y V root ls (σ k) := by
  induction k with
  | zero => exact ⟨[], .start h.start⟩
  | succ k ih =>
    obtain ⟨ls, hr⟩ := ih
    rcases h.step k with ⟨l, -, h2⟩ | ⟨-, h2⟩
    · exact ⟨_, .snoc hr h2⟩
    · exact ⟨ls, by rw [h2]; exact hr⟩

/-! ## One call -/

/-- A call with an upper bound asks for a timeout within it. -/
theorem run_bounded {fn : Fn} {W : World} {w : Window} {cl : Clocks} {t : Nat} (hw : 0 ≤ w.stop)
    (h : (run fn W w cl).moved = some t) : ∃ k x, x ≤ w.stop.toNat * 1000000000 ∧ W.xfer k (some x) = some t := by
  have tr : ∀ {c b k}, (Timed.transfer fn W w.reset cl c b k (some w.stop)).moved = some t →
      ∃ k x, x ≤ w.stop.toNat * 1000000000 ∧ W.xfer k (some x) = some t := by
    intro c b k h
    simp only [Timed.transfer] at h
    split at h
    · cases h
    · rename_i m hm
      have hm' : m = w.stop.toNat := by
        unfold Timed.toU64 at hm; split at hm <;> simp_all
      split at h
      · cases h
      · refine ⟨k, m * Timed.nsec - Timed.elapsed W c k, by simp only [Timed.nsec, hm']; omega, ?_⟩
        cases hx : W.xfer k (some (m * Timed.nsec - Timed.elapsed W c k)) with
        | none => rw [hx] at h; simp [Timed.finish] at h
        | some t' =>
          rw [hx] at h
          simp only [Timed.finish] at h
          repeat' split at h
          all_goals (simp only at h; cases h; rfl)
  have gu : ∀ {c cond}, (Timed.guarded fn W w.reset cl c cond (some w.stop)).moved = some t →
      ∃ k x, x ≤ w.stop.toNat * 1000000000 ∧ W.xfer k (some x) = some t := by
    intro c cond h
    unfold Timed.guarded at h
    simp only at h
    repeat' split at h
    all_goals first
      | exact tr h
      | (cases h; done)
  unfold run at h
  repeat' split at h
  all_goals first
    | exact gu h
    | (cases h; done)
    | (exfalso; omega)

/-- All the time is spent at the instant `m`; an operation with a timeout of `B` at most, or any operation, fails if told so. -/
def still (m : Nat) (f : Option Nat → Bool) : World where
  now _ := m
  start _ := m
  xfer _ d := if f d then none else some m
  now_le _ := Nat.le_refl _
  start_le _ := Nat.le_refl _
  xfer_le _ d t h := by split at h <;> simp_all
  xfer_timeout _ x t h := by split at h <;> simp_all

theorem run_still {m : Nat} {f} {fn : Fn} {w : Window} {cl : Clocks} {t} (h : (run fn (still m f) w cl).moved = some t) : t = m := by
  obtain ⟨j, d, hx⟩ := TimedRun.run_xfer h
  simp only [still] at hx
  split at hx <;> simp_all

theorem moved_none {fn : Fn} {W : World} {w : Window} {cl : Clocks} (h : (run fn W w cl).moved = none) : (run fn W w cl).res ≠ .ok := by
  intro e
  obtain ⟨t, ht⟩ := Prop.C19_ok_moved fn W w cl e
  rw [h] at ht; cases ht

/-! ## Going on -/

/-- A role whose last call panicked goes down. -/
theorem doomed_go {Y : Sys} {r f} (hd : s.doomed r = true) (hf : FStep Y s.fs (.crash r) f) : TGo Y V s r :=
  ⟨.down r, _, rfl, by simp, .down (Nat.le_refl _) hd hf⟩

/-- A timed call that could be made without clocks comes to an end, one way or another. -/
theorem call_go {Y : Sys} {r fn w op l f f'} (hu : s.up r) (hc : TCall Y V r (s.fs.pos r) fn w op l) (hl : l.actor = some r)
    (hs : FStep Y s.fs (.step l) f) (hf : FStep Y s.fs (.crash r) f') : TGo Y V s r := by
  classical
  let m := max s.now (s.last r)
  have hm1 : s.now ≤ m := Nat.le_max_left _ _
  have hm2 : s.last r ≤ m := Nat.le_max_right _ _
  by_cases hg : Gone s.fs.heap op
  · let W := still m fun _ => true
    cases ho : run fn W w (s.clocks r) with
    | mk res cl mv =>
      cases mv with
      | none => exact ⟨.late r, _, rfl, by simp, .late hm1 hu hc (fun _ => ⟨hm2, Nat.le_refl m⟩) (fun _ _ _ => .inl hg) ho hf⟩
      | some t =>
        obtain ⟨j, d, hx⟩ := TimedRun.run_xfer (show (run fn W w (s.clocks r)).moved = some t by rw [ho])
        simp [W, still] at hx
  · let W := still m fun _ => false
    cases ho : run fn W w (s.clocks r) with
    | mk res cl mv =>
      cases mv with
      | none =>
        refine ⟨.late r, _, rfl, by simp, .late hm1 hu hc (fun _ => ⟨hm2, Nat.le_refl m⟩) (fun k d hx => ?_) ho hf⟩
        simp [W, still] at hx
      | some t =>
        have ht : t = m := run_still (show (run fn W w (s.clocks r)).moved = some t by rw [ho])
        subst ht
        by_cases hr : res = .ok
        · subst hr
          exact ⟨.go l, _, hl, by simp, .call hm1 hu hc hs hg (fun _ => ⟨hm2, Nat.le_refl m⟩) ho⟩
        · exact ⟨.go l, _, hl, by simp, .spoiled hm1 hu hc hs hg (fun _ => ⟨hm2, Nat.le_refl m⟩) ho hr⟩

/-- A role that waits for a message until an upper bound goes on in time, if only by giving up. -/
theorem wait_go {Y : Sys} {r w e l f'} (hu : s.up r) (hc : TCall Y V r (s.fs.pos r) .recv w (.recv e) l) (hw : ¬ Unbounded w)
    (hE : Empty s.fs.heap (.recv e)) (hf : FStep Y s.fs (.crash r) f') : TGo Y V s r := by
  classical
  let m := max s.now (s.last r)
  have hm1 : s.now ≤ m := Nat.le_max_left _ _
  have hm2 : s.last r ≤ m := Nat.le_max_right _ _
  let B := w.stop.toNat * 1000000000
  let W := still m fun d => match d with | some x => decide (x ≤ B) | none => false
  have hmv : (run .recv W w (s.clocks r)).moved = none := by
    cases h : (run .recv W w (s.clocks r)).moved with
    | none => rfl
    | some t =>
      exfalso
      rcases Int.lt_or_le w.stop 0 with h1 | h1
      · rcases Int.lt_or_le w.start 0 with h2 | h2
        · exact hw ⟨h2, h1⟩
        · have := (Prop.C19_lower_only_rejected .recv W w (s.clocks r) (by simp) h2 h1).2
          rw [h] at this; cases this
      · obtain ⟨k, x, hx, hxf⟩ := run_bounded h1 h
        simp [W, still, B, hx] at hxf
  cases ho : run .recv W w (s.clocks r) with
  | mk res cl mv =>
    rw [ho] at hmv
    simp only at hmv
    subst hmv
    refine ⟨.late r, _, rfl, by simp, .late (n := m + B) (by omega) hu hc (fun _ => ⟨hm2, Nat.le_add_right _ _⟩) (fun k d hx => ?_) ho hf⟩
    refine .inr ⟨hE, ?_⟩
    cases d with
    | none => simp [W, still] at hx
    | some x =>
      have : x ≤ B := by simpa [W, still] using hx
      exact ⟨x, rfl, by simp only [W, still]; omega⟩

theorem recv_blocked {Y : Sys} {h h' : Heap.St Pay} {e} (hs : Heap.step (env Y) h (.recv e) = some (h', .block)) : Empty h (.recv e) := by
  simp only [Heap.step, Heap.recvStep] at hs
  split at hs
  · rename_i c _ hn
    split at hs
    · cases hs
    · split at hs
      · split at hs
        · cases hs
        · split at hs <;> cases hs
      · cases hs
      · rename_i hb
        split at hs
        · rename_i ht
          exact ⟨c, hn, ht, hb⟩
        · cases hs
  · cases hs

theorem recv_gone {Y : Sys} {h h' : Heap.St Pay} {e} (hs : Heap.step (env Y) h (.recv e) = some (h', .err)) : Gone h (.recv e) := by
  simp only [Heap.step, Heap.recvStep] at hs
  split at hs
  · rename_i c _ hn
    split at hs
    · cases hs
    · split at hs
      · split at hs
        · cases hs
        · split at hs <;> cases hs
      · cases hs
      · rename_i hb
        split at hs
        · cases hs
        · rename_i ht
          exact ⟨c, hn, by simpa using ht, hb⟩
  · cases hs

/-- A timed receive whose partner is gone ends. -/
theorem gone_go {Y : Sys} {r fn w op l f'} (hu : s.up r) (hc : TCall Y V r (s.fs.pos r) fn w op l) (hg : Gone s.fs.heap op)
    (hf : FStep Y s.fs (.crash r) f') : TGo Y V s r := by
  let m := max s.now (s.last r)
  let W := still m fun _ => true
  cases ho : run fn W w (s.clocks r) with
  | mk res cl mv =>
    cases mv with
    | none => exact ⟨.late r, _, rfl, by simp, .late (Nat.le_max_left _ _) hu hc (fun _ => ⟨Nat.le_max_right _ _, Nat.le_refl m⟩) (fun _ _ _ => .inl hg) ho hf⟩
    | some t =>
      obtain ⟨j, d, hx⟩ := TimedRun.run_xfer (show (run fn W w (s.clocks r)).moved = some t by rw [ho])
      simp [W, still] at hx

/-- Whoever could go on without clocks can with clocks. -/
theorem fgo_tgo (w : Global.Wf n D) {ls} (h : TRun (project n D) V root ls s) {r} (hr : Part n r)
    (hg : FGo (project n D) s.fs r) : TGo (project n D) V s r := by
  obtain ⟨l, f, hl, hnc, hs⟩ := hg
  have hdc : s.fs.dead r = false ∧ s.fs.pos r ≠ .closed := by
    cases hs with
    | @step l t h1 h2 =>
      have hd := h2 r hl
      refine ⟨hd, ?_⟩
      simp only [FLabel.actor] at hl
      cases h1 <;> simp only [RLabel.actor, Mesh.Label.actor, Option.some.injEq, reduceCtorEq] at hl <;> subst hl <;> simp [*]
    | fail h1 h2 h3 h4 =>
      simp only [FLabel.actor, Option.some.injEq] at hl; subst hl
      refine ⟨h3, ?_⟩
      intro e; rw [e] at h4; cases h4
    | crash => exact absurd rfl (hnc _)
  obtain ⟨f', hf⟩ := Prop.C45_crash n D w root _ _ (trun_frun h) r hr hdc.1 hdc.2
  cases hdo : s.doomed r with
  | true => exact doomed_go hdo hf
  | false =>
    have hu : s.up r := ⟨hdc.1, hdo⟩
    have hs0 := hs
    cases hs with
    | @step l t h1 h2 =>
      simp only [FLabel.actor] at hl
      cases h1 with
      | @send r' sl q k e w' m K d h' e' rest sl' a1 a2 a3 a4 a5 =>
        simp only [RLabel.actor, Mesh.Label.actor, Option.some.injEq] at hl; subst hl
        exact call_go hu (by rw [a3]; exact .send (d := d) a4 a5) rfl hs0 hf
      | @recv r' sl q k e w' m K v h' e' rest sl' a1 a2 a3 a4 a5 =>
        simp only [RLabel.actor, Mesh.Label.actor, Option.some.injEq] at hl; subst hl
        exact call_go hu (by rw [a3]; exact .recv a4 a5) rfl hs0 hf
      | heed a1 a2 a3 a4 a5 =>
        simp only [RLabel.actor, Mesh.Label.actor, Option.some.injEq] at hl; subst hl
        exact call_go hu (by rw [a3]; exact .heed a4 a5) rfl hs0 hf
      | @tell r' N k ms todo old ow e h1 e' rest h2 a1 a2 a3 a4 a5 =>
        simp only [RLabel.actor, Mesh.Label.actor, Option.some.injEq] at hl; subst hl
        obtain ⟨_, _, _, -, R⟩ := frun_sim w (trun_frun h)
        have hpos := R.posr r' hr
        rw [a3] at hpos
        obtain ⟨-, -, hall⟩ := hpos
        obtain ⟨-, -, -, x, bs, x1, -, -, x4, -⟩ := hall (k, ms) (by simp)
        simp only at x1 x4
        rw [a4] at x1; cases x1
        exact call_go hu (by rw [a3]; exact .tell a4 x4) rfl hs0 hf
      | decide =>
        simp only [RLabel.actor, Mesh.Label.actor, Option.some.injEq] at hl; subst hl
        exact ⟨_, _, rfl, by simp, .decide (Nat.le_refl _) hdo hs0⟩
      | @enter r0 =>
        have hl' : r0 = r := by simpa [RLabel.actor, Mesh.Label.actor] using hl
        subst hl'
        let m := max s.now (s.last r0)
        cases ho : resetAll (fun _ => m) (s.noted r0) 0 (s.clocks r0) with
        | mk res cl =>
          have hk : ∀ _ : Nat, s.last r0 ≤ m ∧ m ≤ m := fun _ => ⟨Nat.le_max_right _ _, Nat.le_refl _⟩
          cases res with
          | ok => exact ⟨_, _, rfl, by simp, .enter (Nat.le_max_left _ _) hu hk hs0 ho⟩
          | panic => exact ⟨.late r0, _, rfl, by simp, .missing (Nat.le_max_left _ _) hu hk ⟨_, hs0⟩ ho hf⟩
          | err =>
            exfalso
            have : ∀ (l : List Char) k cl, (resetAll (fun _ => m) l k cl).1 ≠ .err := by
              intro l
              induction l with
              | nil => intro k cl; simp [resetAll]
              | cons x l ih =>
                intro k cl
                unfold resetAll
                split
                · simp
                · exact ih _ _
            exact this _ _ _ (by rw [ho])
      | gc => simp [RLabel.actor] at hl
      | @closing r0 => exact ⟨.go (.closing r0), _, hl, by simp, .calm (Nat.le_refl _) trivial (fun x hx => by have : some x = some r := hx.symm.trans hl; cases this; exact hdo) hs0⟩
      | @stop r0 => exact ⟨.go (.stop r0), _, hl, by simp, .calm (Nat.le_refl _) trivial (fun x hx => by have : some x = some r := hx.symm.trans hl; cases this; exact hdo) hs0⟩
      | @wait r0 => exact ⟨.go (.wait r0), _, hl, by simp, .calm (Nat.le_refl _) trivial (fun x hx => by have : some x = some r := hx.symm.trans hl; cases this; exact hdo) hs0⟩
      | @done r0 => exact ⟨.go (.done r0), _, hl, by simp, .calm (Nat.le_refl _) trivial (fun x hx => by have : some x = some r := hx.symm.trans hl; cases this; exact hdo) hs0⟩
    | @fail r' op h1 h2 a1 a2 a3 a4 a5 =>
      simp only [FLabel.actor, Option.some.injEq] at hl; subst hl
      generalize hp : s.fs.pos r' = P at a4
      cases a4 with
      | send => exact (send_no_err a5).elim
      | tell => exact (send_no_err a5).elim
      | @recv sl q k e w' t K b1 b2 =>
        cases t with
        | data m => exact gone_go hu (by rw [hp]; exact .recv b1 b2) (recv_gone a5) hf
        | enum x bs => exact gone_go hu (by rw [hp]; exact .heed (N := 0) b1 b2) (recv_gone a5) hf
      | stop => exact ⟨.fail r', _, rfl, by simp, .fail (Nat.le_refl _) hu hp hs0⟩
      | wait => exact ⟨.fail r', _, rfl, by simp, .fail (Nat.le_refl _) hu hp hs0⟩
    | crash => exact absurd rfl (hnc _)

/-- A fair scheduler is fair without the clocks. -/
theorem tfair_ffair (w : Global.Wf n D) {σ : Nat → TS} {lab} (h : TSchedule (project n D) V root σ lab)
    (hf : TFair (project n D) V σ lab) :
    FFair (project n D) (fun k => (σ k).fs) (fun k => (lab k).map TLabel.erase) := by
  refine ⟨fun r k hg => ?_, hf.drops⟩
  have hr : Part n r := by
    obtain ⟨l, f, hl, hnc, hs⟩ := hg k (Nat.le_refl _)
    cases hs with
    | @step l t h1 h2 =>
      simp only [FLabel.actor] at hl
      cases h1 <;> simp only [RLabel.actor, Mesh.Label.actor, Option.some.injEq, reduceCtorEq] at hl <;> subst hl <;> exact ⟨by assumption, by assumption⟩
    | fail h1 h2 => simp only [FLabel.actor, Option.some.injEq] at hl; subst hl; exact ⟨h1, h2⟩
    | crash => exact absurd rfl (hnc _)
  obtain ⟨j, hj, l, h1, h2⟩ := hf.roles r k fun j hj => by
    obtain ⟨ls, hrun⟩ := tsched_run h j
    exact fgo_tgo w hrun hr (hg j hj)
  exact ⟨j, hj, l.erase, by simp [h1], h2⟩

end Verif.Runtime
