import Verif.Proof.MeshEnds
import Verif.Proof.MeshPossible
/-!
# C34: projected protocols are deadlock-free

`Spec/Global.lean` defines protocols (blocks of messages, ended by a choice that one role broadcasts, or by the end; the
branches of a choice are names of blocks, which gives recursion), their projection to mesh types, and what a protocol
prescribes.  The programs of `Model/Mesh.lean` know only the projected types.
-/
namespace Verif.Prop

open Verif.Mesh

/-- An example: `1` sends to `2`, which sends to `3`; then `1` decides to repeat or to stop after a last
message from `3`. -/
def exD : Global
  | 0 => ⟨[⟨1, 2, 10⟩, ⟨2, 3, 11⟩], .choice 1 [0, 1]⟩
  | _ => ⟨[⟨3, 1, 12⟩], .fin⟩

theorem exD_wf : Global.Wf 3 exD := by
  refine ⟨by omega, fun N => ?_⟩
  match N with
  | 0 => exact ⟨by simp [exD], by intro p bs h; simp [exD] at h; obtain ⟨rfl, rfl⟩ := h; simp⟩
  | N + 1 => exact ⟨by simp [exD], by intro p bs h; simp [exD] at h⟩

/-- The two ends of every session have dual types. -/
theorem C34_dual (r q : Nat) (h : r ≠ q) (cs : List Comm) (t : Tail) :
    sessOf r q cs t = (sessOf q r cs t).dual := by
  induction cs with
  | nil =>
    cases t with
    | fin => rfl
    | choice p bs =>
      by_cases h1 : p = r
      · subst h1; simp [sessOf, h, Sess.dual]
      · by_cases h2 : p = q
        · subst h2; simp [sessOf, h1, Sess.dual]
        · simp [sessOf, h1, h2, Sess.dual]
  | cons c cs ih =>
    simp only [sessOf]
    by_cases h1 : c.p = r ∧ c.q = q
    · have : ¬ (c.p = q ∧ c.q = r) := by rintro ⟨a, _⟩; exact h (h1.1.symm.trans a)
      rw [if_pos h1, if_neg this, if_pos h1, ih]; rfl
    · by_cases h2 : c.p = q ∧ c.q = r
      · rw [if_neg h1, if_pos h2, if_pos h2, ih]; rfl
      · rw [if_neg h1, if_neg h2, if_neg h2, if_neg h1, ih]

/-- **C34**, progress: in every reachable state of every projected program, if some role is not finished then
some role can move. -/
theorem C34_progress (n : Nat) (D : Global) (w : Global.Wf n D) (root : Name) (ls : List Label) (s : S)
    (h : Run (project n D) (S.init (project n D) root) ls s)
    (r : Nat) (hr : 1 ≤ r ∧ r ≤ n) (hfin : ¬ Finished s r) :
    ∃ l s', Step (project n D) s l s' := by
  obtain ⟨G, hI⟩ := inv_run w h
  obtain ⟨p, _, l, s', _, h⟩ := progress w hI hr hfin
  exact ⟨l, s', h⟩

/-- **C34**, nobody starves: under every fair schedule every role, at every moment, is finished or will move. -/
theorem C34_live (n : Nat) (D : Global) (w : Global.Wf n D) (root : Name) (σ : Nat → S) (lab : Nat → Option Label)
    (h : Schedule (project n D) root σ lab) (hf : Fair (project n D) σ lab) (r : Nat) (hr : 1 ≤ r ∧ r ≤ n) (k : Nat) :
    Finished (σ k) r ∨ ∃ j, k ≤ j ∧ Moves lab r j := by
  by_cases hfin : Finished (σ k) r
  · exact .inl hfin
  · obtain ⟨G, hG⟩ := ghosts w h
    exact .inr (moves w h hf hG hr hfin)

/-- **C34**, nobody is left behind: under every fair schedule, once one role has come to the end of the protocol all do. -/
theorem C34_ends (n : Nat) (D : Global) (w : Global.Wf n D) (root : Name) (σ : Nat → S) (lab : Nat → Option Label)
    (h : Schedule (project n D) root σ lab) (hf : Fair (project n D) σ lab) (r : Nat) (hr : 1 ≤ r ∧ r ≤ n) (k : Nat)
    (hfin : Finished (σ k) r) : ∃ j, k ≤ j ∧ ∀ p, 1 ≤ p ∧ p ≤ n → Finished (σ j) p := all_end w h hf hr hfin

/-- **C34**, termination: if the protocol has no endless sequence of choices, every fair schedule carries it to its end. -/
theorem C34_terminates (n : Nat) (D : Global) (w : Global.Wf n D) (root : Name) (σ : Nat → S) (lab : Nat → Option Label)
    (h : Schedule (project n D) root σ lab) (hf : Fair (project n D) σ lab)
    (hacc : Acc (fun N' N => ∃ p bs, (D N).tail = .choice p bs ∧ N' ∈ bs) root) :
    ∃ j, ∀ p, 1 ≤ p ∧ p ≤ n → Finished (σ j) p := terminates w h hf hacc

/-- **C34**, a role that can move stays able to until it does: the others cannot take its message away. -/
theorem C34_persist (Y : Sys) (s s' : S) (l : Label) (h : Step Y s l s') (r : Nat) (hr : r ≠ l.actor)
    (hc : CanMove Y s r) : CanMove Y s' r := persist h hr hc

/-- **C34**, order: whatever was done, there is one execution of the protocol such that every role has done exactly the
first part of what that execution asks of it, in this order and with the prescribed partners, payloads and branches. -/
theorem C34_order (n : Nat) (D : Global) (w : Global.Wf n D) (root : Name) (ls : List Label) (s : S)
    (h : Run (project n D) (S.init (project n D) root) ls s) :
    ∃ tr, Follows D root tr ∧ ∀ r, 1 ≤ r ∧ r ≤ n → actsOf r ls <+: tr.filterMap (view r) := by
  obtain ⟨G, hI⟩ := inv_run w h
  refine ⟨_, follows_events hI.start hI.sel G.top (Nat.le_refl _) _ (.stop _), fun r hr => ?_⟩
  rw [hI.acts r hr]
  exact (eventsTo_prefix (hI.le r hr)).filterMap _

/-- **C34**, the end: when all roles are finished they have done all that one complete execution of the protocol asks of
them, and no message is left. -/
theorem C34_done (n : Nat) (D : Global) (w : Global.Wf n D) (root : Name) (ls : List Label) (s : S)
    (h : Run (project n D) (S.init (project n D) root) ls s) (hfin : ∀ r, 1 ≤ r ∧ r ≤ n → Finished s r) :
    (∃ tr, Completes D root tr ∧ ∀ r, 1 ≤ r ∧ r ≤ n → actsOf r ls = tr.filterMap (view r)) ∧
    ∀ g p q, 1 ≤ p ∧ p ≤ n → 1 ≤ q ∧ q ≤ n → p ≠ q → s.queue (g, p, q) = [] := by
  obtain ⟨G, hI⟩ := inv_run w h
  have key : ∀ r, Part n r → G.gst r = G.top ∧ Free r ((D (G.path G.top)).comms.drop (G.idx r)) ∧
      (D (G.path G.top)).tail = .fin := by
    intro r hr
    obtain ⟨h1, h2⟩ := finished_end w hI hr (hfin r hr)
    obtain ⟨M, hM, _⟩ := hfin r hr
    have hg := (hI.mesh r hr M hM).1
    have hle := hI.le r hr
    have : s.gen r = G.top := by
      rcases Nat.lt_or_ge (s.gen r) G.top with h | h
      · obtain ⟨p, bs, h3, _⟩ := hI.sel _ h
        rw [h2] at h3; cases h3
      · omega
    rw [this] at h1 h2
    exact ⟨by omega, h1, h2⟩
  constructor
  · refine ⟨_, completes_events hI.start hI.sel G.top (Nat.le_refl _) _
      (.stop (key 1 ⟨Nat.le_refl _, by have := w.1; omega⟩).2.2), fun r hr => ?_⟩
    obtain ⟨h1, h2, _⟩ := key r hr
    rw [hI.acts r hr, h1, eventsTo, List.filterMap_append, List.filterMap_append, view_take_free h2]
  · intro g p q hp hq hpq
    obtain ⟨p1, p2, _⟩ := key p hp
    obtain ⟨q1, q2, _⟩ := key q hq
    obtain ⟨M, hM, _⟩ := hfin p hp
    have := hI.eq g p q hp hq hpq
    rw [pend_pos hM, p1, q1, List.append_nil] at this
    have e : upTo D G.path g p q G.top (G.idx p) = upTo D G.path g p q G.top (G.idx q) := by
      simp only [upTo]
      split
      · rfl
      · split
        · rename_i e; subst e
          rw [chan_take_free p2 (.inl rfl), chan_take_free q2 (.inr rfl)]
        · rfl
    rw [e] at this
    exact List.self_eq_append_right.1 this

/-- **C34**, nothing is lost: every execution of the protocol, up to the end of any block, is performed by some run. -/
theorem C34_possible (n : Nat) (D : Global) (w : Global.Wf n D) (root : Name) (tr : List Ev) (h : Follows D root tr) :
    ∃ ls s, Run (project n D) (S.init (project n D) root) ls s ∧
      ∀ r, 1 ≤ r ∧ r ≤ n → actsOf r ls = tr.filterMap (view r) := possible_from w h (sync_start root)

/-- **C34**, nothing is lost: every complete execution of the protocol is performed by some run to the end. -/
theorem C34_completable (n : Nat) (D : Global) (w : Global.Wf n D) (root : Name) (tr : List Ev) (h : Completes D root tr) :
    ∃ ls s, Run (project n D) (S.init (project n D) root) ls s ∧
      (∀ r, 1 ≤ r ∧ r ≤ n → actsOf r ls = tr.filterMap (view r)) ∧ ∀ r, 1 ≤ r ∧ r ≤ n → Finished s r :=
  complete_from w h (sync_start root)

/-! ## The hypotheses can be met -/

/-- A run of the example that takes the second branch and comes to the end. -/
theorem exRun : ∃ s, Run (project 3 exD) (S.init (project 3 exD) 0)
    [.act 1 (.send 2 10), .act 2 (.recv 1 10), .act 2 (.send 3 11), .act 1 (.decide 1), .tell 1 2, .tell 1 3,
     .act 2 (.heed 1 1), .act 3 (.recv 2 11), .enter 1, .act 3 (.heed 1 1), .act 3 (.send 1 12), .act 1 (.recv 3 12)] s ∧
    ∀ r, 1 ≤ r ∧ r ≤ 3 → Finished s r := by
  have r0 := Run.nil (Y := project 3 exD) (S.init (project 3 exD) 0)
  have r1 := r0.snoc (.send (r := 1) (q := 2) (m := 10) (by decide) (by decide) rfl rfl rfl)
  have r2 := r1.snoc (.recv (r := 2) (q := 1) (x := 10) (l := []) (by decide) (by decide) rfl rfl rfl rfl)
  have r3 := r2.snoc (.send (r := 2) (q := 3) (m := 11) (by decide) (by decide) rfl rfl rfl)
  have r4 := r3.snoc (.decide (r := 1) (bs := [0, 1]) (N := 1) (by decide) (by decide) rfl rfl
    (by intro q hq
        have : q = 2 ∨ q = 3 := by simpa [project, others, List.range'] using hq
        rcases this with rfl | rfl <;> rfl) (by simp))
  have r5 := r4.snoc (.tell (r := 1) (N := 1) (q := 2) (rest := [3]) (by decide) (by decide) rfl)
  have r6 := r5.snoc (.tell (r := 1) (N := 1) (q := 3) (rest := []) (by decide) (by decide) rfl)
  have r7 := r6.snoc (.heed (r := 2) (q := 1) (N := 1) (l := []) (bs := [0, 1]) (by decide) (by decide) rfl rfl rfl rfl)
  have r8 := r7.snoc (.recv (r := 3) (q := 2) (x := 11) (l := []) (by decide) (by decide) rfl rfl rfl rfl)
  have r9 := r8.snoc (.enter (r := 1) (N := 1) (by decide) (by decide) rfl)
  have r10 := r9.snoc (.heed (r := 3) (q := 1) (N := 1) (l := []) (bs := [0, 1]) (by decide) (by decide) rfl rfl rfl rfl)
  have r11 := r10.snoc (.send (r := 3) (q := 1) (m := 12) (by decide) (by decide) rfl rfl rfl)
  have r12 := r11.snoc (.recv (r := 1) (q := 3) (x := 12) (l := []) (by decide) (by decide) rfl rfl rfl rfl)
  refine ⟨_, r12, ?_⟩
  rintro r ⟨h1, h2⟩
  have : r = 1 ∨ r = 2 ∨ r = 3 := by omega
  rcases this with rfl | rfl | rfl <;> exact ⟨_, rfl, rfl⟩

theorem finished_stuck {Y : Sys} {s : S} {r : Nat} (h : Finished s r) : ¬ CanMove Y s r := by
  obtain ⟨M, hM, hk⟩ := h
  rintro ⟨l, s', ha, hs⟩
  cases hs <;> simp only [Label.actor] at ha <;> subst ha <;> simp_all

/-- Runs are beginnings of schedules, and of fair ones if they end because nobody can move. -/
theorem run_schedule {Y : Sys} {root : Name} {ls : List Label} {s : S} (h : Run Y (S.init Y root) ls s) :
    ∃ σ lab, Schedule Y root σ lab ∧ ∀ k, ls.length ≤ k → σ k = s ∧ lab k = none := by
  generalize hs : S.init Y root = s0 at h
  induction h with
  | nil => subst hs; exact ⟨fun _ => _, fun _ => none, ⟨rfl, fun k => .inr ⟨rfl, rfl⟩⟩, fun _ _ => ⟨rfl, rfl⟩⟩
  | @snoc ls s1 l s2 _ hl ih =>
    obtain ⟨σ, lab, hS, h⟩ := ih
    refine ⟨fun k => if k ≤ ls.length then σ k else s2, fun k => if k = ls.length then some l else lab k, ⟨?_, ?_⟩, ?_⟩
    · simpa using hS.start
    · intro k
      rcases Nat.lt_trichotomy k ls.length with hk | hk | hk
      · have a1 : k ≤ ls.length := by omega
        have a2 : k + 1 ≤ ls.length := by omega
        have a3 : k ≠ ls.length := by omega
        simp only [a1, a2, a3, if_true, if_false]
        exact hS.step k
      · subst hk
        left
        refine ⟨l, by simp, ?_⟩
        simp only [Nat.le_refl, if_true]
        rw [if_neg (by omega), (h _ (Nat.le_refl _)).1]
        exact hl
      · right
        have a1 : ¬ k ≤ ls.length := by omega
        have a2 : ¬ k + 1 ≤ ls.length := by omega
        have a3 : k ≠ ls.length := by omega
        simp only [a1, a2, a3, if_false]
        exact ⟨(h k (by omega)).2, trivial⟩
    · intro k hk
      simp only [List.length_append, List.length_cons, List.length_nil] at hk
      have a1 : ¬ k ≤ ls.length := by omega
      have a3 : k ≠ ls.length := by omega
      simp only [a1, a3, if_false]
      exact ⟨trivial, (h k (by omega)).2⟩

example : ∃ σ lab, Schedule (project 3 exD) 0 σ lab ∧ Fair (project 3 exD) σ lab ∧
    ∀ r, 1 ≤ r ∧ r ≤ 3 → Finished (σ 12) r ∧ ¬ Finished (σ 0) r := by
  obtain ⟨s, hr, hf⟩ := exRun
  obtain ⟨σ, lab, hS, h⟩ := run_schedule hr
  have hend : ∀ k, 12 ≤ k → ∀ r, ¬ CanMove (project 3 exD) (σ k) r := by
    intro k hk r hc
    rw [(h k hk).1] at hc
    by_cases hp : 1 ≤ r ∧ r ≤ 3
    · exact finished_stuck (hf r hp) hc
    · obtain ⟨l, s', ha, hs⟩ := hc
      apply hp
      cases hs <;> simp only [Label.actor] at ha <;> subst ha <;> exact ⟨by assumption, by assumption⟩
  have hF : Fair (project 3 exD) σ lab := by
    intro r k hc
    exact absurd (hc (k + 12) (by omega)) (hend _ (by omega) r)
  refine ⟨σ, lab, hS, hF, fun r hp => ⟨by rw [(h 12 (by decide)).1]; exact hf r hp, ?_⟩⟩
  rw [hS.start]
  rintro ⟨M, hM, hk⟩
  have : r = 1 ∨ r = 2 ∨ r = 3 := by omega
  rcases this with rfl | rfl | rfl <;> (cases hM; cases hk)

/-- The second branch of the example has no endless sequence of choices; the first has. -/
example : Acc (fun N' N => ∃ p bs, (exD N).tail = .choice p bs ∧ N' ∈ bs) 1 ∧
    ¬ Acc (fun N' N => ∃ p bs, (exD N).tail = .choice p bs ∧ N' ∈ bs) 0 := by
  constructor
  · exact ⟨_, fun y hy => by obtain ⟨p, bs, h, _⟩ := hy; cases h⟩
  · intro h
    generalize hN : (0 : Name) = N at h
    induction h with
    | intro N _ ih => subst hN; exact ih 0 ⟨1, [0, 1], rfl, by simp⟩ rfl

/-- The semantics does have deadlocks: three roles that all wait for another one first, with types that are dual session by
session but not projections of a protocol.  Here `1` waits for `2`, `2` for `3` and `3` for `1`. -/
def exBad : Sys := ⟨3, fun _ r =>
  match r with
  | 1 => ⟨fun q => if q = 2 then .recv 0 .fin else if q = 3 then .send 0 .fin else .fin, .role 2 (.role 3 .fin)⟩
  | 2 => ⟨fun q => if q = 3 then .recv 0 .fin else if q = 1 then .send 0 .fin else .fin, .role 3 (.role 1 .fin)⟩
  | _ => ⟨fun q => if q = 1 then .recv 0 .fin else if q = 2 then .send 0 .fin else .fin, .role 1 (.role 2 .fin)⟩⟩

example : ∀ l s', ¬ Step exBad (S.init exBad 0) l s' := by
  intro l s' h
  cases h with
  | @send r M q k m T h1 h2 h3 h4 h5 =>
    have hr : r = 1 ∨ r = 2 ∨ r = 3 := by simp only [exBad] at h2; omega
    rcases hr with rfl | rfl | rfl <;>
      (simp only [S.init, exBad, At.mesh.injEq] at h3; subst h3; simp at h4; obtain ⟨rfl, _⟩ := h4; simp at h5)
  | recv h1 h2 h3 h4 h5 h6 => simp [S.init] at h6
  | @decide r M bs N h1 h2 h3 h4 h5 h6 =>
    have hr : r = 1 ∨ r = 2 ∨ r = 3 := by simp only [exBad] at h2; omega
    rcases hr with rfl | rfl | rfl <;>
      (simp only [S.init, exBad, At.mesh.injEq] at h3; subst h3; simp at h4)
  | tell h1 h2 h3 => simp [S.init] at h3
  | enter h1 h2 h3 => simp [S.init] at h3
  | heed h1 h2 h3 h4 h5 h6 => simp [S.init] at h6

end Verif.Prop
