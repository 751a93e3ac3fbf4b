import Verif.Proof.InterleavedFair
import Verif.Prop.C15_C16
/-!
# C66: interleaved protocols run to their end

Programs are those of `Model/Interleaved.lean`: any number of protocols at once, every role in some thread, threads with several
meshes alternating between them in any order.  `Spec/Interleaved.lean` says when protocols and threads form no cycle
(`Forest`) and what is hoped for.
-/
namespace Verif.Prop
open Verif.Mesh (Name Global project Follows Completes actsOf view Comm upd)
open Verif.Runtime Verif.Interleaved Verif.Spec
open Verif.Gen hiding Name step

/-- **C66**, the threads of `fork_interleaved_mpst` form no cycle with the two protocols: `thread j i` is the thread that is
given the mesh of role `i` of protocol `j`. -/
theorem C66_fork (n1 idx1 n2 idx2 fresh : Nat) (h1 : IsRole n1 idx1) (h2 : IsRole n2 idx2) :
    ∃ body st mesh1 mesh2 thread, interleavedBody n1 idx1 n2 idx2 = some body ∧ run (St.init fresh) body = some st ∧
      Wired n1 fresh mesh1 ∧ Wired n2 fresh mesh2 ∧ (st.spawned.map Prod.fst).Nodup ∧
      (∀ i, IsRole n1 i → ∃ ms, (thread 0 i, ms) ∈ st.spawned ∧ mesh1 i ∈ ms) ∧
      (∀ i, IsRole n2 i → ∃ ms, (thread 1 i, ms) ∈ st.spawned ∧ mesh2 i ∈ ms) ∧
      thread 0 idx1 = thread 1 idx2 ∧
      ∀ n : Nat → Nat, n 0 = n1 → n 1 = n2 → Forest 2 n thread := by
  obtain ⟨body, st, m1, m2, hb, hr, w1, w2, -, -, hn, hs, f1, f2, -⟩ := C16_interleaved_wired n1 idx1 n2 idx2 fresh h1 h2
  refine ⟨body, st, m1, m2, fun j i => if j = 0 then (if i = idx1 then 0 else interleavedFnOne idx1 i)
    else (if i = idx2 then 0 else interleavedFnTwo n1 idx2 i), hb, hr, w1, w2, hn, ?_, ?_, by simp, ?_⟩
  · intro i hi
    by_cases e : i = idx1
    · subst e; exact ⟨_, by simpa using hs, by simp⟩
    · exact ⟨_, by simpa [e] using f1 i hi e, by simp⟩
  · intro i hi
    by_cases e : i = idx2
    · subst e; exact ⟨_, by simpa using hs, by simp⟩
    · exact ⟨_, by simpa [e] using f2 i hi e, by simp⟩
  · intro n e0 e1
    unfold IsRole at h1 h2
    constructor
    · intro j r q hj hr hq e
      have : j = 0 ∨ j = 1 := by omega
      rcases this with rfl | rfl
      · rw [e0] at hr hq
        simp only [if_true, interleavedFnOne] at e
        split at e <;> split at e <;> (try split at e) <;> (try split at e) <;> omega
      · rw [e1] at hr hq
        simp only [if_neg (show (1 : Nat) ≠ 0 by omega), interleavedFnTwo] at e
        split at e <;> split at e <;> (try split at e) <;> (try split at e) <;> omega
    · have key : ∀ j r, Back 2 n (fun j i => if j = 0 then (if i = idx1 then 0 else interleavedFnOne idx1 i)
          else (if i = idx2 then 0 else interleavedFnTwo n1 idx2 i)) j r → j = 1 ∧ r = idx2 := by
        rintro j r ⟨a1, a2, i, q, a3, a4, a5⟩
        have : j = 1 := by omega
        subst this
        have : i = 0 := by omega
        subst this
        rw [e1] at a2
        rw [e0] at a4
        refine ⟨rfl, ?_⟩
        simp only [if_true, if_neg (show (1 : Nat) ≠ 0 by omega), interleavedFnOne, interleavedFnTwo] at a5
        split at a5 <;> split at a5 <;> (try split at a5) <;> (try split at a5) <;> omega
      intro j r q hr hq
      obtain ⟨e1, e2⟩ := key j r hr
      obtain ⟨-, e3⟩ := key j q hq
      omega

section
variable (count : Nat) (n : Nat → Nat) (D : Nat → Global) (root : Nat → Name) (thread : Nat → Nat → Nat)

/-- **C66**, safety: whatever was done before in all protocols, and however threads are shared, the next call on a mesh
delivers its message, or returns the value it expects, or waits; it never fails. -/
theorem C66_safe (w : ∀ j, j < count → Global.Wf (n j) (D j)) (ls : List (Nat × RLabel)) (s : IS)
    (h : IRun (together count n D root thread) ls s) (j r : Nat) (hj : j < count) (hr : 1 ≤ r ∧ r ≤ n j) (op : Heap.Op Pay)
    (hc : Call (project (n j) (D j)) r ((s.sess j).pos r) op) :
    ∃ h' o, Heap.step (env (project (n j) (D j))) (s.sess j).heap op = some (h', o) ∧ Fine op o :=
  C44_safe (n j) (D j) (w j hj) (root j) _ _ (run_part h hj) r hr op hc

/-- **C66**, order: every protocol is followed, whatever is done in the others. -/
theorem C66_order (w : ∀ j, j < count → Global.Wf (n j) (D j)) (ls : List (Nat × RLabel)) (s : IS)
    (h : IRun (together count n D root thread) ls s) (j : Nat) (hj : j < count) :
    ∃ tr, Follows (D j) (root j) tr ∧ ∀ r, 1 ≤ r ∧ r ≤ n j → actsOf r (sims (part j ls)) <+: tr.filterMap (view r) :=
  C44_order (n j) (D j) (w j hj) (root j) _ _ (run_part h hj)

/-- **C66**, no deadlock: if protocols and threads form no cycle, some thread can go on unless everything is closed. -/
theorem C66_progress (w : ∀ j, j < count → Global.Wf (n j) (D j)) (F : Forest count n thread) (ls : List (Nat × RLabel)) (s : IS)
    (h : IRun (together count n D root thread) ls s) (hd : ¬ Done (together count n D root thread) s) :
    ∃ t, Goes (together count n D root thread) s t :=
  progress w F (fun j hj => ⟨_, run_part h hj⟩) (run_turns h) hd

/-- **C66**, the end: when everything is closed, each protocol has been carried out completely and holds no endpoint. -/
theorem C66_done (w : ∀ j, j < count → Global.Wf (n j) (D j)) (ls : List (Nat × RLabel)) (s : IS)
    (h : IRun (together count n D root thread) ls s) (hd : Done (together count n D root thread) s) (j : Nat) (hj : j < count) :
    (∃ tr, Completes (D j) (root j) tr ∧ ∀ r, 1 ≤ r ∧ r ≤ n j → actsOf r (sims (part j ls)) = tr.filterMap (view r)) ∧
    (s.sess j).heap.pool = [] := by
  have := C44_done (n j) (D j) (w j hj) (root j) _ _ (run_part h hj) (hd j hj)
  exact ⟨this.1, this.2.1⟩

/-- **C66**, under every fair schedule, as long as something is not closed some thread will make another call. -/
theorem C66_goes_on (w : ∀ j, j < count → Global.Wf (n j) (D j)) (F : Forest count n thread) (σ : Nat → IS)
    (lab : Nat → Option (Nat × RLabel)) (h : ISchedule (together count n D root thread) σ lab)
    (hf : IFair (together count n D root thread) σ lab) (k : Nat) :
    Done (together count n D root thread) (σ k) ∨ ∃ t i, k ≤ i ∧ IMoves (together count n D root thread) lab t i := by
  by_cases hm : ∃ t i, k ≤ i ∧ IMoves (together count n D root thread) lab t i
  · exact .inr hm
  · left
    have none' : ∀ j i, k ≤ i → ∀ r, ¬ RMoves (labOf lab j) r i := by
      rintro j i hi r ⟨l, h1, h2⟩
      unfold labOf at h1
      split at h1
      · rename_i a b e
        split at h1
        · cases h1
          exact hm ⟨_, i, hi, a, l, r, e, h2, rfl⟩
        · cases h1
      · cases h1
    have quiet : ∀ j, j < count → ∃ k', ∀ i, k' ≤ i → labOf lab j i = none := by
      intro j hj
      obtain ⟨k', -, hk'⟩ := drops_end (w j hj) (schedule_part h hj) (k := k) (none' j)
      exact ⟨k', hk'⟩
    obtain ⟨k', hk'⟩ := common (Q := fun j k' => ∀ i, k' ≤ i → labOf lab j i = none)
      (fun j a b hab ha i hi => ha i (by omega)) count quiet
    have hd := still_done w F h hf (k := max k k') fun i hi => silent h hk' i (by omega)
    intro j hj r h1 h2
    rw [← stands (schedule_part h hj) (j := max k k') (by omega) (fun i hi => none' j i hi r)]
    exact hd j hj r h1 h2

/-- **C66**, termination: if no protocol has an endless sequence of choices, every fair schedule brings all roles of all
protocols back from `close`. -/
theorem C66_terminates (w : ∀ j, j < count → Global.Wf (n j) (D j)) (F : Forest count n thread) (σ : Nat → IS)
    (lab : Nat → Option (Nat × RLabel)) (h : ISchedule (together count n D root thread) σ lab)
    (hf : IFair (together count n D root thread) σ lab) (he : ∀ j, j < count → Ends (D j) (root j)) :
    ∃ k, Done (together count n D root thread) (σ k) := by
  obtain ⟨k, hk⟩ := common (Q := fun j k => ∀ i, k ≤ i → labOf lab j i = none) (fun j a b hab ha i hi => ha i (by omega)) count
    fun j hj => all_quiet (w j hj) (schedule_part h hj) (he j hj)
  exact ⟨k, still_done w F h hf fun i hi => silent h hk i hi⟩

/-- **C66**, nobody starves: in a protocol to whose meshes the threads come back again and again, under every fair
schedule, every role has returned from `close` or will make another call, whatever the others do.  No condition on cycles. -/
theorem C66_live (w : ∀ j, j < count → Global.Wf (n j) (D j)) (σ : Nat → IS)
    (lab : Nat → Option (Nat × RLabel)) (h : ISchedule (together count n D root thread) σ lab)
    (hf : IFair (together count n D root thread) σ lab) (j : Nat) (hj : j < count)
    (hat : ∀ r, 1 ≤ r ∧ r ≤ n j → Attended (together count n D root thread) σ j r) (r : Nat) (hr : 1 ≤ r ∧ r ≤ n j) (k : Nat) :
    ((σ k).sess j).pos r = .closed ∨ ∃ i l, k ≤ i ∧ lab i = some (j, l) ∧ l.actor = some r := by
  rcases C44_live (n j) (D j) (w j hj) (root j) _ _ (schedule_part h hj) (attended_fair h hf hj hat) r hr k with
    h1 | ⟨i, hi, l, h1, h2⟩
  · exact .inl h1
  · refine .inr ⟨i, l, hi, ?_, h2⟩
    unfold labOf at h1
    split at h1
    · rename_i a b e
      split at h1
      · cases h1; rename_i ea; rw [e, ea]
      · cases h1
    · cases h1

/-- **C66**, the assumption of fairness can always be met: every run can be continued by a fair schedule. -/
theorem C66_fair (P : Prog) (ls : List (Nat × RLabel)) (s : IS) (h : IRun P ls s) :
    ∃ σ lab, ISchedule P σ lab ∧ IFair P σ lab ∧ σ ls.length = s ∧ ∀ k l, ls[k]? = some l → lab k = some l :=
  ifair_exists h

/-- **C66**, any order: runs of the protocols can be mixed in any way, and whoever shares threads, if the functions of the
threads make their calls in that order. -/
theorem C66_any_order (ls : List (Nat × RLabel)) (sess : Nat → RS) (hc : ∀ x ∈ ls, x.1 < count)
    (hr : ∀ j, j < count → RRun (project (n j) (D j)) (root j) (part j ls) (sess j)) :
    ∃ s, IRun (together count n D root thread) ls s ∧ s.sess = sess := by
  refine ⟨⟨sess, fun t => (next_exists (together count n D root thread) sess t).choose⟩, any_order hc hr fun t => ?_, rfl⟩
  exact (next_exists (together count n D root thread) sess t).choose_spec

end

/-- **C66**, one thread for a whole protocol: it can carry out every complete execution and close all meshes, with no other
thread to wait for. -/
theorem C66_solo (n : Nat) (D : Global) (w : Global.Wf n D) (root : Name) (tr : List Mesh.Ev) (h : Completes D root tr) :
    ∃ ls s, IRun (together 1 (fun _ => n) (fun _ => D) (fun _ => root) fun _ _ => 0) ls s ∧
      Done (together 1 (fun _ => n) (fun _ => D) (fun _ => root) fun _ _ => 0) s ∧
      ∀ r, 1 ≤ r ∧ r ≤ n → actsOf r (sims (part 0 ls)) = tr.filterMap (view r) := by
  obtain ⟨ls, st, h1, h2, h3⟩ := C44_completable n D w root tr h
  have e : part 0 (ls.map fun l => (0, l)) = ls := by
    unfold part
    rw [List.filterMap_map]
    simp [Function.comp_def]
  obtain ⟨s, hs, hss⟩ := C66_any_order 1 (fun _ => n) (fun _ => D) (fun _ => root) (fun _ _ => 0)
    (ls.map fun l => (0, l)) (fun _ => st) (fun x hx => by
      obtain ⟨l, -, rfl⟩ := List.mem_map.1 hx; exact Nat.zero_lt_one) (fun j hj => by
      have : j = 0 := by omega
      subst this; rw [e]; exact h1)
  refine ⟨_, s, hs, fun j hj => ?_, by rw [e]; exact h3⟩
  rw [hss]; exact h2

/-! ## Cycles -/

/-- Role 1 tells role 2, or the other way round. -/
def cycleD (j : Nat) : Global := fun _ => ⟨[if j = 0 then ⟨1, 2, 7⟩ else ⟨2, 1, 7⟩], .fin⟩

theorem cycleD_wf (j : Nat) : Global.Wf 2 (cycleD j) := by
  refine ⟨Nat.le_refl _, fun N => ⟨fun c hc => ?_, fun p bs h => by cases h⟩⟩
  simp only [cycleD, List.mem_singleton] at hc
  subst hc
  split <;> decide

/-- A role that has to receive first cannot begin. -/
theorem receiver_waits {n : Nat} {D : Global} (w : Global.Wf n D) {root : Name} {s : RS} (hs : Start (project n D) root s) {r q m : Nat}
    {k : Mesh.Stack} {T : Mesh.Sess} (h1 : ((project n D).types root r).stack = .role q k)
    (h2 : ((project n D).types root r).sess q = .recv m T) : ¬ CanGo (project n D) s r := by
  rintro ⟨l, st, ha, hst⟩
  have R := start_spec (by have := w.1; omega) hs
  by_cases hl : ∃ x, l = .sim x
  · obtain ⟨x, rfl⟩ := hl
    obtain ⟨s', _, _, -, hm, -⟩ := sim_step w R hst fun _ _ => rfl
    simp only [RLabel.actor, Option.some.injEq] at ha
    cases hm <;> simp only [Mesh.Label.actor] at ha <;> subst ha <;> simp_all [Mesh.S.init]
    all_goals (rename_i hM hk _ ; subst hM; simp_all)
  · obtain ⟨M, e1, e2⟩ := close_finished w R hst ha fun x hx => hl ⟨x, hx⟩
    simp only [Mesh.S.init, Mesh.At.mesh.injEq] at e1
    subst e1
    rw [h1] at e2; cases e2

/-- Nothing is closed at the start. -/
theorem start_open {Y : Mesh.Sys} {root : Mesh.Name} {s : RS} (hs : Start Y root s) (r : Nat) (a : 1 ≤ r) (b : r ≤ Y.n) :
    s.pos r ≠ .closed := by
  cases hs with
  | mk _ _ _ hp =>
    obtain ⟨m, sl, -, -, e⟩ := hp r a b
    exact fun hx => nomatch e.symm.trans hx

/-- **C66** needs its condition: with two threads that share two protocols, each waiting in the protocol the other one comes
to later, nobody can go on. -/
theorem C66_cycle : ∃ s, IRun (together 2 (fun _ => 2) cycleD (fun _ => 0) fun _ r => r) [] s ∧
    ¬ Done (together 2 (fun _ => 2) cycleD (fun _ => 0) fun _ r => r) s ∧
    ∀ t, ¬ Goes (together 2 (fun _ => 2) cycleD (fun _ => 0) fun _ r => r) s t := by
  obtain ⟨s0, h0⟩ := start_exists (n := 2) (D := cycleD 0) (root := 0) (by decide)
  obtain ⟨s1, h1⟩ := start_exists (n := 2) (D := cycleD 1) (root := 0) (by decide)
  refine ⟨⟨fun j => if j = 0 then s0 else s1, fun t => if t = 1 then some (1, 1) else if t = 2 then some (0, 2) else none⟩,
    .start ⟨fun j hj => ?_, fun t => ?_⟩, ?_, ?_⟩
  · change j < 2 at hj
    have : j = 0 ∨ j = 1 := by omega
    rcases this with rfl | rfl
    · exact h0
    · exact h1
  · by_cases e1 : t = 1
    · subst e1; exact ⟨by decide, by decide, rfl, start_open h1 1 (by decide) (by decide)⟩
    · by_cases e2 : t = 2
      · subst e2; exact ⟨by decide, by decide, rfl, start_open h0 2 (by decide) (by decide)⟩
      · simp only [e1, e2, if_false]
        rintro j r ⟨-, hr, rfl, -⟩
        change 1 ≤ r ∧ r ≤ 2 at hr
        change ¬ r = 1 at e1
        change ¬ r = 2 at e2
        omega
  · intro hd
    exact start_open h0 1 (by decide) (by decide) (hd 0 (by decide) 1 (by decide) (by decide))
  · rintro t ⟨j, l, r, s', ha, -, hs⟩
    cases hs with
    | gc => cases ha
    | @call _ _ r0 st a h2 h3 h4 h5 h6 =>
      rw [h3] at ha; cases ha
      change j < 2 at h2
      by_cases e1 : r = 1
      · subst e1
        change some (1, 1) = some (j, 1) at h4
        cases h4
        exact receiver_waits (cycleD_wf 1) h1 (r := 1) (q := 2) (m := 7) (k := .fin) (T := .fin) (by decide) (by decide) ⟨_, _, h3, h5⟩
      · by_cases e2 : r = 2
        · subst e2
          change some (0, 2) = some (j, 2) at h4
          cases h4
          exact receiver_waits (cycleD_wf 0) h0 (r := 2) (q := 1) (m := 7) (k := .fin) (T := .fin) (by decide) (by decide) ⟨_, _, h3, h5⟩
        · have := actor_part h5 h3
          change 1 ≤ r ∧ r ≤ 2 at this
          omega

/-! ## The hypotheses can be met -/

/-- Runs are beginnings of schedules. -/
theorem irun_schedule {P : Prog} {ls : List (Nat × RLabel)} {s : IS} (h : IRun P ls s) :
    ∃ σ lab, ISchedule P σ lab ∧ ∀ k, ls.length ≤ k → σ k = s ∧ lab k = none := by
  induction h with
  | @start s hs => exact ⟨fun _ => s, fun _ => none, ⟨hs, fun k => .inr ⟨rfl, rfl⟩⟩, fun _ _ => ⟨rfl, rfl⟩⟩
  | @snoc ls s1 l s2 _ hl ih =>
    obtain ⟨σ, lab, hS, h⟩ := ih
    refine ⟨fun k => if k ≤ ls.length then σ k else s2, fun k => if k = ls.length then some l else lab k, ⟨?_, ?_⟩, ?_⟩
    · simpa using hS.start
    · intro k
      rcases Nat.lt_trichotomy k ls.length with hk | hk | hk
      · have a1 : k ≤ ls.length := by omega
        have a2 : k + 1 ≤ ls.length := by omega
        have a3 : k ≠ ls.length := by omega
        simp only [a1, a2, a3, if_true, if_false]
        exact hS.step k
      · subst hk
        left
        refine ⟨l, by simp, ?_⟩
        simp only [Nat.le_refl, if_true]
        rw [if_neg (by omega), (h _ (Nat.le_refl _)).1]
        exact hl
      · right
        have a1 : ¬ k ≤ ls.length := by omega
        have a2 : ¬ k + 1 ≤ ls.length := by omega
        have a3 : k ≠ ls.length := by omega
        simp only [a1, a2, a3, if_false]
        exact ⟨(h k (by omega)).2, trivial⟩
    · intro k hk
      simp only [List.length_append, List.length_cons, List.length_nil] at hk
      have a1 : ¬ k ≤ ls.length := by omega
      have a3 : k ≠ ls.length := by omega
      simp only [a1, a3, if_false]
      exact ⟨trivial, (h k (by omega)).2⟩

theorem done_stuck {P : Prog} {s : IS} (h : Done P s) (t : Nat) : ¬ Goes P s t := by
  rintro ⟨j, l, r, s', ha, -, hs⟩
  cases hs with
  | gc => cases ha
  | call h1 h2 h3 h4 =>
    have := actor_part h4 h2
    exact closed_stuck h4 h2 (h j h1 _ this.1 this.2)

/-- Two protocols started by `fork_interleaved_mpst`, the example of C34 with three roles and a message between two; role 2 of
the first and role 1 of the second share thread 0. -/
def twoN (j : Nat) : Nat := if j = 0 then 3 else 2
def twoD (j : Nat) : Global := if j = 0 then exD else cycleD 0
def twoThread (j r : Nat) : Nat := if j = 0 then [0, 1, 0, 2].getD r 0 else [0, 0, 3].getD r 0

theorem two_forest : Forest 2 twoN twoThread := by
  constructor
  · intro j r q hj hr hq e
    have : j = 0 ∨ j = 1 := by omega
    rcases this with rfl | rfl
    · have hr : 1 ≤ r ∧ r ≤ 3 := hr
      have hq : 1 ≤ q ∧ q ≤ 3 := hq
      have h1 : r = 1 ∨ r = 2 ∨ r = 3 := by omega
      have h2 : q = 1 ∨ q = 2 ∨ q = 3 := by omega
      rcases h1 with rfl | rfl | rfl <;> rcases h2 with rfl | rfl | rfl <;> first | rfl | cases e
    · have hr : 1 ≤ r ∧ r ≤ 2 := hr
      have hq : 1 ≤ q ∧ q ≤ 2 := hq
      have h1 : r = 1 ∨ r = 2 := by omega
      have h2 : q = 1 ∨ q = 2 := by omega
      rcases h1 with rfl | rfl <;> rcases h2 with rfl | rfl <;> first | rfl | cases e
  · have key : ∀ j r, Back 2 twoN twoThread j r → r = 1 := by
      rintro j r ⟨a1, a2, i, q, a3, a4, a5⟩
      have : j = 1 := by omega
      subst this
      have : i = 0 := by omega
      subst this
      have a2 : 1 ≤ r ∧ r ≤ 2 := a2
      have a4 : 1 ≤ q ∧ q ≤ 3 := a4
      have h1 : r = 1 ∨ r = 2 := by omega
      have h2 : q = 1 ∨ q = 2 ∨ q = 3 := by omega
      rcases h1 with rfl | rfl
      · rfl
      · rcases h2 with rfl | rfl | rfl <;> cases a5
    intro j r q hr hq
    rw [key j r hr, key j q hq]

/-- A fair schedule of the two in which everything is closed at the end. -/
example : (∀ j, j < 2 → Global.Wf (twoN j) (twoD j)) ∧ Forest 2 twoN twoThread ∧
    ∃ σ lab, ISchedule (together 2 twoN twoD (fun _ => 0) twoThread) σ lab ∧
      IFair (together 2 twoN twoD (fun _ => 0) twoThread) σ lab ∧
      ¬ Done (together 2 twoN twoD (fun _ => 0) twoThread) (σ 0) ∧
      ∃ k, Done (together 2 twoN twoD (fun _ => 0) twoThread) (σ k) := by
  refine ⟨fun j hj => ?_, two_forest, ?_⟩
  · have : j = 0 ∨ j = 1 := by omega
    rcases this with rfl | rfl
    · exact exD_wf
    · exact cycleD_wf 0
  · obtain ⟨l0, s0, h0, c0, -, e0⟩ := exClosed
    obtain ⟨l1, s1, h1, c1, e1⟩ := C44_completable 2 (cycleD 0) (cycleD_wf 0) 0 _ (.stop rfl)
    have p0 : part 0 (l0.map (fun l => (0, l)) ++ l1.map fun l => (1, l)) = l0 := by
      unfold part
      simp [List.filterMap_append, List.filterMap_map, Function.comp_def]
    have p1 : part 1 (l0.map (fun l => (0, l)) ++ l1.map fun l => (1, l)) = l1 := by
      unfold part
      simp [List.filterMap_append, List.filterMap_map, Function.comp_def]
    obtain ⟨s, hs, hss⟩ := C66_any_order 2 twoN twoD (fun _ => 0) twoThread
      (l0.map (fun l => (0, l)) ++ l1.map fun l => (1, l)) (fun j => if j = 0 then s0 else s1) (fun x hx => by
        rcases List.mem_append.1 hx with hx | hx <;> obtain ⟨l, -, rfl⟩ := List.mem_map.1 hx <;> simp) (fun j hj => by
        have : j = 0 ∨ j = 1 := by omega
        rcases this with rfl | rfl
        · rw [p0]; exact h0
        · rw [p1]; exact h1)
    have hd : Done (together 2 twoN twoD (fun _ => 0) twoThread) s := by
      intro j hj
      have hj : j < 2 := hj
      have : j = 0 ∨ j = 1 := by omega
      rw [hss]
      rcases this with rfl | rfl
      · exact c0
      · exact c1
    obtain ⟨σ, lab, hS, hk⟩ := irun_schedule hs
    refine ⟨σ, lab, hS, fun t k hg => ?_, fun h => ?_, _, by rw [(hk _ (Nat.le_refl _)).1]; exact hd⟩
    · have := hg (max k (l0.map (fun l => (0, l)) ++ l1.map fun l => (1, l)).length) (by omega)
      rw [(hk _ (by omega)).1] at this
      exact absurd this (done_stuck hd t)
    · exact start_open (hS.start.sess 0 (by decide)) 1 (by decide) (by decide) (h 0 (by decide) 1 (by decide) (by decide))

/-- A protocol with a choice and no endless sequence of choices. -/
example : Ends (fun N => if N = 0 then ⟨[⟨1, 2, 10⟩], .choice 1 [1, 2]⟩ else ⟨[⟨2, 1, 11⟩], .fin⟩) 0 := by
  constructor
  rintro N ⟨p, bs, h1, h2⟩
  simp only [if_true, Mesh.Tail.choice.injEq] at h1
  obtain ⟨-, rfl⟩ := h1
  constructor
  rintro N' ⟨p', bs', h3, -⟩
  have : N ≠ 0 := by rintro rfl; simp at h2
  simp [this] at h3

end Verif.Prop
