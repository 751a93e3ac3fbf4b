import Verif.Prop.C66
/-!
# C67: interleaved protocols when roles fail

Programs are those of C66; but any thread may drop any of its meshes at any moment, and a mesh whose call returns an error is lost
(`Model/InterleavedFailure.lean`).
-/
namespace Verif.Prop
open Verif.Mesh (Name Global project Follows Completes actsOf view)
open Verif.Runtime Verif.Interleaved

section
variable (count : Nat) (n : Nat → Nat) (D : Nat → Global) (root : Nat → Name) (thread : Nat → Nat → Nat)

/-- **C67**, safety: the next call on a mesh that is still held delivers its message, or returns the value or signal it expects,
or waits, or returns an error; sending data never returns an error; an error is returned only if a role of this same
protocol has failed. -/
theorem C67_safe (w : ∀ j, j < count → Global.Wf (n j) (D j)) (ls : List (Nat × FLabel)) (s : FIS)
    (h : FIRun (together count n D root thread) ls s) (j r : Nat) (hj : j < count) (hr : 1 ≤ r ∧ r ≤ n j)
    (hd : (s.sess j).dead r = false) (op : Heap.Op Pay) (hc : Call (project (n j) (D j)) r ((s.sess j).pos r) op) :
    ∃ h' o, Heap.step (env (project (n j) (D j))) (s.sess j).heap op = some (h', o) ∧ Graceful op o ∧
      (o = .err → SomeDead (project (n j) (D j)) (s.sess j)) :=
  C45_safe (n j) (D j) (w j hj) (root j) _ _ (frun_part h hj) r hr hd op hc

/-- **C67**, a failure stays in its protocol unless a thread carries it over: if a role of protocol `j` has failed, some
thread has dropped a mesh of protocol `j`. -/
theorem C67_blame (w : ∀ j, j < count → Global.Wf (n j) (D j)) (ls : List (Nat × FLabel)) (s : FIS)
    (h : FIRun (together count n D root thread) ls s) (j r : Nat) (hj : j < count) (hr : 1 ≤ r ∧ r ≤ n j)
    (hd : (s.sess j).dead r = true) : ∃ x, (j, FLabel.crash x) ∈ ls := by
  have key : ∀ {ls s}, FRun (project (n j) (D j)) (root j) ls s → (∃ r, (1 ≤ r ∧ r ≤ n j) ∧ s.dead r = true) →
      ∃ x, FLabel.crash x ∈ ls := by
    intro ls s h
    induction h with
    | start => rintro ⟨r, -, hd⟩; cases hd
    | @snoc ls s l s' hp hs ih =>
      rintro ⟨r, hr, hd⟩
      by_cases hx : ∃ r, (1 ≤ r ∧ r ≤ n j) ∧ s.dead r = true
      · obtain ⟨x, hx⟩ := ih hx
        exact ⟨x, by simp [hx]⟩
      · cases hs with
        | step => exact absurd ⟨r, hr, hd⟩ hx
        | @crash q => exact ⟨q, by simp⟩
        | @fail q op h1 h2 a1 a2 a3 a4 a5 a6 =>
          obtain ⟨h', o, b1, -, b3⟩ := C45_safe (n j) (D j) (w j hj) (root j) _ _ hp q ⟨a1, a2⟩ a3 op a4
          rw [b1] at a5
          cases a5
          obtain ⟨x, c1, c2, c3⟩ := b3 rfl
          exact absurd ⟨x, ⟨c1, c2⟩, c3⟩ hx
  obtain ⟨x, hx⟩ := key (frun_part h hj) ⟨r, hr, hd⟩
  refine ⟨x, ?_⟩
  unfold fpart at hx
  rw [List.mem_filterMap] at hx
  obtain ⟨⟨i, l⟩, h1, h2⟩ := hx
  split at h2
  · cases h2; rename_i e; simp only at e; subst e; exact h1
  · cases h2

/-- **C67**, giving up is always possible: a thread can drop any mesh it holds, whatever it was about to do. -/
theorem C67_drop (w : ∀ j, j < count → Global.Wf (n j) (D j)) (ls : List (Nat × FLabel)) (s : FIS)
    (h : FIRun (together count n D root thread) ls s) (j r : Nat) (hj : j < count) (hr : 1 ≤ r ∧ r ≤ n j)
    (hd : (s.sess j).dead r = false) (hc : (s.sess j).pos r ≠ .closed) :
    ∃ s', FIStep (together count n D root thread) s (j, .crash r) s' ∧ ∀ i, i ≠ j → s'.sess i = s.sess i := by
  obtain ⟨st, hs⟩ := C45_crash (n j) (D j) (w j hj) (root j) _ _ (frun_part h hj) r hr hd hc
  obtain ⟨a, ha⟩ := fnext_exists (together count n D root thread) (Mesh.upd s.sess j st) (thread j r)
  have hst := FIStep.drop (P := together count n D root thread) (s := s) hj hs ha
  exact ⟨_, hst, (fstep_part hst).2.2⟩

/-- **C67**, order: also with failures every protocol is followed, whatever is done in the others. -/
theorem C67_order (w : ∀ j, j < count → Global.Wf (n j) (D j)) (ls : List (Nat × FLabel)) (s : FIS)
    (h : FIRun (together count n D root thread) ls s) (j : Nat) (hj : j < count) :
    ∃ tr, Follows (D j) (root j) tr ∧ ∀ r, 1 ≤ r ∧ r ≤ n j → actsOf r (fsims (fpart j ls)) <+: tr.filterMap (view r) :=
  C45_order (n j) (D j) (w j hj) (root j) _ _ (frun_part h hj)

/-- **C67**, `close` vouches for the others of its protocol: if one role has returned from `close`, the protocol has been
carried out completely. -/
theorem C67_close (w : ∀ j, j < count → Global.Wf (n j) (D j)) (ls : List (Nat × FLabel)) (s : FIS)
    (h : FIRun (together count n D root thread) ls s) (j r : Nat) (hj : j < count) (hr : 1 ≤ r ∧ r ≤ n j)
    (hc : (s.sess j).pos r = .closed) :
    ∃ tr, Completes (D j) (root j) tr ∧ ∀ q, 1 ≤ q ∧ q ≤ n j → actsOf q (fsims (fpart j ls)) = tr.filterMap (view q) :=
  (C45_close (n j) (D j) (w j hj) (root j) _ _ (frun_part h hj) r hr hc).2

/-- **C67**, no deadlock: if protocols and threads form no cycle, then, whoever fails, unless all roles of all protocols have
failed or returned from `close`, a pending drop can be carried out or some thread can go on, if only to find an error. -/
theorem C67_progress (w : ∀ j, j < count → Global.Wf (n j) (D j)) (F : Forest count n thread) (ls : List (Nat × FLabel)) (s : FIS)
    (h : FIRun (together count n D root thread) ls s) (hd : ¬ AllOver (together count n D root thread) s) :
    (∃ j s', FIStep (together count n D root thread) s (j, .step .gc) s') ∨ ∃ t, FGoes (together count n D root thread) s t :=
  fprogress' w F (fun j hj => ⟨_, frun_part h hj⟩) (frun_turns h) hd

/-- **C67**, the end: a protocol all of whose roles have failed or returned from `close` holds no endpoint; after the
pending drops every channel of it is freed. -/
theorem C67_clean (w : ∀ j, j < count → Global.Wf (n j) (D j)) (ls : List (Nat × FLabel)) (s : FIS)
    (h : FIRun (together count n D root thread) ls s) (j : Nat) (hj : j < count) (hc : Over (project (n j) (D j)) (s.sess j)) :
    (s.sess j).heap.pool = [] ∧ ((s.sess j).heap.garb = [] → ∀ c, ((s.sess j).heap.chan c).tx = false ∧
      ((s.sess j).heap.chan c).rx = false ∧ ((s.sess j).heap.chan c).buf = none) := by
  obtain ⟨h1, -, h2⟩ := C45_clean (n j) (D j) (w j hj) (root j) _ _ (frun_part h hj) hc
  exact ⟨h1, h2⟩

/-- **C67**, termination: if protocols and threads form no cycle and no protocol has an endless sequence of choices, then under
every fair schedule, whoever fails and whenever, there comes a moment at which all roles of all protocols have failed or
returned from `close`, and every channel is freed; nothing happens after it. -/
theorem C67_terminates (w : ∀ j, j < count → Global.Wf (n j) (D j)) (F : Forest count n thread) (σ : Nat → FIS)
    (lab : Nat → Option (Nat × FLabel)) (h : FISchedule (together count n D root thread) σ lab)
    (hf : FIFair (together count n D root thread) σ lab) (he : ∀ j, j < count → Ends (D j) (root j)) :
    ∃ k, AllOver (together count n D root thread) (σ k) ∧ (∀ i, k ≤ i → lab i = none ∧ σ i = σ k) ∧
      ∀ j, j < count → ∀ c, (((σ k).sess j).heap.chan c).tx = false ∧ (((σ k).sess j).heap.chan c).rx = false ∧
        (((σ k).sess j).heap.chan c).buf = none := by
  obtain ⟨k, h1, h2, h3⟩ := fiterminates w F h hf he
  obtain ⟨ls, hrun⟩ := fschedule_run h k
  exact ⟨k, h1, h3, fun j hj => (C67_clean count n D root thread w ls _ hrun j hj (h1 j hj)).2 (h2 j hj)⟩

/-- **C67**, a thread that ends early takes all its protocols with it: if from some moment on thread `t` only drops what it has,
then in every protocol in which it then had something left to do nobody ever returns from `close`; and, under every fair
schedule, if there are no cycles and no endless sequences of choices, all roles of these protocols come to fail. -/
theorem C67_fate (w : ∀ j, j < count → Global.Wf (n j) (D j)) (σ : Nat → FIS) (lab : Nat → Option (Nat × FLabel))
    (h : FISchedule (together count n D root thread) σ lab) (t k : Nat) (hg : GivesUp (together count n D root thread) lab t k)
    (j p : Nat) (hj : j < count) (hp : 1 ≤ p ∧ p ≤ n j) (ht : thread j p = t) (hne : ¬ FAtEnd ((σ k).sess j) p) :
    (∀ i r, 1 ≤ r ∧ r ≤ n j → ((σ i).sess j).pos r ≠ .closed) ∧
    (Forest count n thread → FIFair (together count n D root thread) σ lab → (∀ j, j < count → Ends (D j) (root j)) →
      ∃ m, ∀ i, m ≤ i → ∀ r, 1 ≤ r ∧ r ≤ n j → ((σ i).sess j).dead r = true) := by
  have hno : ∀ i r, 1 ≤ r ∧ r ≤ n j → ((σ i).sess j).pos r ≠ .closed := by
    intro i r hr hc
    have hs := fschedule_part h (j := j) hj
    have hc' := closed_stays hs (Nat.le_max_left i k) hc
    obtain ⟨ls, hrun⟩ := fsched_run hs (max i k)
    have h1 := (C45_close (n j) (D j) (w j hj) (root j) ls _ hrun r hr hc').1 p hp
    have h2 := gives_up h hg (j := j) (r := p) ht (Nat.le_max_right i k)
    apply hne
    simp only [FAtEnd, AtEnd] at h1 ⊢
    rw [h2] at h1
    exact h1
  refine ⟨hno, fun F hf he => ?_⟩
  obtain ⟨m, h1, h2, -⟩ := C67_terminates count n D root thread w F σ lab h hf he
  refine ⟨m, fun i hi r hr => ?_⟩
  rw [(h2 i hi).2]
  exact (h1 j hj r hr.1 hr.2).resolve_right (hno m r hr)

/-- **C67**, nobody hangs: in a protocol to whose meshes the threads come back again and again, under every fair schedule,
every role that has neither failed nor returned from `close` takes another step, if only to find an error.  No condition on
cycles. -/
theorem C67_live (w : ∀ j, j < count → Global.Wf (n j) (D j)) (σ : Nat → FIS)
    (lab : Nat → Option (Nat × FLabel)) (h : FISchedule (together count n D root thread) σ lab)
    (hf : FIFair (together count n D root thread) σ lab) (j : Nat) (hj : j < count)
    (hat : ∀ r, 1 ≤ r ∧ r ≤ n j → FAttended (together count n D root thread) σ j r) (r : Nat) (hr : 1 ≤ r ∧ r ≤ n j) (k : Nat)
    (hd : ((σ k).sess j).dead r = false) (hc : ((σ k).sess j).pos r ≠ .closed) :
    ∃ i l, k ≤ i ∧ lab i = some (j, l) ∧ l.actor = some r := by
  obtain ⟨i, hi, l, h1, h2⟩ := C45_live (n j) (D j) (w j hj) (root j) _ _ (fschedule_part h hj) (fattended_fair h hf hj hat) r hr k hd hc
  exact ⟨i, l, hi, flabOf_some.1 h1, h2⟩

/-- **C67**, the assumption of fairness can always be met: every run, with whatever failures, can be continued by a fair
schedule in which nobody drops a mesh but because of errors. -/
theorem C67_fair (w : ∀ j, j < count → Global.Wf (n j) (D j)) (ls : List (Nat × FLabel)) (s : FIS)
    (h : FIRun (together count n D root thread) ls s) :
    ∃ σ lab, FISchedule (together count n D root thread) σ lab ∧ FIFair (together count n D root thread) σ lab ∧
      σ ls.length = s ∧ (∀ k l, ls[k]? = some l → lab k = some l) ∧
      ∀ k, ls.length ≤ k → ∀ j x, lab k ≠ some (j, .crash x) :=
  fifair_exists w h

/-- **C67**, any order: runs of the protocols, with failures, can be mixed in any way. -/
theorem C67_any_order (ls : List (Nat × FLabel)) (sess : Nat → FS) (hc : ∀ x ∈ ls, x.1 < count)
    (hr : ∀ j, j < count → FRun (project (n j) (D j)) (root j) (fpart j ls) (sess j)) :
    ∃ s, FIRun (together count n D root thread) ls s ∧ s.sess = sess := by
  refine ⟨⟨sess, fun t => (fnext_exists (together count n D root thread) sess t).choose⟩, fany_order hc hr fun t => ?_, rfl⟩
  exact (fnext_exists (together count n D root thread) sess t).choose_spec

end

/-! ## The hypotheses can be met -/

/-- Two protocols that end, one of three roles and one of two. -/
def endD (j : Nat) : Global := if j = 0 then exT else cycleD 0

theorem endD_wf (j : Nat) (hj : j < 2) : Global.Wf (twoN j) (endD j) := by
  have : j = 0 ∨ j = 1 := by omega
  rcases this with rfl | rfl
  · exact exT_wf
  · exact cycleD_wf 0

theorem endD_ends (j : Nat) (hj : j < 2) : Ends (endD j) 0 := by
  have : j = 0 ∨ j = 1 := by omega
  rcases this with rfl | rfl
  · exact exT_acc
  · constructor
    rintro N ⟨p, bs, h1, h2⟩
    cases h1

/-- The shared thread drops its mesh of the first protocol, then that of the second (as when its function panics), before it has done
anything.  Everything `C67_fate` asks for is met, for both protocols. -/
example : ∃ σ lab, FISchedule (together 2 twoN endD (fun _ => 0) twoThread) σ lab ∧
    FIFair (together 2 twoN endD (fun _ => 0) twoThread) σ lab ∧
    GivesUp (together 2 twoN endD (fun _ => 0) twoThread) lab 0 0 ∧ Forest 2 twoN twoThread ∧
    twoThread 0 2 = 0 ∧ twoThread 1 1 = 0 ∧ ¬ FAtEnd ((σ 0).sess 0) 2 ∧ ¬ FAtEnd ((σ 0).sess 1) 1 ∧
    (∀ r, 1 ≤ r ∧ r ≤ 2 → FAttended (together 2 twoN endD (fun _ => 0) twoThread) σ 1 r) ∧
    ((σ 0).sess 1).dead 2 = false ∧ ((σ 0).sess 1).pos 2 ≠ .closed ∧
    ∃ m, ∀ i, m ≤ i → ((σ i).sess 0).dead 1 = true ∧ ((σ i).sess 1).dead 2 = true := by
  obtain ⟨s0, h0⟩ := start_exists (n := 3) (D := exT) (root := 0) (by decide)
  obtain ⟨s1, h1⟩ := start_exists (n := 2) (D := cycleD 0) (root := 0) (by decide)
  obtain ⟨t0, c0⟩ := C45_crash 3 exT exT_wf 0 [] _ (.start h0) 2 (by decide) rfl (start_open h0 2 (by decide) (by decide))
  obtain ⟨t1, c1⟩ := C45_crash 2 (cycleD 0) (cycleD_wf 0) 0 [] _ (.start h1) 1 (by decide) rfl (start_open h1 1 (by decide) (by decide))
  obtain ⟨s, hs, hss⟩ := C67_any_order 2 twoN endD (fun _ => 0) twoThread [(0, .crash 2), (1, .crash 1)]
    (fun j => if j = 0 then t0 else t1) (by simp) (fun j hj => by
      have : j = 0 ∨ j = 1 := by omega
      rcases this with rfl | rfl
      · exact .snoc (.start h0) c0
      · exact .snoc (.start h1) c1)
  obtain ⟨σ, lab, hS, hf, h2, h3, h4⟩ := C67_fair 2 twoN endD (fun _ => 0) twoThread endD_wf _ _ hs
  have hd : ∀ d, ((σ (2 + d)).sess 0).dead 2 = true ∧ ((σ (2 + d)).sess 1).dead 1 = true := by
    have e : σ 2 = s := h2
    intro d
    refine ⟨(dead_stays (fschedule_part hS (j := 0) (by decide)) (k := 2) (by omega) ?_).1,
      (dead_stays (fschedule_part hS (j := 1) (by decide)) (k := 2) (by omega) ?_).1⟩
    · rw [e, hss]; cases c0; simp [Mesh.upd]
    · rw [e, hss]; cases c1; simp [Mesh.upd]
  have hg : GivesUp (together 2 twoN endD (fun _ => 0) twoThread) lab 0 0 := by
    intro i j l r _ hl ha ht
    by_cases e0 : i = 0
    · subst e0; rw [h3 0 _ rfl] at hl; cases hl; cases ha; rfl
    by_cases e1 : i = 1
    · subst e1; rw [h3 1 _ rfl] at hl; cases hl; cases ha; rfl
    exfalso
    rcases hS.step i with ⟨l', a1, a2⟩ | ⟨a1, -⟩
    · rw [hl] at a1; cases a1
      obtain ⟨b1, b2, -⟩ := fstep_part a2
      obtain ⟨b3, b4, -⟩ := fopen_actor b2 ha
      have := hd (i - 2)
      rw [show 2 + (i - 2) = i by omega] at this
      change j < 2 at b1
      have hj : j = 0 ∨ j = 1 := by omega
      rcases hj with rfl | rfl
      · change 1 ≤ r ∧ r ≤ 3 at b3
        have : r = 1 ∨ r = 2 ∨ r = 3 := by omega
        rcases this with rfl | rfl | rfl
        · cases ht
        · rw [this.1] at b4; cases b4
        · cases ht
      · change 1 ≤ r ∧ r ≤ 2 at b3
        have : r = 1 ∨ r = 2 := by omega
        rcases this with rfl | rfl
        · rw [this.2] at b4; cases b4
        · cases ht
    · rw [hl] at a1; cases a1
  have ne : ∀ {Y : Mesh.Sys} {root : Name} {u : FS} {r : Nat}, Start Y root ⟨u.heap, u.pos⟩ → 1 ≤ r → r ≤ Y.n →
      (Y.types root r).stack ≠ .fin → ¬ FAtEnd u r := by
    intro Y root u r hst a b hk
    cases hst with
    | mk _ _ _ hp =>
      obtain ⟨m, sl, -, -, e⟩ := hp r a b
      intro hx
      simp only [FAtEnd, AtEnd] at hx e
      rw [e] at hx
      rcases hx with ⟨sl', hx⟩ | ⟨_, _, hx⟩ | hx
      · simp only [Pos.mesh.injEq] at hx; exact hk hx.2
      · cases hx
      · cases hx
  have n0 : ¬ FAtEnd ((σ 0).sess 0) 2 := ne (hS.start.sess 0 (by decide)).1 (by decide) (by decide) (by decide)
  have n1 : ¬ FAtEnd ((σ 0).sess 1) 1 := ne (hS.start.sess 1 (by decide)).1 (by decide) (by decide) (by decide)
  obtain ⟨m0, k0⟩ := (C67_fate 2 twoN endD (fun _ => 0) twoThread endD_wf σ lab hS 0 0 hg 0 2 (by decide) (by decide) rfl n0).2
    two_forest hf endD_ends
  obtain ⟨m1, k1⟩ := (C67_fate 2 twoN endD (fun _ => 0) twoThread endD_wf σ lab hS 0 0 hg 1 1 (by decide) (by decide) rfl n1).2
    two_forest hf endD_ends
  exact ⟨σ, lab, hS, hf, hg, two_forest, rfl, rfl, n0, n1,
    fun r hr k => ⟨max k m1, by omega, .inl (k1 _ (by omega) r hr)⟩, by rw [(hS.start.sess 1 (by decide)).2]; rfl,
    start_open (hS.start.sess 1 (by decide)).1 2 (by decide) (by decide), max m0 m1, fun i hi =>
    ⟨k0 i (by omega) 1 (by decide), k1 i (by omega) 2 (by decide)⟩⟩

end Verif.Prop
