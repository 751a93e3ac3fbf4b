import Verif.Proof.RuntimeFair
/-!
# C44: protocols run to their end on the real channels

The programs are those of `Model/Runtime.lean`: meshes built by the emitted bodies of `fork_mpst` and
`choose_..._to_all!`, calls made through the emitted methods, messages carrying continuations on one-place channels, `close`,
drops.  They know only the projected mesh types; `Spec/Global.lean` says what the protocol prescribes and
`Spec/Runtime.lean` what a user hopes for.
-/
namespace Verif.Prop
open Verif.Mesh (Name Label Global project Follows Completes actsOf view)
open Verif.Runtime

/-- **C44**, `fork_mpst` starts every role with its mesh. -/
theorem C44_start (n : Nat) (D : Global) (w : Global.Wf n D) (root : Name) : ∃ s, RRun (project n D) root [] s := by
  obtain ⟨s, hs⟩ := start_exists (n := n) (D := D) (root := root) (by have := w.1; omega)
  exact ⟨s, .start hs⟩

/-- **C44**, safety: whatever was done before, the next call of a role delivers its message, or returns the value it
expects, or waits; it never fails and never finds a partner gone. -/
theorem C44_safe (n : Nat) (D : Global) (w : Global.Wf n D) (root : Name) (ls : List RLabel) (s : RS)
    (h : RRun (project n D) root ls s) (r : Nat) (hr : 1 ≤ r ∧ r ≤ n) (op : Heap.Op Pay)
    (hc : Call (project n D) r (s.pos r) op) :
    ∃ h' o, Heap.step (env (project n D)) s.heap op = some (h', o) ∧ Fine op o := by
  obtain ⟨_, _, _, -, R⟩ := run_sim w h
  exact call_fine w R hr hc

/-- **C44**, a role that has not returned from `close` goes on, or waits for a message: there is no other reason for it to
stand still. -/
theorem C44_next (n : Nat) (D : Global) (w : Global.Wf n D) (root : Name) (ls : List RLabel) (s : RS)
    (h : RRun (project n D) root ls s) (r : Nat) (hr : 1 ≤ r ∧ r ≤ n) :
    s.pos r = .closed ∨ CanGo (project n D) s r ∨ Waits (project n D) s r := by
  obtain ⟨_, _, _, -, R⟩ := run_sim w h
  rcases next_step w R hr with h | h | h
  · exact .inl h
  · exact .inr (.inl h)
  · exact .inr (.inr h.1)

/-- **C44**, no deadlock: unless all roles have returned from `close`, some role can take a step. -/
theorem C44_progress (n : Nat) (D : Global) (w : Global.Wf n D) (root : Name) (ls : List RLabel) (s : RS)
    (h : RRun (project n D) root ls s) (hc : ¬ AllClosed (project n D) s) :
    ∃ r, (1 ≤ r ∧ r ≤ n) ∧ CanGo (project n D) s r := by
  obtain ⟨_, _, _, -, R⟩ := run_sim w h
  apply somebody w R
  by_contra hcon
  exact hc fun r h1 h2 => by
    by_contra h3
    exact hcon ⟨r, ⟨h1, h2⟩, h3⟩

/-- **C44**, order: there is one execution of the protocol such that the messages and choices of every role are the
first part of what that execution asks of it. -/
theorem C44_order (n : Nat) (D : Global) (w : Global.Wf n D) (root : Name) (ls : List RLabel) (s : RS)
    (h : RRun (project n D) root ls s) :
    ∃ tr, Follows D root tr ∧ ∀ r, 1 ≤ r ∧ r ≤ n → actsOf r (sims ls) <+: tr.filterMap (view r) := by
  obtain ⟨_, _, _, hrun, -⟩ := run_sim w h
  exact C34_order n D w root _ _ hrun

/-- **C44**, completeness: everything the unbounded queues of C34 can do, the program can do. -/
theorem C44_complete (n : Nat) (D : Global) (w : Global.Wf n D) (root : Name) (ls : List Label) (s : Mesh.S)
    (h : Mesh.Run (project n D) (.init (project n D) root) ls s) :
    ∃ st, RRun (project n D) root (ls.map .sim) st := by
  obtain ⟨st, _, _, hrun, -⟩ := run_complete w h
  exact ⟨st, hrun⟩

/-- **C44**, nothing is lost: every execution of the protocol, up to the end of any block, is performed by some run. -/
theorem C44_possible (n : Nat) (D : Global) (w : Global.Wf n D) (root : Name) (tr : List Mesh.Ev) (h : Follows D root tr) :
    ∃ ls s, RRun (project n D) root ls s ∧ ∀ r, 1 ≤ r ∧ r ≤ n → actsOf r (sims ls) = tr.filterMap (view r) := by
  obtain ⟨ls, s, hrun, ha⟩ := C34_possible n D w root tr h
  obtain ⟨st, _, _, hr, -⟩ := run_complete w hrun
  refine ⟨_, st, hr, fun r hr => ?_⟩
  rw [← ha r hr]
  simp [sims, List.filterMap_map, Function.comp_def]

/-- **C44**, nothing is lost: every complete execution of the protocol is performed by some run after which all roles
have returned from `close`. -/
theorem C44_completable (n : Nat) (D : Global) (w : Global.Wf n D) (root : Name) (tr : List Mesh.Ev)
    (h : Completes D root tr) :
    ∃ ls s, RRun (project n D) root ls s ∧ AllClosed (project n D) s ∧
      ∀ r, 1 ≤ r ∧ r ≤ n → actsOf r (sims ls) = tr.filterMap (view r) := by
  obtain ⟨ls, s, hrun, ha, hf⟩ := C34_completable n D w root tr h
  obtain ⟨st, _, _, hr, R⟩ := run_complete w hrun
  obtain ⟨ls', st', h2, h3, h4⟩ := finish w hr R hf
  refine ⟨_, st', h2, h4, fun r hr => ?_⟩
  rw [← ha r hr, h3]
  simp [sims, List.filterMap_map, Function.comp_def]

theorem closed_finished {n : Nat} {D : Global} {root : Name} {ls h pos s id T} (R : Rel n D root ls nobody h pos s id T)
    (hc : ∀ r, Mesh.Part n r → pos r = .closed) (r : Nat) (hr : Mesh.Part n r) : Mesh.Finished s r := by
  have := R.posr r hr
  rw [hc r hr] at this
  obtain ⟨M, h1, h2⟩ := this
  exact ⟨M, h1, h2⟩

/-- **C44**, the end: when all roles have returned from `close`, together they have done exactly what one complete
execution of the protocol asks of them and nobody holds an endpoint.  The pending drops can be carried out, and then
every channel is freed. -/
theorem C44_done (n : Nat) (D : Global) (w : Global.Wf n D) (root : Name) (ls : List RLabel) (s : RS)
    (h : RRun (project n D) root ls s) (hc : AllClosed (project n D) s) :
    (∃ tr, Completes D root tr ∧ ∀ r, 1 ≤ r ∧ r ≤ n → actsOf r (sims ls) = tr.filterMap (view r)) ∧
    s.heap.pool = [] ∧
    (∃ k s', RRun (project n D) root (ls ++ List.replicate k .gc) s' ∧ AllClosed (project n D) s' ∧ s'.heap.garb = []) ∧
    (s.heap.garb = [] → ∀ c, (s.heap.chan c).tx = false ∧ (s.heap.chan c).rx = false ∧ (s.heap.chan c).buf = none) := by
  obtain ⟨m, id, T, hrun, R⟩ := run_sim w h
  have hc' : ∀ r, Mesh.Part n r → s.pos r = .closed := fun r hr => hc r hr.1 hr.2
  obtain ⟨h1, h2⟩ := C34_done n D w root _ _ hrun (closed_finished R hc')
  refine ⟨h1, closed_pool R hc', ?_, ?_⟩
  · obtain ⟨-, k, h', hd, hg⟩ := C07_drop_terminates R.reach
    have key : ∀ k h', Spec.Drains (env (project n D)) s.heap k h' →
        RRun (project n D) root (ls ++ List.replicate k .gc) ⟨h', s.pos⟩ := by
      intro k h' hd
      induction hd with
      | refl => simpa using h
      | step _ hs ih =>
        rw [List.replicate_succ', ← List.append_assoc]
        exact .snoc ih (.gc hs)
    exact ⟨k, _, key k h' hd, hc, hg⟩
  · intro hg c
    have inv := Heap.reach_inv R.reach
    have hz := closed_clean R hc' (fun g p q hp hq hne => h2 g p q hp hq hne) hg
    have a := inv.ctx c
    have b := inv.crx c
    rw [hz] at a b
    have ha : (s.heap.chan c).tx = false := by
      cases e : (s.heap.chan c).tx
      · rfl
      · rw [e] at a; cases a
    have hb : (s.heap.chan c).rx = false := by
      cases e : (s.heap.chan c).rx
      · rfl
      · rw [e] at b; cases b
    refine ⟨ha, hb, ?_⟩
    cases e : (s.heap.chan c).buf with
    | none => rfl
    | some m => have := (inv.bufs c m e).1; rw [hb] at this; cases this

/-- **C44**, nobody is left behind: under every fair schedule, once one role has nothing left to do but `close`, all
roles come to their end and return from `close`. -/
theorem C44_ends (n : Nat) (D : Global) (w : Global.Wf n D) (root : Name) (σ : Nat → RS) (lab : Nat → Option RLabel)
    (h : RSchedule (project n D) root σ lab) (hf : RFair (project n D) σ lab) (r : Nat) (hr : 1 ≤ r ∧ r ≤ n) (k : Nat)
    (he : AtEnd (σ k) r) : ∃ j, k ≤ j ∧ AllClosed (project n D) (σ j) := by
  obtain ⟨m, hR, hm⟩ := shadow w h
  have hfm := shadow_fair w h hf hR hm
  obtain ⟨ls, id, T, R⟩ := hR k
  obtain ⟨j, hj, hall⟩ := Mesh.all_end w hm hfm hr ((finished_pos R hr).2 he)
  obtain ⟨i, hi, hc⟩ := closes w h hR hm hf hall
  exact ⟨i, by omega, hc⟩

/-- **C44**, termination: if the protocol has no endless sequence of choices, every fair schedule brings all roles back
from `close`. -/
theorem C44_terminates (n : Nat) (D : Global) (w : Global.Wf n D) (root : Name) (σ : Nat → RS) (lab : Nat → Option RLabel)
    (h : RSchedule (project n D) root σ lab) (hf : RFair (project n D) σ lab)
    (hacc : Acc (fun N' N => ∃ p bs, (D N).tail = .choice p bs ∧ N' ∈ bs) root) :
    ∃ j, AllClosed (project n D) (σ j) := by
  obtain ⟨m, hR, hm⟩ := shadow w h
  have hfm := shadow_fair w h hf hR hm
  obtain ⟨j, hj⟩ := Mesh.terminates w hm hfm hacc
  obtain ⟨i, hi, hc⟩ := closes w h hR hm hf hj
  exact ⟨i, hc⟩

/-- **C44**, nobody starves: under every fair schedule every role, at every moment, has returned from `close` or will take
another step. -/
theorem C44_live (n : Nat) (D : Global) (w : Global.Wf n D) (root : Name) (σ : Nat → RS) (lab : Nat → Option RLabel)
    (h : RSchedule (project n D) root σ lab) (hf : RFair (project n D) σ lab) (r : Nat) (hr : 1 ≤ r ∧ r ≤ n) (k : Nat) :
    (σ k).pos r = .closed ∨ ∃ j, k ≤ j ∧ RMoves lab r j := by
  obtain ⟨m, hR, hm⟩ := shadow w h
  have hfm := shadow_fair w h hf hR hm
  obtain ⟨ls, id, T, R⟩ := hR k
  by_cases hfin : Mesh.Finished (m k) r
  · by_cases hmv : ∃ j, k ≤ j ∧ RMoves lab r j
    · exact .inr hmv
    · obtain ⟨j, hj, hc⟩ := C44_ends n D w root σ lab h hf r hr k ((finished_pos R hr).1 hfin)
      left
      rw [← stands h hj (fun i hi hx => hmv ⟨i, hi, hx⟩)]
      exact hc r hr.1 hr.2
  · rcases C34_live n D w root m (mlab lab) hm hfm r hr k with h1 | ⟨j, hj, x, h1, h2⟩
    · exact absurd h1 hfin
    · refine .inr ⟨j, hj, ?_⟩
      unfold mlab at h1
      split at h1
      · rename_i e; cases h1; exact ⟨_, e, by simp [RLabel.actor, h2]⟩
      · cases h1

/-! ## The hypotheses can be met -/

theorem sims_gc (ls : List RLabel) (k : Nat) : sims (ls ++ List.replicate k .gc) = sims ls := by
  unfold sims
  rw [List.filterMap_append, List.filterMap_replicate_of_none rfl, List.append_nil]

/-- The example of C34 on three roles runs to its end on the channels: all roles return from `close`, and after the drops
nothing is left. -/
theorem exClosed : ∃ ls s, RRun (project 3 exD) 0 ls s ∧ AllClosed (project 3 exD) s ∧ s.heap.garb = [] ∧
    (sims ls).length = 12 := by
  obtain ⟨m, hm, hf⟩ := exRun
  obtain ⟨st, id, T, h1, R⟩ := run_complete exD_wf hm
  obtain ⟨ls', st', h2, h3, h4⟩ := finish exD_wf h1 R hf
  obtain ⟨-, -, ⟨k, s', h5, h6, h7⟩, -⟩ := C44_done 3 exD exD_wf 0 _ _ h2 h4
  refine ⟨_, s', h5, h6, h7, ?_⟩
  rw [sims_gc, h3]
  rfl

/-- Runs are beginnings of schedules. -/
theorem rrun_schedule {Y : Mesh.Sys} {root : Name} {ls : List RLabel} {s : RS} (h : RRun Y root ls s) :
    ∃ σ lab, RSchedule Y root σ lab ∧ ∀ k, ls.length ≤ k → σ k = s ∧ lab k = none := by
  induction h with
  | @start s hs => exact ⟨fun _ => s, fun _ => none, ⟨hs, fun k => .inr ⟨rfl, rfl⟩⟩, fun _ _ => ⟨rfl, rfl⟩⟩
  | @snoc ls s1 l s2 _ hl ih =>
    obtain ⟨σ, lab, hS, h⟩ := ih
    refine ⟨fun k => if k ≤ ls.length then σ k else s2, fun k => if k = ls.length then some l else lab k, ⟨?_, ?_⟩, ?_⟩
    · simpa using hS.start
    · intro k
      rcases Nat.lt_trichotomy k ls.length with hk | hk | hk
      · have a1 : k ≤ ls.length := by omega
        have a2 : k + 1 ≤ ls.length := by omega
        have a3 : k ≠ ls.length := by omega
        simp only [a1, a2, a3, if_true, if_false]
        exact hS.step k
      · subst hk
        left
        refine ⟨l, by simp, ?_⟩
        simp only [Nat.le_refl, if_true]
        rw [if_neg (by omega), (h _ (Nat.le_refl _)).1]
        exact hl
      · right
        have a1 : ¬ k ≤ ls.length := by omega
        have a2 : ¬ k + 1 ≤ ls.length := by omega
        have a3 : k ≠ ls.length := by omega
        simp only [a1, a2, a3, if_false]
        exact ⟨(h k (by omega)).2, trivial⟩
    · intro k hk
      simp only [List.length_append, List.length_cons, List.length_nil] at hk
      have a1 : ¬ k ≤ ls.length := by omega
      have a3 : k ≠ ls.length := by omega
      simp only [a1, a3, if_false]
      exact ⟨trivial, (h k (by omega)).2⟩

/-- A fair schedule of the example in which all roles close. -/
example : ∃ σ lab, RSchedule (project 3 exD) 0 σ lab ∧ RFair (project 3 exD) σ lab ∧
    ∃ k, AllClosed (project 3 exD) (σ k) ∧ ¬ AllClosed (project 3 exD) (σ 0) := by
  obtain ⟨ls, s, hrun, hc, -, hl⟩ := exClosed
  obtain ⟨σ, lab, hS, h⟩ := rrun_schedule hrun
  have stuck : ∀ r, ¬ CanGo (project 3 exD) s r := by
    rintro r ⟨l, s', ha, hs⟩
    have hr : 1 ≤ r ∧ r ≤ 3 := by
      cases hs <;> simp only [RLabel.actor, Mesh.Label.actor, Option.some.injEq, reduceCtorEq] at ha <;> subst ha <;>
        exact ⟨by assumption, by assumption⟩
    have := hc r hr.1 hr.2
    cases hs <;> simp only [RLabel.actor, Mesh.Label.actor, Option.some.injEq, reduceCtorEq] at ha <;> subst ha <;> simp_all
  refine ⟨σ, lab, hS, ?_, ls.length, by rw [(h _ (Nat.le_refl _)).1]; exact hc, ?_⟩
  · intro r k hg
    have := hg (k + ls.length) (by omega)
    rw [(h _ (by omega)).1] at this
    exact absurd this (stuck r)
  · intro hx
    have h0 := hx 1 (by decide) (by decide)
    have hst := hS.start
    generalize σ 0 = s0 at hst h0
    cases hst with
    | mk h1 h2 h3 h4 =>
      obtain ⟨m, sl, -, -, h5⟩ := h4 1 (by decide) (by decide)
      cases h5.symm.trans h0

end Verif.Prop
