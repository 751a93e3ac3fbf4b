import Verif.Proof.FailureClean
import Verif.Proof.FailureSched
import Verif.Prop.C44
/-!
# C45: what happens to the others when roles fail

The programs are those of C44, but any role may disappear at any moment (`cancel`, a panic, an early return), and a
role whose call returns an error gives up (`Model/Failure.lean`).  `Spec/Failure.lean` says what a user may hope for.
-/
namespace Verif.Prop
open Verif.Mesh (Name Label Global project Follows Completes actsOf view)
open Verif.Runtime

/-- **C45**, safety: whatever has failed before, the next call of a living role delivers its message, or returns the
value or signal it expects, or waits, or returns an error; sending data never returns an error; and an error is returned only
if some role has failed. -/
theorem C45_safe (n : Nat) (D : Global) (w : Global.Wf n D) (root : Name) (ls : List FLabel) (s : FS)
    (h : FRun (project n D) root ls s) (r : Nat) (hr : 1 ≤ r ∧ r ≤ n) (hd : s.dead r = false) (op : Heap.Op Pay)
    (hc : Call (project n D) r (s.pos r) op) :
    ∃ h' o, Heap.step (env (project n D)) s.heap op = some (h', o) ∧ Graceful op o ∧
      (o = .err → SomeDead (project n D) s) := by
  obtain ⟨_, _, _, -, R⟩ := frun_sim w h
  obtain ⟨h', o, h1, h2⟩ := call_graceful w R hr hd hc
  refine ⟨h', o, h1, h2, fun e => ?_⟩
  subst e
  obtain ⟨x, hx, hdx⟩ := err_dead w R hr hc h1
  exact ⟨x, hx.1, hx.2, hdx⟩

/-- **C45**, giving up is always possible: a living role that has not returned from `close` can drop all it has. -/
theorem C45_crash (n : Nat) (D : Global) (w : Global.Wf n D) (root : Name) (ls : List FLabel) (s : FS)
    (h : FRun (project n D) root ls s) (r : Nat) (hr : 1 ≤ r ∧ r ≤ n) (hd : s.dead r = false) (hc : s.pos r ≠ .closed) :
    ∃ s', FStep (project n D) s (.crash r) s' := by
  obtain ⟨_, _, _, -, R⟩ := frun_sim w h
  obtain ⟨h', g1, -⟩ := crash_spec R hr hd
  exact ⟨_, .crash hr.1 hr.2 hd hc g1⟩

/-- **C45**, a living role that has not returned from `close` goes on, or gives up because of an error, or waits for a
message. -/
theorem C45_next (n : Nat) (D : Global) (w : Global.Wf n D) (root : Name) (ls : List FLabel) (s : FS)
    (h : FRun (project n D) root ls s) (r : Nat) (hr : 1 ≤ r ∧ r ≤ n) (hd : s.dead r = false) :
    s.pos r = .closed ∨ FGo (project n D) s r ∨ FWaits (project n D) s r := by
  obtain ⟨_, _, _, -, R⟩ := frun_sim w h
  rcases fnext w R hr hd with h | h | h
  · exact .inl h
  · exact .inr (.inl h)
  · exact .inr (.inr h.1)

/-- **C45**, no deadlock: unless all roles have failed or returned from `close`, a pending drop can be carried out, or
some role can go on or give up because of an error. -/
theorem C45_progress (n : Nat) (D : Global) (w : Global.Wf n D) (root : Name) (ls : List FLabel) (s : FS)
    (h : FRun (project n D) root ls s) (hc : ¬ Over (project n D) s) :
    (∃ s', FStep (project n D) s (.step .gc) s') ∨ ∃ r, (1 ≤ r ∧ r ≤ n) ∧ FGo (project n D) s r := by
  obtain ⟨_, _, _, -, R⟩ := frun_sim w h
  cases hg : s.heap.garb with
  | cons t ts =>
    left
    obtain ⟨h', o, hs⟩ : ∃ h' o, Heap.step (env (project n D)) s.heap (.gc 0) = some (h', o) := by
      simp only [Heap.step, hg]
      simp
    exact ⟨_, .step (.gc hs) (by simp [RLabel.actor])⟩
  | nil =>
    right
    by_contra hcon
    refine hc fun r h1 h2 => ?_
    cases hd : s.dead r with
    | true => exact .inl rfl
    | false =>
      refine .inr ?_
      by_contra h3
      exact hcon (fprogress w R hg ⟨h1, h2⟩ hd h3)

/-- **C45**, order: also with failures, there is one execution of the protocol such that the messages and choices of
every role are the first part of what that execution asks of it. -/
theorem C45_order (n : Nat) (D : Global) (w : Global.Wf n D) (root : Name) (ls : List FLabel) (s : FS)
    (h : FRun (project n D) root ls s) :
    ∃ tr, Follows D root tr ∧ ∀ r, 1 ≤ r ∧ r ≤ n → actsOf r (fsims ls) <+: tr.filterMap (view r) := by
  obtain ⟨_, _, _, hrun, -⟩ := frun_sim w h
  exact C34_order n D w root _ _ hrun

/-- **C45**, `close` vouches for the others: if one role has returned from `close`, then every role has done all its part, and
together they have done exactly what one complete execution of the protocol asks of them; roles may have failed only
while closing. -/
theorem C45_close (n : Nat) (D : Global) (w : Global.Wf n D) (root : Name) (ls : List FLabel) (s : FS)
    (h : FRun (project n D) root ls s) (r : Nat) (hr : 1 ≤ r ∧ r ≤ n) (hc : s.pos r = .closed) :
    (∀ q, 1 ≤ q ∧ q ≤ n → FAtEnd s q) ∧
    ∃ tr, Completes D root tr ∧ ∀ q, 1 ≤ q ∧ q ≤ n → actsOf q (fsims ls) = tr.filterMap (view q) := by
  obtain ⟨m, id, T, hrun, R⟩ := frun_sim w h
  have hend : ∀ q, Mesh.Part n q → FAtEnd s q := by
    intro q hq
    by_cases e : q = r
    · subst e; exact .inr (.inr hc)
    · have h1 := R.got q r hq hr e (by rw [hc]; rfl)
      unfold FAtEnd AtEnd
      cases hp : s.pos q with
      | closed => simp [hp]
      | ending i sl => simp [hp]
      | mesh sl k => rw [hp] at h1; cases h1
      | telling N todo old ow => rw [hp] at h1; cases h1
  exact ⟨hend, (C34_done n D w root _ _ hrun fun q hq => (finished_pos R hq).2 (hend q hq)).1⟩

/-- **C45**, the end: when all roles have failed or returned from `close`, nobody holds an endpoint.  The pending drops can
be carried out, and then every channel is freed: with all messages in it, and all endpoints in them. -/
theorem C45_clean (n : Nat) (D : Global) (w : Global.Wf n D) (root : Name) (ls : List FLabel) (s : FS)
    (h : FRun (project n D) root ls s) (hc : Over (project n D) s) :
    s.heap.pool = [] ∧
    (∃ k s', FRun (project n D) root (ls ++ List.replicate k (.step .gc)) s' ∧ Over (project n D) s' ∧ s'.heap.garb = []) ∧
    (s.heap.garb = [] → ∀ c, (s.heap.chan c).tx = false ∧ (s.heap.chan c).rx = false ∧ (s.heap.chan c).buf = none) := by
  obtain ⟨m, id, T, hrun, R⟩ := frun_sim w h
  have hc' : ∀ r, Mesh.Part n r → s.dead r = true ∨ s.pos r = .closed := fun r hr => hc r hr.1 hr.2
  refine ⟨over_pool R hc', ?_, ?_⟩
  · obtain ⟨-, k, h', hd, hg⟩ := C07_drop_terminates R.reach
    have key : ∀ k h', Spec.Drains (env (project n D)) s.heap k h' →
        FRun (project n D) root (ls ++ List.replicate k (.step .gc)) ⟨h', s.pos, s.dead⟩ := by
      intro k h' hd
      induction hd with
      | refl => simpa using h
      | step _ hs ih =>
        rw [List.replicate_succ', ← List.append_assoc]
        exact .snoc ih (.step (.gc hs) (by simp [RLabel.actor]))
    exact ⟨k, _, key k h' hd, hc, hg⟩
  · intro hg c
    have inv := Heap.reach_inv R.reach
    have hz := over_clean w R hc' hg
    have a := inv.ctx c
    have b := inv.crx c
    rw [hz] at a b
    have ha : (s.heap.chan c).tx = false := by
      cases e : (s.heap.chan c).tx
      · rfl
      · rw [e] at a; cases a
    have hb : (s.heap.chan c).rx = false := by
      cases e : (s.heap.chan c).rx
      · rfl
      · rw [e] at b; cases b
    refine ⟨ha, hb, ?_⟩
    cases e : (s.heap.chan c).buf with
    | none => rfl
    | some m => have := (inv.bufs c m e).1; rw [hb] at this; cases this

/-- **C45**, termination: if the protocol has no endless sequence of choices, then under every fair schedule, whoever fails
and whenever, there comes a moment at which every role has failed or returned from `close`, nothing is pending and every
channel is freed; and nothing happens after it. -/
theorem C45_terminates (n : Nat) (D : Global) (w : Global.Wf n D) (root : Name) (σ : Nat → FS) (lab : Nat → Option FLabel)
    (h : FSchedule (project n D) root σ lab) (hf : FFair (project n D) σ lab)
    (hacc : Acc (fun N' N => ∃ p bs, (D N).tail = .choice p bs ∧ N' ∈ bs) root) :
    ∃ j, Over (project n D) (σ j) ∧ (∀ i, j ≤ i → σ i = σ j) ∧
      ∀ c, ((σ j).heap.chan c).tx = false ∧ ((σ j).heap.chan c).rx = false ∧ ((σ j).heap.chan c).buf = none := by
  obtain ⟨j, h1, h2, h3⟩ := fterminates w h hf hacc
  obtain ⟨ls, hrun⟩ := fsched_run h j
  exact ⟨j, h1, h3, (C45_clean n D w root ls _ hrun h1).2.2 h2⟩

/-- **C45**, a failure is not overlooked: if a role has failed before the end of its part, nobody ever returns from `close`, and, if the
protocol has no endless sequence of choices, then under every fair schedule all other roles come to fail. -/
theorem C45_fate (n : Nat) (D : Global) (w : Global.Wf n D) (root : Name) (σ : Nat → FS) (lab : Nat → Option FLabel)
    (h : FSchedule (project n D) root σ lab) (k p : Nat) (hp : 1 ≤ p ∧ p ≤ n) (hd : (σ k).dead p = true)
    (he : ¬ FAtEnd (σ k) p) :
    (∀ j r, 1 ≤ r ∧ r ≤ n → (σ j).pos r ≠ .closed) ∧
    (FFair (project n D) σ lab → Acc (fun N' N => ∃ p bs, (D N).tail = .choice p bs ∧ N' ∈ bs) root →
      ∃ j, ∀ i, j ≤ i → ∀ r, 1 ≤ r ∧ r ≤ n → (σ i).dead r = true) := by
  have hno : ∀ j r, 1 ≤ r ∧ r ≤ n → (σ j).pos r ≠ .closed := by
    intro j r hr hc
    have hc' : (σ (max j k)).pos r = .closed := closed_stays h (Nat.le_max_left _ _) hc
    obtain ⟨ls, hrun⟩ := fsched_run h (max j k)
    have h1 := (C45_close n D w root ls _ hrun r hr hc').1 p hp
    have h2 := (dead_stays h (Nat.le_max_right j k) hd).2
    apply he
    simp only [FAtEnd, AtEnd] at h1 ⊢
    rw [h2] at h1
    exact h1
  refine ⟨hno, fun hf hacc => ?_⟩
  obtain ⟨j, h1, h2, -⟩ := C45_terminates n D w root σ lab h hf hacc
  refine ⟨j, fun i hi r hr => ?_⟩
  rw [h2 i hi]
  exact (h1 r hr.1 hr.2).resolve_right (hno j r hr)

/-- **C45**, nobody hangs: under every fair schedule, for every protocol and whoever fails, a living role that has not returned
from `close` takes another step some day (if only to give up because of an error). -/
theorem C45_live (n : Nat) (D : Global) (w : Global.Wf n D) (root : Name) (σ : Nat → FS) (lab : Nat → Option FLabel)
    (h : FSchedule (project n D) root σ lab) (hf : FFair (project n D) σ lab) (r : Nat) (hr : 1 ≤ r ∧ r ≤ n) (k : Nat)
    (hd : (σ k).dead r = false) (hc : (σ k).pos r ≠ .closed) : ∃ j, k ≤ j ∧ FMoves lab r j :=
  flive w h hf hr hd hc

/-- **C45**, the assumption of fairness can always be met: every run, with whatever failures, can be continued by a fair
schedule in which nobody fails but because of errors. -/
theorem C45_fair (n : Nat) (D : Global) (w : Global.Wf n D) (root : Name) (ls : List FLabel) (s : FS)
    (h : FRun (project n D) root ls s) : ∃ σ lab, FSchedule (project n D) root σ lab ∧ FFair (project n D) σ lab ∧
      σ ls.length = s ∧ (∀ k l, ls[k]? = some l → lab k = some l) ∧ ∀ k, ls.length ≤ k → ∀ x, lab k ≠ some (.crash x) :=
  ffair_exists w h

/-! ## A failure nobody notices -/

/-- Role 1 sends to role 2 for ever. -/
def exS : Global := fun _ => ⟨[⟨1, 2, 7⟩], .choice 1 [0]⟩

theorem exS_wf : Global.Wf 2 exS :=
  ⟨by omega, fun N => ⟨by simp [exS], by intro p bs h; simp [exS] at h; obtain ⟨rfl, rfl⟩ := h; simp⟩⟩

/-- **C45**, what is not promised: a role that only sends is never told that its partner has failed.  In the protocol in
which role 1 sends to role 2 for ever, role 2 fails before it does anything, and there is a fair schedule in which role 1
goes on for ever: never an error. -/
theorem C45_unnoticed : ∃ σ lab, FSchedule (project 2 exS) 0 σ lab ∧ FFair (project 2 exS) σ lab ∧
    (∀ k, 1 ≤ k → (σ k).dead 2 = true) ∧ ∀ k, (σ k).dead 1 = false ∧ ∃ j, k ≤ j ∧ FMoves lab 1 j := by
  obtain ⟨s0, hs⟩ := start_exists (n := 2) (D := exS) (root := 0) (by omega)
  have h12 : Mesh.Part 2 1 := ⟨by omega, by omega⟩
  have hpos : s0.pos 2 ≠ .closed := by
    cases hs with
    | mk h1 h2 h3 h4 =>
      obtain ⟨m, sl, -, -, h5⟩ := h4 2 (by decide) (by decide)
      simp [h5]
  obtain ⟨s1, h1⟩ := C45_crash 2 exS exS_wf 0 [] _ (.start hs) 2 (by decide) rfl hpos
  have hd1 : s1.dead 2 = true ∧ s1.dead 1 = false := by
    cases h1; simp [Mesh.upd, nobody]
  obtain ⟨σ, lab, hS, hf, hL, hlab, hnc⟩ := C45_fair 2 exS exS_wf 0 _ _ (FRun.snoc (.start hs) h1)
  obtain ⟨m, id, T, F⟩ := film exS_wf hS
  -- role 1 is never at a place where it waits
  have shape : ∀ k, (∃ sl c, (σ k).pos 1 = .mesh sl c ∧ c ≠ .fin ∧ ∀ op, Call (project 2 exS) 1 (.mesh sl c) op →
        (σ k).dead 1 = false → ∃ e v, op = .send e v) ∨ ∃ N todo old ow, (σ k).pos 1 = .telling N todo old ow := by
    intro k
    obtain ⟨ls, R⟩ := F.rel k
    obtain ⟨G, hI, -⟩ := R.inv
    have hp := R.posr 1 h12
    have mesh : ∀ M, (m k).pos 1 = .mesh M → M.stack ≠ .fin ∧ ∀ a b T, M.sess 2 ≠ .recv a T ∧ M.sess 2 ≠ .recvChoice b := by
      intro M hM
      obtain ⟨-, h2, h3⟩ := hI.mesh 1 h12 M hM
      simp only [Mesh.blk, exS] at h2 h3
      have : G.idx 1 = 0 ∨ G.idx 1 = 1 := by simp at h2; omega
      rcases this with e | e <;> rw [e] at h3 <;> subst h3 <;> simp [Mesh.meshOf, Mesh.sessOf, Mesh.stackOf]
    cases hP : (σ k).pos 1 with
    | telling N todo old ow => exact .inr ⟨_, _, _, _, rfl⟩
    | closed => rw [hP] at hp; obtain ⟨M, h1, h2⟩ := hp; exact absurd h2 (mesh M h1).1
    | ending i sl => rw [hP] at hp; obtain ⟨M, h1, h2, -⟩ := hp; exact absurd h2 (mesh M h1).1
    | mesh sl c =>
      rw [hP] at hp
      obtain ⟨M, h1, h2, -⟩ := hp
      refine .inl ⟨sl, c, rfl, by rw [h2]; exact (mesh M h1).1, fun op hc hd => ?_⟩
      cases hc with
      | send => exact ⟨_, _, rfl⟩
      | @recv _ q k' e w t T' h3 h4 =>
        exfalso
        obtain ⟨M', f, hM', hk', hq, hne, hok, hu, f1, f2, f3, f4, f5, f6⟩ := R.at_role exS_wf h12 hd hP
        rw [h1] at hM'; cases hM'
        have hq2 : q = 2 := by have := hq.1; have := hq.2; omega
        subst hq2
        have : f = e := by
          change sl[(SendRecv.recvImpl 2 2 1).used - 1]? = some e at h3
          rw [show SendRecv.recvImpl 2 2 1 = SendRecv.emit 2 1 2 from rfl, hu, f1] at h3; cases h3; rfl
        subst this
        rw [f4] at h4
        have h5 := (mesh M h1).2
        cases hs : M.sess 2 with
        | recv a T => exact (h5 a [] T).1 hs
        | recvChoice a => exact (h5 0 a .fin).2 hs
        | send a T => rw [hs] at h4; simp [enc] at h4
        | sendChoice a => rw [hs] at h4; simp [enc] at h4
        | fin => rw [hs] at h4; simp [enc] at h4
  have live : ∀ k, (σ (1 + k)).dead 1 = false := by
    intro k
    induction k with
    | zero => have : σ 1 = s1 := hL
              rw [show 1 + 0 = 1 from rfl, this]; exact hd1.2
    | succ k ih =>
      rcases hS.step (1 + k) with ⟨l, h2, h3⟩ | ⟨-, h3⟩
      · have hno := hnc (1 + k) (by simp)
        have hsh := shape (1 + k)
        rw [show 1 + (k + 1) = 1 + k + 1 by omega]
        generalize σ (1 + k + 1) = t at h3
        cases h3 with
        | step _ _ => exact ih
        | @fail r op h1 h2' _ _ hdr hc he _ =>
          by_cases hr1 : r = 1
          · subst hr1
            exfalso
            obtain ⟨e, v, rfl⟩ : ∃ e v, op = .send e v := by
              rcases hsh with ⟨sl, c, h5, -, h6⟩ | ⟨N, todo, old, ow, h5⟩
              · rw [h5] at hc; exact h6 op hc ih
              · rw [h5] at hc; cases hc; exact ⟨_, _, rfl⟩
            exact send_no_err he
          · simp [Mesh.upd, Ne.symm hr1, ih]
        | crash => exact absurd h2 (hno _)
      · rw [show 1 + (k + 1) = 1 + k + 1 by omega, h3]; exact ih
  have live' : ∀ k, (σ k).dead 1 = false := fun k => live_before hS (by omega : k ≤ 1 + k) (live k)
  refine ⟨σ, lab, hS, hf, fun k hk => ?_, fun k => ⟨live' k, ?_⟩⟩
  · have h2 : (σ 1).dead 2 = true := by
      have : σ 1 = s1 := hL
      rw [this]; exact hd1.1
    exact (dead_stays hS hk h2).1
  · refine C45_live 2 exS exS_wf 0 σ lab hS hf 1 (by decide) k (live' k) ?_
    rcases shape k with ⟨sl, c, h5, -⟩ | ⟨N, todo, old, ow, h5⟩ <;> simp [h5]

/-! ## The hypotheses can be met -/

/-- Runs without failures are runs. -/
theorem rrun_frun {Y : Mesh.Sys} {root : Name} {ls : List RLabel} {s : RS} (h : RRun Y root ls s) :
    FRun Y root (ls.map .step) ⟨s.heap, s.pos, nobody⟩ := by
  induction h with
  | start hs => exact .start hs
  | snoc _ hl ih => rw [List.map_append]; exact .snoc ih (.step hl fun _ _ => rfl)

/-- All roles may return from `close`. -/
example : ∃ ls s, FRun (project 3 exD) 0 ls s ∧ s.pos 2 = .closed ∧ Over (project 3 exD) s ∧ s.heap.garb = [] := by
  obtain ⟨ls, s, h1, h2, h3, -⟩ := exClosed
  exact ⟨_, _, rrun_frun h1, h2 2 (by decide) (by decide), fun r a b => .inr (h2 r a b), h3⟩

/-- A protocol that ends: role 1 sends to role 2 and chooses between two endings. -/
def exT : Global
  | 0 => ⟨[⟨1, 2, 10⟩, ⟨2, 3, 11⟩], .choice 1 [1, 2]⟩
  | 1 => ⟨[⟨3, 1, 12⟩], .fin⟩
  | _ => ⟨[⟨2, 1, 13⟩], .fin⟩

theorem exT_wf : Global.Wf 3 exT := by
  refine ⟨by omega, fun N => ?_⟩
  match N with
  | 0 => exact ⟨by simp [exT], by intro p bs h; simp [exT] at h; obtain ⟨rfl, rfl⟩ := h; simp⟩
  | 1 => exact ⟨by simp [exT], by intro p bs h; simp [exT] at h⟩
  | N + 2 => exact ⟨by simp [exT], by intro p bs h; simp [exT] at h⟩

theorem exT_acc : Acc (fun N' N => ∃ p bs, (exT N).tail = .choice p bs ∧ N' ∈ bs) 0 := by
  refine ⟨_, fun N' h => ⟨_, fun N'' h' => ?_⟩⟩
  obtain ⟨p, bs, h1, h2⟩ := h
  simp [exT] at h1
  obtain ⟨rfl, rfl⟩ := h1
  obtain ⟨p', bs', h3, -⟩ := h'
  simp at h2
  rcases h2 with rfl | rfl <;> simp [exT] at h3

/-- Role 2 fails at the beginning of a fair schedule; all hypotheses of `C45_terminates`, `C45_fate` and `C45_live` are met, and
role 1 gives up because of an error: a call of its returns one (`C45_safe`). -/
example : ∃ σ lab, FSchedule (project 3 exT) 0 σ lab ∧ FFair (project 3 exT) σ lab ∧ (σ 1).dead 2 = true ∧ ¬ FAtEnd (σ 1) 2 ∧
    (σ 1).dead 1 = false ∧ (σ 1).pos 1 ≠ .closed ∧ (∃ k, lab k = some (.fail 1)) ∧
    ∃ ls s op h', FRun (project 3 exT) 0 ls s ∧ s.dead 1 = false ∧ Call (project 3 exT) 1 (s.pos 1) op ∧
      Heap.step (env (project 3 exT)) s.heap op = some (h', .err) := by
  obtain ⟨s0, hs⟩ := start_exists (n := 3) (D := exT) (root := 0) (by omega)
  have hpos : (∃ sl, s0.pos 2 = .mesh sl (((project 3 exT).types 0 2).stack)) ∧ ∃ sl, s0.pos 1 = .mesh sl (((project 3 exT).types 0 1).stack) := by
    cases hs with
    | mk h1 h2 h3 h4 =>
      obtain ⟨m, sl, -, -, h5⟩ := h4 2 (by decide) (by decide)
      obtain ⟨m', sl', -, -, h6⟩ := h4 1 (by decide) (by decide)
      exact ⟨⟨sl, h5⟩, sl', h6⟩
  obtain ⟨⟨sl, hp2⟩, sl', hp1⟩ := hpos
  obtain ⟨s1, h1⟩ := C45_crash 3 exT exT_wf 0 [] _ (.start hs) 2 (by decide) rfl (by simp [hp2])
  have hd1 : s1.dead 2 = true ∧ s1.dead 1 = false ∧ s1.pos = s0.pos := by
    cases h1; simp [Mesh.upd, nobody]
  obtain ⟨σ, lab, hS, hf, hL, hlab, hnc⟩ := C45_fair 3 exT exT_wf 0 _ _ (FRun.snoc (.start hs) h1)
  have hσ : σ 1 = s1 := hL
  have hne : ¬ FAtEnd (σ 1) 2 := by
    simp [FAtEnd, AtEnd, hσ, hd1.2.2, hp2, project, Mesh.meshOf, exT, Mesh.stackOf]
  obtain ⟨j, hj⟩ := (C45_fate 3 exT exT_wf 0 σ lab hS 1 2 (by decide) (by rw [hσ]; exact hd1.1) hne).2 hf exT_acc
  have hdj := hj j (Nat.le_refl _) 1 (by decide)
  -- the moment at which role 1 fails
  obtain ⟨k, hk1, hk2, hk3⟩ : ∃ k, 1 ≤ k ∧ (σ k).dead 1 = false ∧ (σ (k + 1)).dead 1 = true := by
    by_contra hno
    have : ∀ d, (σ (1 + d)).dead 1 = false := by
      intro d
      induction d with
      | zero => rw [show 1 + 0 = 1 from rfl, hσ]; exact hd1.2.1
      | succ d ih =>
        cases hx : (σ (1 + (d + 1))).dead 1 with
        | false => rfl
        | true => exact absurd ⟨1 + d, by omega, ih, hx⟩ hno
    have h2 := (dead_stays hS (by omega : j ≤ 1 + j) hdj).1
    rw [this j] at h2; cases h2
  have hfail : lab k = some (.fail 1) ∧ ∃ op h', Call (project 3 exT) 1 ((σ k).pos 1) op ∧
      Heap.step (env (project 3 exT)) (σ k).heap op = some (h', .err) := by
    rcases hS.step k with ⟨l, h2, h3⟩ | ⟨-, h3⟩
    · have hno := hnc k (by simpa using hk1)
      generalize σ (k + 1) = t at h3 hk3
      cases h3 with
      | step _ _ => rw [hk2] at hk3; cases hk3
      | @fail r op h1 h2' _ _ hdr hc he _ =>
        by_cases hr1 : r = 1
        · subst hr1
          exact ⟨h2, op, _, hc, he⟩
        · simp [Mesh.upd, Ne.symm hr1, hk2] at hk3
      | crash => exact absurd h2 (hno _)
    · rw [h3, hk2] at hk3; cases hk3
  obtain ⟨hlk, op, h', hc, he⟩ := hfail
  obtain ⟨ls, hrun⟩ := fsched_run hS k
  exact ⟨σ, lab, hS, hf, by rw [hσ]; exact hd1.1, hne, by rw [hσ]; exact hd1.2.1, by rw [hσ, hd1.2.2, hp1]; simp, ⟨k, hlk⟩,
    ls, σ k, op, h', hrun, hk2, hc, he⟩

end Verif.Prop
