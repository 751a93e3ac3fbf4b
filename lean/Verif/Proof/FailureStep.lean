import Verif.Proof.RuntimeRun
/-!
# Failing roles keep the relation
-/
namespace Verif.Runtime
open Verif.Mesh (Sys Name Sess Stack Label upd Part Global project S others mem_others)
open Verif.Types (STy)
open Verif.Heap hiding upd
open Verif.Spec Verif.SendRecv

variable {n : Nat} {D : Global} {root : Name} {ls : List Label} {dead : Nat → Bool} {h : Heap.St Pay} {pos : Nat → Pos} {s : S} {id : Ids} {T : Nat}

theorem held_dead {n r : Nat} (hr : Part n r) (dead : Nat → Bool) (pos : Nat → Pos) :
    ((List.range' 1 n).flatMap (held (upd dead r true) pos)).Perm ((others n r).flatMap (held dead pos)) := by
  refine (flat_others hr _).trans ?_
  have e1 : held (upd dead r true) pos r = [] := by simp [held, upd]
  have e2 : (others n r).flatMap (held (upd dead r true) pos) = (others n r).flatMap (held dead pos) := by
    apply List.flatMap_congr
    intro x hx
    have := (mem_others.1 hx).2
    simp [held, upd, this]
  rw [e1, e2]; exact List.Perm.refl _

/-- When only endpoints are dropped. -/
theorem Rel.lost (R : Rel n D root ls dead h pos s id T) {r : Nat} (hr : Part n r) {h'} (a2 : Reach (env (project n D)) h')
    (a3 : h'.pool.Perm ((others n r).flatMap (held dead pos))) (a4 : h'.trace = h.trace) (a5 : h'.nsid = h.nsid)
    (a6 : ∀ x t r', Ends (env (project n D)) h' x t r' → Ends (env (project n D)) h x t r' ∧
      (h'.chan t).buf = (h.chan t).buf ∧ (h'.chan r').buf = (h.chan r').buf) :
    Rel n D root ls (upd dead r true) h' pos s id T := by
  refine ⟨a2, R.inv, R.idc, R.inj, by rw [a5]; exact R.lt, by rw [a5]; exact R.sur, R.posr,
    a3.trans (held_dead hr dead pos).symm, by rw [a4]; exact R.queue, ?_, R.got⟩
  intro x t r' hx g p q hg hp hq hne x1 x2
  obtain ⟨y1, y2, y3⟩ := a6 x t r' hx
  rw [y2, y3]
  exact R.sig x t r' y1 g p q hg hp hq hne x1 x2

/-- A role may disappear. -/
theorem crash_spec (R : Rel n D root ls dead h pos s id T) {r : Nat} (hr : Part n r) (hd : dead r = false) :
    ∃ h', dropAll (project n D) h (own (pos r)) = some h' ∧ Rel n D root ls (upd dead r true) h' pos s id T := by
  obtain ⟨h', a1, a2, a3, a4, a5, a6⟩ := dropAll_spec (project n D) _ _ h R.reach (R.split hr hd)
  exact ⟨h', a1, R.lost hr a2 a3 a4 a5 a6⟩

/-- A failed receive has the effect of a drop. -/
theorem recv_err {P : Type} [DecidableEq P] {G : Env P} {st st' : Heap.St P} {e : Entry P}
    (hs : Heap.step G st (.recv e) = some (st', .err)) : Heap.step G st (.drop e) = some (st', .unit) := by
  simp only [Heap.step] at hs ⊢
  unfold recvStep at hs
  split at hs
  · split at hs
    · cases hs
    · rename_i rest htake
      simp only at hs
      split at hs
      · split at hs
        · cases hs
        · split at hs <;> cases hs
      · cases hs
      · split at hs <;> cases hs
        rfl
  · cases hs

theorem sigSend_err {P : Type} [DecidableEq P] {G : Env P} {st st' : Heap.St P} {e : Entry P}
    (hs : Heap.step G st (.sigSend e .stop) = some (st', .err)) : st' = st := by
  simp only [Heap.step] at hs
  unfold sigSendStep at hs
  split at hs
  · simp only at hs
    grind
  · cases hs

theorem sigRecv_err {P : Type} [DecidableEq P] {G : Env P} {st st' : Heap.St P} {e : Entry P}
    (hs : Heap.step G st (.sigRecv e) = some (st', .err)) : st' = st := by
  simp only [Heap.step] at hs
  unfold sigRecvStep at hs
  split at hs
  · simp only at hs
    grind
  · cases hs

theorem send_no_err {P : Type} [DecidableEq P] {G : Env P} {st st' : Heap.St P} {e : Entry P} {v : Val}
    (hs : Heap.step G st (.send e v) = some (st', .err)) : False := by
  simp only [Heap.step] at hs
  unfold sendStep at hs
  repeat' (split at hs)
  all_goals first
    | cases hs
    | (simp only at hs; repeat' (split at hs)
       all_goals cases hs)

/-- A role whose call fails may give up. -/
theorem fail_spec (R : Rel n D root ls dead h pos s id T) {r : Nat} (hr : Part n r) (hd : dead r = false) {op h1}
    (hc : Call (project n D) r (pos r) op) (he : Heap.step (env (project n D)) h op = some (h1, .err)) :
    ∃ h', dropAll (project n D) h1 (remaining (own (pos r)) op) = some h' ∧
      Rel n D root ls (upd dead r true) h' pos s id T := by
  have same : h1 = h → remaining (own (pos r)) op = own (pos r) → ∃ h', dropAll (project n D) h1 (remaining (own (pos r)) op) = some h' ∧
      Rel n D root ls (upd dead r true) h' pos s id T := by
    rintro rfl e
    rw [e]; exact crash_spec R hr hd
  cases op with
  | recv e =>
    have hdrop := recv_err he
    obtain ⟨r1, r2, r3⟩ := drop_rest hdrop
    have hmem : e ∈ own (pos r) := by
      generalize hp : pos r = P at hc
      cases hc with
      | recv h4 _ => exact List.mem_of_getElem? h4
    have hp1 : h1.pool.Perm ((own (pos r)).erase e ++ (others n r).flatMap (held dead pos)) := by
      refine List.Perm.cons_inv (a := e) (r3.symm.trans ((R.split hr hd).trans ?_))
      rw [← List.cons_append]
      exact (List.perm_cons_erase hmem).append_right _
    obtain ⟨h', a1, a2, a3, a4, a5, a6⟩ := dropAll_spec (project n D) _ _ h1 (.step R.reach hdrop) hp1
    refine ⟨h', a1, R.lost hr a2 a3 (a4.trans r1) (a5.trans r2) fun x t r' hx => ?_⟩
    obtain ⟨y1, y2, y3⟩ := a6 x t r' hx
    obtain ⟨z1, z2, z3⟩ := drop_ends hdrop y1
    exact ⟨z1, y2.trans z2, y3.trans z3⟩
  | sigSend e x =>
    have : x = .stop := by generalize pos r = P at hc; cases hc; rfl
    subst this
    exact same (sigSend_err he) rfl
  | sigRecv e => exact same (sigRecv_err he) rfl
  | send e v => exact (send_no_err he).elim
  | _ => generalize pos r = P at hc; cases hc

theorem fsims_snoc (ls : List FLabel) (l : FLabel) : fsims (ls ++ [l]) = fsims ls ++ (match l with | .step (.sim x) => [x] | _ => []) := by
  unfold fsims
  rw [List.filterMap_append]
  cases l with
  | step l => cases l <;> rfl
  | _ => rfl

/-- Every step is followed. -/
theorem fsim_step (w : Global.Wf n D) {st : FS} (R : Rel n D root ls st.dead st.heap st.pos s id T) {l st'}
    (hs : FStep (project n D) st l st') : ∃ s' id' T', Grows T id T' id' ∧ match l with
      | .step (.sim x) => Mesh.Step (project n D) s x s' ∧ Rel n D root (ls ++ [x]) st'.dead st'.heap st'.pos s' id' T'
      | _ => s' = s ∧ Rel n D root ls st'.dead st'.heap st'.pos s' id' T' := by
  cases hs with
  | @step l t h1 h2 =>
    obtain ⟨s', id', T', gr, h3⟩ := sim_step w R h1 h2
    refine ⟨s', id', T', gr, ?_⟩
    cases l <;> exact h3
  | @fail r op k1 k2 h1 h2 h3 h4 h5 h6 =>
    obtain ⟨h', g1, g2⟩ := fail_spec R ⟨h1, h2⟩ h3 h4 h5
    rw [h6] at g1; cases g1
    exact ⟨s, id, T, .same, rfl, g2⟩
  | @crash r k1 h1 h2 h3 h4 h5 =>
    obtain ⟨h', g1, g2⟩ := crash_spec R ⟨h1, h2⟩ h3
    rw [h5] at g1; cases g1
    exact ⟨s, id, T, .same, rfl, g2⟩

/-- Every run is followed. -/
theorem frun_sim (w : Global.Wf n D) {ls st} (hrun : FRun (project n D) root ls st) :
    ∃ s id T, Mesh.Run (project n D) (.init (project n D) root) (fsims ls) s ∧
      Rel n D root (fsims ls) st.dead st.heap st.pos s id T := by
  induction hrun with
  | start hs => exact ⟨_, _, 0, .nil _, start_spec (by have := w.1; omega) hs⟩
  | @snoc ls st l st' hrun hstep ih =>
    obtain ⟨s, id, T, h1, R⟩ := ih
    obtain ⟨s', id', T', -, h2⟩ := fsim_step w R hstep
    rw [fsims_snoc]
    refine ⟨s', id', T', ?_⟩
    split at h2
    · exact ⟨.snoc h1 h2.1, h2.2⟩
    · obtain ⟨rfl, h2⟩ := h2
      simpa using ⟨h1, h2⟩

/-- The relation does not depend on the failed roles if all are alive. -/
theorem Rel.revive (R : Rel n D root ls dead h pos s id T) (live : ∀ x, Part n x → dead x = false) :
    Rel n D root ls nobody h pos s id T := by
  refine { R with perm := R.perm.trans ?_ }
  have : (List.range' 1 n).flatMap (held dead pos) = (List.range' 1 n).flatMap (held nobody pos) := by
    apply List.flatMap_congr
    intro x hx
    rw [List.mem_range'_1] at hx
    simp [held, nobody, live x ⟨by omega, by omega⟩]
  rw [this]

end Verif.Runtime
