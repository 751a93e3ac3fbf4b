import Verif.Proof.RuntimeStart
import Verif.Proof.RuntimeClose
/-!
# The runtime follows the queues: runs
-/
namespace Verif.Runtime
open Verif.Mesh (Sys Name Sess Stack Label upd Part Global project S others mem_others)
open Verif.Types (STy)
open Verif.Heap hiding upd
open Verif.Spec Verif.SendRecv

variable {n : Nat} {D : Global} {root : Name} {ls : List Label} {dead : Nat → Bool} {h : Heap.St Pay} {pos : Nat → Pos} {s : S} {id : Ids} {T : Nat}

theorem enc_recv_data {r q : Nat} {s : Sess} {w m k} (h : enc r q s = .recv w (.data m) k) :
    ∃ S, s = .recv m S ∧ w = none ∧ k = enc r q S := by
  cases s <;> simp only [enc] at h <;> cases h
  exact ⟨_, rfl, rfl, rfl⟩

theorem enc_recv_enum {r q : Nat} {s : Sess} {w x bs k} (h : enc r q s = .recv w (.enum x bs) k) :
    s = .recvChoice bs ∧ w = none ∧ x = r ∧ k = .fin := by
  cases s <;> simp only [enc] at h <;> cases h
  exact ⟨rfl, rfl, rfl, rfl⟩

theorem enc_send_data {r q : Nat} {s : Sess} {w m k} (h : enc r q s = .send w (.data m) k) :
    ∃ S, s = .send m S ∧ w = none ∧ k = enc r q S := by
  cases s <;> simp only [enc] at h <;> cases h
  exact ⟨_, rfl, rfl, rfl⟩

/-- Something can be received only if something is in the queue. -/
theorem Rel.queue_of_value (w : Global.Wf n D) (R : Rel n D root ls dead h pos s id T) {r sl q k e} (hr : Part n r) (hd : dead r = false)
    (hp : pos r = .mesh sl (.role q k)) (he : sl[(recvImpl n q r).used - 1]? = some e) {w' t k'} (hty : e.ty = .recv w' t k')
    {h' v} (hs : Heap.step (env (project n D)) h (.recv e) = some (h', .value v)) :
    ∃ x l, s.queue (s.gen r, q, r) = x :: l := by
  obtain ⟨M', e', hM', hk, hq, hne, hok, hu, h1, h2, h3, h4, h5, h6⟩ := R.at_role w hr hd hp
  rw [show recvImpl n q r = emit n r q from rfl, hu, h1] at he
  cases he
  obtain ⟨l, hl⟩ := recv_value R.reach h5 hty hs
  have hqueue := R.queue _ _ _ (R.gen_le w hr) hq hr hne
  rw [R.idc, ← h2, ← h3, hl] at hqueue
  cases hx : s.queue (s.gen r, q, r) with
  | nil => rw [hx] at hqueue; cases hqueue
  | cons x l => exact ⟨x, l, rfl⟩

/-- Every step is followed. -/
theorem sim_step (w : Global.Wf n D) (R : Rel n D root ls dead h pos s id T) {l st}
    (hs : RStep (project n D) h pos l st) (live : ∀ r, l.actor = some r → dead r = false) : ∃ s' id' T', Grows T id T' id' ∧ match l with
      | .sim x => Mesh.Step (project n D) s x s' ∧ Rel n D root (ls ++ [x]) dead st.heap st.pos s' id' T'
      | _ => s' = s ∧ Rel n D root ls dead st.heap st.pos s' id' T' := by
  cases hs with
  | @send r sl q k e w' m K d h' e' rest sl' h1 h2 h3 h4 h5 h6 h7 h8 =>
    have hr : Part n r := ⟨h1, h2⟩
    change sl[(sendImpl n r q).used - 1]? = some e at h4
    change (sendImpl n r q).exec _ sl = some sl' at h8
    obtain ⟨M', f, hM', hk, hq, hne, hok, hu, f1, f2, f3, f4, f5, f6⟩ := R.at_role w hr (live _ rfl) h3
    have : f = e := by
      rw [show sendImpl n r q = emit n r q from rfl, hu, f1] at h4; cases h4; rfl
    subst this
    obtain ⟨S, e1, e2, e3⟩ := enc_send_data (f4.symm.trans h5)
    obtain ⟨e, g', e', rest, sl'', g1, g2, g3, g4, g5, s', st, g6⟩ := send_spec w R hr (live _ rfl) h3 hM' e1 d
    rw [h4] at g1; cases g1
    rw [h6] at g3; cases g3
    rw [h7] at g4; cases g4
    rw [h8] at g5; cases g5
    exact ⟨s', id, T, .same, st, g6⟩
  | @recv r sl q k e w' m K v h' e' rest sl' h1 h2 h3 h4 h5 h6 h7 h8 =>
    have hr : Part n r := ⟨h1, h2⟩
    change sl[(recvImpl n q r).used - 1]? = some e at h4
    change (recvImpl n q r).exec _ sl = some sl' at h8
    obtain ⟨M', f, hM', hk, hq, hne, hok, hu, f1, f2, f3, f4, f5, f6⟩ := R.at_role w hr (live _ rfl) h3
    have : f = e := by
      rw [show recvImpl n q r = emit n r q from rfl, hu, f1] at h4; cases h4; rfl
    subst this
    obtain ⟨S, e1, e2, e3⟩ := enc_recv_data (f4.symm.trans h5)
    obtain ⟨x, l, hx⟩ := R.queue_of_value w hr (live _ rfl) h3 h4 h5 h6
    obtain ⟨g0, e, v', g', e', rest, sl'', g1, g2, g3, g4, g5, s', st, g6⟩ := recv_spec w R hr (live _ rfl) h3 hM' e1 hx
    rw [h4] at g1; cases g1
    rw [h6] at g3; cases g3
    rw [h7] at g4; cases g4
    rw [h8] at g5; cases g5
    exact ⟨s', id, T, .same, st, g6⟩
  | @decide r sl N body g h' l m ow todo h1 h2 h3 h4 h5 h6 h7 h8 h9 h10 =>
    have hr : Part n r := ⟨h1, h2⟩
    obtain ⟨body', g', k', l', m', ow', todo', g1, g2, g3, g4, g5, g6, s', id', gr, st, g7⟩ := decide_spec w R hr (live _ rfl) h3 h4
    change Gen.toAllBody n r = some body at h5
    change fieldsOf n l m = some ow at h9
    rw [h5] at g1; cases g1
    rw [h6] at g2; cases g2
    rw [h7] at g3; cases g3
    rw [h8] at g4; cases g4
    rw [h9] at g5; cases g5
    change g.sent.mapM (fun p => (fieldsOf n l p.2).map fun f => (p.1, f)) = some todo at h10
    rw [h10] at g6; cases g6
    exact ⟨s', id', T + 1, gr, st, g7⟩
  | @tell r N k ms todo old ow e k1 e' rest k2 h1 h2 h3 h4 h5 h6 h7 =>
    have hr : Part n r := ⟨h1, h2⟩
    obtain ⟨f, j1, f', rest', j2, g1, g2, g3, g4, s', st, g5⟩ := tell_spec w R hr (live _ rfl) h3
    rw [h4] at g1; cases g1
    rw [h5] at g2; cases g2
    rw [h6] at g3; cases g3
    rw [h7] at g4; cases g4
    exact ⟨s', id, T, .same, st, g5⟩
  | @enter r N old ow h1 h2 h3 =>
    obtain ⟨s', st, g5⟩ := enter_spec w R ⟨h1, h2⟩ (live _ rfl) h3
    exact ⟨s', id, T, .same, st, g5⟩
  | @heed r sl q e w' x bs v k1 new e' rest sl1 k2 h1 h2 h3 h4 h5 h6 h7 h8 h9 h10 =>
    have hr : Part n r := ⟨h1, h2⟩
    change sl[(recvImpl n q r).used - 1]? = some e at h4
    change (recvImpl n q r).exec _ sl = some sl1 at h9
    change new.length = n - 1 at h8
    obtain ⟨M', f, hM', hk, hq, hne, hok, hu, f1, f2, f3, f4, f5, f6⟩ := R.at_role w hr (live _ rfl) h3
    have : f = e := by
      rw [show recvImpl n q r = emit n r q from rfl, hu, f1] at h4; cases h4; rfl
    subst this
    obtain ⟨e1, e2, e3, -⟩ := enc_recv_enum (f4.symm.trans h5)
    obtain ⟨x', l, hx⟩ := R.queue_of_value w hr (live _ rfl) h3 h4 h5 h6
    obtain ⟨N, g0, e, v', j1, new', e', rest', sl', j2, g1, g2, g3, g4, g5, g6, g7, g8, s', st, g9⟩ :=
      heed_spec w R hr (live _ rfl) h3 hM' e1 hx
    rw [h4] at g1; cases g1
    rw [h6] at g3; cases g3
    subst g4
    rw [h7] at g5
    obtain ⟨rfl, g5'⟩ := List.append_inj g5 (h8.trans g6.symm)
    cases g5'
    rw [h9] at g7; cases g7
    rw [h10] at g8; cases g8
    exact ⟨s', id, T, .same, st, g9⟩
  | @closing r sl h1 h2 h3 h4 => exact ⟨s, id, T, .same, rfl, (closing_spec w R ⟨h1, h2⟩ (live _ rfl) h3).2⟩
  | @stop r i sl e h' h1 h2 h3 h4 h5 h6 =>
    obtain ⟨e', g1, ⟨k', g2, g3⟩ | g2, -⟩ := stop_spec w R ⟨h1, h2⟩ (live _ rfl) h3 h4
    all_goals (rw [h5] at g1; cases g1; rw [h6] at g2; cases g2)
    exact ⟨s, id, T, .same, rfl, g3⟩
  | @wait r i sl e h' h1 h2 h3 h4 h5 h6 =>
    have hr : Part n r := ⟨h1, h2⟩
    change n - 1 ≤ i at h4
    change sl[i - (n - 1)]? = some e at h5
    have hi : i < 2 * (n - 1) := by
      have hpos := R.posr r hr
      rw [h3] at hpos
      obtain ⟨M, -, -, hok, -⟩ := hpos
      have := (List.getElem?_eq_some_iff.1 h5).1
      rw [hok.len] at this; omega
    obtain ⟨e', g1, g2⟩ := wait_spec w R hr (live _ rfl) h3 h4 hi
    rw [h5] at g1; cases g1
    split at g2
    · obtain ⟨k', g2, g3⟩ := g2
      rw [h6] at g2; cases g2
      exact ⟨s, id, T, .same, rfl, g3⟩
    · rcases g2.1 with g2 | g2 <;> rw [h6] at g2 <;> cases g2
  | @done r i sl h' h1 h2 h3 h4 h5 =>
    obtain ⟨k', g1, g2⟩ := done_spec R ⟨h1, h2⟩ (live _ rfl) h3 h4
    rw [h5] at g1; cases g1
    exact ⟨s, id, T, .same, rfl, g2⟩
  | @gc i h' o h1 => exact ⟨s, id, T, .same, rfl, gc_spec R h1⟩

/-- Every run is followed. -/
theorem run_sim (w : Global.Wf n D) {ls st} (hrun : RRun (project n D) root ls st) :
    ∃ s id T, Mesh.Run (project n D) (.init (project n D) root) (sims ls) s ∧ Rel n D root (sims ls) nobody st.heap st.pos s id T := by
  induction hrun with
  | start hs => exact ⟨_, _, 0, .nil _, start_spec (by have := w.1; omega) hs⟩
  | @snoc ls st l st' hrun hstep ih =>
    obtain ⟨s, id, T, h1, R⟩ := ih
    obtain ⟨s', id', T', -, h2⟩ := sim_step w R hstep fun _ _ => rfl
    have e : sims (ls ++ [l]) = sims ls ++ (match l with | .sim x => [x] | _ => []) := by
      unfold sims; rw [List.filterMap_append]; cases l <;> rfl
    rw [e]
    cases l with
    | sim x => exact ⟨s', id', T', .snoc h1 h2.1, h2.2⟩
    | closing r => obtain ⟨rfl, h2⟩ := h2; exact ⟨s', id', T', by simpa using h1, by simpa using h2⟩
    | stop r => obtain ⟨rfl, h2⟩ := h2; exact ⟨s', id', T', by simpa using h1, by simpa using h2⟩
    | wait r => obtain ⟨rfl, h2⟩ := h2; exact ⟨s', id', T', by simpa using h1, by simpa using h2⟩
    | done r => obtain ⟨rfl, h2⟩ := h2; exact ⟨s', id', T', by simpa using h1, by simpa using h2⟩
    | gc => obtain ⟨rfl, h2⟩ := h2; exact ⟨s', id', T', by simpa using h1, by simpa using h2⟩

end Verif.Runtime
