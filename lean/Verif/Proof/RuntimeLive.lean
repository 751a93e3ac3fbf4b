import Verif.Proof.RuntimeRun
import Verif.Spec.Runtime
/-!
# The runtime never fails and never gets stuck
-/
namespace Verif.Runtime
open Verif.Mesh (Sys Name Sess Stack Label upd Part Global project S others mem_others Finished CanMove)
open Verif.Types (STy)
open Verif.Heap hiding upd
open Verif.Spec Verif.SendRecv
open Verif.Gen (slot_partner partner_slot slot_range partner_role slotOf_inj partner_inj)

variable {n : Nat} {D : Global} {root : Name} {ls : List Label} {h : Heap.St Pay} {pos : Nat → Pos} {s : S} {id : Ids} {T : Nat}

/-- A receive with nothing to receive waits: the sender is still there. -/
theorem recv_blocks (w : Global.Wf n D) (R : Rel n D root ls nobody h pos s id T) {r sl q k e} (hr : Part n r)
    (hp : pos r = .mesh sl (.role q k)) (he : sl[(recvImpl n q r).used - 1]? = some e) {w' t k'} (hty : e.ty = .recv w' t k')
    (hq0 : s.queue (s.gen r, q, r) = []) : Heap.step (env (project n D)) h (.recv e) = some (h, .block) := by
  obtain ⟨M, f, hM, hk, hq, hne, hok, hu, h1, h2, h3, h4, h5, h6⟩ := R.at_role w hr rfl hp
  rw [show recvImpl n q r = emit n r q from rfl, hu, h1] at he
  cases he
  have hqueue := R.queue _ _ _ (R.gen_le w hr) hq hr hne
  rw [hq0, R.idc, ← h2, ← h3] at hqueue
  have hpe : pending h.trace e.ep.sid e.ep.side = [] := List.forall₂_nil_left_iff.1 hqueue
  obtain ⟨c, h', o, hn, hs, hres⟩ := Prop.C04_recv R.reach h5 hty
  rw [hpe] at hres
  simp only at hres
  obtain ⟨G, hI, hT⟩ := R.inv
  have hns : ∀ m K, M.sess q ≠ .send m K := by
    intro m K e1; rw [e1, hty] at h4; cases h4
  have hprin : ∃ p, Prin (env (project n D)) h p ∧ p.ep.sid = e.ep.sid ∧ p.ep.side = (!e.ep.side) := by
    rcases Mesh.waiting w hI hr hM hk hns hq0 with ⟨N, rest, t1, t2, t3⟩ | ⟨t1, t2⟩
    · obtain ⟨todo, old, ow, hpos, hrest⟩ := R.telling_of hq t1
      rw [hrest] at t3
      obtain ⟨⟨j, ms⟩, hj, hjr⟩ := List.mem_map.1 t3
      have := R.posr q hq
      rw [hpos] at this
      obtain ⟨-, -, hall⟩ := this
      obtain ⟨-, -, -, x, bs, x1, x2, x3, -⟩ := hall _ hj
      simp only at hjr x1 x2 x3
      rw [hjr] at x2 x3
      refine ⟨x, Or.inl (R.mem hq rfl ?_), by rw [x2, h2, t2, R.idc], by rw [x3, h3, side_not hne.symm]⟩
      rw [hpos, own_telling]
      refine List.mem_append_left _ (List.mem_filterMap.2 ⟨_, hj, x1⟩)
    · have hnc : pos q ≠ .closed := by
        intro hc
        have := R.posr q hq
        rw [hc] at this
        exact t2 this
      obtain ⟨p, p1, p2, p3⟩ := R.holder w (fun _ _ => rfl) hq hnc (s.gen r) (by rw [← gst_eq hI hq]; exact t1) (R.gen_le w hr) r hr hne.symm
      exact ⟨p, p1, by rw [p2, h2, R.idc], by rw [p3, h3, side_not hne.symm]⟩
  obtain ⟨p, p1, p2, p3⟩ := hprin
  rw [if_pos ((reach_inv R.reach).peer_tx h5 hn hpe p1 p2 p3)] at hres
  obtain ⟨rfl, rfl⟩ := hres
  exact hs

theorem stop_fine (w : Global.Wf n D) (R : Rel n D root ls nobody h pos s id T) {r i sl} (hr : Part n r)
    (hp : pos r = .ending i sl) (hi : i < n - 1) : ∃ e h', sl[i]? = some e ∧
      Heap.step (env (project n D)) h (.sigSend e .stop) = some (h', .unit) ∧
      Rel n D root ls nobody h' (upd pos r (.ending (i + 1) sl)) s id T := by
  obtain ⟨e, h1, h2, h3⟩ := stop_spec w R hr rfl hp hi
  rcases h2 with ⟨h', h2, h4⟩ | h2
  · exact ⟨e, h', h1, h2, h4⟩
  · exact absurd h2 (h3 fun _ _ => rfl)

theorem wait_fine (w : Global.Wf n D) (R : Rel n D root ls nobody h pos s id T) {r i sl} (hr : Part n r)
    (hp : pos r = .ending i sl) (hi : n - 1 ≤ i) (hi2 : i < 2 * (n - 1)) : ∃ e, sl[i - (n - 1)]? = some e ∧
      if sentTo (partner r (i - (n - 1) + 1)) r (pos (partner r (i - (n - 1) + 1))) = true then
        ∃ h', Heap.step (env (project n D)) h (.sigRecv e) = some (h', .signal .stop) ∧
          Rel n D root ls nobody h' (upd pos r (.ending (i + 1) sl)) s id T
      else Heap.step (env (project n D)) h (.sigRecv e) = some (h, .block) := by
  obtain ⟨e, h1, h2⟩ := wait_spec w R hr rfl hp hi hi2
  refine ⟨e, h1, ?_⟩
  split
  · rename_i h3; rwa [if_pos h3] at h2
  · rename_i h3; rw [if_neg h3] at h2; exact h2.2 fun _ _ => rfl

/-- Every call has one of the outcomes hoped for. -/
theorem call_fine (w : Global.Wf n D) (R : Rel n D root ls nobody h pos s id T) {r} (hr : Part n r) {op}
    (hc : Call (project n D) r (pos r) op) :
    ∃ h' o, Heap.step (env (project n D)) h op = some (h', o) ∧ Fine op o := by
  generalize hp : pos r = P at hc
  cases hc with
  | @send sl q k e w' m K d h4 h5 =>
    change sl[(sendImpl n r q).used - 1]? = some e at h4
    obtain ⟨M', f, hM', hk, hq, hne, hok, hu, f1, f2, f3, f4, f5, f6⟩ := R.at_role w hr rfl hp
    have : f = e := by
      rw [show sendImpl n r q = emit n r q from rfl, hu, f1] at h4; cases h4; rfl
    subst this
    obtain ⟨S, e1, e2, e3⟩ := enc_send_data (f4.symm.trans h5)
    obtain ⟨e, g', e', rest, sl'', g1, g2, g3, -⟩ := send_spec w R hr rfl hp hM' e1 d
    rw [h4] at g1; cases g1
    exact ⟨g', .unit, g3, rfl⟩
  | @recv sl q k e w' t K h4 h5 =>
    change sl[(recvImpl n q r).used - 1]? = some e at h4
    by_cases hq0 : s.queue (s.gen r, q, r) = []
    · exact ⟨h, .block, recv_blocks w R hr hp h4 h5 hq0, .inr rfl⟩
    · obtain ⟨M', f, hM', hk, hq, hne, hok, hu, f1, f2, f3, f4, f5, f6⟩ := R.at_role w hr rfl hp
      have : f = e := by
        rw [show recvImpl n q r = emit n r q from rfl, hu, f1] at h4; cases h4; rfl
      subst this
      have hqueue := R.queue _ _ _ (R.gen_le w hr) hq hr hne
      rw [R.idc, ← f2, ← f3] at hqueue
      cases hpe : pending h.trace f.ep.sid f.ep.side with
      | nil => rw [hpe] at hqueue; cases hx : s.queue (s.gen r, q, r) with
        | nil => exact absurd hx hq0
        | cons _ _ => rw [hx] at hqueue; cases hqueue
      | cons x l =>
        obtain ⟨t', v⟩ := x
        obtain ⟨-, h', -, -, g1, -⟩ := recv_there R.reach f5 h5 hpe
        exact ⟨h', .value v, g1, .inl ⟨v, rfl⟩⟩
  | @tell N k ms todo old ow e h4 =>
    obtain ⟨f, j1, f', rest', j2, g1, g2, -⟩ := tell_spec w R hr rfl hp
    rw [h4] at g1; cases g1
    exact ⟨j1, .unit, g2, rfl⟩
  | @stop i sl e h4 h5 =>
    obtain ⟨e', k', g1, g2, g3⟩ := stop_fine w R hr hp h4
    rw [h5] at g1; cases g1
    exact ⟨k', .unit, g2, rfl⟩
  | @wait i sl e h4 h5 =>
    change n - 1 ≤ i at h4
    change sl[i - (n - 1)]? = some e at h5
    have hi : i < 2 * (n - 1) := by
      have hpos := R.posr r hr
      rw [hp] at hpos
      obtain ⟨M, -, -, hok, -⟩ := hpos
      have := (List.getElem?_eq_some_iff.1 h5).1
      rw [hok.len] at this; omega
    obtain ⟨e', g1, g2⟩ := wait_fine w R hr hp h4 hi
    rw [h5] at g1; cases g1
    split at g2
    · obtain ⟨k', g2, g3⟩ := g2
      exact ⟨k', _, g2, .inl rfl⟩
    · exact ⟨h, _, g2, .inr rfl⟩

/-- The next step of a role. -/
theorem next_step (w : Global.Wf n D) (R : Rel n D root ls nobody h pos s id T) {r} (hr : Part n r) :
    pos r = .closed ∨ CanGo (project n D) ⟨h, pos⟩ r ∨ (Waits (project n D) ⟨h, pos⟩ r ∧ ¬ CanMove (project n D) s r) := by
  obtain ⟨G, hI, hT⟩ := R.inv
  cases hp : pos r with
  | closed => exact .inl rfl
  | telling N todo old ow =>
    refine .inr (.inl ?_)
    cases todo with
    | nil => exact ⟨_, _, rfl, .enter hr.1 hr.2 hp⟩
    | cons x todo =>
      obtain ⟨k, ms⟩ := x
      obtain ⟨f, j1, f', rest', j2, g1, g2, g3, g4, -⟩ := tell_spec w R hr rfl hp
      exact ⟨_, _, rfl, .tell hr.1 hr.2 hp g1 g2 g3 g4⟩
  | ending i sl =>
    have hpos := R.posr r hr
    rw [hp] at hpos
    obtain ⟨M, hM, hk, hok, hi⟩ := hpos
    rcases Nat.lt_or_ge i (n - 1) with h1 | h1
    · obtain ⟨e', k', g1, g2, g3⟩ := stop_fine w R hr hp h1
      exact .inr (.inl ⟨_, _, rfl, .stop hr.1 hr.2 hp h1 g1 g2⟩)
    · rcases Nat.lt_or_ge i (2 * (n - 1)) with h2 | h2
      · obtain ⟨e', g1, g2⟩ := wait_fine w R hr hp h1 h2
        split at g2
        · obtain ⟨k', g2, g3⟩ := g2
          exact .inr (.inl ⟨_, _, rfl, .wait hr.1 hr.2 hp h1 g1 g2⟩)
        · refine .inr (.inr ⟨⟨_, ?_, g2⟩, Prop.finished_stuck ⟨M, hM, hk⟩⟩)
          change Call _ _ (pos r) _
          rw [hp]
          exact .wait h1 g1
      · obtain ⟨k', g1, -⟩ := done_spec R hr rfl hp (by omega)
        exact .inr (.inl ⟨_, _, rfl, .done hr.1 hr.2 hp (by change i = 2 * (n - 1); omega) g1⟩)
  | mesh sl k =>
    have hpos := R.posr r hr
    rw [hp] at hpos
    obtain ⟨M, hM, hk, hok⟩ := hpos
    cases k with
    | fin => exact .inr (.inl ⟨_, _, rfl, .closing hr.1 hr.2 hp (closing_spec w R hr rfl hp).1⟩)
    | broadcast =>
      refine .inr (.inl ?_)
      obtain ⟨⟨bs, ht, hsess⟩, hgT⟩ := Mesh.shape_broadcast w hI hr hM hk.symm
      obtain ⟨N, hN⟩ := List.exists_mem_of_ne_nil bs (((w.2 _).2 r bs ht).2)
      have hall : ∀ e ∈ sl, ∃ w q bs, e.ty = .send w (.enum q bs) .fin ∧ N ∈ bs := by
        intro e he
        obtain ⟨q, -, -, -, -, h3⟩ := hok.mem hr he
        rw [hsess] at h3
        exact ⟨_, _, bs, h3, hN⟩
      obtain ⟨body', g', k', l', m', ow', todo', g1, g2, g3, g4, g5, g6, -⟩ := decide_spec w R hr rfl hp hall
      exact ⟨_, _, rfl, .decide hr.1 hr.2 hp hall g1 g2 g3 g4 g5 g6⟩
    | role q k =>
      obtain ⟨M', f, hM', hk', hq, hne, hok', hu, f1, f2, f3, f4, f5, f6⟩ := R.at_role w hr rfl hp
      rw [hM] at hM'; cases hM'
      have hf : sl[(recvImpl n q r).used - 1]? = some f := by
        rw [show recvImpl n q r = emit n r q from rfl, hu]; exact f1
      have blocked : (∀ m S, M.sess q ≠ .send m S) → s.queue (s.gen r, q, r) = [] → ¬ CanMove (project n D) s r := by
        rintro hns hq0 ⟨l, s', ha, hs⟩
        cases hs <;> simp only [Label.actor] at ha <;> subst ha <;> simp_all
      obtain ⟨-, -, hsh⟩ := Mesh.shape_role w hI hr hM hk.symm
      rcases hsh with ⟨m, K, e1⟩ | ⟨m, K, e1, -⟩ | ⟨bs, e1, rfl, -⟩
      · obtain ⟨e, g', e', rest, sl'', g1, g2, g3, g4, g5, -⟩ := send_spec w R hr rfl hp hM e1 0
        exact .inr (.inl ⟨_, _, rfl, .send hr.1 hr.2 hp g1 g2 g3 g4 g5⟩)
      · cases hx : s.queue (s.gen r, q, r) with
        | nil =>
          have hty : f.ty = .recv none (.data m) (enc r q K) := by rw [f4, e1]; rfl
          refine .inr (.inr ⟨⟨.recv f, ?_, recv_blocks w R hr hp hf hty hx⟩, blocked (by simp [e1]) hx⟩)
          change Call _ _ (pos r) _
          rw [hp]
          exact .recv hf hty
        | cons x l =>
          obtain ⟨g0, e, v', g', e', rest, sl'', g1, g2, g3, g4, g5, -⟩ := recv_spec w R hr rfl hp hM e1 hx
          exact .inr (.inl ⟨_, _, rfl, .recv hr.1 hr.2 hp g1 g2 g3 g4 g5⟩)
      · cases hx : s.queue (s.gen r, q, r) with
        | nil =>
          have hty : f.ty = .recv none (.enum r bs) .fin := by rw [f4, e1]; rfl
          refine .inr (.inr ⟨⟨.recv f, ?_, recv_blocks w R hr hp hf hty hx⟩, blocked (by simp [e1]) hx⟩)
          change Call _ _ (pos r) _
          rw [hp]
          exact .recv hf hty
        | cons x l =>
          obtain ⟨N, g0, e, v', j1, new', e', rest', sl', j2, g1, g2, g3, g4, g5, g6, g7, g8, -⟩ :=
            heed_spec w R hr rfl hp hM e1 hx
          exact .inr (.inl ⟨_, _, rfl, .heed hr.1 hr.2 hp g1 g2 g3 g5 g6 g7 g8⟩)

/-- Somebody can go on. -/
theorem somebody (w : Global.Wf n D) (R : Rel n D root ls nobody h pos s id T) (hc : ∃ r, Part n r ∧ pos r ≠ .closed) :
    ∃ r, Part n r ∧ CanGo (project n D) ⟨h, pos⟩ r := by
  by_cases hfin : ∀ r, Part n r → Finished s r
  · obtain ⟨r, hr, hnc⟩ := hc
    have shape : ∀ x, Part n x → (∃ sl, pos x = .mesh sl .fin) ∨ (∃ i sl, pos x = .ending i sl) ∨ pos x = .closed := by
      intro x hx
      obtain ⟨M, hM, hk⟩ := hfin x hx
      have hpos := R.posr x hx
      cases hp : pos x with
      | closed => exact .inr (.inr rfl)
      | ending i sl => exact .inr (.inl ⟨i, sl, rfl⟩)
      | telling N todo old ow => rw [hp] at hpos; have h1 := hpos.1; rw [hM] at h1; cases h1
      | mesh sl k =>
        rw [hp] at hpos
        obtain ⟨M', hM', hk', -⟩ := hpos
        rw [hM] at hM'; cases hM'
        rw [hk] at hk'; subst hk'
        exact .inl ⟨sl, rfl⟩
    by_cases h1 : ∃ x, Part n x ∧ (∃ sl, pos x = .mesh sl .fin)
    · obtain ⟨x, hx, sl, hp⟩ := h1
      exact ⟨x, hx, _, _, rfl, .closing hx.1 hx.2 hp (closing_spec w R hx rfl hp).1⟩
    · by_cases h2 : ∃ x, Part n x ∧ ∃ i sl, pos x = .ending i sl ∧ i < n - 1
      · obtain ⟨x, hx, i, sl, hp, hi⟩ := h2
        obtain ⟨e', k', g1, g2, g3⟩ := stop_fine w R hx hp hi
        exact ⟨x, hx, _, _, rfl, .stop hx.1 hx.2 hp hi g1 g2⟩
      · have sent : ∀ x y, Part n x → Part n y → x ≠ y → sentTo x y (pos x) = true := by
          intro x y hx hy hne
          rcases shape x hx with h3 | ⟨i, sl, h3⟩ | h3
          · exact absurd ⟨x, hx, h3⟩ h1
          · have : n - 1 ≤ i := by
              rcases Nat.lt_or_ge i (n - 1) with h4 | h4
              · exact absurd ⟨x, hx, i, sl, h3, h4⟩ h2
              · exact h4
            have hs := slot_range (isRole hx) (isRole hy) hne
            rw [h3]; simp only [sentTo, decide_eq_true_eq]; omega
          · rw [h3]; rfl
        rcases shape r hr with h3 | ⟨i, sl, hp⟩ | h3
        · exact absurd ⟨r, hr, h3⟩ h1
        · have h4 : n - 1 ≤ i := by
            rcases Nat.lt_or_ge i (n - 1) with h4 | h4
            · exact absurd ⟨r, hr, i, sl, hp, h4⟩ h2
            · exact h4
          refine ⟨r, hr, ?_⟩
          rcases Nat.lt_or_ge i (2 * (n - 1)) with h5 | h5
          · obtain ⟨e', g1, g2⟩ := wait_fine w R hr hp h4 h5
            obtain ⟨a1, a2⟩ := partner_role (isRole hr) (k := i - (n - 1) + 1) (by omega) (by omega)
            rw [if_pos (sent _ _ (ofRole a1) hr a2)] at g2
            obtain ⟨k', g2, g3⟩ := g2
            exact ⟨_, _, rfl, .wait hr.1 hr.2 hp h4 g1 g2⟩
          · have hpos := R.posr r hr
            rw [hp] at hpos
            obtain ⟨-, -, -, -, hi⟩ := hpos
            obtain ⟨k', g1, -⟩ := done_spec R hr rfl hp (by omega)
            exact ⟨_, _, rfl, .done hr.1 hr.2 hp (by change i = 2 * (n - 1); omega) g1⟩
        · exact absurd h3 hnc
  · have : ∃ r, Part n r ∧ ¬ Finished s r := by
      by_contra hcon
      exact hfin fun r hr => by
        by_contra h1
        exact hcon ⟨r, hr, h1⟩
    obtain ⟨r, hr, hnf⟩ := this
    obtain ⟨G, hI, hT⟩ := R.inv
    obtain ⟨p, hp, hm⟩ := Mesh.progress w hI hr hnf
    refine ⟨p, hp, ?_⟩
    rcases next_step w R hp with h1 | h1 | ⟨-, h1⟩
    · have hpos := R.posr p hp
      rw [h1] at hpos
      exact absurd hm (Prop.finished_stuck hpos)
    · exact h1
    · exact absurd hm h1

end Verif.Runtime
