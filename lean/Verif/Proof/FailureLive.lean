import Verif.Proof.FailureOwner
import Verif.Spec.Failure
/-!
# Failing roles do not block the others
-/
namespace Verif.Runtime
open Verif.Mesh (Sys Name Sess Stack Label upd Part Global project S others mem_others Finished CanMove)
open Verif.Types (STy)
open Verif.Heap hiding upd
open Verif.Spec Verif.SendRecv
open Verif.Gen (slot_partner partner_slot slot_range partner_role slotOf_inj partner_inj)

variable {n : Nat} {D : Global} {root : Name} {ls : List Label} {dead : Nat → Bool} {h : Heap.St Pay} {pos : Nat → Pos} {s : S} {id : Ids} {T : Nat}

/-- The partner a waiting role waits for, and the channel it listens to. -/
def awaiting (n r : Nat) : Pos → Option (Nat × Nat)
  | .mesh sl (.role q _) => match sl[(recvImpl n q r).used - 1]? with
    | some ⟨⟨.rcv c, _, _⟩, _⟩ => some (q, c)
    | _ => none
  | .ending i sl => match sl[i - (n - 1)]? with
    | some ⟨⟨.fin _ c, _, _⟩, _⟩ => some (partner r (i - (n - 1) + 1), c)
    | _ => none
  | _ => none

theorem awaiting_recv {r q sl k c} {e : Entry Pay} (he : sl[(recvImpl n q r).used - 1]? = some e) (hn : e.ep.node = .rcv c) :
    awaiting n r (.mesh sl (.role q k)) = some (q, c) := by
  obtain ⟨⟨nd, a, b⟩, ty⟩ := e
  simp only at hn; subst hn
  simp only [awaiting, he]

theorem awaiting_wait {r i sl t c} {e : Entry Pay} (he : sl[i - (n - 1)]? = some e) (hn : e.ep.node = .fin t c) :
    awaiting n r (.ending i sl) = some (partner r (i - (n - 1) + 1), c) := by
  obtain ⟨⟨nd, a, b⟩, ty⟩ := e
  simp only at hn; subst hn
  simp only [awaiting, he]

/-- A receive with nothing to receive waits or fails; it fails if the partner is gone for good. -/
theorem recv_empty (w : Global.Wf n D) (R : Rel n D root ls dead h pos s id T) {r sl q k e} (hr : Part n r) (hd : dead r = false)
    (hp : pos r = .mesh sl (.role q k)) (he : sl[(recvImpl n q r).used - 1]? = some e) {w' t k'} (hty : e.ty = .recv w' t k')
    (hq0 : s.queue (s.gen r, q, r) = []) :
    (Heap.step (env (project n D)) h (.recv e) = some (h, .block) ∧ ∃ c, awaiting n r (pos r) = some (q, c) ∧
        (h.chan c).tx = true ∧ (Served n dead pos s.gen (s.gen r) q ∨ Adrift h (.tx c))) ∨
      ∃ h', Heap.step (env (project n D)) h (.recv e) = some (h', .err) := by
  obtain ⟨M, f, hM, hk, hq, hne, hok, hu, h1, h2, h3, h4, h5, h6⟩ := R.at_role w hr hd hp
  have he' := he
  rw [show recvImpl n q r = emit n r q from rfl, hu, h1] at he
  cases he
  have hqueue := R.queue _ _ _ (R.gen_le w hr) hq hr hne
  rw [hq0, R.idc, ← h2, ← h3] at hqueue
  have hpe : pending h.trace e.ep.sid e.ep.side = [] := List.forall₂_nil_left_iff.1 hqueue
  obtain ⟨c, h', o, hn, hs, hres⟩ := Prop.C04_recv R.reach h5 hty
  rw [hpe] at hres
  simp only at hres
  split at hres
  · rename_i hcnt
    obtain ⟨rfl, rfl⟩ := hres
    have inv := reach_inv R.reach
    have htx : (h'.chan c).tx = true := by
      have := inv.ctx c
      cases hx : (h'.chan c).tx with
      | true => rfl
      | false => rw [hx] at this; simp only [Bool.false_eq_true, if_false] at this; omega
    refine .inl ⟨hs, c, by rw [hp]; exact awaiting_recv he' hn, htx, ?_⟩
    rcases inv.held' hcnt (by simp) with hdm | ⟨x, hx, hm⟩
    · exact .inr hdm
    obtain ⟨-, b1, b2, w2, t2, s2, hkind, -⟩ := (inv.occ e (Or.inl h5)).ty.rcv hn
    have hnode : x.ep.node = .snd c := by
      unfold EP.halves at hm
      cases hn2 : x.ep.node with
      | snd c' => rw [hn2] at hm; simp at hm; rw [hm]
      | rcv c' => rw [hn2] at hm; simp at hm
      | fin t' r' =>
        rw [hn2] at hm; simp at hm
        have := ((inv.occ x hx).ty.fin hn2).2.2.2.2.2.2.1
        rw [← hm, hkind] at this; cases this
    obtain ⟨-, c1, c2, -⟩ := (inv.occ x hx).ty.snd hnode
    rcases R.gone w (R.gen_le w hr) hq hr hne x hx (by rw [← c1, b1, h2, R.idc]) (by rw [← c2, b2, h3, side_not hne.symm])
      with hsv | hl
    · exact .inl hsv
    · exact .inr (hl _ hm)
  · obtain ⟨rfl, -⟩ := hres
    exact .inr ⟨h', hs⟩

/-- The signal of a partner that is gone for good does not come, and one does not wait for it. -/
theorem wait_gone (w : Global.Wf n D) (R : Rel n D root ls dead h pos s id T) {r i sl} (hr : Part n r) (hd : dead r = false)
    (hp : pos r = .ending i sl) (hi : n - 1 ≤ i) (hi2 : i < 2 * (n - 1)) {e} (he : sl[i - (n - 1)]? = some e)
    (hs : Heap.step (env (project n D)) h (.sigRecv e) = some (h, .block)) :
    ∃ c, awaiting n r (pos r) = some (partner r (i - (n - 1) + 1), c) ∧ (h.chan c).tx = true ∧
      (Served n dead pos s.gen (s.gen r) (partner r (i - (n - 1) + 1)) ∨ Adrift h (.tx c)) := by
  have hgen : s.gen r = T := by
    have hpos := R.posr r hr
    rw [hp] at hpos
    obtain ⟨M, hM, hk, hok, -⟩ := hpos
    exact (R.at_fin w hr hM hk hok).1
  obtain ⟨e', t, t', e1, hq, hne, hslot, e2, e3, hty, hpool, hE⟩ := R.at_end w hr hd hp (j := i - (n - 1)) (by omega)
  have haw : awaiting n r (pos r) = some (partner r (i - (n - 1) + 1), t') := by
    rw [hp]; exact awaiting_wait e1 hE.2
  rw [he] at e1; cases e1
  generalize hqd : partner r (i - (n - 1) + 1) = q at *
  have inv := reach_inv R.reach
  have htx : (h.chan t').tx = true := by
    simp only [Heap.step, sigRecvStep, hty, hE.2, hpool, if_true] at hs
    cases htx : (h.chan t').tx with
    | true => rfl
    | false =>
      exfalso
      cases hb : (h.chan t').buf with
      | none => rw [hb] at hs; simp [htx] at hs
      | some m =>
        rw [hb] at hs
        cases m with
        | sig x => simp at hs
        | data v k => simp at hs
  have hcnt : 0 < Heap.cnt h (.tx t') := by rw [inv.ctx, htx]; simp
  refine ⟨t', haw, htx, ?_⟩
  rcases inv.held' hcnt (by simp) with hdm | ⟨x, hx, hm⟩
  · exact .inr hdm
  obtain ⟨a1, a1', a2, a2', a3, a3', a4, a5, -⟩ := (inv.occ e hE.1).ty.fin hE.2
  have hnode : ∃ u, x.ep.node = .fin t' u := by
    unfold EP.halves at hm
    cases hn2 : x.ep.node with
    | snd c' =>
      rw [hn2] at hm; simp at hm; subst hm
      obtain ⟨_, _, _, w2, t2, s2, hk, _⟩ := (inv.occ x hx).ty.snd hn2
      rw [a5] at hk; cases hk
    | rcv c' => rw [hn2] at hm; simp at hm
    | fin t2 r2 => rw [hn2] at hm; simp at hm; exact ⟨r2, by rw [hm]⟩
  obtain ⟨u, hn2⟩ := hnode
  obtain ⟨-, -, b2, -, b3, -⟩ := (inv.occ x hx).ty.fin hn2
  rcases R.gone w (Nat.le_refl T) hq hr hne x hx (by rw [← b2, a2', e2, R.idc]) (by rw [← b3, a3', e3, side_not hne.symm])
    with hsv | hl
  · exact .inl (by rw [hgen]; exact hsv)
  · exact .inr (hl _ hm)

/-- The call fails: the role can give up. -/
theorem go_fail (R : Rel n D root ls dead h pos s id T) {r : Nat} (hr : Part n r) (hd : dead r = false) {op h1}
    (hc : Call (project n D) r (pos r) op) (he : Heap.step (env (project n D)) h op = some (h1, .err)) :
    FGo (project n D) ⟨h, pos, dead⟩ r := by
  obtain ⟨h', g1, -⟩ := fail_spec R hr hd hc he
  exact ⟨.fail r, _, rfl, by simp, .fail hr.1 hr.2 hd hc he g1⟩

theorem go_step' {r : Nat} (hd : dead r = false) (hg : CanGo (project n D) ⟨h, pos⟩ r) : FGo (project n D) ⟨h, pos, dead⟩ r := by
  obtain ⟨l, s', h1, h2⟩ := hg
  exact ⟨.step l, _, h1, by simp, .step h2 fun x hx => by rw [h1] at hx; cases hx; exact hd⟩

/-- The next step of a living role. -/
theorem fnext (w : Global.Wf n D) (R : Rel n D root ls dead h pos s id T) {r} (hr : Part n r) (hd : dead r = false) :
    pos r = .closed ∨ FGo (project n D) ⟨h, pos, dead⟩ r ∨ (Waits (project n D) ⟨h, pos⟩ r ∧ ¬ CanMove (project n D) s r ∧
      ∃ q c, awaiting n r (pos r) = some (q, c) ∧ (h.chan c).tx = true ∧ Part n q ∧ q ≠ r ∧
        (Served n dead pos s.gen (s.gen r) q ∨ Adrift h (.tx c)) ∧
        ((∃ sl k, pos r = .mesh sl (.role q k)) ∨ (Finished s r ∧ sentTo q r (pos q) = false))) := by
  obtain ⟨G, hI, hT⟩ := R.inv
  cases hp : pos r with
  | closed => exact .inl rfl
  | telling N todo old ow =>
    refine .inr (.inl (go_step' hd ?_))
    cases todo with
    | nil => exact ⟨_, _, rfl, .enter hr.1 hr.2 hp⟩
    | cons x todo =>
      obtain ⟨k, ms⟩ := x
      obtain ⟨f, j1, f', rest', j2, g1, g2, g3, g4, -⟩ := tell_spec w R hr hd hp
      exact ⟨_, _, rfl, .tell hr.1 hr.2 hp g1 g2 g3 g4⟩
  | ending i sl =>
    have hpos := R.posr r hr
    rw [hp] at hpos
    obtain ⟨M, hM, hk, hok, hi⟩ := hpos
    rcases Nat.lt_or_ge i (n - 1) with h1 | h1
    · obtain ⟨e', g1, ⟨k', g2, g3⟩ | g2, -⟩ := stop_spec w R hr hd hp h1
      · exact .inr (.inl (go_step' hd ⟨_, _, rfl, .stop hr.1 hr.2 hp h1 g1 g2⟩))
      · exact .inr (.inl (go_fail R hr hd (by rw [hp]; exact .stop h1 g1) g2))
    · rcases Nat.lt_or_ge i (2 * (n - 1)) with h2 | h2
      · obtain ⟨e', g1, g2⟩ := wait_spec w R hr hd hp h1 h2
        split at g2
        · obtain ⟨k', g2, g3⟩ := g2
          exact .inr (.inl (go_step' hd ⟨_, _, rfl, .wait hr.1 hr.2 hp h1 g1 g2⟩))
        · rename_i hns
          have hc : Call (project n D) r (pos r) (.sigRecv e') := by rw [hp]; exact .wait h1 g1
          rcases g2.1 with g2 | g2
          · obtain ⟨a1, a2⟩ := partner_role (isRole hr) (k := i - (n - 1) + 1) (by omega) (by omega)
            obtain ⟨c, c1, c2, c3⟩ := wait_gone w R hr hd hp h1 h2 g1 g2
            rw [hp] at c1
            exact .inr (.inr ⟨⟨_, hc, g2⟩, Prop.finished_stuck ⟨M, hM, hk⟩, _, c, c1, c2, ofRole a1, a2,
              c3, .inr ⟨⟨M, hM, hk⟩, by simpa using hns⟩⟩)
          · exact .inr (.inl (go_fail R hr hd hc g2))
      · obtain ⟨k', g1, -⟩ := done_spec R hr hd hp (by omega)
        exact .inr (.inl (go_step' hd ⟨_, _, rfl, .done hr.1 hr.2 hp (by change i = 2 * (n - 1); omega) g1⟩))
  | mesh sl k =>
    have hpos := R.posr r hr
    rw [hp] at hpos
    obtain ⟨M, hM, hk, hok⟩ := hpos
    cases k with
    | fin => exact .inr (.inl (go_step' hd ⟨_, _, rfl, .closing hr.1 hr.2 hp (closing_spec w R hr hd hp).1⟩))
    | broadcast =>
      refine .inr (.inl (go_step' hd ?_))
      obtain ⟨⟨bs, ht, hsess⟩, hgT⟩ := Mesh.shape_broadcast w hI hr hM hk.symm
      obtain ⟨N, hN⟩ := List.exists_mem_of_ne_nil bs (((w.2 _).2 r bs ht).2)
      have hall : ∀ e ∈ sl, ∃ w q bs, e.ty = .send w (.enum q bs) .fin ∧ N ∈ bs := by
        intro e he
        obtain ⟨q, -, -, -, -, h3⟩ := hok.mem hr he
        rw [hsess] at h3
        exact ⟨_, _, bs, h3, hN⟩
      obtain ⟨body', g', k', l', m', ow', todo', g1, g2, g3, g4, g5, g6, -⟩ := decide_spec w R hr hd hp hall
      exact ⟨_, _, rfl, .decide hr.1 hr.2 hp hall g1 g2 g3 g4 g5 g6⟩
    | role q k =>
      obtain ⟨M', f, hM', hk', hq, hne, hok', hu, f1, f2, f3, f4, f5, f6⟩ := R.at_role w hr hd hp
      rw [hM] at hM'; cases hM'
      have hf : sl[(recvImpl n q r).used - 1]? = some f := by
        rw [show recvImpl n q r = emit n r q from rfl, hu]; exact f1
      have blocked : (∀ m S, M.sess q ≠ .send m S) → s.queue (s.gen r, q, r) = [] → ¬ CanMove (project n D) s r := by
        rintro hns hq0 ⟨l, s', ha, hs⟩
        cases hs <;> simp only [Label.actor] at ha <;> subst ha <;> simp_all
      have empty : ∀ {w' t k'}, f.ty = .recv w' t k' → (∀ m S, M.sess q ≠ .send m S) → s.queue (s.gen r, q, r) = [] →
          FGo (project n D) ⟨h, pos, dead⟩ r ∨ (Waits (project n D) ⟨h, pos⟩ r ∧ ¬ CanMove (project n D) s r ∧
            ∃ q c, awaiting n r (pos r) = some (q, c) ∧ (h.chan c).tx = true ∧ Part n q ∧ q ≠ r ∧
        (Served n dead pos s.gen (s.gen r) q ∨ Adrift h (.tx c)) ∧
              ((∃ sl k, pos r = .mesh sl (.role q k)) ∨ (Finished s r ∧ sentTo q r (pos q) = false))) := by
        intro w' t k' hty hns hx
        have hc : Call (project n D) r (pos r) (.recv f) := by rw [hp]; exact .recv hf hty
        rcases recv_empty w R hr hd hp hf hty hx with ⟨g1, g2⟩ | ⟨h', g1⟩
        · obtain ⟨c, c1, c2, c3⟩ := g2
          exact .inr ⟨⟨_, hc, g1⟩, blocked hns hx, q, c, c1, c2, hq, hne, c3, .inl ⟨_, _, hp⟩⟩
        · exact .inl (go_fail R hr hd hc g1)
      rw [hp] at empty
      obtain ⟨-, -, hsh⟩ := Mesh.shape_role w hI hr hM hk.symm
      rcases hsh with ⟨m, K, e1⟩ | ⟨m, K, e1, -⟩ | ⟨bs, e1, rfl, -⟩
      · obtain ⟨e, g', e', rest, sl'', g1, g2, g3, g4, g5, -⟩ := send_spec w R hr hd hp hM e1 0
        exact .inr (.inl (go_step' hd ⟨_, _, rfl, .send hr.1 hr.2 hp g1 g2 g3 g4 g5⟩))
      · cases hx : s.queue (s.gen r, q, r) with
        | nil => exact .inr (empty (by rw [f4, e1]; rfl) (by simp [e1]) hx)
        | cons x l =>
          obtain ⟨g0, e, v', g', e', rest, sl'', g1, g2, g3, g4, g5, -⟩ := recv_spec w R hr hd hp hM e1 hx
          exact .inr (.inl (go_step' hd ⟨_, _, rfl, .recv hr.1 hr.2 hp g1 g2 g3 g4 g5⟩))
      · cases hx : s.queue (s.gen r, q, r) with
        | nil => exact .inr (empty (by rw [f4, e1]; rfl) (by simp [e1]) hx)
        | cons x l =>
          obtain ⟨N, g0, e, v', j1, new', e', rest', sl', j2, g1, g2, g3, g4, g5, g6, g7, g8, -⟩ :=
            heed_spec w R hr hd hp hM e1 hx
          exact .inr (.inl (go_step' hd ⟨_, _, rfl, .heed hr.1 hr.2 hp g1 g2 g3 g5 g6 g7 g8⟩))

/-- Every call of a living role has one of the outcomes expected. -/
theorem call_graceful (w : Global.Wf n D) (R : Rel n D root ls dead h pos s id T) {r} (hr : Part n r) (hd : dead r = false) {op}
    (hc : Call (project n D) r (pos r) op) :
    ∃ h' o, Heap.step (env (project n D)) h op = some (h', o) ∧ Graceful op o := by
  generalize hp : pos r = P at hc
  cases hc with
  | @send sl q k e w' m K d h4 h5 =>
    change sl[(sendImpl n r q).used - 1]? = some e at h4
    obtain ⟨M', f, hM', hk, hq, hne, hok, hu, f1, f2, f3, f4, f5, f6⟩ := R.at_role w hr hd hp
    have : f = e := by
      rw [show sendImpl n r q = emit n r q from rfl, hu, f1] at h4; cases h4; rfl
    subst this
    obtain ⟨S, e1, e2, e3⟩ := enc_send_data (f4.symm.trans h5)
    obtain ⟨e, g', e', rest, sl'', g1, g2, g3, -⟩ := send_spec w R hr hd hp hM' e1 d
    rw [h4] at g1; cases g1
    exact ⟨g', .unit, g3, rfl⟩
  | @recv sl q k e w' t K h4 h5 =>
    change sl[(recvImpl n q r).used - 1]? = some e at h4
    by_cases hq0 : s.queue (s.gen r, q, r) = []
    · rcases recv_empty w R hr hd hp h4 h5 hq0 with ⟨g1, -⟩ | ⟨h', g1⟩
      · exact ⟨h, .block, g1, .inl (.inr rfl)⟩
      · exact ⟨h', .err, g1, .inr rfl⟩
    · obtain ⟨M', f, hM', hk, hq, hne, hok, hu, f1, f2, f3, f4, f5, f6⟩ := R.at_role w hr hd hp
      have : f = e := by
        rw [show recvImpl n q r = emit n r q from rfl, hu, f1] at h4; cases h4; rfl
      subst this
      have hqueue := R.queue _ _ _ (R.gen_le w hr) hq hr hne
      rw [R.idc, ← f2, ← f3] at hqueue
      cases hpe : pending h.trace f.ep.sid f.ep.side with
      | nil => rw [hpe] at hqueue; cases hx : s.queue (s.gen r, q, r) with
        | nil => exact absurd hx hq0
        | cons _ _ => rw [hx] at hqueue; cases hqueue
      | cons x l =>
        obtain ⟨t', v⟩ := x
        obtain ⟨-, h', -, -, g1, -⟩ := recv_there R.reach f5 h5 hpe
        exact ⟨h', .value v, g1, .inl (.inl ⟨v, rfl⟩)⟩
  | @tell N k ms todo old ow e h4 =>
    obtain ⟨f, j1, f', rest', j2, g1, g2, -⟩ := tell_spec w R hr hd hp
    rw [h4] at g1; cases g1
    exact ⟨j1, .unit, g2, rfl⟩
  | @stop i sl e h4 h5 =>
    obtain ⟨e', g1, ⟨k', g2, g3⟩ | g2, -⟩ := stop_spec w R hr hd hp h4
    all_goals (rw [h5] at g1; cases g1)
    · exact ⟨k', .unit, g2, .inl rfl⟩
    · exact ⟨h, .err, g2, .inr rfl⟩
  | @wait i sl e h4 h5 =>
    change n - 1 ≤ i at h4
    change sl[i - (n - 1)]? = some e at h5
    have hi : i < 2 * (n - 1) := by
      have hpos := R.posr r hr
      rw [hp] at hpos
      obtain ⟨M, -, -, hok, -⟩ := hpos
      have := (List.getElem?_eq_some_iff.1 h5).1
      rw [hok.len] at this; omega
    obtain ⟨e', g1, g2⟩ := wait_spec w R hr hd hp h4 hi
    rw [h5] at g1; cases g1
    split at g2
    · obtain ⟨k', g2, g3⟩ := g2
      exact ⟨k', _, g2, .inl (.inl rfl)⟩
    · rcases g2.1 with g2 | g2
      · exact ⟨h, _, g2, .inl (.inr rfl)⟩
      · exact ⟨h, _, g2, .inr rfl⟩

/-- Errors come from failures. -/
theorem err_dead (w : Global.Wf n D) (R : Rel n D root ls dead h pos s id T) {r} (hr : Part n r) {op h1}
    (hc : Call (project n D) r (pos r) op) (he : Heap.step (env (project n D)) h op = some (h1, .err)) :
    ∃ x, Part n x ∧ dead x = true := by
  by_contra hno
  have live : ∀ x, Part n x → dead x = false := fun x hx => by
    cases hd : dead x with
    | false => rfl
    | true => exact absurd ⟨x, hx, hd⟩ hno
  obtain ⟨h', o, g1, g2⟩ := call_fine w (R.revive live) hr hc
  rw [he] at g1; cases g1
  cases op <;> simp [Fine] at g2

/-- A living teller goes on. -/
theorem served_go (w : Global.Wf n D) (R : Rel n D root ls dead h pos s id T) {q} (hd : dead q = true)
    {g} (hsv : Served n dead pos s.gen g q) : ∃ x, Part n x ∧ FGo (project n D) ⟨h, pos, dead⟩ x := by
  rcases hsv with ⟨h1, -⟩ | ⟨x, N, todo, old, ow, hx, hdx, hp, -, t, ht, -⟩
  · rw [hd] at h1; cases h1
  · refine ⟨x, hx, go_step' hdx ?_⟩
    cases todo with
    | nil => cases ht
    | cons y todo =>
      obtain ⟨k, ms⟩ := y
      obtain ⟨f, j1, f', rest', j2, g1, g2, g3, g4, -⟩ := tell_spec w R hx hdx hp
      exact ⟨_, _, rfl, .tell hx.1 hx.2 hp g1 g2 g3 g4⟩

/-- Somebody can go on, if the drops are carried out and a living role is not at its end. -/
theorem fgo_unfinished (w : Global.Wf n D) (R : Rel n D root ls dead h pos s id T) (hg : h.garb = []) {r} (hr : Part n r)
    (hd : dead r = false) (hnf : ¬ Finished s r) : ∃ x, Part n x ∧ FGo (project n D) ⟨h, pos, dead⟩ x := by
  obtain ⟨G, hI, hT⟩ := R.inv
  have fin_of : ∀ x, Part n x → pos x = .closed → Finished s x := fun x hx hc => by
    have hpos := R.posr x hx
    rw [hc] at hpos; exact hpos
  induction hk : Mesh.ahead D G r using Nat.strongRecOn generalizing r with
  | _ k ih =>
    rcases fnext w R hr hd with h1 | h1 | ⟨-, hb, q, c, -, -, hq, hne, hsv, hq2⟩
    · exact absurd (fin_of r hr h1) hnf
    · exact ⟨r, hr, h1⟩
    · obtain ⟨M, p, k', hM, hst, hp, -, hnfp, hor, -⟩ := Mesh.blocked w hI hr hnf hb
      have hpq : q = p := by
        rcases hq2 with ⟨sl, k2, hpos⟩ | ⟨h1, -⟩
        · have hp' := R.posr r hr
          rw [hpos] at hp'
          obtain ⟨M', hM', hk', -⟩ := hp'
          rw [hM] at hM'; cases hM'
          rw [hst] at hk'; cases hk'; rfl
        · exact absurd h1 hnf
      subst hpq
      cases hdq : dead q with
      | true => exact served_go w R hdq (hsv.resolve_right (Adrift.none hg))
      | false =>
        rcases hor with hc | hlt
        · rcases fnext w R hq hdq with h1 | h1 | ⟨-, hb', -⟩
          · exact absurd (fin_of q hq h1) hnfp
          · exact ⟨q, hq, h1⟩
          · exact absurd hc hb'
        · exact ih _ (by omega) hq hdq hnfp rfl

/-- Somebody can go on, if the drops are carried out and not everybody is done. -/
theorem fprogress (w : Global.Wf n D) (R : Rel n D root ls dead h pos s id T) (hg : h.garb = []) {r} (hr : Part n r)
    (hd : dead r = false) (hnc : pos r ≠ .closed) : ∃ x, Part n x ∧ FGo (project n D) ⟨h, pos, dead⟩ x := by
  by_cases hf : Finished s r
  · rcases fnext w R hr hd with h1 | h1 | ⟨-, -, q, c, -, -, hq, hne, hsv, hq2⟩
    · exact absurd h1 hnc
    · exact ⟨r, hr, h1⟩
    · have hns : sentTo q r (pos q) = false := by
        rcases hq2 with ⟨sl, k, hp⟩ | ⟨-, h1⟩
        · have hpos := R.posr r hr
          rw [hp] at hpos
          obtain ⟨M', hM', hk', -⟩ := hpos
          obtain ⟨M, hM, hk⟩ := hf
          rw [hM] at hM'; cases hM'
          rw [hk] at hk'; cases hk'
        · exact h1
      cases hdq : dead q with
      | true => exact served_go w R hdq (hsv.resolve_right (Adrift.none hg))
      | false =>
        by_cases hfq : Finished s q
        · refine ⟨q, hq, ?_⟩
          obtain ⟨M, hM, hk⟩ := hfq
          have hpos := R.posr q hq
          cases hp : pos q with
          | closed => rw [hp] at hns; cases hns
          | telling N todo old ow => rw [hp] at hpos; have h1 := hpos.1; rw [hM] at h1; cases h1
          | mesh sl k =>
            rw [hp] at hpos
            obtain ⟨M', hM', hk', -⟩ := hpos
            rw [hM] at hM'; cases hM'
            rw [hk] at hk'; subst hk'
            exact go_step' hdq ⟨_, _, rfl, .closing hq.1 hq.2 hp (closing_spec w R hq hdq hp).1⟩
          | ending i sl =>
            have h1 : i < n - 1 := by
              rw [hp] at hns
              simp only [sentTo, decide_eq_false_iff_not] at hns
              have := slot_range (isRole hq) (isRole hr) hne
              omega
            obtain ⟨e', g1, ⟨k', g2, g3⟩ | g2, -⟩ := stop_spec w R hq hdq hp h1
            · exact go_step' hdq ⟨_, _, rfl, .stop hq.1 hq.2 hp h1 g1 g2⟩
            · exact go_fail R hq hdq (by rw [hp]; exact .stop h1 g1) g2
        · exact fgo_unfinished w R hg hq hdq hfq
  · exact fgo_unfinished w R hg hr hd hf

end Verif.Runtime
