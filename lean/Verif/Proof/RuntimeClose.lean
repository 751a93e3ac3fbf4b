import Verif.Proof.RuntimeStep
/-!
# The runtime follows the queues: `close`, and drops
-/
namespace Verif.Runtime
open Verif.Mesh (Sys Name Sess Stack Label upd Part Global project S others mem_others)
open Verif.Types (STy)
open Verif.Heap hiding upd
open Verif.Spec Verif.SendRecv
open Verif.Gen (slot_partner partner_slot slot_range partner_role slotOf_inj partner_inj pr)

variable {n : Nat} {D : Global} {root : Name} {ls : List Label} {dead : Nat → Bool} {h : Heap.St Pay} {pos : Nat → Pos} {s : S} {id : Ids} {T : Nat}

/-- At the end of the stack all sessions are at their end, and the protocol is over. -/
theorem Rel.at_fin (w : Global.Wf n D) (R : Rel n D root ls dead h pos s id T) {r sl M} (hr : Part n r)
    (hM : s.pos r = .mesh M) (hk : M.stack = .fin) (hok : MeshOK n id (s.gen r) r M.sess sl) :
    s.gen r = T ∧ (∀ q, M.sess q = .fin) ∧ ∀ e ∈ sl, e.ty = .fin := by
  obtain ⟨G, hI, rfl⟩ := R.inv
  obtain ⟨h1, h2⟩ := Mesh.shape_fin w hI hr hM hk
  refine ⟨h2, h1, fun e he => ?_⟩
  obtain ⟨q, -, -, -, -, h3⟩ := hok.mem hr he
  rw [h3, h1 q]; rfl

/-- `close` may be called. -/
theorem closing_spec (w : Global.Wf n D) (R : Rel n D root ls dead h pos s id T) {r sl} (hr : Part n r) (hd : dead r = false)
    (hp : pos r = .mesh sl .fin) : (∀ e ∈ sl, e.ty = .fin) ∧ Rel n D root ls dead h (upd pos r (.ending 0 sl)) s id T := by
  have hpos := R.posr r hr
  rw [hp] at hpos
  obtain ⟨M, hM, hk, hok⟩ := hpos
  obtain ⟨-, -, h1⟩ := R.at_fin w hr hM hk.symm hok
  refine ⟨h1, ?_⟩
  have hA : Alike n r (pos r) (.ending 0 sl) := by
    rw [hp]; exact alike_quiet (quiet_mesh _ _ _ _) (fun q => by simp [sentTo, gotFrom])
  refine R.next hr hd R.reach R.inv rfl (fun _ _ => ⟨rfl, rfl⟩) ⟨M, hM, hk.symm, hok, by omega⟩ ?_ R.queue
    (R.sig_alike hA fun x t r' hx => ⟨hx, rfl, rfl⟩) (R.got_alike hA)
  have := R.split hr hd
  rw [hp] at this
  exact this

/-- What is known of a role in `close`. -/
theorem Rel.at_end (w : Global.Wf n D) (R : Rel n D root ls dead h pos s id T) {r i sl} (hr : Part n r) (hd : dead r = false)
    (hp : pos r = .ending i sl) {j} (hj : j < n - 1) : ∃ e t t', sl[j]? = some e ∧
      Part n (partner r (j + 1)) ∧ partner r (j + 1) ≠ r ∧ slotOf r (partner r (j + 1)) = j + 1 ∧
      e.ep.sid = id T r (partner r (j + 1)) ∧ e.ep.side = side r (partner r (j + 1)) ∧ e.ty = .fin ∧ e ∈ h.pool ∧
      Ends (env (project n D)) h e t t' := by
  have hpos := R.posr r hr
  rw [hp] at hpos
  obtain ⟨M, hM, hk, hok, -⟩ := hpos
  obtain ⟨h1, -, h2⟩ := R.at_fin w hr hM hk hok
  obtain ⟨hq, hne⟩ := partner_role (isRole hr) (k := j + 1) (by omega) (by omega)
  obtain ⟨e, e1, e2, e3, -⟩ := hok.at hj hr
  have he : e ∈ h.pool := R.mem hr hd (by rw [hp]; exact List.mem_of_getElem? e1)
  have hty := h2 e (List.mem_of_getElem? e1)
  obtain ⟨t, t', hn⟩ := (reach_inv R.reach).node_fin (Or.inl he) hty
  exact ⟨e, t, t', e1, ofRole hq, hne, slot_partner (by omega), by rw [← h1]; exact e2, e3, hty, he, Or.inl he, hn⟩

/-- The other end of a session is there as long as its owner has not closed. -/
theorem Rel.peer (w : Global.Wf n D) (R : Rel n D root ls dead h pos s id T) (live : ∀ x, Part n x → dead x = false) {r q : Nat} (hr : Part n r) (hq : Part n q) (hne : q ≠ r)
    (hc : pos q ≠ .closed) {e : Entry Pay} {t t'} (hE : Ends (env (project n D)) h e t t') (h1 : e.ep.sid = id T r q)
    (h2 : e.ep.side = side r q) : ∃ e', Ends (env (project n D)) h e' t' t := by
  obtain ⟨p, p1, p2, p3⟩ := R.holder w live hq hc T (R.top_le w hq) (Nat.le_refl T) r hr (Ne.symm hne)
  exact (reach_inv R.reach).peer_fin hE.1 hE.2 p1 (by rw [p2, h1, R.idc]) (by rw [p3, h2, side_not (Ne.symm hne)])

theorem not_closed_of_sent {p q : Nat} {a : Pos} (hs : sentTo p q a = false) : a ≠ .closed := by rintro rfl; cases hs
theorem not_closed_of_got {p q : Nat} {a : Pos} (hs : gotFrom n q p a = false) : a ≠ .closed := by rintro rfl; cases hs

/-- `Stop` can be sent, if the partner's end is there. -/
theorem stop_spec (w : Global.Wf n D) (R : Rel n D root ls dead h pos s id T) {r i sl} (hr : Part n r) (hd : dead r = false)
    (hp : pos r = .ending i sl) (hi : i < n - 1) : ∃ e, sl[i]? = some e ∧
      ((∃ h', Heap.step (env (project n D)) h (.sigSend e .stop) = some (h', .unit) ∧
        Rel n D root ls dead h' (upd pos r (.ending (i + 1) sl)) s id T) ∨
      Heap.step (env (project n D)) h (.sigSend e .stop) = some (h, .err)) ∧
      ((∀ x, Part n x → dead x = false) → Heap.step (env (project n D)) h (.sigSend e .stop) ≠ some (h, .err)) := by
  obtain ⟨e, t, t', e1, hq, hne, hslot, e2, e3, hty, he, hE⟩ := R.at_end w hr hd hp hi
  generalize hqd : partner r (i + 1) = q at *
  have inv := reach_inv R.reach
  -- the partner has not received it yet
  have hns : sentTo r q (pos r) = false := by rw [hp]; simp [sentTo, hslot]
  have hng : gotFrom n q r (pos q) = false := by
    cases hg : gotFrom n q r (pos q) with
    | false => rfl
    | true => have := R.got r q hr hq (Ne.symm hne) hg; rw [hns] at this; cases this
  have hnr : gotFrom n r q (pos r) = false := by rw [hp]; simp [gotFrom, hslot]
  have hbuf : (h.chan t).buf = none := by
    rcases (R.sig e t t' hE T r q (Nat.le_refl T) hr hq (Ne.symm hne) e2 e3).1 with h1 | h1
    · rw [h1]; simp [expect, hns]
    · exact h1
  have hk := (inv.ends_lt hE).2.2.1
  refine ⟨e, e1, ?_, ?_⟩
  swap
  · intro live
    obtain ⟨e', hE'⟩ := R.peer w live hr hq hne (not_closed_of_got hng) hE e2 e3
    have hrx := (inv.ends_live hE').2
    rw [sigSend_eq _ he hty hE.2, hrx, hbuf]; simp
  cases hrx : (h.chan t).rx with
  | false => exact .inr (by rw [sigSend_eq _ he hty hE.2, hrx]; simp)
  | true =>
  have hstep : Heap.step (env (project n D)) h (.sigSend e .stop) = some (putSig h t (some (.sig .stop)), .unit) := by
    rw [sigSend_eq _ he hty hE.2, hrx, hbuf]; simp
  refine .inl ⟨_, hstep, ?_⟩
  -- flags
  have hpi : upd pos r (.ending (i + 1) sl) r = .ending (i + 1) sl := by simp [upd]
  have hpo : ∀ x, x ≠ r → upd pos r (.ending (i + 1) sl) x = pos x := fun x hx => by simp [upd, hx]
  have hsent : ∀ x y, Part n x → Part n y → x ≠ y → ¬ (x = r ∧ y = q) →
      sentTo x y (upd pos r (.ending (i + 1) sl) x) = sentTo x y (pos x) := by
    intro x y hx hy hxy hno
    by_cases hxr : x = r
    · subst hxr
      rw [hpi, hp]
      have : slotOf x y ≠ slotOf x q := fun h => hno ⟨rfl, slotOf_inj hxy (Ne.symm hne) h⟩
      have := slot_range (isRole hx) (isRole hy) hxy
      simp only [sentTo, decide_eq_decide]; omega
    · rw [hpo x hxr]
  have hgot : ∀ x y, Part n x → Part n y → x ≠ y →
      gotFrom n x y (upd pos r (.ending (i + 1) sl) x) = gotFrom n x y (pos x) := by
    intro x y hx hy hxy
    by_cases hxr : x = r
    · subst hxr
      rw [hpi, hp]
      simp only [gotFrom, decide_eq_decide]; omega
    · rw [hpo x hxr]
  have hsq : sentTo r q (upd pos r (.ending (i + 1) sl) r) = true := by rw [hpi]; simp [sentTo, hslot]
  have hpos := R.posr r hr
  rw [hp] at hpos
  obtain ⟨M, hM, hk', hok, hi'⟩ := hpos
  refine R.next hr hd (.step R.reach hstep) R.inv rfl (fun _ _ => ⟨rfl, rfl⟩) ⟨M, hM, hk', hok, by omega⟩ ?_ R.queue ?_ ?_
  · have := R.split hr hd
    rw [hp] at this
    exact this
  · intro x a b hx g p q' hg hp' hq' hne' x1 x2
    have hx0 := putSig_ends hk (.inr rfl) hx
    have hold := R.sig x a b hx0 g p q' hg hp' hq' hne' x1 x2
    have hb : ∀ c, ((putSig h t (some (.sig .stop))).chan c).buf = if c = t then some (.sig .stop) else (h.chan c).buf := by
      intro c; simp only [putSig, Heap.upd]; split <;> simp_all
    rw [hb, hb]
    by_cases hsame : g = T ∧ ((p = r ∧ q' = q) ∨ (p = q ∧ q' = r))
    · obtain ⟨rfl, ⟨rfl, rfl⟩ | ⟨rfl, rfl⟩⟩ := hsame
      · obtain ⟨rfl, rfl⟩ := (inv.ends_same hx0 hE (by rw [x1, e2])).1 (by rw [x2, e3])
        rw [if_pos rfl, if_neg (inv.ends_ne hx0).symm, hold.2]
        constructor
        · simp [expect, hsq, hgot q' p hq' hp' hne'.symm, hng]
        · unfold expect
          rw [hsent q' p hq' hp' hne'.symm (by rintro ⟨rfl, -⟩; exact hne' rfl), hgot p q' hp' hq' hne']
      · obtain ⟨rfl, rfl⟩ := (inv.ends_same hx0 hE (by rw [x1, e2, R.idc])).2 (by rw [x2, e3, side_not hne']; cases side p q' <;> simp)
        rw [if_pos rfl, if_neg (inv.ends_ne hx0)]
        constructor
        · unfold expect
          rw [hsent p q' hp' hq' hne' (by rintro ⟨rfl, -⟩; exact hne' rfl), hgot q' p hq' hp' hne'.symm]
          exact hold.1
        · simp [expect, hsq, hgot p q' hp' hq' hne', hng]
    · have hsid : x.ep.sid ≠ e.ep.sid := by
        intro h3
        rw [x1, e2] at h3
        obtain ⟨h4, h5⟩ := R.inj _ _ _ _ _ _ hg (Nat.le_refl T) hp' hq' hne' hr hq (Ne.symm hne) h3
        exact hsame ⟨h4, h5⟩
      obtain ⟨d1, -, d3, -⟩ := inv.ends_diff hx0 hE hsid
      rw [if_neg d1, if_neg d3, hold.2]
      unfold expect
      rw [hgot q' p hq' hp' hne'.symm, hgot p q' hp' hq' hne']
      constructor
      · by_cases hgT : g = T
        · rw [hsent p q' hp' hq' hne' (fun h => hsame ⟨hgT, .inl h⟩)]
          exact hold.1
        · have := hold.1; unfold expect at this; simpa [hgT] using this
      · by_cases hgT : g = T
        · rw [hsent q' p hq' hp' hne'.symm (fun h => hsame ⟨hgT, .inr ⟨h.2, h.1⟩⟩)]
        · simp [hgT]
  · intro p q' hp' hq' hne' h1
    rw [hgot q' p hq' hp' hne'.symm] at h1
    have h2 := R.got p q' hp' hq' hne' h1
    by_cases hno : p = r ∧ q' = q
    · obtain ⟨rfl, rfl⟩ := hno; exact hsq
    · rw [hsent p q' hp' hq' hne' hno]; exact h2

/-- Receiving `Stop`: it comes if the partner has sent it, otherwise one waits. -/
theorem wait_spec (w : Global.Wf n D) (R : Rel n D root ls dead h pos s id T) {r i sl} (hr : Part n r) (hd : dead r = false)
    (hp : pos r = .ending i sl) (hi : n - 1 ≤ i) (hi2 : i < 2 * (n - 1)) : ∃ e, sl[i - (n - 1)]? = some e ∧
      if sentTo (partner r (i - (n - 1) + 1)) r (pos (partner r (i - (n - 1) + 1))) = true then
        ∃ h', Heap.step (env (project n D)) h (.sigRecv e) = some (h', .signal .stop) ∧
          Rel n D root ls dead h' (upd pos r (.ending (i + 1) sl)) s id T
      else (Heap.step (env (project n D)) h (.sigRecv e) = some (h, .block) ∨
          Heap.step (env (project n D)) h (.sigRecv e) = some (h, .err)) ∧
        ((∀ x, Part n x → dead x = false) → Heap.step (env (project n D)) h (.sigRecv e) = some (h, .block)) := by
  obtain ⟨e, t, t', e1, hq, hne, hslot, e2, e3, hty, he, hE⟩ := R.at_end w hr hd hp (j := i - (n - 1)) (by omega)
  generalize hqd : partner r (i - (n - 1) + 1) = q at *
  have inv := reach_inv R.reach
  refine ⟨e, e1, ?_⟩
  have hnr : gotFrom n r q (pos r) = false := by rw [hp]; simp [gotFrom, hslot]; omega
  have hbuf := (R.sig e t t' hE T r q (Nat.le_refl T) hr hq (Ne.symm hne) e2 e3).2
  by_cases hs : sentTo q r (pos q) = true
  · rw [if_pos hs]
    have hb : (h.chan t').buf = some (.sig .stop) := by rw [hbuf]; simp [expect, hs, hnr]
    have hk := (inv.ends_lt hE).2.2.2
    have hstep : Heap.step (env (project n D)) h (.sigRecv e) = some (putSig h t' none, .signal .stop) := by
      rw [sigRecv_eq _ he hty hE.2 (.inr hb), hb]; simp
    refine ⟨_, hstep, ?_⟩
    have hpi : upd pos r (.ending (i + 1) sl) r = .ending (i + 1) sl := by simp [upd]
    have hpo : ∀ x, x ≠ r → upd pos r (.ending (i + 1) sl) x = pos x := fun x hx => by simp [upd, hx]
    have hsent : ∀ x y, Part n x → Part n y → x ≠ y →
        sentTo x y (upd pos r (.ending (i + 1) sl) x) = sentTo x y (pos x) := by
      intro x y hx hy hxy
      by_cases hxr : x = r
      · subst hxr
        rw [hpi, hp]
        have := slot_range (isRole hx) (isRole hy) hxy
        simp only [sentTo, decide_eq_decide]; omega
      · rw [hpo x hxr]
    have hgot : ∀ x y, Part n x → Part n y → x ≠ y → ¬ (x = r ∧ y = q) →
        gotFrom n x y (upd pos r (.ending (i + 1) sl) x) = gotFrom n x y (pos x) := by
      intro x y hx hy hxy hno
      by_cases hxr : x = r
      · subst hxr
        rw [hpi, hp]
        have : slotOf x y ≠ slotOf x q := fun h => hno ⟨rfl, slotOf_inj hxy (Ne.symm hne) h⟩
        have := slot_range (isRole hx) (isRole hy) hxy
        simp only [gotFrom, decide_eq_decide]; omega
      · rw [hpo x hxr]
    have hgq : gotFrom n r q (upd pos r (.ending (i + 1) sl) r) = true := by rw [hpi]; simp [gotFrom, hslot]; omega
    have hpos := R.posr r hr
    rw [hp] at hpos
    obtain ⟨M, hM, hk', hok, hi'⟩ := hpos
    refine R.next hr hd (.step R.reach hstep) R.inv rfl (fun _ _ => ⟨rfl, rfl⟩) ⟨M, hM, hk', hok, by omega⟩ ?_ R.queue ?_ ?_
    · have := R.split hr hd
      rw [hp] at this
      exact this
    · intro x a b hx g p q' hg hp' hq' hne' x1 x2
      have hx0 := putSig_ends hk (.inl rfl) hx
      have hold := R.sig x a b hx0 g p q' hg hp' hq' hne' x1 x2
      have hb : ∀ c, ((putSig h t' none).chan c).buf = if c = t' then none else (h.chan c).buf := by
        intro c; simp only [putSig, Heap.upd]; split <;> simp_all
      rw [hb, hb]
      by_cases hsame : g = T ∧ ((p = r ∧ q' = q) ∨ (p = q ∧ q' = r))
      · obtain ⟨rfl, ⟨rfl, rfl⟩ | ⟨rfl, rfl⟩⟩ := hsame
        · obtain ⟨rfl, rfl⟩ := (inv.ends_same hx0 hE (by rw [x1, e2])).1 (by rw [x2, e3])
          rw [if_pos rfl, if_neg (inv.ends_ne hx0)]
          constructor
          · unfold expect
            rw [hsent p q' hp' hq' hne', hgot q' p hq' hp' hne'.symm (by rintro ⟨rfl, -⟩; exact hne' rfl)]
            exact hold.1
          · simp [expect, hgq]
        · obtain ⟨rfl, rfl⟩ := (inv.ends_same hx0 hE (by rw [x1, e2, R.idc])).2 (by rw [x2, e3, side_not hne']; cases side p q' <;> simp)
          rw [if_pos rfl, if_neg (inv.ends_ne hx0).symm, hold.2]
          constructor
          · simp [expect, hgq]
          · unfold expect
            rw [hsent q' p hq' hp' hne'.symm, hgot p q' hp' hq' hne' (by rintro ⟨rfl, -⟩; exact hne' rfl)]
      · have hsid : x.ep.sid ≠ e.ep.sid := by
          intro h3
          rw [x1, e2] at h3
          obtain ⟨h4, h5⟩ := R.inj _ _ _ _ _ _ hg (Nat.le_refl T) hp' hq' hne' hr hq (Ne.symm hne) h3
          exact hsame ⟨h4, h5⟩
        obtain ⟨-, d2, -, d4⟩ := inv.ends_diff hx0 hE hsid
        rw [if_neg d2, if_neg d4, hold.2]
        unfold expect
        rw [hsent p q' hp' hq' hne', hsent q' p hq' hp' hne'.symm]
        constructor
        · by_cases hgT : g = T
          · rw [hgot q' p hq' hp' hne'.symm (fun h => hsame ⟨hgT, .inr ⟨h.2, h.1⟩⟩)]
            exact hold.1
          · have := hold.1; unfold expect at this; simpa [hgT] using this
        · by_cases hgT : g = T
          · rw [hgot p q' hp' hq' hne' (fun h => hsame ⟨hgT, .inl h⟩)]
          · simp [hgT]
    · intro p q' hp' hq' hne' h1
      rw [hsent p q' hp' hq' hne']
      by_cases hno : q' = r ∧ p = q
      · obtain ⟨rfl, rfl⟩ := hno; exact hs
      · rw [hgot q' p hq' hp' hne'.symm hno] at h1
        exact R.got p q' hp' hq' hne' h1
  · rw [if_neg hs]
    have hs' : sentTo q r (pos q) = false := by simpa using hs
    have hb : (h.chan t').buf = none := by rw [hbuf]; simp [expect, hs']
    constructor
    · cases htx : (h.chan t').tx with
      | true => exact .inl (by rw [sigRecv_eq _ he hty hE.2 (.inl hb), hb, htx]; simp)
      | false => exact .inr (by rw [sigRecv_eq _ he hty hE.2 (.inl hb), hb, htx]; simp)
    · intro live
      obtain ⟨e', hE'⟩ := R.peer w live hr hq hne (not_closed_of_sent hs') hE e2 e3
      have htx := (inv.ends_live hE').1
      rw [sigRecv_eq _ he hty hE.2 (.inl hb), hb, htx]; simp

/-- The end of `close`. -/
theorem done_spec (R : Rel n D root ls dead h pos s id T) {r i sl} (hr : Part n r) (hd : dead r = false)
    (hp : pos r = .ending i sl) (hi : i = 2 * (n - 1)) : ∃ h', dropAll (project n D) h sl = some h' ∧
      Rel n D root ls dead h' (upd pos r .closed) s id T := by
  have hsplit := R.split hr hd
  rw [hp] at hsplit
  obtain ⟨h', a1, a2, a3, a4, a5, a6⟩ := dropAll_spec (project n D) sl _ h R.reach hsplit
  refine ⟨h', a1, ?_⟩
  have hpos := R.posr r hr
  rw [hp] at hpos
  obtain ⟨M, hM, hk, -⟩ := hpos
  have hA : Alike n r (pos r) .closed := by
    intro q hq hne
    have := slot_range (isRole hr) (isRole hq) (Ne.symm hne)
    rw [hp]; simp only [sentTo, gotFrom, decide_eq_true_eq]; omega
  refine R.next hr hd a2 R.inv a5 (fun _ _ => ⟨rfl, rfl⟩) ⟨M, hM, hk⟩ ?_ ?_ (R.sig_alike hA a6) (R.got_alike hA)
  · simpa [own] using a3
  · intro g p q hg hp' hq hne; rw [a4]; exact R.queue g p q hg hp' hq hne

/-- Carrying out a drop. -/
theorem gc_spec (R : Rel n D root ls dead h pos s id T) {i h' o}
    (hs : Heap.step (env (project n D)) h (.gc i) = some (h', o)) : Rel n D root ls dead h' pos s id T := by
  obtain ⟨r1, r2, r3⟩ := gc_rest hs
  have inv := reach_inv R.reach
  refine ⟨.step R.reach hs, R.inv, R.idc, R.inj, by rw [r2]; exact R.lt, by rw [r2]; exact R.sur, R.posr, by rw [r3]; exact R.perm,
    by rw [r1]; exact R.queue, ?_, R.got⟩
  intro x t r' hx g p q hg hp hq hne x1 x2
  obtain ⟨y1, y2, y3⟩ := gc_ends inv hs hx
  obtain ⟨s1, s2⟩ := R.sig x t r' y1 g p q hg hp hq hne x1 x2
  refine ⟨?_, y3.trans s2⟩
  rcases y2 with y2 | ⟨-, y4⟩
  · rw [y2]; exact s1
  · exact .inr y4

end Verif.Runtime
