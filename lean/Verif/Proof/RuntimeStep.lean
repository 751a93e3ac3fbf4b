import Verif.Proof.RuntimeSim
/-!
# The runtime follows the queues: every step but a new choice
-/
namespace Verif.Runtime
open Verif.Mesh (Sys Name Sess Stack Label upd Part Global project S others mem_others)
open Verif.Types (STy)
open Verif.Heap hiding upd
open Verif.Spec Verif.SendRecv
open Verif.Gen (slot_partner partner_slot slot_range partner_role slotOf_inj partner_inj pr)

variable {n : Nat} {D : Global} {root : Name} {ls : List Label} {dead : Nat → Bool} {h : Heap.St Pay} {pos : Nat → Pos} {s : S} {id : Ids} {T : Nat}

theorem Rel.inv_step (w : Global.Wf n D) (R : Rel n D root ls dead h pos s id T) {l s'} (hst : Mesh.Step (project n D) s l s')
    (h1 : ∀ x, Part n x → gst s x ≤ gst s' x) (h2 : ∀ x, Part n x → gst s' x ≤ T) :
    ∃ G, Mesh.Inv n D root G (ls ++ [l]) s' ∧ G.top = T := by
  obtain ⟨G, hI, rfl⟩ := R.inv
  obtain ⟨G', hI', -⟩ := Mesh.inv_step w hI hst
  refine ⟨G', hI', top_eq hI' h2 ?_ w⟩
  rcases (top_of hI w).2 with h3 | ⟨r, hr, h3⟩
  · exact .inl h3
  · refine .inr ⟨r, hr, ?_⟩
    have := h1 r hr; have := h2 r hr; omega

/-- What is known of a role at `send` or `recv`. -/
theorem Rel.at_role (w : Global.Wf n D) (R : Rel n D root ls dead h pos s id T) {r sl q k} (hr : Part n r) (hl : dead r = false)
    (hp : pos r = .mesh sl (.role q k)) : ∃ M e, s.pos r = .mesh M ∧ M.stack = .role q k ∧ Part n q ∧ q ≠ r ∧
      MeshOK n id (s.gen r) r M.sess sl ∧ (emit n r q).used - 1 = slotOf r q - 1 ∧ sl[slotOf r q - 1]? = some e ∧
      e.ep.sid = id (s.gen r) r q ∧ e.ep.side = side r q ∧ e.ty = enc r q (M.sess q) ∧ e ∈ h.pool ∧
      h.pool.Perm (e :: (sl.eraseIdx (slotOf r q - 1) ++ (others n r).flatMap (held dead pos))) := by
  have hpos := R.posr r hr
  rw [hp] at hpos
  obtain ⟨M, hM, hk, hok⟩ := hpos
  obtain ⟨G, hI, -⟩ := R.inv
  obtain ⟨hq, hne, -⟩ := Mesh.shape_role w hI hr hM hk.symm
  obtain ⟨e, h1, h2, h3, h4⟩ := hok.slot q hq hne
  refine ⟨M, e, hM, hk.symm, hq, hne, hok, by rw [emit_used' hne], h1, h2, h3, h4, ?_, ?_⟩
  · exact R.mem hr hl (by rw [hp]; exact List.mem_of_getElem? h1)
  · refine (R.split hr hl).trans ?_
    rw [hp]
    exact (perm_eraseIdx h1).append_right _

theorem own_mesh (sl : List (Entry Pay)) (k : Stack) : own (.mesh sl k) = sl := rfl
theorem own_telling (N : Name) (todo old ow) : own (.telling N todo old ow) =
    todo.filterMap (fun p => old[p.1 - 1]?) ++ (todo.flatMap (·.2) ++ ow) := rfl

/-- The flags of a role before `close`. -/
theorem alike_quiet {r : Nat} {a b : Pos} (ha : ∀ q, sentTo r q a = false ∧ gotFrom n r q a = false)
    (hb : ∀ q, sentTo r q b = false ∧ gotFrom n r q b = false) : Alike n r a b := fun q _ _ => by
  rw [(ha q).1, (ha q).2, (hb q).1, (hb q).2]; exact ⟨rfl, rfl⟩

theorem quiet_mesh (n r : Nat) (sl k) : ∀ q, sentTo r q (.mesh sl k) = false ∧ gotFrom n r q (.mesh sl k) = false := fun _ => ⟨rfl, rfl⟩
theorem quiet_telling (n r : Nat) (N todo old ow) :
    ∀ q, sentTo r q (.telling N todo old ow) = false ∧ gotFrom n r q (.telling N todo old ow) = false := fun _ => ⟨rfl, rfl⟩

/-- Nobody waits at the end of a session whose other side is still in use. -/
theorem Rel.no_stop (w : Global.Wf n D) (R : Rel n D root ls dead h pos s id T) {r q : Nat} (hr : Part n r) (hq : Part n q)
    (hs : sentTo r q (pos r) = false) {M : Mesh.Mesh} (hM : s.pos r = .mesh M) {k m S} (hk : M.stack = .role q k)
    (hse : M.sess q = .send m S) {g} : expect n T pos g r q = none ∧ expect n T pos g q r = none := by
  constructor
  · simp [expect, hs]
  · unfold expect
    rw [if_neg]
    rintro ⟨rfl, h2, -⟩
    have hpos := R.posr q hq
    obtain ⟨G, hI, -⟩ := R.inv
    refine Mesh.send_unfinished w hI hr hM hk hse ?_
    cases hP : pos q with
    | mesh sl k => rw [hP] at h2; cases h2
    | telling N todo old ow => rw [hP] at h2; cases h2
    | closed => rw [hP] at hpos; exact hpos
    | ending i sl =>
      rw [hP] at hpos
      obtain ⟨M, hM, hk, -⟩ := hpos
      exact ⟨M, hM, hk⟩

/-- `send` works. -/
theorem send_spec (w : Global.Wf n D) (R : Rel n D root ls dead h pos s id T) {r sl q k M m S} (hr : Part n r) (hl : dead r = false)
    (hp : pos r = .mesh sl (.role q k)) (hM : s.pos r = .mesh M) (hs : M.sess q = .send m S) (d : Nat) :
    ∃ e h' e' rest sl', sl[(sendImpl n r q).used - 1]? = some e ∧ e.ty = .send none (.data m) (enc r q S) ∧
      Heap.step (env (project n D)) h (.send e ⟨0, d, []⟩) = some (h', .unit) ∧ h'.pool = e' :: rest ∧
      (sendImpl n r q).exec (fun _ => some e') sl = some sl' ∧
      ∃ s', Mesh.Step (project n D) s (.act r (.send q m)) s' ∧
        Rel n D root (ls ++ [.act r (.send q m)]) dead h' (upd pos r (.mesh sl' k)) s' id T := by
  obtain ⟨M', e, hM', hk, hq, hne, hok, hu, h1, h2, h3, h4, h5, h6⟩ := R.at_role w hr hl hp
  rw [hM] at hM'; cases hM'
  rw [hs] at h4
  obtain ⟨h', here, rest, c1, c2, c3, c4, c5, c6⟩ := Prop.C03_send R.reach (G := env (project n D)) (w := none) (t := .data m)
    (k := enc r q S) h4 (v := ⟨0, d, []⟩) (tys := []) (by simp [env]) rfl
    (rest := sl.eraseIdx (slotOf r q - 1) ++ (others n r).flatMap (held dead pos)) (by simpa [entries] using h6)
  have hrange := slot_range (isRole hr) (isRole hq) (Ne.symm hne)
  refine ⟨e, h', ⟨here, enc r q S⟩, rest, sl.set (slotOf r q - 1) ⟨here, enc r q S⟩, by
    rw [show sendImpl n r q = emit n r q from rfl, hu]; exact h1, h4, c1, c2, exec_set hr hq hne hok.len _, _,
    .send hr.1 hr.2 hM hk hs, ?_⟩
  have hA : Alike n r (pos r) (.mesh (sl.set (slotOf r q - 1) ⟨here, enc r q S⟩) k) := by
    rw [hp]; exact alike_quiet (quiet_mesh _ _ _ _) (quiet_mesh _ _ _ _)
  have inv := reach_inv R.reach
  have hgT := R.gen_le w hr
  refine R.next hr hl (.step R.reach c1) ?_ (send_nsid c1) ?_ ?_ ?_ ?_ ?_ (R.got_alike hA)
  · refine R.inv_step w (.send hr.1 hr.2 hM hk hs) ?_ ?_ <;> intro x hx
    · by_cases e : x = r
      · subst e; simp [gst, upd, hM]
      · simp [gst, upd, e]
    · have := R.top_le w hx
      by_cases e : x = r
      · subst e; simpa [gst, upd, hM] using this
      · simpa [gst, upd, e] using this
  · intro x hx; simp [upd, hx]
  · refine ⟨⟨upd M.sess q S, k⟩, by simp [upd], rfl, ?_⟩
    exact hok.set hr hq hne (c4.trans h2) (c5.trans h3) rfl
  · rw [c2]
    refine (c3.cons _).trans ?_
    rw [own_mesh]
    refine List.Perm.trans ?_ ((set_eraseIdx _ (by rw [hok.len]; omega)).symm.append_right _)
    simp
  · intro g p q' hg hp' hq' hne'
    rw [c6, pending_sent R.reach]
    have hkey := R.key hg hgT hp' hq' hne' hr hq (Ne.symm hne)
    rw [h2, h3, ← side_not (Ne.symm hne)]
    simp only [upd]
    by_cases hh : (g, p, q') = (s.gen r, r, q)
    · rw [if_pos (hkey.2 hh), if_pos hh]
      cases hh
      exact List.rel_append (R.queue _ _ _ hg hr hq (Ne.symm hne)) (List.Forall₂.cons ⟨rfl, rfl, rfl⟩ .nil)
    · rw [if_neg (fun x => hh (hkey.1 x)), if_neg hh]
      exact R.queue g p q' hg hp' hq' hne'
  · intro x t r' hx g p q' hg hp' hq' hne' x1 x2
    rw [hA.expect hp' hq' hne', hA.expect hq' hp' hne'.symm]
    rcases send_ends inv c1 hx with ⟨y1, y2, y3⟩ | ⟨y1, y2, y3⟩
    · rw [y2, y3]; exact R.sig x t r' y1 g p q' hg hp' hq' hne' x1 x2
    · rw [y2, y3]
      obtain ⟨n1, n2⟩ := R.no_stop (g := s.gen r) w hr hq (by rw [hp]; rfl) hM hk hs
      rw [y1, h2] at x1
      obtain ⟨rfl, ⟨rfl, rfl⟩ | ⟨rfl, rfl⟩⟩ := R.inj _ _ _ _ _ _ hgT hg hr hq (Ne.symm hne) hp' hq' hne' x1
      · exact ⟨.inr rfl, n2.symm⟩
      · exact ⟨.inr rfl, n1.symm⟩

/-- What `recv` does when a message is there. -/
theorem recv_there {G : Env Pay} (hR : Reach G h) {e : Entry Pay} (he : e ∈ h.pool) {w t k} (hty : e.ty = .recv w t k)
    {t' v l} (hp : pending h.trace e.ep.sid e.ep.side = (t', v) :: l) :
    t' = t ∧ ∃ h' there tys, Heap.step G h (.recv e) = some (h', .value v) ∧
      h'.trace = h.trace ++ [.rcvd e.ep.sid e.ep.side t v] ∧ G t v.tag = some tys ∧
      there.sid = e.ep.sid ∧ there.side = e.ep.side ∧ h'.pool = entries v.eps tys ++ ⟨there, k⟩ :: h.pool.erase e := by
  obtain ⟨c, h', o, -, h2, h3⟩ := Prop.C04_recv hR he hty
  rw [hp] at h3
  obtain ⟨a1, rfl, a3, there, tys, a4, a5, a6, a7⟩ := h3
  exact ⟨a1, h', there, tys, h2, a3, a4, a5, a6, a7⟩

theorem recv_value {G : Env Pay} (hR : Reach G h) {e : Entry Pay} (he : e ∈ h.pool) {w t k} (hty : e.ty = .recv w t k)
    {h' v} (hs : Heap.step G h (.recv e) = some (h', .value v)) :
    ∃ l, pending h.trace e.ep.sid e.ep.side = (t, v) :: l := by
  obtain ⟨c, h'', o, -, h2, h3⟩ := Prop.C04_recv hR he hty
  rw [hs] at h2
  cases h2
  cases hp : pending h.trace e.ep.sid e.ep.side with
  | nil => rw [hp] at h3; simp only at h3; split at h3 <;> cases h3.1
  | cons x l =>
    rw [hp] at h3
    obtain ⟨a1, a2, -⟩ := h3
    cases a2
    obtain ⟨t', v'⟩ := x
    simp only at a1
    subst a1
    exact ⟨l, rfl⟩

/-- `recv` works when its message is there. -/
theorem recv_spec (w : Global.Wf n D) (R : Rel n D root ls dead h pos s id T) {r sl q k M m S x l} (hr : Part n r) (hd : dead r = false)
    (hp : pos r = .mesh sl (.role q k)) (hM : s.pos r = .mesh M) (hs : M.sess q = .recv m S)
    (hl : s.queue (s.gen r, q, r) = x :: l) : x = .data m ∧
    ∃ e v h' e' rest sl', sl[(recvImpl n q r).used - 1]? = some e ∧ e.ty = .recv none (.data m) (enc r q S) ∧
      Heap.step (env (project n D)) h (.recv e) = some (h', .value v) ∧ h'.pool = e' :: rest ∧
      (recvImpl n q r).exec (fun _ => some e') sl = some sl' ∧
      ∃ s', Mesh.Step (project n D) s (.act r (.recv q m)) s' ∧
        Rel n D root (ls ++ [.act r (.recv q m)]) dead h' (upd pos r (.mesh sl' k)) s' id T := by
  obtain ⟨M', e, hM', hk, hq, hne, hok, hu, h1, h2, h3, h4, h5, h6⟩ := R.at_role w hr hd hp
  rw [hM] at hM'; cases hM'
  rw [hs] at h4
  have hgT := R.gen_le w hr
  have hqueue := R.queue _ _ _ hgT hq hr hne
  rw [hl, R.idc, ← h2, ← h3] at hqueue
  cases hpe : pending h.trace e.ep.sid e.ep.side with
  | nil => rw [hpe] at hqueue; cases hqueue
  | cons y l' =>
  obtain ⟨t', v⟩ := y
  rw [hpe] at hqueue
  rcases hqueue with _ | ⟨hmsg, htail⟩
  obtain ⟨rfl, h', there, tys, c1, c2, c3, c4, c5, c6⟩ := recv_there (G := env (project n D)) R.reach h5 h4 hpe
  have hx : x = .data m ∧ v.tag = 0 ∧ v.eps = [] := by
    cases x with
    | data m' => obtain ⟨a, b, c⟩ := hmsg; cases a; exact ⟨rfl, b, c⟩
    | branch N => obtain ⟨⟨bs, a, -⟩, -⟩ := hmsg; cases a
  obtain ⟨rfl, -, heps⟩ := hx
  refine ⟨rfl, ?_⟩
  have hpool : h'.pool = ⟨there, enc r q S⟩ :: h.pool.erase e := by rw [c6, heps]; rfl
  have hrange := slot_range (isRole hr) (isRole hq) (Ne.symm hne)
  refine ⟨e, v, h', ⟨there, enc r q S⟩, _, sl.set (slotOf r q - 1) ⟨there, enc r q S⟩, by
    rw [show recvImpl n q r = emit n r q from rfl, hu]; exact h1, h4, c1, hpool, exec_set hr hq hne hok.len _, _,
    .recv hr.1 hr.2 hM hk hs hl, ?_⟩
  have hA : Alike n r (pos r) (.mesh (sl.set (slotOf r q - 1) ⟨there, enc r q S⟩) k) := by
    rw [hp]; exact alike_quiet (quiet_mesh _ _ _ _) (quiet_mesh _ _ _ _)
  have inv := reach_inv R.reach
  refine R.next hr hd (.step R.reach c1) ?_ (recv_nsid c1) ?_ ?_ ?_ ?_ (R.sig_alike hA fun x t r' hx => recv_ends inv c1 hx) (R.got_alike hA)
  · refine R.inv_step w (.recv hr.1 hr.2 hM hk hs hl) ?_ ?_ <;> intro x hx
    · by_cases e : x = r
      · subst e; simp [gst, upd, hM]
      · simp [gst, upd, e]
    · have := R.top_le w hx
      by_cases e : x = r
      · subst e; simpa [gst, upd, hM] using this
      · simpa [gst, upd, e] using this
  · intro x hx; simp [upd, hx]
  · refine ⟨⟨upd M.sess q S, k⟩, by simp [upd], rfl, ?_⟩
    exact hok.set hr hq hne (c4.trans h2) (c5.trans h3) rfl
  · rw [hpool]
    rw [own_mesh]
    refine List.Perm.trans ?_ ((set_eraseIdx _ (by rw [hok.len]; omega)).symm.append_right _)
    have : (h.pool.erase e).Perm (sl.eraseIdx (slotOf r q - 1) ++ (others n r).flatMap (held dead pos)) := by
      have := h6.erase e
      rwa [List.erase_cons_head] at this
    simpa using this
  · intro g p q' hg hp' hq' hne'
    rw [c2, pending_rcvd _ _ _ _ _ hpe]
    have hkey := R.key hg hgT hp' hq' hne' hq hr hne
    rw [h2, h3, R.idc (s.gen r) r q]
    simp only [upd]
    by_cases hh : (g, p, q') = (s.gen r, q, r)
    · rw [if_pos (hkey.2 hh), if_pos hh]
      cases hh
      exact htail
    · rw [if_neg (fun x => hh (hkey.1 x)), if_neg hh]
      exact R.queue g p q' hg hp' hq' hne'

/-- Dropping owned endpoints. -/
theorem dropAll_spec (Y : Sys) : ∀ (es rest : List (Entry Pay)) (h : Heap.St Pay), Reach (env Y) h → h.pool.Perm (es ++ rest) →
    ∃ h', dropAll Y h es = some h' ∧ Reach (env Y) h' ∧ h'.pool.Perm rest ∧ h'.trace = h.trace ∧ h'.nsid = h.nsid ∧
      ∀ x t r, Ends (env Y) h' x t r → Ends (env Y) h x t r ∧ (h'.chan t).buf = (h.chan t).buf ∧ (h'.chan r).buf = (h.chan r).buf := by
  intro es
  induction es with
  | nil => intro rest h hR hp; exact ⟨h, rfl, hR, hp, rfl, rfl, fun x t r hx => ⟨hx, rfl, rfl⟩⟩
  | cons e es ih =>
    intro rest h hR hp
    have he : e ∈ h.pool := hp.mem_iff.2 (by simp)
    have hs : ∃ h1, Heap.step (env Y) h (.drop e) = some (h1, .unit) := by simp [Heap.step, takeAll, he]
    obtain ⟨h1, hs⟩ := hs
    obtain ⟨r1, r2, r3⟩ := drop_rest hs
    have hp1 : h1.pool.Perm (es ++ rest) := (r3.symm.trans hp).cons_inv
    obtain ⟨h', a1, a2, a3, a4, a5, a6⟩ := ih rest h1 (.step hR hs) hp1
    refine ⟨h', by simp [dropAll, hs, a1], a2, a3, a4.trans r1, a5.trans r2, fun x t r hx => ?_⟩
    obtain ⟨b1, b2, b3⟩ := a6 x t r hx
    obtain ⟨d1, d2, d3⟩ := drop_ends hs b1
    exact ⟨d1, b2.trans d2, b3.trans d3⟩

/-- `offer` works when the message is there. -/
theorem heed_spec (w : Global.Wf n D) (R : Rel n D root ls dead h pos s id T) {r sl q M bs x l} (hr : Part n r) (hd : dead r = false)
    (hp : pos r = .mesh sl (.role q .fin)) (hM : s.pos r = .mesh M) (hs : M.sess q = .recvChoice bs)
    (hl : s.queue (s.gen r, q, r) = x :: l) : ∃ N, x = .branch N ∧
    ∃ e v h1 new e' rest sl1 h2, sl[(recvImpl n q r).used - 1]? = some e ∧ e.ty = .recv none (.enum r bs) .fin ∧
      Heap.step (env (project n D)) h (.recv e) = some (h1, .value v) ∧ v.tag = N ∧ h1.pool = new ++ e' :: rest ∧
      new.length = n - 1 ∧ (recvImpl n q r).exec (fun _ => some e') sl = some sl1 ∧
      dropAll (project n D) h1 sl1 = some h2 ∧
      ∃ s', Mesh.Step (project n D) s (.act r (.heed q N)) s' ∧
        Rel n D root (ls ++ [.act r (.heed q N)]) dead h2 (upd pos r (.mesh new ((project n D).types N r).stack)) s' id T := by
  obtain ⟨M', e, hM', hk, hq, hne, hok, hu, h1, h2, h3, h4, h5, h6⟩ := R.at_role w hr hd hp
  rw [hM] at hM'; cases hM'
  rw [hs] at h4
  have hgT := R.gen_le w hr
  have hqueue := R.queue _ _ _ hgT hq hr hne
  rw [hl, R.idc, ← h2, ← h3] at hqueue
  cases hpe : pending h.trace e.ep.sid e.ep.side with
  | nil => rw [hpe] at hqueue; cases hqueue
  | cons y l' =>
  obtain ⟨t', v⟩ := y
  rw [hpe] at hqueue
  rcases hqueue with _ | ⟨hmsg, htail⟩
  obtain ⟨rfl, h', there, tys, c1, c2, c3, c4, c5, c6⟩ := recv_there (G := env (project n D)) R.reach h5 h4 hpe
  have hx : ∃ N ms, x = .branch N ∧ N ∈ bs ∧ v.tag = N ∧ v.eps = ms.map (·.ep) ∧
      MeshOK n id (s.gen r + 1) r ((project n D).types N r).sess ms := by
    cases x with
    | data m' => obtain ⟨a, -⟩ := hmsg; cases a
    | branch N =>
      obtain ⟨⟨bs', a, b⟩, c, ms, d, f⟩ := hmsg
      cases a
      exact ⟨N, ms, rfl, b, c, d, f⟩
  obtain ⟨N, ms, rfl, hN, htag, heps, hms⟩ := hx
  refine ⟨N, rfl, ?_⟩
  have htys : tys = slotTys (project n D) N r := by
    simp only [env] at c3
    rw [htag, if_pos hN] at c3
    exact (Option.some.inj c3).symm
  have hpool : h'.pool = ms ++ ⟨there, .fin⟩ :: h.pool.erase e := by rw [c6, heps, htys, (hms.tys hr).1]
  have hrange := slot_range (isRole hr) (isRole hq) (Ne.symm hne)
  have herase : (h.pool.erase e).Perm (sl.eraseIdx (slotOf r q - 1) ++ (others n r).flatMap (held dead pos)) := by
    have := h6.erase e
    rwa [List.erase_cons_head] at this
  have hperm1 : h'.pool.Perm (sl.set (slotOf r q - 1) ⟨there, .fin⟩ ++ (ms ++ (others n r).flatMap (held dead pos))) := by
    rw [hpool]
    refine List.Perm.trans ?_ ((set_eraseIdx _ (by rw [hok.len]; omega)).symm.append_right _)
    refine ((herase.cons _).append_left ms).trans ?_
    simp only [List.cons_append]
    refine List.perm_middle.trans (List.Perm.cons _ ?_)
    rw [← List.append_assoc, ← List.append_assoc]
    exact List.perm_append_comm.append_right _
  obtain ⟨h2', d1, d2, d3, d4, d5, d6⟩ := dropAll_spec (project n D) _ _ h' (.step R.reach c1) hperm1
  refine ⟨e, v, h', ms, ⟨there, .fin⟩, _, sl.set (slotOf r q - 1) ⟨there, .fin⟩, h2', by
    rw [show recvImpl n q r = emit n r q from rfl, hu]; exact h1, h4, c1, htag, hpool, hms.len, exec_set hr hq hne hok.len _,
    d1, _, .heed hr.1 hr.2 hM hk hs hl, ?_⟩
  have hA : Alike n r (pos r) (.mesh ms ((project n D).types N r).stack) := by
    rw [hp]; exact alike_quiet (quiet_mesh _ _ _ _) (quiet_mesh _ _ _ _)
  have inv := reach_inv R.reach
  refine R.next hr hd d2 ?_ (d5.trans (recv_nsid c1)) ?_ ?_ d3 ?_ (R.sig_alike hA ?_) (R.got_alike hA)
  · refine R.inv_step w (.heed hr.1 hr.2 hM hk hs hl) ?_ ?_ <;> intro x hx
    · by_cases e : x = r
      · subst e; simp [gst, upd, hM]
      · simp [gst, upd, e]
    · have := R.top_le w hx
      by_cases e : x = r
      · subst e
        obtain ⟨G, hI, -⟩ := R.inv
        have h7 := Mesh.branch_gst hI hq hr hne (g := s.gen x) (N := N) (by rw [hl]; simp)
        rw [gst_eq hI hq] at h7
        have := R.top_le w hq
        simp only [gst, upd, if_true]; omega
      · simpa [gst, upd, e] using this
  · intro x hx; simp [upd, hx]
  · exact ⟨(project n D).types N r, by simp [upd], rfl, by simpa [upd] using hms⟩
  · intro g p q' hg hp' hq' hne'
    rw [d4, c2, pending_rcvd _ _ _ _ _ hpe]
    have hkey := R.key hg hgT hp' hq' hne' hq hr hne
    rw [h2, h3, R.idc (s.gen r) r q]
    simp only [upd]
    by_cases hh : (g, p, q') = (s.gen r, q, r)
    · rw [if_pos (hkey.2 hh), if_pos hh]
      cases hh
      exact htail
    · rw [if_neg (fun x => hh (hkey.1 x)), if_neg hh]
      exact R.queue g p q' hg hp' hq' hne'
  · intro x t r' hx
    obtain ⟨b1, b2, b3⟩ := d6 x t r' hx
    obtain ⟨a1, a2, a3⟩ := recv_ends inv c1 b1
    exact ⟨a1, b2.trans a2, b3.trans a3⟩

/-- Telling a partner works. -/
theorem tell_spec (w : Global.Wf n D) (R : Rel n D root ls dead h pos s id T) {r N k ms todo old ow} (hr : Part n r) (hd : dead r = false)
    (hp : pos r = .telling N ((k, ms) :: todo) old ow) :
    ∃ e h1 e' rest h2, old[k - 1]? = some e ∧
      Heap.step (env (project n D)) h (.send e ⟨N, 0, ms.map (·.ep)⟩) = some (h1, .unit) ∧ h1.pool = e' :: rest ∧
      Heap.step (env (project n D)) h1 (.drop e') = some (h2, .unit) ∧
      ∃ s', Mesh.Step (project n D) s (.tell r (partner r k)) s' ∧
        Rel n D root (ls ++ [.tell r (partner r k)]) dead h2 (upd pos r (.telling N todo old ow)) s' id T := by
  have hpos := R.posr r hr
  rw [hp] at hpos
  obtain ⟨hM, hown, hall⟩ := hpos
  obtain ⟨k1, k2, hms, e, bs, h1, h2, h3, h4, hN⟩ := hall (k, ms) (by simp)
  simp only at k1 k2 hms h1 h2 h3 h4
  obtain ⟨hq, hne⟩ := partner_role (isRole hr) k1 k2
  replace hq := ofRole hq
  have hgen : s.gen r + 1 ≤ T := by
    have := R.top_le w hr
    simpa [gst, hM] using this
  have hmem : h.pool.Perm (e :: ms ++ (todo.filterMap (fun p => old[p.1 - 1]?) ++ (todo.flatMap (·.2) ++ ow) ++
      (others n r).flatMap (held dead pos))) := by
    refine (R.split hr hd).trans ?_
    rw [hp]
    simp only [own_telling, List.filterMap_cons, h1, List.flatMap_cons, List.cons_append, List.append_assoc]
    refine List.Perm.cons _ ?_
    rw [← List.append_assoc, ← List.append_assoc ms]
    exact List.perm_append_comm.append_right _
  obtain ⟨ht1, ht2⟩ := hms.tys hq
  obtain ⟨h', here, rest, c1, c2, c3, c4, c5, c6⟩ := Prop.C03_send R.reach (G := env (project n D)) (w := none)
    (t := .enum (partner r k) bs) (k := .fin) h4 (v := ⟨N, 0, ms.map (·.ep)⟩)
    (tys := slotTys (project n D) N (partner r k)) (by simp [env, hN]) ht2
    (rest := _) (by simp only [ht1]; exact hmem)
  have hs2 : ∃ h2, Heap.step (env (project n D)) h' (.drop ⟨here, .fin⟩) = some (h2, .unit) := by
    simp [Heap.step, takeAll, c2]
  obtain ⟨h2', hs2⟩ := hs2
  obtain ⟨r1, r2, r3⟩ := drop_rest hs2
  have hperm2 : h2'.pool.Perm rest := by
    rw [c2] at r3; exact r3.symm.cons_inv
  have hM' : s.pos r = .telling N (partner r k :: todo.map fun p => partner r p.1) := by rw [hM]; rfl
  refine ⟨e, h', ⟨here, .fin⟩, rest, h2', h1, c1, c2, hs2, _, .tell hr.1 hr.2 hM', ?_⟩
  have hA : Alike n r (pos r) (.telling N todo old ow) := by
    rw [hp]; exact alike_quiet (quiet_telling _ _ _ _ _ _) (quiet_telling _ _ _ _ _ _)
  have inv := reach_inv R.reach
  refine R.next hr hd (.step (.step R.reach c1) hs2) ?_ (r2.trans (send_nsid c1)) ?_ ?_ ?_ ?_ ?_ (R.got_alike hA)
  · refine R.inv_step w (.tell hr.1 hr.2 hM') ?_ ?_ <;> intro x hx
    · by_cases e : x = r
      · subst e; simp [gst, upd, hM]
      · simp [gst, upd, e]
    · have := R.top_le w hx
      by_cases e : x = r
      · subst e; simpa [gst, upd, hM] using this
      · simpa [gst, upd, e] using this
  · intro x hx; simp [upd, hx]
  · refine ⟨by simp [upd], hown, fun p hp => ?_⟩
    exact hall p (List.mem_cons_of_mem _ hp)
  · exact (hperm2.trans c3)
  · intro g p q' hg hp' hq' hne'
    rw [r1, c6, pending_sent R.reach]
    have hgT : s.gen r ≤ T := by omega
    have hkey := R.key hg hgT hp' hq' hne' hr hq (Ne.symm hne)
    rw [h2, h3, ← side_not (Ne.symm hne)]
    simp only [upd]
    by_cases hh : (g, p, q') = (s.gen r, r, partner r k)
    · rw [if_pos (hkey.2 hh), if_pos hh]
      cases hh
      exact List.rel_append (R.queue _ _ _ hg hr hq (Ne.symm hne))
        (List.Forall₂.cons ⟨⟨bs, rfl, hN⟩, rfl, ms, rfl, hms⟩ .nil)
    · rw [if_neg (fun x => hh (hkey.1 x)), if_neg hh]
      exact R.queue g p q' hg hp' hq' hne'
  · intro x t r' hx g p q' hg hp' hq' hne' x1 x2
    rw [hA.expect hp' hq' hne', hA.expect hq' hp' hne'.symm]
    obtain ⟨z1, z2, z3⟩ := drop_ends hs2 hx
    rw [z2, z3]
    rcases send_ends inv c1 z1 with ⟨y1, y2, y3⟩ | ⟨y1, y2, y3⟩
    · rw [y2, y3]; exact R.sig x t r' y1 g p q' hg hp' hq' hne' x1 x2
    · rw [y2, y3]
      rw [y1, h2] at x1
      obtain ⟨rfl, -⟩ := R.inj _ _ _ _ _ _ (by omega) hg hr hq (Ne.symm hne) hp' hq' hne' x1
      have : s.gen r ≠ T := by omega
      simp [expect, this]

/-- The chooser goes on. -/
theorem enter_spec (w : Global.Wf n D) (R : Rel n D root ls dead h pos s id T) {r N old ow} (hr : Part n r) (hd : dead r = false)
    (hp : pos r = .telling N [] old ow) :
    ∃ s', Mesh.Step (project n D) s (.enter r) s' ∧
      Rel n D root (ls ++ [.enter r]) dead h (upd pos r (.mesh ow ((project n D).types N r).stack)) s' id T := by
  have hpos := R.posr r hr
  rw [hp] at hpos
  obtain ⟨hM, hown, -⟩ := hpos
  have hM' : s.pos r = .telling N [] := hM
  refine ⟨_, .enter hr.1 hr.2 hM', ?_⟩
  have hA : Alike n r (pos r) (.mesh ow ((project n D).types N r).stack) := by
    rw [hp]; exact alike_quiet (quiet_telling _ _ _ _ _ _) (quiet_mesh _ _ _ _)
  refine R.next hr hd R.reach ?_ rfl ?_ ?_ ?_ ?_ (R.sig_alike hA fun x t r' hx => ⟨hx, rfl, rfl⟩) (R.got_alike hA)
  · refine R.inv_step w (.enter hr.1 hr.2 hM') ?_ ?_ <;> intro x hx
    · by_cases e : x = r
      · subst e; simp [gst, upd, hM]
      · simp [gst, upd, e]
    · have := R.top_le w hx
      by_cases e : x = r
      · subst e; simpa [gst, upd, hM] using this
      · simpa [gst, upd, e] using this
  · intro x hx; simp [upd, hx]
  · exact ⟨(project n D).types N r, by simp [upd], rfl, by simpa [upd] using hown⟩
  · refine (R.split hr hd).trans ?_
    rw [hp]; simp [own]
  · exact R.queue

end Verif.Runtime
