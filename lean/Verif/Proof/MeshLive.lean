import Verif.Proof.Mesh
/-!
# Progress of projected programs
-/
namespace Verif.Mesh

section
variable {n : Nat} {D : Global} {root : Name} {G : Ghost} {ls : List Label} {s : S}

theorem take_chan_prefix (p q : Nat) (cs : List Comm) {i j : Nat} (h : i ≤ j) :
    chan p q (cs.take i) <+: chan p q (cs.take j) := by
  have : cs.take j = cs.take i ++ (cs.drop i).take (j - i) := by
    rw [← List.take_add, Nat.add_sub_of_le h]
  rw [this, chan_append]
  exact List.prefix_append _ _

/-- The index of the next message of `r` in its block, or the length of the block. -/
def nxt (D : Global) (G : Ghost) (r : Nat) : Nat :=
  G.idx r + (((blk D G (G.gst r)).comms.drop (G.idx r)).takeWhile (fun c => decide (c.p ≠ r ∧ c.q ≠ r))).length

theorem takeWhile_free {r : Nat} {pre post : List Comm} {c : Comm} (h : Free r pre) (hc : c.p = r ∨ c.q = r) :
    (pre ++ c :: post).takeWhile (fun c => decide (c.p ≠ r ∧ c.q ≠ r)) = pre := by
  induction pre with
  | nil =>
    rw [List.nil_append, List.takeWhile_cons_of_neg]
    simp only [decide_eq_true_eq]
    rintro ⟨h1, h2⟩
    rcases hc with hc | hc
    · exact h1 hc
    · exact h2 hc
  | cons d pre ih =>
    rw [List.cons_append, List.takeWhile_cons_of_pos, ih (fun x hx => h x (List.mem_cons_of_mem _ hx))]
    simpa using h d List.mem_cons_self

theorem takeWhile_all {r : Nat} {cs : List Comm} (h : Free r cs) :
    cs.takeWhile (fun c => decide (c.p ≠ r ∧ c.q ≠ r)) = cs := by
  induction cs with
  | nil => rfl
  | cons c cs ih =>
    rw [List.takeWhile_cons_of_pos, ih (fun x hx => h x (List.mem_cons_of_mem _ hx))]
    simpa using h c List.mem_cons_self

theorem nxt_split {r : Nat} {pre post : List Comm} {c : Comm}
    (e : (blk D G (G.gst r)).comms.drop (G.idx r) = pre ++ c :: post) (h : Free r pre) (hc : c.p = r ∨ c.q = r) :
    nxt D G r = G.idx r + pre.length := by
  unfold nxt; rw [e, takeWhile_free h hc]

theorem nxt_free {r : Nat} (hi : G.idx r ≤ (blk D G (G.gst r)).comms.length)
    (h : Free r ((blk D G (G.gst r)).comms.drop (G.idx r))) : nxt D G r = (blk D G (G.gst r)).comms.length := by
  unfold nxt; rw [takeWhile_all h, List.length_drop]; omega

/-- The position of the next event of `r`, as a number. -/
def ahead (D : Global) (G : Ghost) (r : Nat) : Nat := base D G.path (G.gst r) + nxt D G r

/-- A role can move whenever its next event is its own to start. -/
theorem can_send {r : Nat} (hr : Part n r) {M : Mesh} (hM : s.pos r = .mesh M) {q m : Nat} {post t}
    (h : M = meshOf r (⟨r, q, m⟩ :: post) t) : CanMove (project n D) s r := by
  obtain ⟨h1, h2, _⟩ := mesh_send (q := q) (m := m) (r := r) (post := post) (t := t)
  rw [← h] at h1 h2
  exact ⟨.act r (.send q m), _, rfl, .send hr.1 hr.2 hM h1 h2⟩

theorem can_tell {r : Nat} (hr : Part n r) {N rest} (hM : s.pos r = .telling N rest) : CanMove (project n D) s r := by
  cases rest with
  | nil => exact ⟨.enter r, _, rfl, .enter hr.1 hr.2 hM⟩
  | cons q rest => exact ⟨.tell r q, _, rfl, .tell hr.1 hr.2 hM⟩

theorem can_decide (w : Global.Wf n D) {r : Nat} (hr : Part n r) {M : Mesh} (hM : s.pos r = .mesh M) {N : Name} {bs : List Name}
    (ht : (D N).tail = .choice r bs) (h : M = meshOf r [] (D N).tail) : CanMove (project n D) s r := by
  obtain ⟨b, hb⟩ := List.exists_mem_of_ne_nil _ ((w.2 N).2 r bs ht).2
  refine ⟨.act r (.decide b), _, rfl, .decide hr.1 hr.2 hM ?_ ?_ hb⟩
  · rw [h, ht]; simp [meshOf, stackOf]
  · intro q _; rw [h, ht]; simp [meshOf, sessOf]

/-- A finished role has come to the end of the protocol. -/
theorem finished_end (w : Global.Wf n D) (hI : Inv n D root G ls s) {r : Nat} (hr : Part n r) (h : Finished s r) :
    Free r ((blk D G (s.gen r)).comms.drop (G.idx r)) ∧ (blk D G (s.gen r)).tail = .fin := by
  obtain ⟨M, hM, hk⟩ := h
  rcases hI.look w hr hM with ⟨hfree, h⟩ | ⟨pre, q, m, post, e, hf, hne, h⟩ | ⟨pre, p, m, post, e, hf, hne, h⟩
  · refine ⟨hfree, ?_⟩
    rw [h] at hk
    cases ht : (blk D G (s.gen r)).tail with
    | fin => rfl
    | choice p bs =>
      rw [ht] at hk
      simp only [meshOf, stackOf] at hk
      split at hk <;> cases hk
  · have := (mesh_send (q := q) (m := m) (r := r) (post := post) (t := (blk D G (s.gen r)).tail)).1
    rw [← h, hk] at this; cases this
  · have := (mesh_recv (p := p) (m := m) (r := r) (post := post) (t := (blk D G (s.gen r)).tail) hne).1
    rw [← h, hk] at this; cases this

/-- What a blocked role waits for. -/
theorem blocked (w : Global.Wf n D) (hI : Inv n D root G ls s) {r : Nat} (hr : Part n r) (hfin : ¬ Finished s r)
    (hb : ¬ CanMove (project n D) s r) :
    ∃ M p k, s.pos r = .mesh M ∧ M.stack = .role p k ∧ Part n p ∧ p ≠ r ∧ ¬ Finished s p ∧
      (CanMove (project n D) s p ∨ ahead D G p < ahead D G r) ∧
      work n D G s p ≤ (base D G.path (s.gen r + 1)) * (n + 2) + (n + 1) := by
  cases hM : s.pos r with
  | telling N rest => exact absurd (can_tell hr hM) hb
  | mesh M =>
  obtain ⟨hg, hi, -⟩ := hI.mesh r hr M hM
  -- what follows once we know how far `p` has come
  have bound : ∀ p, Part n p → (∀ M', s.pos p = .mesh M' → s.gen p ≤ s.gen r) →
      (∀ N rest, s.pos p = .telling N rest → s.gen p ≤ s.gen r) →
      work n D G s p ≤ (base D G.path (s.gen r + 1)) * (n + 2) + (n + 1) := by
    intro p hp h1 h2
    have hle : base D G.path (G.gst p) + G.idx p ≤ base D G.path (s.gen r + 1) := by
      cases hP : s.pos p with
      | mesh M' =>
        obtain ⟨hg', hi', -⟩ := hI.mesh p hp M' hP
        have hle := h1 M' hP
        rw [hg']
        have := base_mono (D := D) (path := G.path) (g := s.gen p + 1) (g' := s.gen r + 1) (by omega)
        simp only [base, blk] at *
        omega
      | telling N rest =>
        obtain ⟨t1, t2, -⟩ := hI.tell p hp N rest hP
        have hle := h2 N rest hP
        rw [t1, t2]
        exact base_mono (by omega)
    have := Nat.mul_le_mul_right (n + 2) hle
    have := sub_le n (s.pos p)
    simp only [work]; omega
  have notfin : ∀ p, Part n p → (∀ M', s.pos p = .mesh M' → s.gen p < s.gen r ∨
      (s.gen p = s.gen r ∧ ((∃ c ∈ (blk D G (s.gen p)).comms.drop (G.idx p), c.p = p) ∨ (blk D G (s.gen p)).tail ≠ .fin))) →
      ¬ Finished s p := by
    intro p hp h hf
    obtain ⟨hfree, htail⟩ := finished_end w hI hp hf
    obtain ⟨M', hP, _⟩ := hf
    rcases h M' hP with h | ⟨h, ⟨c, hc, hcp⟩ | h'⟩
    · have := hI.le r hr
      obtain ⟨p', bs, h1, _⟩ := hI.sel (s.gen p) (by omega)
      rw [htail] at h1; cases h1
    · exact (hfree c hc).1 hcp
    · exact h' htail
  have before : ∀ p, s.gen p < s.gen r → G.gst p = s.gen p → G.idx p ≤ (blk D G (s.gen p)).comms.length →
      ahead D G p < ahead D G r := by
    intro p h1 h2 h3
    have hn : nxt D G p ≤ (blk D G (s.gen p)).comms.length := by
      unfold nxt
      have := (List.takeWhile_prefix (fun c => decide (c.p ≠ p ∧ c.q ≠ p)) (l := (blk D G (G.gst p)).comms.drop (G.idx p))).length_le
      rw [List.length_drop, h2] at this
      rw [h2]; omega
    have := base_mono (D := D) (path := G.path) (g := s.gen p + 1) (g' := s.gen r) (by omega)
    simp only [ahead, h2, hg]
    simp only [base, blk] at *
    omega
  rcases hI.look w hr hM with ⟨hfree, h⟩ | ⟨pre, q, m, post, e, hf, hne, h⟩ | ⟨pre, p, m, post, e, hf, hne, h⟩
  · -- it waits for a choice
    cases ht : (blk D G (s.gen r)).tail with
    | fin =>
      exfalso; apply hfin
      exact ⟨M, hM, by rw [h, ht]; simp [meshOf, stackOf]⟩
    | choice p bs =>
      by_cases hpr : p = r
      · subst hpr
        exact absurd (can_decide w hr hM ht h) hb
      · have hp : Part n p := ((w.2 _).2 _ _ ht).1
        have hk : M.stack = .role p .fin := by rw [h, ht]; simp [meshOf, stackOf, hpr]
        have hs : M.sess p = .recvChoice bs := by rw [h, ht]; simp [meshOf, sessOf, hpr]
        have ht' : (D (G.path (s.gen r))).tail = .choice p bs := ht
        have hup : upTo D G.path (s.gen r) p r (G.gst r) (G.idx r) = chan p r (D (G.path (s.gen r))).comms := by
          simp only [upTo, hg, Nat.lt_irrefl, if_false, if_true]
          rw [chan_take_free hfree (.inr rfl)]
        have hfull : full D G.path (s.gen r) p r =
            upTo D G.path (s.gen r) p r (G.gst r) (G.idx r) ++ [.branch (G.path (s.gen r + 1))] := by
          rw [hup]; simp [full, ht']
        have hqe : s.queue (s.gen r, p, r) = [] := by
          cases hq : s.queue (s.gen r, p, r) with
          | nil => rfl
          | cons x l =>
            exfalso
            have hpre := hI.queue_prefix hp hr hpr (s.gen r)
            rw [hq, hfull] at hpre
            have := prefix_head hpre (List.prefix_refl _)
            subst this
            exact hb ⟨.act r (.heed p _), _, rfl, .heed hr.1 hr.2 hM hk hs hq⟩
        have h0 := hI.eq (s.gen r) p r hp hr hpr
        rw [hqe, List.append_nil] at h0
        have hmesh : ∀ M', s.pos p = .mesh M' → s.gen p ≤ s.gen r := by
          intro M' hP
          rcases Nat.lt_or_ge (s.gen r) (s.gen p) with h1 | h1
          · exfalso
            rw [pend_pos hP, (hI.mesh p hp M' hP).1, List.append_nil] at h0
            have : upTo D G.path (s.gen r) p r (s.gen p) (G.idx p) = full D G.path (s.gen r) p r := by simp [upTo, h1]
            rw [this, hfull] at h0
            have := congrArg List.length h0
            simp at this
          · exact h1
        have htell : ∀ N rest, s.pos p = .telling N rest → s.gen p ≤ s.gen r := by
          intro N rest hP
          rcases Nat.lt_or_ge (s.gen r) (s.gen p) with h1 | h1
          · exfalso
            have hpe : pend s (s.gen r) p r = [] := by
              have : s.gen r ≠ s.gen p := by omega
              simp [pend, hP, this]
            rw [hpe, (hI.tell p hp N rest hP).1, List.append_nil] at h0
            have : upTo D G.path (s.gen r) p r (s.gen p + 1) (G.idx p) = full D G.path (s.gen r) p r := by
              have : s.gen r < s.gen p + 1 := by omega
              simp [upTo, this]
            rw [this, hfull] at h0
            have := congrArg List.length h0
            simp at this
          · exact h1
        refine ⟨M, p, .fin, rfl, hk, hp, hpr, ?_, ?_, bound p hp hmesh htell⟩
        · refine notfin p hp (fun M' hP => ?_)
          have := hmesh M' hP
          rcases Nat.lt_or_ge (s.gen p) (s.gen r) with h1 | h1
          · exact .inl h1
          · have e : s.gen p = s.gen r := by omega
            exact .inr ⟨e, .inr (by rw [e, ht]; simp)⟩
        · cases hP : s.pos p with
          | telling N rest => exact .inl (can_tell hp hP)
          | mesh M' =>
            have hle := hmesh M' hP
            obtain ⟨hg', hi', -⟩ := hI.mesh p hp M' hP
            rcases Nat.lt_or_ge (s.gen p) (s.gen r) with h1 | h1
            · exact .inr (before p h1 hg' hi')
            · have e : s.gen p = s.gen r := by omega
              rcases hI.look w hp hP with ⟨hfree', h'⟩ | ⟨pre, q, m, post, e', hf, hne, h'⟩ | ⟨pre, p', m, post, e', hf, hne, h'⟩
              · left
                rw [e] at h'
                exact can_decide w hp hP ht h'
              · right
                rw [ahead, ahead, hg', hg, e]
                have e1 : G.gst p = s.gen p := hg'
                rw [nxt_split (c := ⟨p, q, m⟩) (pre := pre) (post := post) (by rw [hg']; exact e') hf (.inl rfl),
                  nxt_free (by rw [hg]; exact hi) (by rw [hg]; exact hfree), hg]
                have := (advance hi' e').2.2
                rw [e] at this
                omega
              · right
                rw [ahead, ahead, hg', hg, e]
                rw [nxt_split (c := ⟨p', p, m⟩) (pre := pre) (post := post) (by rw [hg']; exact e') hf (.inr rfl),
                  nxt_free (by rw [hg]; exact hi) (by rw [hg]; exact hfree), hg]
                have := (advance hi' e').2.2
                rw [e] at this
                omega
  · exact absurd (can_send hr hM h) hb
  · -- it waits for a message
    obtain ⟨k1, k2, -⟩ := mesh_recv (p := p) (m := m) (r := r) (post := post) (t := (blk D G (s.gen r)).tail) hne
    rw [← h] at k1 k2
    have hmem : (⟨p, r, m⟩ : Comm) ∈ (blk D G (s.gen r)).comms := List.mem_of_mem_drop (by rw [e]; simp)
    have hp : Part n p := ((w.2 _).1 _ hmem).1
    have hqe : s.queue (s.gen r, p, r) = [] := by
      cases hq : s.queue (s.gen r, p, r) with
      | nil => rfl
      | cons x l =>
        exfalso
        have := hI.next_recv hr hM e hf hp hne hq
        subst this
        exact hb ⟨.act r (.recv p m), _, rfl, .recv hr.1 hr.2 hM k1 k2 hq⟩
    have h0 := hI.eq (s.gen r) p r hp hr hne
    rw [hqe, List.append_nil, hg] at h0
    have hstep := upTo_adv (G := G) (D := D) (g := s.gen r) hi e hf (p := p) (q := r) (.inr rfl)
    simp only [and_self, if_true] at hstep
    -- `p` has not come past the message
    have hfullpre : ∀ L, upTo D G.path (s.gen r) p r (s.gen r) (G.idx r + pre.length + 1) <+: L →
        L ≠ upTo D G.path (s.gen r) p r (s.gen r) (G.idx r) := by
      intro L hL hc
      rw [hstep] at hL
      have := hL.length_le
      rw [hc] at this
      simp at this
      omega
    have hmesh : ∀ M', s.pos p = .mesh M' → s.gen p < s.gen r ∨ (s.gen p = s.gen r ∧ G.idx p ≤ G.idx r + pre.length) := by
      intro M' hP
      rw [pend_pos hP, (hI.mesh p hp M' hP).1, List.append_nil] at h0
      rcases Nat.lt_trichotomy (s.gen p) (s.gen r) with h1 | h1 | h1
      · exact .inl h1
      · refine .inr ⟨h1, ?_⟩
        rcases Nat.lt_or_ge (G.idx r + pre.length) (G.idx p) with h2 | h2
        · exfalso
          refine hfullpre _ ?_ h0
          rw [h1]
          simp only [upTo, Nat.lt_irrefl, if_false, if_true]
          exact take_chan_prefix _ _ _ h2
        · exact h2
      · exfalso
        refine hfullpre _ ?_ h0
        have : upTo D G.path (s.gen r) p r (s.gen p) (G.idx p) = full D G.path (s.gen r) p r := by simp [upTo, h1]
        rw [this]
        exact upTo_prefix _ _ _ _ _ _ _
    have htell : ∀ N rest, s.pos p = .telling N rest → s.gen p ≤ s.gen r := by
      intro N rest hP
      rcases Nat.lt_or_ge (s.gen r) (s.gen p) with h1 | h1
      · exfalso
        have hpe : pend s (s.gen r) p r = [] := by
          have : s.gen r ≠ s.gen p := by omega
          simp [pend, hP, this]
        rw [hpe, (hI.tell p hp N rest hP).1, List.append_nil] at h0
        refine hfullpre _ ?_ h0
        have : upTo D G.path (s.gen r) p r (s.gen p + 1) (G.idx p) = full D G.path (s.gen r) p r := by
          have : s.gen r < s.gen p + 1 := by omega
          simp [upTo, this]
        rw [this]
        exact upTo_prefix _ _ _ _ _ _ _
      · exact h1
    have hdrop : ∀ i, i ≤ G.idx r + pre.length → (⟨p, r, m⟩ : Comm) ∈ (blk D G (s.gen r)).comms.drop i := by
      intro i hii
      have : (blk D G (s.gen r)).comms.drop (G.idx r + pre.length) = ⟨p, r, m⟩ :: post := by
        rw [← List.drop_drop, e, List.drop_left]
      have h2 : (blk D G (s.gen r)).comms.drop (G.idx r + pre.length) <:+ (blk D G (s.gen r)).comms.drop i := by
        have : G.idx r + pre.length = i + (G.idx r + pre.length - i) := by omega
        rw [this, ← List.drop_drop]
        exact List.drop_suffix _ _
      exact h2.subset (by rw [this]; exact List.mem_cons_self)
    refine ⟨M, p, _, rfl, k1, hp, hne, ?_, ?_, bound p hp (fun M' hP => by rcases hmesh M' hP with h | h <;> omega) htell⟩
    · refine notfin p hp (fun M' hP => ?_)
      rcases hmesh M' hP with h1 | ⟨h1, h2⟩
      · exact .inl h1
      · exact .inr ⟨h1, .inl ⟨⟨p, r, m⟩, by rw [h1]; exact hdrop _ h2, rfl⟩⟩
    · cases hP : s.pos p with
      | telling N rest => exact .inl (can_tell hp hP)
      | mesh M' =>
        obtain ⟨hg', hi', -⟩ := hI.mesh p hp M' hP
        rcases hmesh M' hP with h1 | ⟨h1, h2⟩
        · exact .inr (before p h1 hg' hi')
        · have hm := hdrop _ h2
          rw [← h1] at hm
          rcases hI.look w hp hP with ⟨hfree', h'⟩ | ⟨pre', q, m', post', e', hf', hne', h'⟩ | ⟨pre', p', m', post', e', hf', hne', h'⟩
          · exact absurd rfl (hfree' _ hm).1
          · exact .inl (can_send hp hP h')
          · right
            rw [ahead, ahead, hg', hg, h1]
            rw [nxt_split (c := ⟨p', p, m'⟩) (pre := pre') (post := post') (by rw [hg']; exact e') hf' (.inr rfl),
              nxt_split (c := ⟨p, r, m⟩) (pre := pre) (post := post) (by rw [hg]; exact e) hf (.inr rfl)]
            -- the next message of `p` comes before, since it is another one
            have hnot : ¬ (G.idx r + pre.length < G.idx p + pre'.length) := by
              intro hlt
              have hj : (blk D G (s.gen r)).comms[G.idx r + pre.length]? = some ⟨p, r, m⟩ := by
                have : (blk D G (s.gen r)).comms.drop (G.idx r + pre.length) = ⟨p, r, m⟩ :: post := by
                  rw [← List.drop_drop, e, List.drop_left]
                rw [← List.head?_drop, this]; rfl
              have hj' : ((blk D G (s.gen r)).comms.drop (G.idx p))[G.idx r + pre.length - G.idx p]? = some ⟨p, r, m⟩ := by
                rw [List.getElem?_drop, ← hj]; congr 1; omega
              rw [← h1, e', List.getElem?_append_left (by omega)] at hj'
              exact (hf' _ (List.mem_of_getElem? hj')).1 rfl
            have hne2 : G.idx r + pre.length ≠ G.idx p + pre'.length := by
              intro heq
              have a1 : (blk D G (s.gen r)).comms.drop (G.idx r + pre.length) = ⟨p, r, m⟩ :: post := by
                rw [← List.drop_drop, e, List.drop_left]
              have a2 : (blk D G (s.gen p)).comms.drop (G.idx p + pre'.length) = ⟨p', p, m'⟩ :: post' := by
                rw [← List.drop_drop, e', List.drop_left]
              rw [heq, ← h1, a2] at a1
              injection a1 with a1 _
              injection a1 with a1 _ _
              exact hne' a1
            omega

/-- Somebody can move. -/
theorem progress (w : Global.Wf n D) (hI : Inv n D root G ls s) {r : Nat} (hr : Part n r) (hfin : ¬ Finished s r) :
    ∃ p, Part n p ∧ CanMove (project n D) s p := by
  induction hk : ahead D G r using Nat.strongRecOn generalizing r with
  | _ k ih =>
    by_cases hc : CanMove (project n D) s r
    · exact ⟨r, hr, hc⟩
    · obtain ⟨M, p, k', _, _, hp, _, hnf, h, _⟩ := blocked w hI hr hfin hc
      rcases h with h | h
      · exact ⟨p, hp, h⟩
      · exact ih _ (by omega) hp hnf rfl

/-- The prescribed trace. -/
theorem follows_events (hstart : G.path 0 = root)
    (hsel : ∀ g, g < G.top → ∃ p bs, (blk D G g).tail = .choice p bs ∧ G.path (g + 1) ∈ bs ∧ g < G.gst p) :
    ∀ k, k ≤ G.top → ∀ tr, Follows D (G.path k) tr → Follows D root (events D G.path k ++ tr) := by
  intro k
  induction k with
  | zero => intro _ tr h; rw [hstart] at h; exact h
  | succ k ih =>
    intro hk tr h
    obtain ⟨p, bs, h1, h2, _⟩ := hsel k (by omega)
    have := ih (by omega) _ (Follows.go h1 h2 h)
    have e : (D (G.path k)).tail = .choice p bs := h1
    simpa [events, e, List.append_assoc] using this

theorem completes_events (hstart : G.path 0 = root)
    (hsel : ∀ g, g < G.top → ∃ p bs, (blk D G g).tail = .choice p bs ∧ G.path (g + 1) ∈ bs ∧ g < G.gst p) :
    ∀ k, k ≤ G.top → ∀ tr, Completes D (G.path k) tr → Completes D root (events D G.path k ++ tr) := by
  intro k
  induction k with
  | zero => intro _ tr h; rw [hstart] at h; exact h
  | succ k ih =>
    intro hk tr h
    obtain ⟨p, bs, h1, h2, _⟩ := hsel k (by omega)
    have := ih (by omega) _ (Completes.go h1 h2 h)
    have e : (D (G.path k)).tail = .choice p bs := h1
    simpa [events, e, List.append_assoc] using this

theorem events_mono {path : Nat → Name} {g g' : Nat} (h : g ≤ g') : events D path g <+: events D path g' := by
  induction g' with
  | zero => have : g = 0 := by omega
            subst this; exact List.prefix_refl _
  | succ k ih =>
    by_cases e : g = k + 1
    · subst e; exact List.prefix_refl _
    · refine (ih (by omega)).trans ?_
      simp only [events, List.append_assoc]
      exact List.prefix_append _ _

theorem eventsTo_prefix {path : Nat → Name} {g g' i : Nat} (h : g ≤ g') :
    eventsTo D path g i <+: events D path g' ++ (D (path g')).comms.map .comm := by
  have key : eventsTo D path g i <+: events D path g ++ (D (path g)).comms.map .comm := by
    unfold eventsTo
    refine (List.prefix_append_right_inj _).2 ?_
    exact (List.take_prefix _ _).map _
  by_cases e : g = g'
  · subst e; exact key
  · refine key.trans ?_
    have h1 := events_mono (D := D) (path := path) (g := g + 1) (g' := g') (by omega)
    refine List.IsPrefix.trans ?_ (List.prefix_append _ _)
    refine List.IsPrefix.trans ?_ h1
    simp only [events, List.append_assoc]
    rw [← List.append_assoc]
    exact List.prefix_append _ _

end

end Verif.Mesh
