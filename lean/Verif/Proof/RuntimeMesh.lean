import Verif.Proof.MeshLive
/-!
# Facts about the queues needed for the runtime
-/
namespace Verif.Mesh

variable {n : Nat} {D : Global} {root : Name} {G : Ghost} {ls : List Label} {s : S}

theorem tail_fin_top (w : Global.Wf n D) (hI : Inv n D root G ls s) {g : Nat} (h : (blk D G g).tail = .fin) : G.top ≤ g := by
  rcases Nat.lt_or_ge g G.top with h1 | h1
  · obtain ⟨p, bs, e, -⟩ := hI.sel g h1
    rw [h] at e; cases e
  · exact h1

theorem gen_le_top (hI : Inv n D root G ls s) {r : Nat} (hr : Part n r) : s.gen r ≤ G.top := by
  have := hI.le r hr
  cases h : s.pos r with
  | mesh M => rw [(hI.mesh r hr M h).1] at this; exact this
  | telling N rest => rw [(hI.tell r hr N rest h).1] at this; omega

/-- At the end of the stack. -/
theorem shape_fin (w : Global.Wf n D) (hI : Inv n D root G ls s) {r : Nat} (hr : Part n r) {M : Mesh}
    (hM : s.pos r = .mesh M) (hk : M.stack = .fin) : (∀ q, M.sess q = .fin) ∧ s.gen r = G.top := by
  obtain ⟨hfree, ht⟩ := finished_end w hI hr ⟨M, hM, hk⟩
  obtain ⟨-, -, h⟩ := hI.mesh r hr M hM
  refine ⟨fun q => ?_, Nat.le_antisymm (gen_le_top hI hr) (tail_fin_top w hI ht)⟩
  rw [h, mesh_done hfree, ht]; rfl

/-- Where a choice is to be made. -/
theorem shape_broadcast (w : Global.Wf n D) (hI : Inv n D root G ls s) {r : Nat} (hr : Part n r) {M : Mesh}
    (hM : s.pos r = .mesh M) (hk : M.stack = .broadcast) :
    (∃ bs, (blk D G (s.gen r)).tail = .choice r bs ∧ ∀ q, M.sess q = .sendChoice bs) ∧ s.gen r = G.top := by
  rcases hI.look w hr hM with ⟨hfree, h⟩ | ⟨pre, q', m', post, e, hf, hne, h⟩ | ⟨pre, p, m', post, e, hf, hne, h⟩
  · subst h
    obtain ⟨bs, ht⟩ := mesh_nil_broadcast hk
    refine ⟨⟨bs, ht, fun q => by rw [ht]; simp [meshOf, sessOf]⟩, Nat.le_antisymm (gen_le_top hI hr) ?_⟩
    rcases Nat.lt_or_ge (s.gen r) G.top with h1 | h1
    · obtain ⟨p, bs', e, -, h2⟩ := hI.sel _ h1
      rw [ht] at e; cases e
      rw [(hI.mesh r hr _ hM).1] at h2; omega
    · exact h1
  · have := (mesh_send (q := q') (m := m') (r := r) (post := post) (t := (blk D G (s.gen r)).tail)).1
    rw [← h, hk] at this; cases this
  · have := (mesh_recv (p := p) (m := m') (r := r) (post := post) (t := (blk D G (s.gen r)).tail) hne).1
    rw [← h, hk] at this; cases this

/-- Where a partner is next. -/
theorem shape_role (w : Global.Wf n D) (hI : Inv n D root G ls s) {r : Nat} (hr : Part n r) {M : Mesh}
    (hM : s.pos r = .mesh M) {q k} (hk : M.stack = .role q k) : Part n q ∧ q ≠ r ∧
    ((∃ m T, M.sess q = .send m T) ∨
     (∃ m T, M.sess q = .recv m T ∧ ∃ pre post, (blk D G (s.gen r)).comms.drop (G.idx r) = pre ++ ⟨q, r, m⟩ :: post) ∨
     (∃ bs, M.sess q = .recvChoice bs ∧ k = .fin ∧ (blk D G (s.gen r)).tail = .choice q bs ∧
        Free r ((blk D G (s.gen r)).comms.drop (G.idx r)))) := by
  have hcomm : ∀ c ∈ (blk D G (s.gen r)).comms.drop (G.idx r), Part n c.p ∧ Part n c.q := fun c hc => by
    have := (w.2 (G.path (s.gen r))).1 c (List.mem_of_mem_drop hc)
    exact ⟨this.1, this.2.1⟩
  rcases hI.look w hr hM with ⟨hfree, h⟩ | ⟨pre, q', m', post, e, hf, hne, h⟩ | ⟨pre, p, m', post, e, hf, hne, h⟩
  · subst h
    obtain ⟨bs, ht, h1, h2, h3⟩ := mesh_nil_role hk
    exact ⟨((w.2 _).2 _ _ ht).1, h1, .inr (.inr ⟨bs, h3, h2, ht, hfree⟩)⟩
  · have h1 := (mesh_send (q := q') (m := m') (r := r) (post := post) (t := (blk D G (s.gen r)).tail))
    rw [← h, hk] at h1
    cases h1.1
    exact ⟨(hcomm ⟨r, q, m'⟩ (by rw [e]; simp)).2, hne, .inl ⟨_, _, h1.2.1⟩⟩
  · have h1 := (mesh_recv (p := p) (m := m') (r := r) (post := post) (t := (blk D G (s.gen r)).tail) hne)
    rw [← h, hk] at h1
    cases h1.1
    exact ⟨(hcomm ⟨q, r, m'⟩ (by rw [e]; simp)).1, hne, .inr (.inl ⟨_, _, h1.2.1, pre, post, e⟩)⟩

theorem chan_length_mid (p q m : Nat) (a b : List Comm) :
    (chan p q (a ++ ⟨p, q, m⟩ :: b)).length = (chan p q a).length + 1 + (chan p q b).length := by
  rw [chan_append]
  have : chan p q (⟨p, q, m⟩ :: b) = .data m :: chan p q b := by simp [chan]
  rw [this]; simp; omega

/-- A role whose queue is empty: the partner is about to tell it, or is not ahead and not finished. -/
theorem waiting (w : Global.Wf n D) (hI : Inv n D root G ls s) {r : Nat} (hr : Part n r) {M : Mesh}
    (hM : s.pos r = .mesh M) {q k} (hk : M.stack = .role q k) (hns : ∀ m T, M.sess q ≠ .send m T)
    (he : s.queue (s.gen r, q, r) = []) :
    (∃ N rest, s.pos q = .telling N rest ∧ s.gen q = s.gen r ∧ r ∈ rest) ∨ (G.gst q ≤ s.gen r ∧ ¬ Finished s q) := by
  obtain ⟨hq, hne, hsh⟩ := shape_role w hI hr hM hk
  obtain ⟨hg, hi, -⟩ := hI.mesh r hr M hM
  have heq := hI.eq (s.gen r) q r hq hr hne
  rw [he, List.append_nil] at heq
  by_cases hp : pend s (s.gen r) q r = []
  · right
    rw [hp, List.append_nil] at heq
    have hlen : (upTo D G.path (s.gen r) q r (G.gst q) (G.idx q)).length =
        (chan q r ((blk D G (s.gen r)).comms.take (G.idx r))).length := by
      rw [heq]; simp [upTo, hg]
    have hsplit : (blk D G (s.gen r)).comms = (blk D G (s.gen r)).comms.take (G.idx r) ++ (blk D G (s.gen r)).comms.drop (G.idx r) :=
      (List.take_append_drop _ _).symm
    -- something is still to come from `q`
    have hmore : (chan q r ((blk D G (s.gen r)).comms.take (G.idx r))).length < (full D G.path (s.gen r) q r).length := by
      rcases hsh with ⟨m, T, h⟩ | ⟨m, T, -, pre, post, e⟩ | ⟨bs, -, -, ht, hf⟩
      · exact absurd h (hns m T)
      · have : (chan q r (blk D G (s.gen r)).comms).length = (chan q r ((blk D G (s.gen r)).comms.take (G.idx r) ++ pre)).length + 1 + (chan q r post).length := by
          rw [← chan_length_mid (m := m)]
          rw [List.append_assoc, ← e, ← hsplit]
        rw [chan_append, List.length_append] at this
        unfold full
        simp only [blk] at this
        rw [List.length_append]
        simp only [blk]
        omega
      · have : (chan q r (blk D G (s.gen r)).comms).length = (chan q r ((blk D G (s.gen r)).comms.take (G.idx r))).length := by
          conv => lhs; rw [hsplit]
          rw [chan_append, chan_free hf (.inr rfl), List.append_nil]
        unfold full
        simp only [blk] at this ht ⊢
        rw [ht]
        simp only [if_true, List.length_append, List.length_singleton]
        omega
    have hle : G.gst q ≤ s.gen r := by
      rcases Nat.lt_or_ge (s.gen r) (G.gst q) with h1 | h1
      · exfalso
        rw [upTo, if_pos h1] at hlen
        omega
      · exact h1
    refine ⟨hle, ?_⟩
    intro hf
    obtain ⟨hfree, ht⟩ := finished_end w hI hq hf
    obtain ⟨M', hM', hk'⟩ := hf
    have htop := (shape_fin w hI hq hM' hk').2
    obtain ⟨hg', hi', -⟩ := hI.mesh q hq M' hM'
    have hrt := gen_le_top hI hr
    have hgg : s.gen q = s.gen r := by omega
    rw [hgg] at hfree ht
    have h3 : (upTo D G.path (s.gen r) q r (G.gst q) (G.idx q)).length = (full D G.path (s.gen r) q r).length := by
      have h4 : upTo D G.path (s.gen r) q r (G.gst q) (G.idx q) = chan q r ((blk D G (s.gen r)).comms.take (G.idx q)) := by
        simp [upTo, hg', hgg]
      have h5 : chan q r (blk D G (s.gen r)).comms = chan q r ((blk D G (s.gen r)).comms.take (G.idx q)) := by
        conv => lhs; rw [← List.take_append_drop (G.idx q) (blk D G (s.gen r)).comms]
        rw [chan_append, chan_free hfree (.inl rfl), List.append_nil]
      rw [h4, ← h5]
      unfold full
      simp only [blk] at ht ⊢
      rw [ht]; simp
    omega
  · left
    unfold pend at hp
    cases hP : s.pos q with
    | mesh M' => rw [hP] at hp; exact absurd rfl hp
    | telling N rest =>
      rw [hP] at hp
      simp only at hp
      split at hp
      · rename_i h; exact ⟨N, rest, rfl, h.1.symm, h.2⟩
      · exact absurd rfl hp

/-- A role to which something is still to be sent is not at its end. -/
theorem send_unfinished (w : Global.Wf n D) (hI : Inv n D root G ls s) {r : Nat} (hr : Part n r) {M : Mesh}
    (hM : s.pos r = .mesh M) {q k m T} (hk : M.stack = .role q k) (hs : M.sess q = .send m T) : ¬ Finished s q := by
  intro hf
  obtain ⟨hq, hne, -⟩ := shape_role w hI hr hM hk
  obtain ⟨hfree, ht⟩ := finished_end w hI hq hf
  obtain ⟨M', hM', hk'⟩ := hf
  have htop := (shape_fin w hI hq hM' hk').2
  obtain ⟨hg, hi, -⟩ := hI.mesh r hr M hM
  obtain ⟨hg', hi', -⟩ := hI.mesh q hq M' hM'
  have hrt := gen_le_top hI hr
  have heq := hI.eq (s.gen r) r q hr hq (Ne.symm hne)
  rcases hI.look w hr hM with ⟨hf', h⟩ | ⟨pre, q', m', post, e, hf', hne', h⟩ | ⟨pre, p, m', post, e, hf', hne', h⟩
  · subst h
    obtain ⟨bs, -, h1, -, h3⟩ := mesh_nil_role hk
    rw [h3] at hs; cases hs
  · have h1 := (mesh_send (q := q') (m := m') (r := r) (post := post) (t := (blk D G (s.gen r)).tail)).1
    rw [← h, hk] at h1
    cases h1
    have hlen : (chan r q (blk D G (s.gen r)).comms).length = (chan r q ((blk D G (s.gen r)).comms.take (G.idx r) ++ pre)).length + 1 + (chan r q post).length := by
      rw [← chan_length_mid (m := m')]
      rw [List.append_assoc, ← e, List.take_append_drop]
    rw [chan_append, List.length_append] at hlen
    have e1 : upTo D G.path (s.gen r) r q (G.gst r) (G.idx r) = chan r q ((blk D G (s.gen r)).comms.take (G.idx r)) := by
      simp [upTo, hg]
    have e2 : (chan r q (blk D G (s.gen r)).comms).length ≤ (upTo D G.path (s.gen r) r q (G.gst q) (G.idx q)).length := by
      rcases Nat.lt_or_ge (s.gen r) (s.gen q) with h2 | h2
      · have : upTo D G.path (s.gen r) r q (G.gst q) (G.idx q) = full D G.path (s.gen r) r q := by simp [upTo, hg', h2]
        rw [this]
        simp only [full, blk, List.length_append]; omega
      · have hgg : s.gen q = s.gen r := by omega
        rw [hgg] at hfree
        have h4 : upTo D G.path (s.gen r) r q (G.gst q) (G.idx q) = chan r q ((blk D G (s.gen r)).comms.take (G.idx q)) := by
          simp [upTo, hg', hgg]
        have h5 : chan r q (blk D G (s.gen r)).comms = chan r q ((blk D G (s.gen r)).comms.take (G.idx q)) := by
          conv => lhs; rw [← List.take_append_drop (G.idx q) (blk D G (s.gen r)).comms]
          rw [chan_append, chan_free hfree (.inr rfl), List.append_nil]
        exact Nat.le_of_eq (by rw [h4, ← h5])
    have := congrArg List.length heq
    rw [e1] at this
    simp only [List.length_append] at this
    omega
  · have h1 := (mesh_recv (p := p) (m := m') (r := r) (post := post) (t := (blk D G (s.gen r)).tail) hne')
    rw [← h, hk] at h1
    cases h1.1
    rw [h1.2.1] at hs; cases hs

/-- A choice that has been made is announced to every role that has not entered it. -/
theorem announced (w : Global.Wf n D) (hI : Inv n D root G ls s) {q g : Nat} (hq : Part n q) (h1 : G.gst q ≤ g) (h2 : g < G.top) :
    ∃ p, Part n p ∧ p ≠ q ∧ (.branch (G.path (g + 1)) ∈ s.queue (g, p, q) ∨
      ∃ rest, s.pos p = .telling (G.path (g + 1)) rest ∧ s.gen p = g ∧ q ∈ rest) := by
  obtain ⟨p, bs, ht, -, hgp⟩ := hI.sel g h2
  have hp : Part n p := ((w.2 _).2 p bs ht).1
  have hne : p ≠ q := by rintro rfl; omega
  refine ⟨p, hp, hne, ?_⟩
  have heq := hI.eq g p q hp hq hne
  have e1 : upTo D G.path g p q (G.gst p) (G.idx p) = chan p q (D (G.path g)).comms ++ [.branch (G.path (g + 1))] := by
    simp only [upTo, if_pos hgp, full]
    simp only [blk] at ht
    rw [ht]; simp
  have hmem : .branch (G.path (g + 1)) ∈ upTo D G.path g p q (G.gst p) (G.idx p) := by rw [e1]; simp
  rw [heq] at hmem
  have hno : ∀ N, .branch N ∉ upTo D G.path g p q (G.gst q) (G.idx q) := by
    intro N hN
    have h3 : ¬ g < G.gst q := by omega
    simp only [upTo, if_neg h3] at hN
    split at hN
    · simp only [chan, List.mem_filterMap] at hN
      obtain ⟨c, -, hc⟩ := hN
      split at hc <;> simp at hc
    · cases hN
  rcases List.mem_append.1 hmem with hmem | hmem
  · rcases List.mem_append.1 hmem with hmem | hmem
    · exact absurd hmem (hno _)
    · exact .inl hmem
  · right
    unfold pend at hmem
    cases hP : s.pos p with
    | mesh M' => rw [hP] at hmem; cases hmem
    | telling N rest =>
      rw [hP] at hmem
      simp only at hmem
      split at hmem
      · rename_i h
        simp only [List.mem_singleton, Msg.branch.injEq] at hmem
        exact ⟨rest, by rw [hmem], h.1.symm, h.2⟩
      · cases hmem

/-- A branch in a queue comes from a sender that has made this choice. -/
theorem branch_gst (hI : Inv n D root G ls s) {g p q N} (hp : Part n p) (hq : Part n q) (hne : p ≠ q)
    (h : .branch N ∈ s.queue (g, p, q)) : g < G.gst p := by
  have heq := hI.eq g p q hp hq hne
  have hm : .branch N ∈ upTo D G.path g p q (G.gst p) (G.idx p) := by rw [heq]; simp [h]
  rcases Nat.lt_or_ge g (G.gst p) with h1 | h1
  · exact h1
  · exfalso
    have h3 : ¬ g < G.gst p := by omega
    simp only [upTo, if_neg h3] at hm
    split at hm
    · simp only [chan, List.mem_filterMap] at hm
      obtain ⟨c, -, hc⟩ := hm
      split at hc <;> simp at hc
    · cases hm

end Verif.Mesh
