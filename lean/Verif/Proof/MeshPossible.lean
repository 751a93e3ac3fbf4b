import Verif.Proof.Mesh
/-! Every execution of a protocol can be performed. -/
namespace Verif.Mesh

variable {n : Nat} {D : Global}

theorem Run.trans {Y : Sys} {s s1 s2 : S} {ls ls' : List Label} (h : Run Y s ls s1) (h' : Run Y s1 ls' s2) :
    Run Y s (ls ++ ls') s2 := by
  induction h' with
  | nil => simpa using h
  | snoc _ hl ih => rw [← List.append_assoc]; exact .snoc ih hl

theorem actsOf_append (r : Nat) (a b : List Label) : actsOf r (a ++ b) = actsOf r a ++ actsOf r b := by
  simp [actsOf, List.filterMap_append]

/-- All roles are at the same place of the same block, and nothing is on its way. -/
structure Sync (n : Nat) (s : S) (g : Nat) (cs : List Comm) (t : Tail) : Prop where
  gen : ∀ r, Part n r → s.gen r = g
  pos : ∀ r, Part n r → s.pos r = .mesh (meshOf r cs t)
  queue : ∀ k, s.queue k = []

theorem meshOf_skip {r : Nat} {c : Comm} {cs : List Comm} {t : Tail} (h1 : c.p ≠ r) (h2 : c.q ≠ r) :
    meshOf r (c :: cs) t = meshOf r cs t := by
  simp [meshOf, sessOf, stackOf, h1, h2]

theorem sess_send {c : Comm} {cs : List Comm} {t : Tail} (hne : c.p ≠ c.q) :
    (⟨upd (meshOf c.p (c :: cs) t).sess c.q (sessOf c.p c.q cs t), stackOf c.p cs t⟩ : Mesh) = meshOf c.p cs t := by
  unfold meshOf
  congr 1
  funext x
  simp only [upd, sessOf]
  split
  · rename_i h; rw [h]
  · rename_i h
    have h2 : ¬ c.q = c.p := fun e => hne e.symm
    simp [Ne.symm h, h2]

theorem sess_recv {c : Comm} {cs : List Comm} {t : Tail} (hne : c.p ≠ c.q) :
    (⟨upd (meshOf c.q (c :: cs) t).sess c.p (sessOf c.q c.p cs t), stackOf c.q cs t⟩ : Mesh) = meshOf c.q cs t := by
  unfold meshOf
  congr 1
  funext x
  simp only [upd, sessOf]
  split
  · rename_i h; rw [h]
  · rename_i h
    simp [Ne.symm h, hne]

theorem upd_same {α β : Type} [DecidableEq α] (f : α → β) (a : α) (b : β) : upd f a b a = b := by simp [upd]

theorem upd_other {α β : Type} [DecidableEq α] (f : α → β) {a x : α} (b : β) (h : x ≠ a) : upd f a b x = f x := by
  simp [upd, h]

/-- One message is sent and received. -/
theorem sync_comm {s : S} {g : Nat} {c : Comm} {cs : List Comm} {t : Tail} (h : Sync n s g (c :: cs) t)
    (hp : Part n c.p) (hq : Part n c.q) (hne : c.p ≠ c.q) :
    ∃ s', Run (project n D) s [.act c.p (.send c.q c.m), .act c.q (.recv c.p c.m)] s' ∧ Sync n s' g cs t := by
  have hne' : c.q ≠ c.p := Ne.symm hne
  have s1 := Step.send (Y := project n D) (s := s) (r := c.p) (q := c.q) (k := stackOf c.p cs t) (m := c.m)
    (T := sessOf c.p c.q cs t) hp.1 hp.2 (h.pos _ hp) (by simp [meshOf, stackOf]) (by simp [meshOf, sessOf])
  rw [sess_send hne] at s1
  refine ⟨_, (((Run.nil s).snoc s1).snoc (.recv (r := c.q) (q := c.p) (k := stackOf c.q cs t) (m := c.m)
    (T := sessOf c.q c.p cs t) (l := []) (M := meshOf c.q (c :: cs) t) hq.1 hq.2 ?_ ?_ ?_ ?_)), ?_⟩
  · show upd s.pos c.p _ c.q = _
    rw [upd_other _ _ hne', h.pos _ hq]
  · simp [meshOf, stackOf, hne]
  · simp [meshOf, sessOf, hne]
  · show upd s.queue (s.gen c.p, c.p, c.q) _ (s.gen c.q, c.p, c.q) = _
    rw [h.gen _ hp, h.gen _ hq, upd_same, h.queue]
    rfl
  · rw [sess_recv hne]
    refine ⟨h.gen, ?_, ?_⟩
    · intro r hr
      show upd (upd s.pos c.p _) c.q _ r = _
      by_cases e1 : r = c.q
      · subst e1; rw [upd_same]
      · rw [upd_other _ _ e1]
        by_cases e2 : r = c.p
        · subst e2; rw [upd_same]
        · rw [upd_other _ _ e2, h.pos _ hr, meshOf_skip (Ne.symm e2) (Ne.symm e1)]
    · intro k
      show upd (upd s.queue (s.gen c.p, c.p, c.q) _) (s.gen c.q, c.p, c.q) [] k = []
      rw [h.gen _ hp, h.gen _ hq]
      by_cases e : k = (g, c.p, c.q)
      · rw [e, upd_same]
      · rw [upd_other _ _ e, upd_other _ _ e, h.queue]

/-- The messages of a block are exchanged. -/
theorem sync_comms {g : Nat} {t : Tail} : ∀ {cs : List Comm} {s : S}, Sync n s g cs t →
    (∀ c ∈ cs, Part n c.p ∧ Part n c.q ∧ c.p ≠ c.q) →
    ∃ ls s', Run (project n D) s ls s' ∧ Sync n s' g [] t ∧
      ∀ r, actsOf r ls = (cs.map Ev.comm).filterMap (view r)
  | [], s, h, _ => ⟨[], s, .nil s, h, fun r => rfl⟩
  | c :: cs, s, h, hw => by
    obtain ⟨hp, hq, hne⟩ := hw c (by simp)
    obtain ⟨s1, r1, h1⟩ := sync_comm (D := D) h hp hq hne
    obtain ⟨ls, s', r2, h2, h3⟩ := sync_comms h1 (fun c hc => hw c (by simp [hc]))
    refine ⟨_, s', r1.trans r2, h2, fun r => ?_⟩
    rw [actsOf_append, h3 r]
    simp only [actsOf, List.map_cons, List.filterMap_cons, List.filterMap_nil, view]
    by_cases e1 : c.p = r
    · have e2 : ¬ c.q = r := fun e => hne (e1.trans e.symm)
      simp [e1, e2]
    · by_cases e2 : c.q = r
      · simp [e1, e2]
      · simp [e1, e2]

/-- A choice is being announced: the roles in `rest` have not been told. -/
structure Mid (n : Nat) (D : Global) (s : S) (g p : Nat) (bs : List Name) (N : Name) (rest : List Nat) : Prop where
  chooser : s.gen p = g ∧ s.pos p = .telling N rest
  todo : ∀ r ∈ rest, s.gen r = g ∧ s.pos r = .mesh (meshOf r [] (.choice p bs))
  done : ∀ r, Part n r → r ≠ p → r ∉ rest → s.gen r = g + 1 ∧ s.pos r = .mesh (meshOf r (D N).comms (D N).tail)
  queue : ∀ k, s.queue k = []

theorem sync_tell {g p : Nat} {bs : List Name} {N : Name} (hp : Part n p) : ∀ {rest : List Nat} {s : S},
    Mid n D s g p bs N rest → rest.Nodup → (∀ r ∈ rest, Part n r ∧ r ≠ p) →
    ∃ ls s', Run (project n D) s ls s' ∧ Mid n D s' g p bs N [] ∧
      ∀ r, actsOf r ls = if r ∈ rest then [.heed p N] else []
  | [], s, h, _, _ => ⟨[], s, .nil s, h, fun r => rfl⟩
  | q :: rest, s, h, hn, hw => by
    obtain ⟨hq, hne⟩ := hw q (by simp)
    have hqr : q ∉ rest := (List.nodup_cons.mp hn).1
    have s1 := Step.tell (Y := project n D) (s := s) hp.1 hp.2 h.chooser.2
    have s2 := Step.heed (Y := project n D) (r := q) (q := p) (bs := bs) (N := N) (l := [])
      (M := meshOf q [] (.choice p bs)) (s := { s with
        pos := upd s.pos p (.telling N rest),
        queue := upd s.queue (s.gen p, p, q) (s.queue (s.gen p, p, q) ++ [.branch N]) }) hq.1 hq.2
      (by
        show upd s.pos p _ q = _
        rw [upd_other _ _ hne]
        exact (h.todo q (by simp)).2)
      (by simp [meshOf, stackOf, Ne.symm hne]) (by simp [meshOf, sessOf, Ne.symm hne])
      (by
        show upd s.queue (s.gen p, p, q) _ (s.gen q, p, q) = _
        rw [h.chooser.1, (h.todo q (by simp)).1, upd_same, h.queue]
        rfl)
    have key : ∀ s3, Run (project n D) s [.tell p q, .act q (.heed p N)] s3 → Mid n D s3 g p bs N rest →
        ∃ ls s', Run (project n D) s ls s' ∧ Mid n D s' g p bs N [] ∧
          ∀ r, actsOf r ls = if r ∈ q :: rest then [.heed p N] else [] := by
      intro s3 r1 hm
      obtain ⟨ls, s', r2, h2, h3⟩ := sync_tell hp hm (List.nodup_cons.mp hn).2 (fun r hr => hw r (by simp [hr]))
      refine ⟨_, s', r1.trans r2, h2, fun r => ?_⟩
      rw [actsOf_append, h3 r]
      by_cases e : q = r
      · subst e; simp [actsOf, hqr]
      · simp [actsOf, e, Ne.symm e]
    refine key _ (((Run.nil s).snoc s1).snoc s2) ⟨?_, ?_, ?_, ?_⟩
    · refine ⟨?_, ?_⟩
      · show upd s.gen q _ p = g
        rw [upd_other _ _ (Ne.symm hne)]
        exact h.chooser.1
      · show upd (upd s.pos p _) q _ p = _
        rw [upd_other _ _ (Ne.symm hne), upd_same]
    · intro r hr
      have e1 : r ≠ q := fun e => hqr (e ▸ hr)
      have e2 : r ≠ p := (hw r (by simp [hr])).2
      refine ⟨?_, ?_⟩
      · show upd s.gen q _ r = g
        rw [upd_other _ _ e1]
        exact (h.todo r (by simp [hr])).1
      · show upd (upd s.pos p _) q _ r = _
        rw [upd_other _ _ e1, upd_other _ _ e2]
        exact (h.todo r (by simp [hr])).2
    · intro r hr hrp hrr
      by_cases e1 : r = q
      · subst e1
        refine ⟨?_, ?_⟩
        · show upd s.gen r (s.gen r + 1) r = g + 1
          rw [upd_same, (h.todo r (by simp)).1]
        · show upd (upd s.pos p _) r _ r = _
          rw [upd_same]
          rfl
      · obtain ⟨d1, d2⟩ := h.done r hr hrp (by simp [e1, hrr])
        refine ⟨?_, ?_⟩
        · show upd s.gen q _ r = _
          rw [upd_other _ _ e1, d1]
        · show upd (upd s.pos p _) q _ r = _
          rw [upd_other _ _ e1, upd_other _ _ hrp, d2]
    · intro k
      show upd (upd s.queue (s.gen p, p, q) _) (s.gen q, p, q) [] k = []
      rw [h.chooser.1, (h.todo q (by simp)).1]
      by_cases e : k = (g, p, q)
      · rw [e, upd_same]
      · rw [upd_other _ _ e, upd_other _ _ e, h.queue]

/-- A choice is made and all hear of it. -/
theorem sync_choice {s : S} {g p : Nat} {bs : List Name} {N : Name} (h : Sync n s g [] (.choice p bs)) (hp : Part n p)
    (hN : N ∈ bs) :
    ∃ ls s', Run (project n D) s ls s' ∧ Sync n s' (g + 1) (D N).comms (D N).tail ∧
      ∀ r, Part n r → actsOf r ls = ([Ev.sel p N].filterMap (view r)) := by
  have s1 := Step.decide (Y := project n D) (s := s) (r := p) (bs := bs) (N := N) hp.1 hp.2 (h.pos p hp)
    (by simp [meshOf, stackOf])
    (by intro q hq; simp [meshOf, sessOf]) hN
  have hm : Mid n D { s with pos := upd s.pos p (.telling N (others (project n D).n p)) } g p bs N (others n p) := by
    refine ⟨⟨h.gen p hp, upd_same _ _ _⟩, ?_, ?_, h.queue⟩
    · intro r hr
      obtain ⟨h1, h2⟩ := mem_others.mp hr
      refine ⟨h.gen r h1, ?_⟩
      show upd s.pos p _ r = _
      rw [upd_other _ _ h2]
      exact h.pos r h1
    · intro r hr hrp hn
      exact absurd (mem_others.mpr ⟨hr, hrp⟩) hn
  obtain ⟨ls, s2, r2, h2, h3⟩ := sync_tell hp hm (others_nodup n p) (fun r hr => mem_others.mp hr)
  have s3 := Step.enter (Y := project n D) (s := s2) hp.1 hp.2 h2.chooser.2
  refine ⟨_, _, (((Run.nil s).snoc s1).trans r2).snoc s3, ⟨?_, ?_, h2.queue⟩, ?_⟩
  · intro r hr
    show upd s2.gen p _ r = _
    by_cases e : r = p
    · subst e; rw [upd_same, h2.chooser.1]
    · rw [upd_other _ _ e]
      exact (h2.done r hr e (by simp)).1
  · intro r hr
    show upd s2.pos p _ r = _
    by_cases e : r = p
    · subst e; rw [upd_same]; rfl
    · rw [upd_other _ _ e]
      exact (h2.done r hr e (by simp)).2
  · intro r hr
    rw [actsOf_append, actsOf_append, h3 r]
    by_cases e : p = r
    · subst e
      have : p ∉ others n p := fun h => (mem_others.mp h).2 rfl
      simp [actsOf, view, this]
    · have : r ∈ others n p := mem_others.mpr ⟨hr, Ne.symm e⟩
      simp [actsOf, view, this, e]

theorem wf_comms (w : Global.Wf n D) (N : Name) : ∀ c ∈ (D N).comms, Part n c.p ∧ Part n c.q ∧ c.p ≠ c.q :=
  fun c hc => (w.2 N).1 c hc

theorem possible_from (w : Global.Wf n D) {N : Name} {tr : List Ev} (h : Follows D N tr) :
    ∀ {s : S} {g : Nat}, Sync n s g (D N).comms (D N).tail →
      ∃ ls s', Run (project n D) s ls s' ∧ ∀ r, Part n r → actsOf r ls = tr.filterMap (view r) := by
  induction h with
  | stop N =>
    intro s g hs
    obtain ⟨ls, s', h1, _, h3⟩ := sync_comms (D := D) hs (wf_comms w N)
    exact ⟨ls, s', h1, fun r _ => h3 r⟩
  | @go N p bs N' tr ht hN _ ih =>
    intro s g hs
    obtain ⟨l1, s1, r1, h1, a1⟩ := sync_comms (D := D) hs (wf_comms w N)
    rw [ht] at h1
    obtain ⟨l2, s2, r2, h2, a2⟩ := sync_choice (D := D) h1 ((w.2 N).2 p bs ht).1 hN
    obtain ⟨l3, s3, r3, a3⟩ := ih h2
    refine ⟨_, s3, (r1.trans r2).trans r3, fun r hr => ?_⟩
    rw [actsOf_append, actsOf_append, a1 r, a2 r hr, a3 r hr, ← List.filterMap_append, ← List.filterMap_append,
      List.append_assoc]
    rfl

theorem complete_from (w : Global.Wf n D) {N : Name} {tr : List Ev} (h : Completes D N tr) :
    ∀ {s : S} {g : Nat}, Sync n s g (D N).comms (D N).tail →
      ∃ ls s', Run (project n D) s ls s' ∧ (∀ r, Part n r → actsOf r ls = tr.filterMap (view r)) ∧
        ∀ r, Part n r → Finished s' r := by
  induction h with
  | @stop N ht =>
    intro s g hs
    obtain ⟨ls, s', h1, h2, h3⟩ := sync_comms (D := D) hs (wf_comms w N)
    rw [ht] at h2
    exact ⟨ls, s', h1, fun r _ => h3 r, fun r hr => ⟨_, h2.pos r hr, rfl⟩⟩
  | @go N p bs N' tr ht hN _ ih =>
    intro s g hs
    obtain ⟨l1, s1, r1, h1, a1⟩ := sync_comms (D := D) hs (wf_comms w N)
    rw [ht] at h1
    obtain ⟨l2, s2, r2, h2, a2⟩ := sync_choice (D := D) h1 ((w.2 N).2 p bs ht).1 hN
    obtain ⟨l3, s3, r3, a3, f3⟩ := ih h2
    refine ⟨_, s3, (r1.trans r2).trans r3, fun r hr => ?_, f3⟩
    rw [actsOf_append, actsOf_append, a1 r, a2 r hr, a3 r hr, ← List.filterMap_append, ← List.filterMap_append,
      List.append_assoc]
    rfl

theorem sync_start (root : Name) : Sync n (S.init (project n D) root) 0 (D root).comms (D root).tail :=
  ⟨fun _ _ => rfl, fun _ _ => rfl, fun _ => rfl⟩

end Verif.Mesh
