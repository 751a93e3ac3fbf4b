import Verif.Proof.HeapReach
/-!
# Consequences of the invariant
-/
namespace Verif.Heap
open Verif.Types Verif.Spec

variable {P : Type} [DecidableEq P] {G : Env P}

theorem fifo_split : ∀ (tr : List (Ev P)) (Q0 Q : Queues P), fifoRun Q0 tr = some Q → ∀ s b,
    Q0 s b ++ sentBy s (!b) tr = rcvdBy s b tr ++ Q s b := by
  intro tr
  induction tr with
  | nil => intro Q0 Q h s b; simp [fifoRun] at h; simp [sentBy, rcvdBy, h]
  | cons ev tr ih =>
    intro Q0 Q h s b
    cases ev with
    | sent s' b' t v =>
      simp only [fifoRun, fifoStep] at h
      have := ih _ _ h s b
      have e1 : rcvdBy s b (Ev.sent s' b' t v :: tr) = rcvdBy s b tr := rfl
      rw [e1, ← this]
      by_cases hh : s' = s ∧ b' = (!b)
      · obtain ⟨h1, h2⟩ := hh
        subst h1
        have e2 : sentBy s' (!b) (Ev.sent s' b' t v :: tr) = (t, v) :: sentBy s' (!b) tr := by
          simp [sentBy, h2]
        rw [e2]
        unfold setQ
        rw [if_pos ⟨rfl, by rw [h2, Bool.not_not]⟩, h2, Bool.not_not]
        simp
      · have e2 : sentBy s (!b) (Ev.sent s' b' t v :: tr) = sentBy s (!b) tr := by
          simp only [sentBy, List.filterMap_cons]
          rw [if_neg hh]
        rw [e2]
        unfold setQ
        rw [if_neg]
        rintro ⟨h1, h2⟩
        apply hh
        rw [h1, h2, Bool.not_not]; exact ⟨rfl, rfl⟩
    | rcvd s' b' t v =>
      simp only [fifoRun, fifoStep] at h
      have e1 : sentBy s (!b) (Ev.rcvd s' b' t v :: tr) = sentBy s (!b) tr := rfl
      rw [e1]
      cases hq : Q0 s' b' with
      | nil => rw [hq] at h; cases h
      | cons m q =>
        rw [hq] at h
        simp only at h
        by_cases hm : m = (t, v)
        · rw [if_pos hm] at h
          simp only at h
          have := ih _ _ h s b
          by_cases hh : s' = s ∧ b' = b
          · obtain ⟨h1, h2⟩ := hh
            subst h1 h2
            have e2 : rcvdBy s' b' (Ev.rcvd s' b' t v :: tr) = (t, v) :: rcvdBy s' b' tr := by simp [rcvdBy]
            rw [e2, hq, hm, List.cons_append, List.cons_append, ← this]
            unfold setQ
            rw [if_pos ⟨rfl, rfl⟩]
          · have e2 : rcvdBy s b (Ev.rcvd s' b' t v :: tr) = rcvdBy s b tr := by
              simp only [rcvdBy, List.filterMap_cons]
              rw [if_neg hh]
            rw [e2, ← this]
            unfold setQ
            rw [if_neg (fun x => hh ⟨x.1.symm, x.2.symm⟩)]
        · rw [if_neg hm] at h; cases h

theorem pending_eq {tr : List (Ev P)} {Q : Queues P} (h : fifoRun (noMsgs P) tr = some Q) (s : Nat) (b : Bool) :
    pending tr s b = Q s b := by
  have := fifo_split tr _ _ h s b
  simp only [noMsgs, List.nil_append] at this
  unfold pending
  rw [this, List.drop_left]

theorem Inv.pend {st : St P} (h : Inv G st) {e : Entry P} (he : Prin G st e) :
    pending st.trace e.ep.sid e.ep.side = (hist st.trace e.ep.sid).drop (idxOf st e.ep) := by
  obtain ⟨Q, q1, q2, -⟩ := h.spec
  rw [pending_eq q1, q2 e he]

theorem Inv.rx_of {st : St P} (h : Inv G st) {e : Entry P} (he : Occ G st e) {c : Nat} (hm : Tok.rx c ∈ e.ep.halves) :
    (st.chan c).rx = true := by
  have h1 := Occ.count he hm
  rw [h.crx] at h1
  cases hx : (st.chan c).rx
  · rw [hx] at h1; simp at h1
  · rfl

theorem Inv.tx_of {st : St P} (h : Inv G st) {e : Entry P} (he : Occ G st e) {c : Nat} (hm : Tok.tx c ∈ e.ep.halves) :
    (st.chan c).tx = true := by
  have h1 := Occ.count he hm
  rw [h.ctx] at h1
  cases hx : (st.chan c).tx
  · rw [hx] at h1; simp at h1
  · rfl

theorem EPTy.rcv {st : St P} {e : Entry P} (h : EPTy st e) {c : Nat} (hn : e.ep.node = .rcv c) :
    c < st.next ∧ (st.chan c).sid = e.ep.sid ∧ (st.chan c).dir = (!e.ep.side) ∧
      ∃ w t s, (st.chan c).kind = .data w t s ∧ e.ty = .recv w t s := by
  unfold EPTy at h; rw [hn] at h; exact h

theorem EPTy.snd {st : St P} {e : Entry P} (h : EPTy st e) {c : Nat} (hn : e.ep.node = .snd c) :
    c < st.next ∧ (st.chan c).sid = e.ep.sid ∧ (st.chan c).dir = e.ep.side ∧
      ∃ w t s, (st.chan c).kind = .data w t s ∧ e.ty = .send w t s.dual := by
  unfold EPTy at h; rw [hn] at h; exact h

theorem EPTy.fin {st : St P} {e : Entry P} (h : EPTy st e) {t r : Nat} (hn : e.ep.node = .fin t r) :
    t < st.next ∧ r < st.next ∧ (st.chan t).sid = e.ep.sid ∧ (st.chan r).sid = e.ep.sid ∧
      (st.chan t).dir = e.ep.side ∧ (st.chan r).dir = (!e.ep.side) ∧
      (st.chan t).kind = .sig ∧ (st.chan r).kind = .sig ∧ (st.chan r).idx = (st.chan t).idx ∧
      (st.chan t).mate = r ∧ (st.chan r).mate = t ∧ e.ty = .fin := by
  unfold EPTy at h; rw [hn] at h; exact h

theorem idx_le {st : St P} (h : Inv G st) {e : Entry P} (he : Occ G st e) :
    idxOf st e.ep ≤ (hist st.trace e.ep.sid).length := by
  have := (h.occ e he).pos
  unfold Pos at this
  split at this <;> omega

/-- The receiving endpoint, if its session has a message at its step, has it in its slot, followed by an
endpoint of the same side one step further. -/
theorem Inv.next {st : St P} (h : Inv G st) {e : Entry P} (he : Occ G st e) {c : Nat} (hn : e.ep.node = .rcv c)
    (hlt : idxOf st e.ep < (hist st.trace e.ep.sid).length) :
    ∃ v k w t s tys, (st.chan c).buf = some (.data v k) ∧ (st.chan c).kind = .data w t s ∧ e.ty = .recv w t s ∧
      G t v.tag = some tys ∧ v.eps.length = tys.length ∧
      (hist st.trace e.ep.sid)[idxOf st e.ep]? = some (t, v) ∧
      Occ G st ⟨k, s⟩ ∧ k.sid = e.ep.sid ∧ k.side = e.ep.side ∧ idxOf st k = idxOf st e.ep + 1 := by
  have wt := (h.occ e he)
  obtain ⟨hc, hs, hd, w, t, s, hk, hty⟩ := wt.ty.rcv hn
  have hi : idxOf st e.ep = (st.chan c).idx := by simp [idxOf, hn]
  have hrx := h.rx_of he (c := c) (by simp [EP.halves, hn])
  have hf := h.full c hc (by rw [hk]; simp) hrx (by rw [hs, ← hi]; exact hlt)
  obtain ⟨m, hm⟩ := Option.isSome_iff_exists.1 hf
  have hok := (h.bufs c m hm).2
  cases m with
  | sig x => simp only [MsgOk] at hok; rw [hk] at hok; cases hok
  | data v k =>
    simp only [MsgOk] at hok
    obtain ⟨w', t', s', tys, h1, h2, h3, h4, h5, h6, h7⟩ := hok
    rw [hk] at h1; injection h1 with e1 e2 e3
    subst e1 e2 e3
    refine ⟨v, k, w, t, s, tys, hm, hk, hty, h2, h3, by rw [hi, ← hs]; exact h4, ?_, by rw [h5, hs], by rw [h6, hd, Bool.not_not],
      by rw [hi]; exact h7⟩
    right
    refine ⟨c, hc, ?_⟩
    simp [bufEntries, hm, hk, msgEntries]

/-- Following the undelivered messages from any endpoint leads to the newest endpoint of that side. -/
theorem Inv.tip {st : St P} (h : Inv G st) : ∀ (n : Nat) (e : Entry P), Occ G st e →
    (hist st.trace e.ep.sid).length - idxOf st e.ep ≤ n →
    ∃ e', Occ G st e' ∧ e'.ep.sid = e.ep.sid ∧ e'.ep.side = e.ep.side ∧
      idxOf st e'.ep = (hist st.trace e.ep.sid).length := by
  intro n
  induction n with
  | zero =>
    intro e he hn
    have := idx_le h he
    exact ⟨e, he, rfl, rfl, by omega⟩
  | succ n ih =>
    intro e he hn
    by_cases hlt : idxOf st e.ep < (hist st.trace e.ep.sid).length
    · have hpos := (h.occ e he).pos
      unfold Pos at hpos
      cases hnode : e.ep.node with
      | snd c => rw [hnode] at hpos; simp only at hpos; omega
      | fin t r => rw [hnode] at hpos; simp only at hpos; omega
      | rcv c =>
        obtain ⟨v, k, w, t, s, tys, -, -, -, -, -, -, hk, k1, k2, k3⟩ := h.next he hnode hlt
        obtain ⟨e', h1, h2, h3, h4⟩ := ih ⟨k, s⟩ hk (by simp only; rw [k1, k3]; omega)
        simp only at h2 h3 h4
        exact ⟨e', h1, by rw [h2, k1], by rw [h3, k2], by rw [h4, k1]⟩
    · have := idx_le h he
      exact ⟨e, he, rfl, rfl, by omega⟩

theorem mem_entries' : ∀ (eps : List EP) (tys : List (STy P)), eps.length = tys.length → ∀ x ∈ eps,
    ∃ e ∈ entries eps tys, e.ep = x := by
  intro eps
  induction eps with
  | nil => intro tys _ x hx; cases hx
  | cons y ys ih =>
    intro tys hl x hx
    cases tys with
    | nil => simp at hl
    | cons t ts =>
      have : entries (y :: ys) (t :: ts) = ⟨y, t⟩ :: entries ys ts := rfl
      rw [this]
      rcases List.mem_cons.1 hx with hx | hx
      · exact ⟨⟨y, t⟩, by simp, hx.symm⟩
      · obtain ⟨e, h1, h2⟩ := ih ts (by simpa using hl) x hx
        exact ⟨e, List.mem_cons_of_mem _ h1, h2⟩

/-- A half inside a message belongs to an endpoint of it. -/
theorem Inv.buf_occ {st : St P} (h : Inv G st) {c : Nat} {t : Tok} (ht : t ∈ bufToks (st.chan c))
    (hh : ∀ s b, t ≠ .idn s b) : ∃ e, e ∈ bufEntries G (st.chan c) ∧ t ∈ e.ep.halves := by
  unfold bufToks at ht
  cases hb : (st.chan c).buf with
  | none => rw [hb] at ht; cases ht
  | some m =>
    rw [hb] at ht
    simp only at ht
    have hok := (h.bufs c m hb).2
    cases m with
    | data v k =>
      simp only [MsgOk] at hok
      obtain ⟨w, t', s, tys, h1, h2, h3, -⟩ := hok
      simp only [Msg.toks, List.mem_append, Val.toks, List.mem_flatMap] at ht
      have hbe : bufEntries G (st.chan c) = entries v.eps tys ++ [⟨k, s⟩] := by
        simp [bufEntries, hb, h1, msgEntries, h2]
      rw [hbe]
      rcases ht with ⟨x, hx, ht⟩ | ht
      · obtain ⟨e, he, hx'⟩ := mem_entries' v.eps tys h3 x hx
        refine ⟨e, by simp [he], ?_⟩
        rw [hx']
        simp only [EP.toks, List.mem_cons] at ht
        rcases ht with ht | ht
        · exact absurd ht (hh _ _)
        · exact ht
      · exact ⟨⟨k, s⟩, by simp, ht⟩
    | sig x =>
      simp only [MsgOk] at hok
      cases x with
      | offer f =>
        refine ⟨⟨f, .fin⟩, by simp [bufEntries, hb, hok, msgEntries], ?_⟩
        simp only [Msg.toks, EP.toks, List.mem_cons] at ht
        rcases ht with ht | ht
        · exact absurd ht (hh _ _)
        · exact ht
      | stop => cases ht
      | cancel => cases ht

theorem cnt_cases {st : St P} {t : Tok} (h : 0 < cnt st t) :
    t ∈ poolToks st.pool ∨ (∃ c, c < st.next ∧ t ∈ bufToks (st.chan c)) ∨ t ∈ st.garb := by
  unfold cnt at h
  by_cases h1 : 0 < (poolToks st.pool).count t
  · exact Or.inl (List.count_pos_iff.1 h1)
  · by_cases h2 : 0 < st.garb.count t
    · exact Or.inr (Or.inr (List.count_pos_iff.1 h2))
    · obtain ⟨c, hc, hp⟩ := sumTo_pos_iff (n := st.next) (f := fun c => (bufToks (st.chan c)).count t) (by omega)
      exact Or.inr (Or.inl ⟨c, hc, List.count_pos_iff.1 hp⟩)

theorem pool_half {st : St P} {t : Tok} (h : t ∈ poolToks st.pool) (hh : ∀ s b, t ≠ .idn s b) :
    ∃ e, e ∈ st.pool ∧ t ∈ e.ep.halves := by
  simp only [poolToks, List.mem_flatMap] at h
  obtain ⟨e, he, ht⟩ := h
  refine ⟨e, he, ?_⟩
  simp only [EP.toks, List.mem_cons] at ht
  rcases ht with ht | ht
  · exact absurd ht (hh _ _)
  · exact ht

/-- A half that exists and is not being dropped belongs to a usable endpoint. -/
theorem Inv.held {st : St P} (h : Inv G st) {t : Tok} (hp : 0 < cnt st t) (hg : t ∉ st.garb)
    (hh : ∀ s b, t ≠ .idn s b) : ∃ e, Occ G st e ∧ t ∈ e.ep.halves := by
  rcases cnt_cases hp with h1 | ⟨c, hc, h1⟩ | h1
  · obtain ⟨e, he, ht⟩ := pool_half h1 hh
    exact ⟨e, Or.inl he, ht⟩
  · obtain ⟨e, he, ht⟩ := h.buf_occ h1 hh
    exact ⟨e, Or.inr ⟨c, hc, he⟩, ht⟩
  · exact absurd h1 hg

/-- With no drop pending, every endpoint inside a message is the future of a current endpoint of its side. -/
theorem Inv.root {st : St P} (h : Inv G st) (hg : st.garb = []) : ∀ (n : Nat) (e : Entry P), Occ G st e →
    idxOf st e.ep ≤ n → ∃ e', Prin G st e' ∧ e'.ep.sid = e.ep.sid ∧ e'.ep.side = e.ep.side ∧
      idxOf st e'.ep ≤ idxOf st e.ep := by
  intro n
  induction n with
  | zero =>
    intro e he hn
    rcases he with he | ⟨c, hc, he⟩
    · exact ⟨e, Or.inl he, rfl, rfl, Nat.le_refl _⟩
    · rcases bufEntries_cases he with he | ⟨v, w, t, hb, hk⟩
      · exact ⟨e, Or.inr ⟨c, hc, he⟩, rfl, rfl, Nat.le_refl _⟩
      · have hok := (h.bufs c _ hb).2
        simp only [MsgOk] at hok
        obtain ⟨_, _, _, _, _, _, _, _, _, _, h7⟩ := hok
        omega
  | succ n ih =>
    intro e he hn
    rcases he with he | ⟨c, hc, he⟩
    · exact ⟨e, Or.inl he, rfl, rfl, Nat.le_refl _⟩
    · rcases bufEntries_cases he with he | ⟨v, w, t, hb, hk⟩
      · exact ⟨e, Or.inr ⟨c, hc, he⟩, rfl, rfl, Nat.le_refl _⟩
      · have hok := (h.bufs c _ hb)
        have hrx := hok.1
        have hok := hok.2
        simp only [MsgOk] at hok
        obtain ⟨_, _, _, _, _, _, _, _, h5, h6, h7⟩ := hok
        have hcnt : 0 < cnt st (.rx c) := by rw [h.crx, hrx]; simp
        obtain ⟨e2, he2, hm⟩ := h.held hcnt (by rw [hg]; simp) (by simp)
        have hnode : e2.ep.node = .rcv c := by
          unfold EP.halves at hm
          cases hn2 : e2.ep.node with
          | snd c' => rw [hn2] at hm; simp at hm
          | rcv c' => rw [hn2] at hm; simp at hm; rw [hm]
          | fin t' r' =>
            rw [hn2] at hm; simp at hm
            have := ((h.occ e2 he2).ty.fin hn2).2.2.2.2.2.2.2.1
            rw [← hm, hk] at this; cases this
        obtain ⟨_, g2, g3, _⟩ := (h.occ e2 he2).ty.rcv hnode
        have hi : idxOf st e2.ep = (st.chan c).idx := by simp [idxOf, hnode]
        obtain ⟨e', p1, p2, p3, p4⟩ := ih e2 he2 (by omega)
        exact ⟨e', p1, by rw [p2, h5, g2], by rw [p3, h6, g3, Bool.not_not], by omega⟩

theorem steps_reach {st st' : St P} (h : Reach G st) (hs : Steps G st st') : Reach G st' := by
  induction hs with
  | refl => exact h
  | step _ hs ih => exact ih.step hs

end Verif.Heap
