import Verif.Prop.C03_C04
/-!
# C02, C05, C06, C38: connection, fidelity, linearity, refinement of FIFO queues
-/
namespace Verif.Prop
open Verif.Types Verif.Heap Verif.Spec

variable {P : Type} [DecidableEq P] {G : Env P}

/-! ## C38 -/

/-- C38.  In every reachable state the visible events so far form a run of the two-queue specification, and
a receiver obtains `v` next exactly when `v` is at the head of its specification queue. -/
theorem C38_refines_fifo {st : St P} (h : Reach G st) :
    ∃ Q, fifoRun (noMsgs P) st.trace = some Q ∧
      ∀ e ∈ st.pool, ∀ w t k, e.ty = .recv w t k → ∀ v,
        (∃ st', step G st (.recv e) = some (st', .value v)) ↔ ∃ q, Q e.ep.sid e.ep.side = (t, v) :: q := by
  obtain ⟨Q, q1, -⟩ := (reach_inv h).spec
  refine ⟨Q, q1, fun e he w t k hty v => ?_⟩
  obtain ⟨c, st', o, -, hs, hm⟩ := C04_recv h he hty
  rw [pending_eq q1] at hm
  cases hq : Q e.ep.sid e.ep.side with
  | nil =>
    rw [hq] at hm
    simp only at hm
    constructor
    · rintro ⟨st2, h2⟩
      rw [hs] at h2
      cases h2
      split at hm <;> cases hm.1
    · rintro ⟨q, h2⟩; cases h2
  | cons m q =>
    rw [hq] at hm
    obtain ⟨t', v'⟩ := m
    simp only at hm
    obtain ⟨rfl, ho, -⟩ := hm
    rw [ho] at hs
    constructor
    · rintro ⟨st2, h2⟩
      rw [hs] at h2; cases h2
      exact ⟨q, rfl⟩
    · rintro ⟨q', h2⟩
      cases h2
      exact ⟨_, hs⟩

/-! ## C05 -/

/-- C05, exactly once and in order: on every session and in each direction, the values received so far are
the first of the values sent so far. -/
theorem C05_prefix {st : St P} (h : Reach G st) (sid : Nat) (b : Bool) :
    rcvdBy sid b st.trace <+: sentBy sid (!b) st.trace := by
  obtain ⟨Q, q1, -⟩ := (reach_inv h).spec
  have := fifo_split _ _ _ q1 sid b
  simp only [noMsgs, List.nil_append] at this
  exact ⟨_, this.symm⟩

/-- C05, nothing lost: as long as the receiving side still owns its endpoint and something sent has not been
received, its next `recv` returns the oldest such value, at the type announced by its endpoint. -/
theorem C05_not_lost {st : St P} (h : Reach G st) {e : Entry P} (he : e ∈ st.pool) {w : Option Window} {t : P}
    {k : STy P} (hty : e.ty = .recv w t k)
    (hlt : (rcvdBy e.ep.sid e.ep.side st.trace).length < (sentBy e.ep.sid (!e.ep.side) st.trace).length) :
    ∃ st' v, step G st (.recv e) = some (st', .value v) ∧
      (sentBy e.ep.sid (!e.ep.side) st.trace)[(rcvdBy e.ep.sid e.ep.side st.trace).length]? = some (t, v) := by
  obtain ⟨c, st', o, -, hs, hm⟩ := C04_recv h he hty
  have : pending st.trace e.ep.sid e.ep.side = _ := List.drop_eq_getElem_cons hlt
  rw [this] at hm
  simp only at hm
  refine ⟨st', _, by rw [hs, hm.2.1], ?_⟩
  rw [List.getElem?_eq_getElem hlt, ← hm.1]

theorem acts_take {s : STy P} : ∀ {n : Nat}, (acts s).drop n = acts (dropK n s) := by
  intro n
  induction n with
  | zero => rfl
  | succ n ih =>
    rw [← List.drop_drop, ih]
    simp only [dropK]
    cases dropK n s <;> simp [acts, STy.cont]

theorem sends_append (tr : List (Ev P)) (ev : Ev P) (s : Nat) :
    sends s (tr ++ [ev]) = sends s tr ++ (match ev with
      | .sent s' b t _ => if s' = s then [(b, t)] else []
      | .rcvd _ _ _ _ => []) := by
  unfold sends
  rw [List.filterMap_append]
  congr 1
  cases ev with
  | sent s' b t v => by_cases e : s' = s <;> simp [e]
  | rcvd s' b t v => simp

theorem sends_length (tr : List (Ev P)) (s : Nat) : (sends s tr).length = (hist tr s).length := by
  induction tr with
  | nil => rfl
  | cons ev tr ih =>
    cases ev with
    | sent s' b t v =>
      by_cases e : s' = s
      · simp [sends, hist, e] at *; exact ih
      · simp [sends, hist, e] at *; exact ih
    | rcvd s' b t v => simp [sends, hist] at *; exact ih

/-- A step adds at most one `sent` event, and this one follows the session type. -/
theorem step_sends {st st' : St P} {op : Op P} {o : Out} (inv : Inv G st) (hs : step G st op = some (st', o)) :
    (∀ s, s < st.nsid → st'.proto s = st.proto s) ∧ st.nsid ≤ st'.nsid ∧
    ∀ s, sends s st'.trace = sends s st.trace ∨
      ∃ b t w k, s < st.nsid ∧ sends s st'.trace = sends s st.trace ++ [(b, t)] ∧
        view b (dropK (hist st.trace s).length (st.proto s)) = .send w t k := by
  cases op with
  | new s =>
    simp only [step] at hs
    have a := alloc_spec st s st.nsid 0 true
    cases hs
    refine ⟨fun i hi => ?_, Nat.le_succ _, fun i => Or.inl ?_⟩
    · have : i ≠ st.nsid := by omega
      simp [upd, this]
    · simp only [a.trace]
  | send e v =>
    simp only [step] at hs
    unfold sendStep at hs
    split at hs
    · rename_i w t k c hty hn
      split at hs
      · cases hs
      · split at hs
        · split at hs
          · cases hs
          · rename_i rest htake
            have a := alloc_spec st k e.ep.sid ((st.chan c).idx + 1) e.ep.side
            simp only at hs
            split at hs
            · cases hs; exact ⟨fun _ _ => rfl, Nat.le_refl _, fun _ => Or.inl rfl⟩
            · have hm : e ∈ st.pool := (takeAll_perm _ _ _ htake).mem_iff.2 (by simp)
              have wt := inv.occ e (Or.inl hm)
              have hidx := (snd_facts inv hm hn).2.2.2.2.1
              have hpr := wt.proto
              rw [hty] at hpr
              have hi : idxOf st e.ep = (st.chan c).idx := by simp [idxOf, hn]
              rw [hi, hidx] at hpr
              have hsid := wt.sid
              split at hs <;> cases hs <;> refine ⟨fun _ _ => by simp only [a.proto], by simp only [a.nsid]; exact Nat.le_refl _, fun s => ?_⟩
              · simp only [sends_append]
                by_cases es : e.ep.sid = s
                · subst es
                  exact Or.inr ⟨_, _, w, k, hsid, by rw [if_pos rfl], hpr.symm⟩
                · rw [if_neg es, List.append_nil]; exact Or.inl rfl
              · simp only [sends_append]
                by_cases es : e.ep.sid = s
                · subst es
                  exact Or.inr ⟨_, _, w, k, hsid, by rw [if_pos rfl], hpr.symm⟩
                · rw [if_neg es, List.append_nil]; exact Or.inl rfl
        · cases hs
    · cases hs
  | recv e =>
    simp only [step] at hs
    unfold recvStep at hs
    split at hs
    · split at hs
      · cases hs
      · simp only at hs
        split at hs
        · split at hs
          · cases hs; exact ⟨fun _ _ => rfl, Nat.le_refl _, fun _ => Or.inl rfl⟩
          · split at hs
            · cases hs
              refine ⟨fun _ _ => rfl, Nat.le_refl _, fun s => Or.inl ?_⟩
              simp only [sends_append, List.append_nil]
            · cases hs; exact ⟨fun _ _ => rfl, Nat.le_refl _, fun _ => Or.inl rfl⟩
        · cases hs; exact ⟨fun _ _ => rfl, Nat.le_refl _, fun _ => Or.inl rfl⟩
        · split at hs <;> cases hs <;> exact ⟨fun _ _ => rfl, Nat.le_refl _, fun _ => Or.inl rfl⟩
    · cases hs
  | sigSend e s =>
    simp only [step] at hs
    unfold sigSendStep at hs
    simp only at hs
    repeat' split at hs
    all_goals first | (cases hs; done) | skip
    all_goals cases hs
    all_goals exact ⟨fun _ _ => rfl, Nat.le_refl _, fun _ => Or.inl rfl⟩
  | sigRecv e =>
    simp only [step] at hs
    unfold sigRecvStep at hs
    simp only at hs
    repeat' split at hs
    all_goals first | (cases hs; done) | skip
    all_goals cases hs
    all_goals exact ⟨fun _ _ => rfl, Nat.le_refl _, fun _ => Or.inl rfl⟩
  | drop e =>
    simp only [step] at hs
    split at hs <;> cases hs
    exact ⟨fun _ _ => rfl, Nat.le_refl _, fun _ => Or.inl rfl⟩
  | gc i =>
    simp only [step] at hs
    split at hs <;> cases hs
    rename_i t ht
    cases t <;> exact ⟨fun _ _ => rfl, Nat.le_refl _, fun _ => Or.inl rfl⟩

theorem acts_snoc {s : STy P} {l : List (Bool × P)} {b : Bool} {t : P} {w : Option Window} {k : STy P} (h : l <+: acts s)
    (hv : view b (dropK l.length s) = .send w t k) : l ++ [(b, t)] <+: acts s := by
  obtain ⟨r, hr⟩ := h
  have hd : acts (dropK l.length s) = r := by rw [← acts_take, ← hr, List.drop_left]
  have : ∃ r', r = (b, t) :: r' := by
    rw [← hd]
    cases b with
    | true => rw [show view true (dropK l.length s) = dropK l.length s from rfl] at hv; rw [hv]; exact ⟨_, rfl⟩
    | false =>
      have h2 : dropK l.length s = (STy.send w t k).dual := by rw [← hv]; simp [view, dual_dual]
      rw [h2]; exact ⟨_, rfl⟩
  obtain ⟨r', e⟩ := this
  exact ⟨r', by rw [← hr, e]; simp⟩

theorem sends_proto {st : St P} (h : Reach G st) (s : Nat) : sends s st.trace <+: acts (st.proto s) := by
  induction h with
  | init => exact List.nil_prefix
  | @step st st' op o hr hs ih =>
    have inv := reach_inv hr
    obtain ⟨h1, -, h3⟩ := step_sends inv hs
    have hnew : ¬ s < st.nsid → sends s st.trace = [] := fun hn =>
      List.eq_nil_of_length_eq_zero (by rw [sends_length, inv.hnew s (by omega)]; rfl)
    rcases h3 s with h3 | ⟨b, t, w, k, hlt, h3, hv⟩
    · rw [h3]
      by_cases hlt : s < st.nsid
      · rw [h1 s hlt]; exact ih
      · rw [hnew hlt]; exact List.nil_prefix
    · rw [h3, h1 s hlt]
      rw [← sends_length] at hv
      exact acts_snoc ih hv

/-- C05, right type: on a session created by `S::new()`, whatever happens afterwards, who sends and with
which payload type follows the session type `S` step by step. -/
theorem C05_protocol {st st1 st2 : St P} (h : Reach G st) {s : STy P} {o : Out}
    (hn : step G st (.new s) = some (st1, o)) (hs : Steps G st1 st2) {a : Entry P} (ha : st1.pool.head? = some a) :
    sends a.ep.sid st2.trace <+: acts s := by
  have h1 := h.step hn
  have hsid : a.ep.sid < st1.nsid ∧ st1.proto a.ep.sid = s := by
    simp only [step] at hn
    have al := alloc_spec st s st.nsid 0 true
    cases hn
    simp only [List.head?_cons] at ha
    cases ha
    simp only [al.hid.1]
    exact ⟨Nat.lt_succ_self _, by simp [upd]⟩
  have key : ∀ st2, Steps G st1 st2 → st1.nsid ≤ st2.nsid ∧ st2.proto a.ep.sid = s := by
    intro st2 hs
    induction hs with
    | refl => exact ⟨Nat.le_refl _, hsid.2⟩
    | @step st3 st4 op o' hs' hst ih =>
      have := step_sends (reach_inv (steps_reach h1 hs')) hst
      exact ⟨Nat.le_trans ih.1 this.2.1, by rw [this.1 _ (Nat.lt_of_lt_of_le hsid.1 ih.1)]; exact ih.2⟩
  rw [← (key st2 hs).2]
  exact sends_proto (steps_reach h1 hs) _

/-! ## C02 -/

/-- C02.  `S::new()` always succeeds and returns an endpoint of type `S` and one of type `Dual(S)`.  Their
halves are the two ends of channels that did not exist before, and are empty. -/
theorem C02_new {st : St P} (h : Reach G st) (s : STy P) :
    ∃ st' a b, step G st (.new s) = some (st', .unit) ∧
      st'.pool = ⟨a, s⟩ :: ⟨b, s.dual⟩ :: st.pool ∧
      Joined a b ∧ a.halves ≠ [] ∧
      (∀ t ∈ a.halves ++ b.halves, cnt st t = 0) ∧
      (∀ c, Tok.tx c ∈ a.halves ++ b.halves → (st'.chan c).buf = none) ∧
      a.sid = b.sid ∧ a.side = (!b.side) ∧
      (∀ ev ∈ st'.trace, ∀ sd t v, ev ≠ .sent a.sid sd t v ∧ ev ≠ .rcvd a.sid sd t v) := by
  have inv := reach_inv h
  have al := alloc_spec st s st.nsid 0 true
  refine ⟨_, (alloc st s st.nsid 0 true).2.1, (alloc st s st.nsid 0 true).2.2, rfl, rfl, ?_, ?_, ?_, ?_, ?_, ?_, ?_⟩
  · cases s <;> simp [alloc, Joined, EP.halves, mirror]
    exact List.Perm.swap _ _ _
  · cases s <;> simp [alloc, EP.halves]
  · intro t ht
    have hlt : ∀ c, st.next ≤ c → cnt st (.tx c) = 0 ∧ cnt st (.rx c) = 0 := by
      intro c hc
      have := inv.dead c hc
      rw [inv.ctx, inv.crx, this.1, this.2.1]
      exact ⟨rfl, rfl⟩
    have h0 := hlt st.next (Nat.le_refl _)
    have h1 := hlt (st.next + 1) (Nat.le_succ _)
    cases s <;> simp [alloc, EP.halves] at ht
    · rcases ht with rfl | rfl
      · exact h0.1
      · exact h0.2
    · rcases ht with rfl | rfl
      · exact h0.2
      · exact h0.1
    · rcases ht with rfl | rfl | rfl | rfl
      · exact h0.1
      · exact h1.2
      · exact h1.1
      · exact h0.2
  · intro c hc
    cases s <;> simp [alloc, EP.halves] at hc
    · subst hc; simp [alloc, upd]
    · subst hc; simp [alloc, upd]
    · rcases hc with rfl | rfl <;> simp [alloc, upd]
  · rw [al.hid.1, al.hid.2.2.1]
  · rw [al.hid.2.1, al.hid.2.2.2]; rfl
  · intro ev hev sd t v
    have hev : ev ∈ st.trace := by cases s <;> exact hev
    rw [al.hid.1]
    have hh := inv.hnew st.nsid (Nat.le_refl _)
    obtain ⟨Q, q1, -, -⟩ := inv.spec
    constructor
    · rintro rfl
      have : (t, v) ∈ hist st.trace st.nsid := by
        unfold hist
        rw [List.mem_filterMap]
        exact ⟨_, hev, by simp⟩
      rw [hh] at this; cases this
    · rintro rfl
      have hp := C05_prefix h st.nsid sd
      have h1 : (t, v) ∈ rcvdBy st.nsid sd st.trace := by
        unfold rcvdBy
        rw [List.mem_filterMap]
        exact ⟨_, hev, by simp⟩
      have h2 := hp.subset h1
      have : (t, v) ∈ hist st.trace st.nsid := by
        unfold sentBy at h2
        rw [List.mem_filterMap] at h2
        obtain ⟨ev', h3, h4⟩ := h2
        unfold hist
        rw [List.mem_filterMap]
        refine ⟨ev', h3, ?_⟩
        cases ev' with
        | rcvd _ _ _ _ => cases h4
        | sent s' b' t' v' =>
          simp only at h4 ⊢
          split at h4
          · rename_i hc; rw [if_pos hc.1]; exact h4
          · cases h4
      rw [hh] at this; cases this

/-- C02, first message: after `new()`, whatever happens, if one of the two sides has received something then
the first value it received is the first value the other side sent. -/
theorem C02_first {st st1 st2 : St P} (h : Reach G st) {s : STy P} {o : Out}
    (hn : step G st (.new s) = some (st1, o)) (hs : Steps G st1 st2) {a : Entry P} (ha : st1.pool.head? = some a)
    (b : Bool) {m : P × Val} (hr : (rcvdBy a.ep.sid b st2.trace).head? = some m) :
    (sentBy a.ep.sid (!b) st2.trace).head? = some m := by
  obtain ⟨r, hp⟩ := C05_prefix (steps_reach (h.step hn) hs) a.ep.sid b
  rw [← hp]
  cases hx : rcvdBy a.ep.sid b st2.trace with
  | nil => rw [hx] at hr; cases hr
  | cons y ys => rw [hx] at hr; exact hr

/-! ## C06 -/

/-- C06.  In every reachable state each channel half, and each side of each session, has at most one holder
among client code, undelivered messages and drops in progress. -/
theorem C06_linear {st : St P} (h : Reach G st) (t : Tok) : cnt st t ≤ 1 := by
  have inv := reach_inv h
  cases t with
  | tx c => rw [inv.ctx]; split <;> omega
  | rx c => rw [inv.crx]; split <;> omega
  | idn s b => exact inv.cid s b

/-- C06.  Using an endpoint uses it up: once `send` has been called on an endpoint, or `recv` on it has
returned a value, nobody holds its channel half any more. -/
theorem C06_used_up {st st' : St P} (h : Reach G st) {e : Entry P} {c : Nat} :
    (∀ v o, e.ep.node = .snd c → step G st (.send e v) = some (st', o) → cnt st' (.tx c) = 0) ∧
    (∀ v, e.ep.node = .rcv c → step G st (.recv e) = some (st', .value v) → cnt st' (.rx c) = 0) := by
  constructor
  · intro v o hn hs
    have hu := (C03_never_blocks h hs).1
    have inv' := reach_inv (h.step hs)
    subst hu
    rw [inv'.ctx]
    simp only [step] at hs
    unfold sendStep at hs
    split at hs
    · rename_i w t k c' hty hn'
      rw [hn] at hn'; cases hn'
      split at hs
      · cases hs
      · split at hs
        · split at hs
          · cases hs
          · simp only at hs
            split at hs
            · cases hs
            · split at hs <;> cases hs <;> simp [upd]
        · cases hs
    · cases hs
  · intro v hn hs
    have inv' := reach_inv (h.step hs)
    rw [inv'.crx]
    simp only [step] at hs
    unfold recvStep at hs
    split at hs
    · rename_i w t k c' hty hn'
      rw [hn] at hn'; cases hn'
      split at hs
      · cases hs
      · simp only at hs
        split at hs
        · split at hs
          · cases hs
          · split at hs
            · cases hs; simp [upd]
            · cases hs
        · cases hs
        · split at hs <;> cases hs
    · cases hs

theorem dropK_add {s : STy P} (n m : Nat) : dropK (n + m) s = dropK m (dropK n s) := by
  induction m with
  | zero => rfl
  | succ m ih => exact congrArg STy.cont ih

theorem dropK_view (b : Bool) (n : Nat) (s : STy P) : dropK n (view b s) = view b (dropK n s) := by
  induction n with
  | zero => rfl
  | succ n ih => simp only [dropK, ih, cont_view]

/-- C06, duality.  The two endpoints of a session, wherever they are, always have dual types once each has
received what was already sent to it. -/
theorem C06_dual {st : St P} (h : Reach G st) {e1 e2 : Entry P} (h1 : Prin G st e1) (h2 : Prin G st e2)
    (hs : e1.ep.sid = e2.ep.sid) (hb : e1.ep.side = (!e2.ep.side)) :
    dropK (pending st.trace e1.ep.sid e1.ep.side).length e1.ty =
      (dropK (pending st.trace e2.ep.sid e2.ep.side).length e2.ty).dual := by
  have inv := reach_inv h
  have key : ∀ e, Prin G st e → dropK (pending st.trace e.ep.sid e.ep.side).length e.ty =
      view e.ep.side (dropK (hist st.trace e.ep.sid).length (st.proto e.ep.sid)) := by
    intro e he
    have hle := idx_le inv he.occ
    rw [inv.pend he, (inv.occ e he.occ).proto, dropK_view, ← dropK_add, List.length_drop]
    congr 2; omega
  rw [key e1 h1, key e2 h2, hs, hb, view_not]

/-- C06, connection.  Two endpoints of one session between which nothing is in transit are the two ends of the
same channels and have dual types. -/
theorem C06_connected {st : St P} (h : Reach G st) {e1 e2 : Entry P} (h1 : Prin G st e1) (h2 : Prin G st e2)
    (hs : e1.ep.sid = e2.ep.sid) (hb : e1.ep.side = (!e2.ep.side))
    (p1 : pending st.trace e1.ep.sid e1.ep.side = []) (p2 : pending st.trace e2.ep.sid e2.ep.side = []) :
    Joined e1.ep e2.ep ∧ e1.ty = e2.ty.dual := by
  have inv := reach_inv h
  have hd := C06_dual h h1 h2 hs hb
  rw [p1, p2] at hd
  refine ⟨?_, hd⟩
  have len : ∀ e, Prin G st e → pending st.trace e.ep.sid e.ep.side = [] →
      idxOf st e.ep = (hist st.trace e.ep.sid).length := by
    intro e he hp
    have := inv.pend he
    rw [hp] at this
    have h3 := congrArg List.length this
    simp only [List.length_nil, List.length_drop] at h3
    have := idx_le inv he.occ
    omega
  have l1 := len e1 h1 p1
  have l2 := len e2 h2 p2
  rw [hs, ← l2] at l1
  have t1 := (inv.occ e1 h1.occ).ty
  have t2 := (inv.occ e2 h2.occ).ty
  unfold Joined
  cases n1 : e1.ep.node with
  | snd c =>
    obtain ⟨a1, a2, a3, w, t, s, a4, -⟩ := t1.snd n1
    cases n2 : e2.ep.node with
    | snd c' =>
      obtain ⟨b1, b2, b3, -⟩ := t2.snd n2
      simp only [idxOf, n1, n2] at l1
      rcases inv.uniq c c' a1 b1 (by rw [a2, b2, hs]) l1 with hu | hu
      · subst hu; rw [a3, hb] at b3; simp at b3
      · rw [a4] at hu; cases hu.1
    | rcv c' =>
      obtain ⟨b1, b2, b3, -⟩ := t2.rcv n2
      simp only [idxOf, n1, n2] at l1
      rcases inv.uniq c c' a1 b1 (by rw [a2, b2, hs]) l1 with hu | hu
      · subst hu; simp [EP.halves, n1, n2, mirror]
      · rw [a4] at hu; cases hu.1
    | fin t' r' =>
      obtain ⟨b1, _, b2, _, _, _, b3, -⟩ := t2.fin n2
      simp only [idxOf, n1, n2] at l1
      rcases inv.uniq c t' a1 b1 (by rw [a2, b2, hs]) l1 with hu | hu
      · subst hu; rw [a4] at b3; cases b3
      · rw [a4] at hu; cases hu.1
  | rcv c =>
    obtain ⟨a1, a2, a3, w, t, s, a4, -⟩ := t1.rcv n1
    cases n2 : e2.ep.node with
    | snd c' =>
      obtain ⟨b1, b2, b3, -⟩ := t2.snd n2
      simp only [idxOf, n1, n2] at l1
      rcases inv.uniq c c' a1 b1 (by rw [a2, b2, hs]) l1 with hu | hu
      · subst hu; simp [EP.halves, n1, n2, mirror]
      · rw [a4] at hu; cases hu.1
    | rcv c' =>
      obtain ⟨b1, b2, b3, -⟩ := t2.rcv n2
      simp only [idxOf, n1, n2] at l1
      rcases inv.uniq c c' a1 b1 (by rw [a2, b2, hs]) l1 with hu | hu
      · subst hu; rw [a3, hb] at b3; simp at b3
      · rw [a4] at hu; cases hu.1
    | fin t' r' =>
      obtain ⟨b1, _, b2, _, _, _, b3, -⟩ := t2.fin n2
      simp only [idxOf, n1, n2] at l1
      rcases inv.uniq c t' a1 b1 (by rw [a2, b2, hs]) l1 with hu | hu
      · subst hu; rw [a4] at b3; cases b3
      · rw [a4] at hu; cases hu.1
  | fin t r =>
    obtain ⟨a1, a1', a2, _, a3, _, a4, _, _, a5, a6, -⟩ := t1.fin n1
    cases n2 : e2.ep.node with
    | snd c' =>
      obtain ⟨b1, b2, b3, _, _, _, b4, -⟩ := t2.snd n2
      simp only [idxOf, n1, n2] at l1
      rcases inv.uniq c' t b1 a1 (by rw [a2, b2, hs]) l1.symm with hu | hu
      · subst hu; rw [a4] at b4; cases b4
      · rw [b4] at hu; cases hu.1
    | rcv c' =>
      obtain ⟨b1, b2, b3, _, _, _, b4, -⟩ := t2.rcv n2
      simp only [idxOf, n1, n2] at l1
      rcases inv.uniq c' t b1 a1 (by rw [a2, b2, hs]) l1.symm with hu | hu
      · subst hu; rw [a4] at b4; cases b4
      · rw [b4] at hu; cases hu.1
    | fin t' r' =>
      obtain ⟨b1, _, b2, _, b3, _, _, _, _, b5, b6, -⟩ := t2.fin n2
      simp only [idxOf, n1, n2] at l1
      rcases inv.uniq t t' a1 b1 (by rw [a2, b2, hs]) l1 with hu | hu
      · subst hu; rw [a3, hb] at b3; simp at b3
      · have e1 : r = t' := by rw [← a5]; exact hu.2
        have e2 : r' = t := by rw [← b5, ← e1]; exact a6
        subst e1 e2
        simp only [EP.halves, n1, n2, List.map_cons, List.map_nil, mirror]
        exact List.Perm.swap _ _ _

/-- Concrete case for C02, C05, C06, C38: two sends and one receive on one session. -/
example : ∃ st, Reach demoEnv st ∧ rcvdBy 0 false st.trace = [(0, ⟨0, 7, []⟩)] ∧
    sentBy 0 true st.trace = [(0, ⟨0, 7, []⟩), (0, ⟨0, 8, []⟩)] ∧
    (∃ e1 ∈ st.pool, ∃ e2 ∈ st.pool, e1.ep.sid = e2.ep.sid ∧ e1.ep.side = (!e2.ep.side) ∧ e1.ty ≠ e2.ty.dual) := by
  obtain ⟨st, h1, h2, -, -, h4⟩ := demo_reach
  refine ⟨st, h1, by rw [h4]; rfl, by rw [h4]; rfl, ?_⟩
  rw [h2]
  exact ⟨_, List.mem_cons_self, _, List.mem_cons_of_mem _ List.mem_cons_self, rfl, rfl, by simp [STy.dual]⟩

/-- The hypotheses of `C05_not_lost` are met. -/
example : ∃ st, Reach demoEnv st ∧ (⟨⟨.rcv 1, 0, false⟩, .recv none 0 .fin⟩ : Entry Nat) ∈ st.pool ∧
    (rcvdBy 0 false st.trace).length < (sentBy 0 (!false) st.trace).length := by
  obtain ⟨st, h1, h2, -, -, h4⟩ := demo_reach
  exact ⟨st, h1, by rw [h2]; simp, by rw [h4]; decide⟩

/-- The hypotheses of `C05_protocol` and `C02_first` are met. -/
example : ∃ st1 st2 a, step demoEnv (init Nat) (.new (.send none 0 (.send none 0 .fin))) = some (st1, .unit) ∧
    Steps demoEnv st1 st2 ∧ st1.pool.head? = some a ∧ sends a.ep.sid st2.trace = [(true, 0), (true, 0)] ∧
    (rcvdBy a.ep.sid false st2.trace).head? = some (0, ⟨0, 7, []⟩) :=
  ⟨_, _, _, rfl, runOps_steps (demoOps.drop 1) _ _ _ (.refl _) rfl, rfl, rfl, rfl⟩

/-- The hypotheses of `C06_connected` are met. -/
example : ∃ st, Reach demoEnv st ∧ Prin demoEnv st ⟨⟨.snd 0, 0, true⟩, .send none 0 .fin⟩ ∧
    Prin demoEnv st ⟨⟨.rcv 0, 0, false⟩, .recv none 0 .fin⟩ ∧
    pending st.trace 0 true = [] ∧ pending st.trace 0 false = [] :=
  ⟨_, runOps_reach (ops := [.new (.send none 0 .fin)]) rfl, Or.inl (by simp [alloc, init]),
    Or.inl (by simp [alloc, init, STy.dual]), rfl, rfl⟩

end Verif.Prop
