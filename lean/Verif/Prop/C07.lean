import Verif.Prop.C11
/-!
# C07: cancellation reaches every waiting partner
-/
namespace Verif.Prop
open Verif.Types Verif.Heap Verif.Spec Verif.Choice

variable {P : Type} [DecidableEq P] {G : Env P}

/-- Resources still inside messages or being dropped. -/
def loose (st : St P) : Nat := st.garb.length + sumTo st.next (fun c => (bufToks (st.chan c)).length)

theorem gc_step {st st' : St P} {i : Nat} {o : Out} (hs : step G st (.gc i) = some (st', o)) :
    ∃ t, st.garb[i]? = some t ∧ st' = gcTok { st with garb := st.garb.eraseIdx i } t := by
  simp only [step] at hs
  split at hs <;> cases hs
  exact ⟨_, by assumption, rfl⟩

theorem sum_drop {st : St P} {c : Nat} (hc : c < st.next) (ch : Chan P) (hch : ch.buf = none) (F : List Tok → Nat)
    (hF : F [] = 0) : sumTo st.next (fun j => F (bufToks (upd st.chan c ch j))) + F (bufToks (st.chan c)) =
      sumTo st.next (fun j => F (bufToks (st.chan j))) := by
  have h2 := sumTo_upd (n := st.next) (f := fun j => F (bufToks (upd st.chan c ch j)))
    (g := fun j => F (bufToks (st.chan j))) c hc (fun j _ hj => by simp [upd, hj])
  have h3 : F (bufToks (upd st.chan c ch c)) = 0 := by simp [upd, bufToks, hch, hF]
  omega

theorem gc_loose {st st' : St P} (inv : Inv G st) {i : Nat} {o : Out} (hs : step G st (.gc i) = some (st', o)) :
    loose st = loose st' + 1 := by
  obtain ⟨t, ht, rfl⟩ := gc_step hs
  have hl : (st.garb.eraseIdx i).length + 1 = st.garb.length := by
    obtain ⟨h1, -⟩ := List.getElem?_eq_some_iff.1 ht
    rw [List.length_eraseIdx, if_pos h1]; omega
  unfold loose
  cases t with
  | idn s b => simp only [gcTok]; omega
  | tx c =>
    simp only [gcTok]
    have : sumTo st.next (fun c_1 => (bufToks (upd st.chan c { st.chan c with tx := false } c_1)).length) =
        sumTo st.next (fun c => (bufToks (st.chan c)).length) := by
      apply sumTo_congr
      intro j _
      by_cases e : j = c
      · subst e; simp [upd, bufToks]
      · simp [upd, e]
    rw [this]; omega
  | rx c =>
    simp only [gcTok, List.length_append]
    by_cases hc : c < st.next
    · have h2 := sum_drop hc { st.chan c with rx := false, buf := none } rfl (fun l => l.length) (by simp)
      simp only at h2
      omega
    · have h0 : bufToks (st.chan c) = [] := by simp [bufToks, (inv.dead c (by omega)).2.2]
      have : sumTo st.next (fun j => (bufToks (upd st.chan c { st.chan c with rx := false, buf := none } j)).length) =
          sumTo st.next (fun j => (bufToks (st.chan j)).length) := by
        apply sumTo_congr
        intro j hj
        have : j ≠ c := by omega
        simp [upd, this]
      rw [this, h0]; simp only [List.length_nil]; omega

theorem drains_steps {n : Nat} {st st' : St P} (h : Drains G st n st') : Steps G st st' := by
  induction h with
  | refl => exact .refl _
  | step _ hs ih => exact ih.step hs

/-- C07, drops terminate.  Carrying out drops, in any order, never takes more than `loose st` steps (the
number of resources inside messages or being dropped), and can always be completed. -/
theorem C07_drop_terminates {st : St P} (h : Reach G st) :
    (∀ n st', Drains G st n st' → n ≤ loose st) ∧ ∃ n st', Drains G st n st' ∧ st'.garb = [] := by
  constructor
  · have key : ∀ n st', Drains G st n st' → loose st = loose st' + n := by
      intro n st' hd
      induction hd with
      | refl => rfl
      | step hd' hs ih =>
        have := gc_loose (reach_inv (steps_reach h (drains_steps hd'))) hs
        omega
    intro n st' hd
    have := key n st' hd
    omega
  · have key : ∀ m n st', Drains G st n st' → loose st' ≤ m → ∃ n st'', Drains G st n st'' ∧ st''.garb = [] := by
      intro m
      induction m with
      | zero =>
        intro n st' hd hm
        refine ⟨n, st', hd, ?_⟩
        unfold loose at hm
        exact List.eq_nil_of_length_eq_zero (by omega)
      | succ m ih =>
        intro n st' hd hm
        cases hg : st'.garb with
        | nil => exact ⟨n, st', hd, hg⟩
        | cons t ts =>
          have hs : step G st' (.gc 0) = some (gcTok { st' with garb := st'.garb.eraseIdx 0 } t, .unit) := by
            simp only [step, hg, List.getElem?_cons_zero]
          have := gc_loose (reach_inv (steps_reach h (drains_steps hd))) hs
          exact ih (n + 1) _ (hd.step hs) (by omega)
    exact key _ 0 st .refl (Nat.le_refl _)

theorem gc_count {st : St P} {i : Nat} {t : Tok} (inv : Inv G st) (ht : st.garb[i]? = some t) (t' : Tok) :
    cnt (gcTok { st with garb := st.garb.eraseIdx i } t) t' + (if t = t' then 1 else 0) = cnt st t' := by
  have hcount := count_eraseIdx ht t'
  cases t with
  | idn s b => unfold cnt; simp only [gcTok]; omega
  | tx c =>
    unfold cnt; simp only [gcTok]
    have : sumTo st.next (fun c_1 => (bufToks (upd st.chan c { st.chan c with tx := false } c_1)).count t') =
        sumTo st.next (fun c => (bufToks (st.chan c)).count t') := by
      apply sumTo_congr
      intro j _
      by_cases e : j = c
      · subst e; simp [upd, bufToks]
      · simp [upd, e]
    rw [this]; omega
  | rx c =>
    unfold cnt
    simp only [gcTok, List.count_append]
    by_cases hc : c < st.next
    · have h2 := sum_drop hc { st.chan c with rx := false, buf := none } rfl (fun l => l.count t') (by simp)
      simp only at h2
      omega
    · have h0 : bufToks (st.chan c) = [] := by simp [bufToks, (inv.dead c (by omega)).2.2]
      have : sumTo st.next (fun j => (bufToks (upd st.chan c { st.chan c with rx := false, buf := none } j)).count t') =
          sumTo st.next (fun j => (bufToks (st.chan j)).count t') := by
        apply sumTo_congr
        intro j hj
        have : j ≠ c := by omega
        simp [upd, this]
      rw [this, h0]; simp only [List.count_nil]; omega

theorem mem_eraseIdx_of_ne {l : List Tok} {i : Nat} {t t' : Tok} (hi : l[i]? = some t) (hm : t' ∈ l) (hne : t ≠ t') :
    t' ∈ l.eraseIdx i := by
  have := count_eraseIdx hi t'
  rw [if_neg hne] at this
  have h1 : 0 < l.count t' := List.count_pos_iff.2 hm
  exact List.count_pos_iff.1 (by omega)

theorem doomed_step {st st' : St P} (h : Reach G st) {i : Nat} {o : Out} (hs : step G st (.gc i) = some (st', o))
    {t : Tok} (hd : Doomed st t) : Doomed st' t ∨ cnt st' t = 0 := by
  have inv := reach_inv h
  obtain ⟨tok, htok, rfl⟩ := gc_step hs
  have hcnt := gc_count inv htok
  induction hd with
  | @now t hm =>
    by_cases e : tok = t
    · right
      have h1 := hcnt t
      have h2 := C06_linear h t
      rw [if_pos e] at h1; omega
    · left
      have := mem_eraseIdx_of_ne htok hm e
      cases tok with
      | idn _ _ => exact .now this
      | tx _ => exact .now this
      | rx _ => exact .now (by simp [gcTok, this])
  | @msg c t hm hdc ih =>
    by_cases e : tok = .rx c
    · left; subst e; exact .now (by simp [gcTok, hm])
    · have hb : bufToks ((gcTok { st with garb := st.garb.eraseIdx i } tok).chan c) = bufToks (st.chan c) := by
        cases tok with
        | idn _ _ => rfl
        | tx c' =>
          by_cases e2 : c = c'
          · subst e2; simp [gcTok, upd, bufToks]
          · simp [gcTok, upd, e2]
        | rx c' =>
          have e2 : c ≠ c' := fun hh => e (by rw [hh])
          simp [gcTok, upd, e2]
      rcases ih with ih | ih
      · exact Or.inl (.msg (by rw [hb]; exact hm) ih)
      · exfalso
        have h1 := hcnt (.rx c)
        rw [if_neg e, ih, inv.crx] at h1
        have : (st.chan c).rx = true := by
          unfold bufToks at hm
          cases hbuf : (st.chan c).buf with
          | none => rw [hbuf] at hm; cases hm
          | some m => exact (inv.bufs c m hbuf).1
        rw [this] at h1; simp at h1

/-- C07, drops go all the way down.  When all pending drops have been carried out, every half that was being
dropped, and every half that was inside an undelivered message of a dropped receiver, at any depth, is gone. -/
theorem C07_cascade {st st' : St P} (h : Reach G st) {n : Nat} (hd : Drains G st n st') (hg : st'.garb = [])
    {t : Tok} (ht : Doomed st t) : cnt st' t = 0 := by
  have key : ∀ n st', Drains G st n st' → Doomed st' t ∨ cnt st' t = 0 := by
    intro n st' hd
    induction hd with
    | refl => exact Or.inl ht
    | step hd' hs ih =>
      have hr := steps_reach h (drains_steps hd')
      rcases ih with ih | ih
      · exact doomed_step hr hs ih
      · right
        obtain ⟨tok, htok, rfl⟩ := gc_step hs
        have := gc_count (reach_inv hr) htok t
        omega
  rcases key n st' hd with h1 | h1
  · exfalso
    clear key ht
    induction h1 with
    | now hm => rw [hg] at hm; cases hm
    | msg _ _ ih => exact ih
  · exact h1

/-- C07, the partner is told.  If an endpoint `e` is dropped, then once the drop has been carried out its
partner, if it is waiting on `e`'s channel with nothing pending, gets an error from `recv`. -/
theorem C07_partner_told {st st1 st2 : St P} (h : Reach G st) {e p : Entry P} {c : Nat}
    {o : Out} (hdrop : step G st (.drop e) = some (st1, o)) (hn : e.ep.node = .snd c) {n : Nat}
    (hd : Drains G st1 n st2) (hg : st2.garb = []) (hp : p ∈ st2.pool) (hpn : p.ep.node = .rcv c) :
    ∃ st3, step G st2 (.recv p) = some (st3, .err) := by
  have h1 := h.step hdrop
  have h2 := steps_reach h1 (drains_steps hd)
  have inv := reach_inv h
  have inv2 := reach_inv h2
  have hmem : e ∈ st.pool ∧ st1.garb = e.ep.toks ++ st.garb ∧ st1.trace = st.trace ∧ st1.chan = st.chan ∧ st1.next = st.next := by
    simp only [step] at hdrop
    split at hdrop
    · cases hdrop
    · rename_i rest ht
      cases hdrop
      exact ⟨(takeAll_perm _ _ _ ht).mem_iff.2 (by simp), rfl, rfl, rfl, rfl⟩
  have hz : cnt st2 (.tx c) = 0 := by
    apply C07_cascade h1 hd hg
    apply Doomed.now
    rw [hmem.2.1]
    simp [EP.toks, EP.halves, hn]
  obtain ⟨_, _, _, w, t, s, hk, hty⟩ := (inv2.occ p (Or.inl hp)).ty.rcv hpn
  have hbuf : (st.chan c).buf = none := (snd_facts inv hmem.1 hn).2.2.2.2.2.1
  have hb2 : (st2.chan c).buf = none := by
    have key : ∀ n st', Drains G st1 n st' → (st'.chan c).buf = none := by
      intro n st' hd
      induction hd with
      | refl => rw [hmem.2.2.2.1]; exact hbuf
      | step _ hs ih =>
        obtain ⟨tok, htok, rfl⟩ := gc_step hs
        cases tok with
        | idn _ _ => exact ih
        | tx c' => by_cases e : c = c' <;> simp [gcTok, upd, e] <;> (try subst e) <;> exact ih
        | rx c' => by_cases e : c = c' <;> simp [gcTok, upd, e]; exact ih
    exact key n st2 hd
  have htx : (st2.chan c).tx = false := by
    rw [inv2.ctx] at hz
    cases hx : (st2.chan c).tx
    · rfl
    · rw [hx] at hz; simp at hz
  have htake : takeAll st2.pool [p] = some (st2.pool.erase p) := by simp [takeAll, hp]
  exact ⟨_, by simp only [step, recvStep, hty, hpn, htake, hb2, htx]; rfl⟩

/-- A half inside a message, when messages are only nested forward, can be reached by client code. -/
theorem live_of_rank {st : St P} (h : Reach G st) (hg : st.garb = []) (rank : Nat → Nat)
    (hr : ∀ c c', Tok.rx c' ∈ bufToks (st.chan c) → rank c < rank c') :
    ∀ (n : Nat) (c : Nat), rank c ≤ n → 0 < cnt st (.rx c) → Live st (.rx c) := by
  have inv := reach_inv h
  intro n
  induction n with
  | zero =>
    intro c hc hp
    rcases cnt_cases hp with h1 | ⟨c', hc', h1⟩ | h1
    · obtain ⟨e, he, ht⟩ := pool_half h1 (by simp)
      exact .pool he ht
    · have := hr c' c h1; omega
    · rw [hg] at h1; cases h1
  | succ n ih =>
    intro c hc hp
    rcases cnt_cases hp with h1 | ⟨c', hc', h1⟩ | h1
    · obtain ⟨e, he, ht⟩ := pool_half h1 (by simp)
      exact .pool he ht
    · have hlt := hr c' c h1
      refine .msg h1 (ih c' (by omega) ?_)
      have : (st.chan c').rx = true := by
        unfold bufToks at h1
        cases hbuf : (st.chan c').buf with
        | none => rw [hbuf] at h1; cases h1
        | some m => exact (inv.bufs c' m hbuf).1
      rw [inv.crx, this]; simp
    · rw [hg] at h1; cases h1

/-- C07, nobody waits for a message nobody can send, provided messages are not nested in a cycle (`rank`):
when no drop is in progress, a client's `recv` returns its value, or an error, or the sending half it waits
for can still be reached by client code. The full property, without `rank`, is false: `C07_cycle_leaks`. -/
theorem C07_waiting_partial {st : St P} (h : Reach G st) (hg : st.garb = []) (rank : Nat → Nat)
    (hr : ∀ c c', Tok.rx c' ∈ bufToks (st.chan c) → rank c < rank c')
    {e : Entry P} (he : e ∈ st.pool) {w : Option Window} {t : P} {k : STy P} (hty : e.ty = .recv w t k) :
    ∃ st' o, step G st (.recv e) = some (st', o) ∧
      ((∃ v, o = .value v) ∨ o = .err ∨ (o = .block ∧ ∃ c, e.ep.node = .rcv c ∧ Live st (.tx c))) := by
  obtain ⟨c, st', o, hn, hs, hm⟩ := C04_recv h he hty
  refine ⟨st', o, hs, ?_⟩
  split at hm
  · exact Or.inl ⟨_, hm.2.1⟩
  · split at hm
    · rename_i hp
      refine Or.inr (Or.inr ⟨hm.1, c, hn, ?_⟩)
      have inv := reach_inv h
      rcases cnt_cases hp with h1 | ⟨c', hc', h1⟩ | h1
      · obtain ⟨e', he', ht⟩ := pool_half h1 (by simp)
        exact .pool he' ht
      · refine .msg h1 (live_of_rank h hg rank hr _ c' (Nat.le_refl _) ?_)
        have : (st.chan c').rx = true := by
          unfold bufToks at h1
          cases hbuf : (st.chan c').buf with
          | none => rw [hbuf] at h1; cases h1
          | some m => exact (inv.bufs c' m hbuf).1
        rw [inv.crx, this]; simp
      · rw [hg] at h1; cases h1
    · exact Or.inr (Or.inl hm.1)

theorem freshReach_reach {st : St P} (h : FreshReach G st) : Reach G st := by
  induction h with
  | init => exact .init
  | step _ _ hs ih => exact ih.step hs

/-- Messages nested only forward in a state. -/
def Forward (st : St P) : Prop := ∀ c c', Tok.rx c' ∈ bufToks (st.chan c) → c < c'

theorem forward_upd {st : St P} (hf : Forward st) {c : Nat} {ch : Chan P} {f : Nat → Chan P}
    (hold : ∀ i, i ≠ c → bufToks (f i) = [] ∨ f i = st.chan i) (hc : f c = ch)
    (hn : ∀ c', Tok.rx c' ∈ bufToks ch → c < c') : ∀ i c', Tok.rx c' ∈ bufToks (f i) → i < c' := by
  intro i c' hm
  by_cases e : i = c
  · subst e; rw [hc] at hm; exact hn c' hm
  · rcases hold i e with h | h
    · rw [h] at hm; cases hm
    · rw [h] at hm; exact hf i c' hm

theorem fresh_forward {st : St P} (h : FreshReach G st) : Forward st := by
  induction h with
  | init => intro c c' hm; cases hm
  | @step st st' op o hr hf hs ih =>
    have inv := reach_inv (freshReach_reach hr)
    cases op with
    | new s =>
      simp only [step] at hs
      have a := alloc_spec st s st.nsid 0 true
      cases hs
      intro c c' hm
      simp only at hm
      by_cases e1 : c < st.next
      · rw [a.old c e1] at hm; exact ih c c' hm
      · by_cases e2 : c < (alloc st s st.nsid 0 true).1.next
        · simp [bufToks, (a.new c (by omega) e2).1] at hm
        · rw [a.out c (by omega)] at hm; exact ih c c' hm
    | send e v =>
      have hu := (C03_never_blocks (freshReach_reach hr) hs).1
      subst hu
      simp only [step] at hs
      unfold sendStep at hs
      split at hs
      · rename_i w t k c hty hn
        split at hs
        · cases hs
        · split at hs
          · split at hs
            · cases hs
            · rename_i rest htake
              have hm : e ∈ st.pool := (takeAll_perm _ _ _ htake).mem_iff.2 (by simp)
              have hcn := (snd_facts inv hm hn).1
              have a := alloc_spec st k e.ep.sid ((st.chan c).idx + 1) e.ep.side
              have hold : ∀ (x : Chan P) (i : Nat), i ≠ c →
                  bufToks (upd (alloc st k e.ep.sid ((st.chan c).idx + 1) e.ep.side).1.chan c x i) = [] ∨
                  upd (alloc st k e.ep.sid ((st.chan c).idx + 1) e.ep.side).1.chan c x i = st.chan i := by
                intro x i hi
                simp only [upd, hi, if_false]
                by_cases e1 : i < st.next
                · exact Or.inr (a.old i e1)
                · by_cases e2 : i < (alloc st k e.ep.sid ((st.chan c).idx + 1) e.ep.side).1.next
                  · left; simp [bufToks, (a.new i (by omega) e2).1]
                  · exact Or.inr (a.out i (by omega))
              simp only at hs
              split at hs
              · cases hs
              · split at hs
                · cases hs
                  refine forward_upd ih (c := c) (hold _) (if_pos rfl) ?_
                  intro c' hm'
                  simp only [bufToks, Msg.toks, List.mem_append, Val.toks, List.mem_flatMap] at hm'
                  rcases hm' with ⟨f, hf1, hf2⟩ | hm'
                  · refine hf c hn f hf1 c' ?_
                    simpa [EP.toks] using hf2
                  · have h1 := a.hrx c'
                    have h2 : 0 < (alloc st k e.ep.sid ((st.chan c).idx + 1) e.ep.side).2.2.halves.count (.rx c') :=
                      List.count_pos_iff.2 hm'
                    split at h1
                    · rename_i hh; omega
                    · omega
                · cases hs
                  refine forward_upd ih (c := c) (hold _) (if_pos rfl) ?_
                  intro c' hm'
                  exact ih c c' hm'
          · cases hs
      · cases hs
    | recv e =>
      simp only [step] at hs
      unfold recvStep at hs
      simp only at hs
      repeat' split at hs
      all_goals first | (cases hs; done) | skip
      all_goals cases hs
      all_goals try exact ih
      refine forward_upd ih (fun i hi => Or.inr (if_neg hi)) (if_pos rfl) (by intro c' hm'; simp [bufToks] at hm')
    | sigSend e s =>
      simp only [step] at hs
      unfold sigSendStep at hs
      split at hs
      · rename_i t r hty hn
        split at hs
        · split at hs
          · rename_i f
            split at hs
            · cases hs
            · simp only at hs
              split at hs
              · split at hs
                · cases hs; exact ih
                · cases hs
                  refine forward_upd ih (c := t) (fun i hi => Or.inr (if_neg hi)) (if_pos rfl) ?_
                  intro c' hm'
                  refine hf t r hn c' ?_
                  simpa [bufToks, Msg.toks, EP.toks] using hm'
              · cases hs; exact ih
          · rename_i s' hno
            simp only at hs
            split at hs
            · split at hs
              · cases hs; exact ih
              · cases hs
                refine forward_upd ih (c := t) (fun i hi => Or.inr (if_neg hi)) (if_pos rfl) ?_
                intro c' hm'
                cases s with
                | offer f => exact absurd rfl (hno f)
                | stop => simp [bufToks, Msg.toks] at hm'
                | cancel => simp [bufToks, Msg.toks] at hm'
            · cases hs; exact ih
        · cases hs
      · cases hs
    | sigRecv e =>
      simp only [step] at hs
      unfold sigRecvStep at hs
      split at hs
      · rename_i t r hty hn
        split at hs
        · simp only at hs
          split at hs
          · cases hs
            refine forward_upd ih (c := r) (fun i hi => Or.inr (if_neg hi)) (if_pos rfl) ?_
            intro c' hm'
            simp [bufToks] at hm'
          · cases hs; exact ih
          · split at hs <;> cases hs <;> exact ih
        · cases hs
      · cases hs
    | drop e =>
      simp only [step] at hs
      split at hs <;> cases hs
      exact ih
    | gc i =>
      obtain ⟨tok, htok, rfl⟩ := gc_step hs
      cases tok with
      | idn _ _ => exact ih
      | tx c =>
        refine forward_upd ih (c := c) (fun i hi => Or.inr (if_neg hi)) (if_pos rfl) ?_
        intro c' hm'
        exact ih c c' hm'
      | rx c =>
        refine forward_upd ih (c := c) (fun i hi => Or.inr (if_neg hi)) (if_pos rfl) ?_
        intro c' hm'
        simp [bufToks] at hm'

/-- C07 for clients that pass on only endpoints newer than the channel they are sent over: nobody waits for a
message nobody can send. -/
theorem C07_waiting_fresh {st : St P} (h : FreshReach G st) (hg : st.garb = [])
    {e : Entry P} (he : e ∈ st.pool) {w : Option Window} {t : P} {k : STy P} (hty : e.ty = .recv w t k) :
    ∃ st' o, step G st (.recv e) = some (st', o) ∧
      ((∃ v, o = .value v) ∨ o = .err ∨ (o = .block ∧ ∃ c, e.ep.node = .rcv c ∧ Live st (.tx c))) :=
  C07_waiting_partial (freshReach_reach h) hg id (fresh_forward h) he hty

/-- A run in which a receiver is passed over its own channel. -/
def leakOps : List (Op Nat) :=
  [ .new (.send none 2 .fin), .new (.send none 0 .fin),
    .send ⟨⟨.snd 0, 0, true⟩, .send none 2 .fin⟩ ⟨0, 0, [⟨.rcv 0, 0, false⟩, ⟨.snd 1, 1, true⟩]⟩ ]

/-- The full C07 is false.  A payload type may contain a receiver of itself; if a receiver is sent over its
own channel, the message can never be taken out, never dropped, and the endpoints it contains stay alive
for ever: here a client waits for a message nobody can send, although no drop is in progress. -/
theorem C07_cycle_leaks : ∃ (st : St Nat) (e : Entry Nat) (c : Nat), Reach demoEnv st ∧ st.garb = [] ∧
    e ∈ st.pool ∧ e.ep.node = .rcv c ∧ step demoEnv st (.recv e) = some (st, .block) ∧ ¬ Live st (.tx c) := by
  refine ⟨_, ⟨⟨.rcv 1, 1, false⟩, .recv none 0 .fin⟩, 1, runOps_reach (ops := leakOps) rfl, rfl, by decide, rfl, rfl, ?_⟩
  intro hl
  generalize h0 : Tok.tx 1 = tok at hl
  have htok : tok = .tx 1 ∨ tok = .rx 0 := Or.inl h0.symm
  clear h0
  induction hl with
  | pool he ht =>
    simp [alloc, init, STy.dual] at he
    rcases he with rfl | rfl <;> simp [EP.halves] at ht <;> rcases htok with rfl | rfl <;> simp at ht
  | @msg c t hm _ ih =>
    apply ih
    right
    match c, hm with
    | 0, _ => rfl
    | 1, hm => simp [alloc, init, upd, bufToks] at hm
    | 2, hm => simp [alloc, init, upd, bufToks] at hm
    | 3, hm => simp [alloc, init, upd, bufToks] at hm
    | c + 4, hm => simp [alloc, init, upd, bufToks, noChan] at hm

/-- The hypotheses of `C07_waiting_fresh` are met, with a client waiting for a sender inside a message. -/
example : ∃ st, FreshReach demoEnv st ∧ st.garb = [] ∧
    (⟨⟨.snd 1, 1, true⟩, .send none 0 (.send none 1 .fin)⟩ : Entry Nat) ∈ st.pool ∧
    (∃ e ∈ st.pool, e.ty = .recv none 1 .fin) := by
  refine ⟨_, .step (.step (.step .init trivial
    (op := .new (.send none 1 .fin)) rfl) trivial (op := .new (.send none 0 (.send none 1 .fin))) rfl)
    (op := .send ⟨⟨.snd 0, 0, true⟩, .send none 1 .fin⟩ ⟨0, 0, [⟨.rcv 1, 1, false⟩]⟩) ?_ rfl, rfl, by decide, ?_⟩
  · intro c hc f hf c' hc'
    simp at hc hf; subst hc hf
    simp [EP.halves] at hc'; omega
  · exact ⟨⟨⟨.rcv 0, 0, false⟩, .recv none 1 .fin⟩, by decide, rfl⟩

/-- The hypotheses of `C07_cascade` and `C07_partner_told` are met: the sender is dropped, the drop is carried
out, and the partner still holds its receiver. -/
example : ∃ st st1 st2, Reach demoEnv st ∧
    step demoEnv st (.drop ⟨⟨.snd 0, 0, true⟩, .send none 0 .fin⟩) = some (st1, .unit) ∧
    Drains demoEnv st1 2 st2 ∧ st2.garb = [] ∧ Doomed st1 (.tx 0) ∧
    (⟨⟨.rcv 0, 0, false⟩, .recv none 0 .fin⟩ : Entry Nat) ∈ st2.pool :=
  ⟨_, _, _, runOps_reach (ops := [.new (.send none 0 .fin)]) rfl, rfl,
    .step (.step .refl (i := 0) rfl) (i := 0) rfl, rfl, .now (by decide), by decide⟩

end Verif.Prop
