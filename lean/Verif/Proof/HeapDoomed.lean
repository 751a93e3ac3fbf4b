import Verif.Proof.RuntimeHeap
/-!
# Resources that are bound to be dropped
-/
namespace Verif.Heap
open Verif.Types Verif.Spec

set_option linter.unusedSectionVars false
variable {P : Type} [DecidableEq P] {G : Env P}

/-- Nobody can reach the resource any more: its drop is pending, or it is inside a message that nobody can receive any
more. -/
inductive Adrift (st : St P) : Tok → Prop
  | garb {t} : t ∈ st.garb → Adrift st t
  | inside {c t} : c < st.next → t ∈ bufToks (st.chan c) → Adrift st (.rx c) → Adrift st t

theorem Adrift.none {st : St P} (hg : st.garb = []) {t} : ¬ Adrift st t := by
  intro h
  induction h with
  | garb h => rw [hg] at h; cases h
  | inside _ _ _ ih => exact ih

theorem Adrift.not_pool {st : St P} (inv : Inv G st) {c} (h : Adrift st (.rx c)) : ∀ e ∈ st.pool, Tok.rx c ∉ e.ep.halves := by
  intro e he hm
  have h1 := inv.crx c
  have h2 := count_mem_pool he (halves_sub hm)
  have : 2 ≤ cnt st (.rx c) := by
    unfold cnt
    cases h with
    | garb hg => have : 1 ≤ st.garb.count (.rx c) := List.count_pos_iff.2 hg; omega
    | inside hc hb _ => have := count_mem_buf hc hb; omega
  split at h1 <;> omega

theorem toks_isSome {ch : Chan P} {t} (h : t ∈ bufToks ch) : ch.buf.isSome := by
  unfold bufToks at h; split at h
  · rename_i e; simp [e]
  · cases h

theorem toks_buf {ch ch' : Chan P} (h : ch'.buf = ch.buf) : bufToks ch' = bufToks ch := by
  unfold bufToks; rw [h]

/-- What one call does to the channels there are. -/
structure Aged (st st' : St P) : Prop where
  next : st.next ≤ st'.next
  tx : ∀ c, c < st.next → (st.chan c).tx = false → (st'.chan c).tx = false
  rx : ∀ c, c < st.next → (st.chan c).rx = false → (st'.chan c).rx = false
  garb : ∀ t, t ∈ st.garb → t ∈ st'.garb ∨ ((∀ c, t = .tx c → (st'.chan c).tx = false) ∧ ∀ c, t = .rx c → (st'.chan c).rx = false)
  buf : ∀ c t, c < st.next → (∀ e ∈ st.pool, Tok.rx c ∉ e.ep.halves) → t ∈ bufToks (st.chan c) →
    t ∈ bufToks (st'.chan c) ∨ t ∈ st'.garb

theorem Aged.refl (st : St P) : Aged st st :=
  ⟨Nat.le_refl _, fun _ _ h => h, fun _ _ h => h, fun _ h => .inl h, fun _ _ _ _ h => .inl h⟩

theorem aged_step {st st' : St P} (inv : Inv G st) {op o} (hs : step G st op = some (st', o)) : Aged st st' := by
  cases op with
  | new s =>
    simp only [step] at hs
    cases hs
    have a := alloc_spec st s st.nsid 0 true
    refine ⟨by simp only; have := a.next; omega, ?_, ?_, ?_, ?_⟩
    · intro c hc h; simp only; rw [a.old c hc]; exact h
    · intro c hc h; simp only; rw [a.old c hc]; exact h
    · intro t ht; left; simp only; rw [a.garb]; exact ht
    · intro c t hc _ ht; left; simp only; rw [a.old c hc]; exact ht
  | send e v =>
    simp only [step] at hs
    unfold sendStep at hs
    split at hs
    · rename_i w ty k c0 hty hn
      split at hs
      · cases hs
      · split at hs
        · split at hs
          · cases hs
          · rename_i rest htake
            simp only at hs
            split at hs
            · cases hs; exact .refl _
            · rename_i hnb
              have a := alloc_spec st k e.ep.sid ((st.chan c0).idx + 1) e.ep.side
              have hne : ∀ c t, t ∈ bufToks (st.chan c) → c ≠ c0 := by
                rintro c t ht rfl
                have := toks_isSome ht
                cases hb : (st.chan c).buf with
                | none => rw [hb] at this; cases this
                | some m => apply hnb; simp [(inv.bufs c m hb).1, hb]
              split at hs
              · cases hs
                refine ⟨by simp only; have := a.next; omega, ?_, ?_, ?_, ?_⟩
                · intro c hc h
                  by_cases e1 : c = c0
                  · subst e1; simp [upd]
                  · simp only [upd, e1, if_false]; rw [a.old c hc]; exact h
                · intro c hc h
                  by_cases e1 : c = c0
                  · subst e1; simp [upd, h]
                  · simp only [upd, e1, if_false]; rw [a.old c hc]; exact h
                · intro t ht; left; simp only; rw [a.garb]; exact ht
                · intro c t hc _ ht; left
                  simp only [upd, hne c t ht, if_false]; rw [a.old c hc]; exact ht
              · cases hs
                refine ⟨by simp only; have := a.next; omega, ?_, ?_, ?_, ?_⟩
                · intro c hc h
                  by_cases e1 : c = c0
                  · subst e1; simp [upd]
                  · simp only [upd, e1, if_false]; rw [a.old c hc]; exact h
                · intro c hc h
                  by_cases e1 : c = c0
                  · subst e1; simp [upd, h]
                  · simp only [upd, e1, if_false]; rw [a.old c hc]; exact h
                · intro t ht; left; simp [ht]
                · intro c t hc _ ht; left
                  simp only [upd, hne c t ht, if_false]; rw [a.old c hc]; exact ht
        · cases hs
    · cases hs
  | recv e =>
    simp only [step] at hs
    unfold recvStep at hs
    split at hs
    · rename_i w ty k c0 hty hn
      split at hs
      · cases hs
      · rename_i rest htake
        have hmem : e ∈ st.pool := (takeAll_perm _ _ _ htake).mem_iff.2 (by simp)
        have hh : Tok.rx c0 ∈ e.ep.halves := by simp [EP.halves, hn]
        simp only at hs
        repeat' (split at hs)
        all_goals first
          | (cases hs; done)
          | (cases hs; exact .refl _)
          | (cases hs
             refine ⟨Nat.le_refl _, ?_, ?_, ?_, ?_⟩
             · intro c hc h
               by_cases e1 : c = c0
               · subst e1; simp [upd, h]
               · simp [upd, e1, h]
             · intro c hc h
               by_cases e1 : c = c0
               · subst e1; simp [upd, h]
               · simp [upd, e1, h]
             · intro t ht; left; simp [ht]
             · intro c t hc hno ht; left
               by_cases e1 : c = c0
               · subst e1; exact absurd hh (hno e hmem)
               · simp [upd, e1, ht])
    · cases hs
  | sigSend e s =>
    simp only [step] at hs
    unfold sigSendStep at hs
    split at hs
    · rename_i c0 r0 hty hn
      split at hs
      · have key : ∀ b, ¬ ((st.chan c0).rx = true ∧ (st.chan c0).buf.isSome) → ∀ p : List (Entry P),
            Aged st { st with chan := upd st.chan c0 { st.chan c0 with buf := b }, pool := p } := by
          intro b hnb p
          refine ⟨Nat.le_refl _, ?_, ?_, fun t ht => .inl ht, ?_⟩
          · intro c hc h
            by_cases e1 : c = c0
            · subst e1; simp [upd, h]
            · simp [upd, e1, h]
          · intro c hc h
            by_cases e1 : c = c0
            · subst e1; simp [upd, h]
            · simp [upd, e1, h]
          · intro c t hc _ ht
            left
            have : c ≠ c0 := by
              rintro rfl
              have := toks_isSome ht
              cases hb : (st.chan c).buf with
              | none => rw [hb] at this; cases this
              | some m => exact hnb ⟨(inv.bufs c m hb).1, by simp [hb]⟩
            simp [upd, this, ht]
        have key2 : ∀ (p : List (Entry P)) (l : List Tok), Aged st { st with pool := p, garb := l ++ st.garb } := by
          intro p l
          exact ⟨Nat.le_refl _, fun _ _ h => h, fun _ _ h => h, fun t ht => .inl (by simp [ht]), fun _ _ _ _ h => .inl h⟩
        split at hs
        · split at hs
          · cases hs
          · simp only at hs
            split at hs
            · split at hs
              · cases hs; exact .refl _
              · rename_i hb; cases hs; exact key _ (fun h => hb h.2) _
            · cases hs; exact key2 _ _
        · simp only at hs
          split at hs
          · split at hs
            · cases hs; exact .refl _
            · rename_i hb; cases hs; exact key _ (fun h => hb h.2) _
          · cases hs; exact .refl _
      · cases hs
    · cases hs
  | sigRecv e =>
    simp only [step] at hs
    unfold sigRecvStep at hs
    split at hs
    · rename_i t0 c0 hty hn
      split at hs
      · rename_i hmem
        have hh : Tok.rx c0 ∈ e.ep.halves := by simp [EP.halves, hn]
        simp only at hs
        repeat' (split at hs)
        all_goals first
          | (cases hs; done)
          | (cases hs; exact .refl _)
          | (cases hs
             refine ⟨Nat.le_refl _, ?_, ?_, ?_, ?_⟩
             · intro c hc h
               by_cases e1 : c = c0
               · subst e1; simp [upd, h]
               · simp [upd, e1, h]
             · intro c hc h
               by_cases e1 : c = c0
               · subst e1; simp [upd, h]
               · simp [upd, e1, h]
             · intro t ht; left; simp [ht]
             · intro c t hc hno ht; left
               by_cases e1 : c = c0
               · subst e1; exact absurd hh (hno e hmem)
               · simp [upd, e1, ht])
      · cases hs
    · cases hs
  | drop e =>
    simp only [step] at hs
    split at hs
    · cases hs
    · cases hs
      exact ⟨Nat.le_refl _, fun _ _ h => h, fun _ _ h => h, fun t ht => .inl (by simp [ht]), fun _ _ _ _ h => .inl h⟩
  | gc i =>
    simp only [step] at hs
    split at hs
    · cases hs
    · rename_i tok hi
      cases hs
      have herase : ∀ t, t ∈ st.garb → t ∈ st.garb.eraseIdx i ∨ t = tok := by
        intro t ht
        obtain ⟨j, hj, rfl⟩ := List.getElem_of_mem ht
        by_cases e1 : j = i
        · subst e1; right; rw [List.getElem?_eq_getElem hj] at hi; exact Option.some.inj hi
        · left
          exact List.mem_eraseIdx_iff_getElem?.2 ⟨j, e1, List.getElem?_eq_getElem hj⟩
      cases tok with
      | idn s b =>
        refine ⟨Nat.le_refl _, fun _ _ h => h, fun _ _ h => h, fun t ht => ?_, fun _ _ _ _ h => .inl h⟩
        rcases herase t ht with h | rfl
        · exact .inl h
        · exact .inr ⟨by simp, by simp⟩
      | tx c0 =>
        refine ⟨Nat.le_refl _, ?_, ?_, fun t ht => ?_, ?_⟩
        · intro c hc h; simp only [gcTok, upd]; split <;> simp [h]
        · intro c hc h; simp only [gcTok, upd]; split
          · rename_i e; subst e; exact h
          · exact h
        · rcases herase t ht with h | rfl
          · exact .inl h
          · exact .inr ⟨fun c hc => by cases hc; simp [gcTok, upd], by simp⟩
        · intro c t hc _ ht
          left
          simp only [gcTok, upd]; split
          · rename_i e; subst e; exact ht
          · exact ht
      | rx c0 =>
        refine ⟨Nat.le_refl _, ?_, ?_, fun t ht => ?_, ?_⟩
        · intro c hc h; simp only [gcTok, upd]; split
          · rename_i e; subst e; exact h
          · exact h
        · intro c hc h; simp only [gcTok, upd]; split <;> simp [h]
        · rcases herase t ht with h | rfl
          · exact .inl (by simp [gcTok, h])
          · exact .inr ⟨by simp, fun c hc => by cases hc; simp [gcTok, upd]⟩
        · intro c t hc _ ht
          by_cases e1 : c = c0
          · subst e1; right; simp [gcTok, ht]
          · left; simp [gcTok, upd, e1, ht]

/-- All halves of the endpoint are bound to be dropped. -/
def Lost (st : St P) (e : Entry P) : Prop := ∀ t ∈ e.ep.halves, Adrift st t

theorem Inv.held' {st : St P} (h : Inv G st) {t : Tok} (hp : 0 < cnt st t) (hh : ∀ s b, t ≠ .idn s b) :
    Adrift st t ∨ ∃ e, Occ G st e ∧ t ∈ e.ep.halves := by
  by_cases hg : t ∈ st.garb
  · exact .inl (.garb hg)
  · exact .inr (h.held hp hg hh)

/-- Every endpoint inside a message is the future of a current endpoint of its side, and lost if that one is; or it is lost
anyway. -/
theorem Inv.root' {st : St P} (h : Inv G st) : ∀ (n : Nat) (e : Entry P), Occ G st e → idxOf st e.ep ≤ n →
    Lost st e ∨ ∃ e', Prin G st e' ∧ e'.ep.sid = e.ep.sid ∧ e'.ep.side = e.ep.side ∧
      idxOf st e'.ep ≤ idxOf st e.ep ∧ (Lost st e' → Lost st e) := by
  intro n
  induction n with
  | zero =>
    intro e he hn
    rcases he with he | ⟨c, hc, he⟩
    · exact .inr ⟨e, Or.inl he, rfl, rfl, Nat.le_refl _, id⟩
    · rcases bufEntries_cases he with he | ⟨v, w, t, hb, hk⟩
      · exact .inr ⟨e, Or.inr ⟨c, hc, he⟩, rfl, rfl, Nat.le_refl _, id⟩
      · have hok := (h.bufs c _ hb).2
        simp only [MsgOk] at hok
        obtain ⟨_, _, _, _, _, _, _, _, _, _, h7⟩ := hok
        omega
  | succ n ih =>
    intro e he hn
    rcases he with he | ⟨c, hc, he⟩
    · exact .inr ⟨e, Or.inl he, rfl, rfl, Nat.le_refl _, id⟩
    · have hin : Adrift st (.rx c) → Lost st e := fun hd t ht => .inside hc (mem_bufEntries_toks he ht) hd
      rcases bufEntries_cases he with he | ⟨v, w, t, hb, hk⟩
      · exact .inr ⟨e, Or.inr ⟨c, hc, he⟩, rfl, rfl, Nat.le_refl _, id⟩
      · have hok := (h.bufs c _ hb)
        have hrx := hok.1
        have hok := hok.2
        simp only [MsgOk] at hok
        obtain ⟨_, _, _, _, _, _, _, _, h5, h6, h7⟩ := hok
        have hcnt : 0 < cnt st (.rx c) := by rw [h.crx, hrx]; simp
        rcases h.held' hcnt (by simp) with hd | ⟨e2, he2, hm⟩
        · exact .inl (hin hd)
        have hnode : e2.ep.node = .rcv c := by
          unfold EP.halves at hm
          cases hn2 : e2.ep.node with
          | snd c' => rw [hn2] at hm; simp at hm
          | rcv c' => rw [hn2] at hm; simp at hm; rw [hm]
          | fin t' r' =>
            rw [hn2] at hm; simp at hm
            have := ((h.occ e2 he2).ty.fin hn2).2.2.2.2.2.2.2.1
            rw [← hm, hk] at this; cases this
        obtain ⟨_, g2, g3, _⟩ := (h.occ e2 he2).ty.rcv hnode
        have hi : idxOf st e2.ep = (st.chan c).idx := by simp [idxOf, hnode]
        rcases ih e2 he2 (by omega) with hl | ⟨e', p1, p2, p3, p4, p5⟩
        · exact .inl (hin (hl _ hm))
        · exact .inr ⟨e', p1, by rw [p2, h5, g2], by rw [p3, h6, g3, Bool.not_not], by omega, fun hl => hin (p5 hl _ hm)⟩

/-- The half has been dropped. -/
def Dropped (st : St P) (t : Tok) : Prop :=
  (∀ c, t = .tx c → c < st.next ∧ (st.chan c).tx = false) ∧ ∀ c, t = .rx c → c < st.next ∧ (st.chan c).rx = false

theorem tx_lt {st : St P} (inv : Inv G st) {c} (h : 0 < cnt st (.tx c)) : c < st.next := by
  rw [inv.ctx] at h
  refine Decidable.byContradiction fun hn => ?_
  rw [(inv.dead c (by omega)).1] at h
  cases h

theorem rx_lt {st : St P} (inv : Inv G st) {c} (h : 0 < cnt st (.rx c)) : c < st.next := by
  rw [inv.crx] at h
  refine Decidable.byContradiction fun hn => ?_
  rw [(inv.dead c (by omega)).2.1] at h
  cases h

theorem garb_cnt {st : St P} {t : Tok} (h : t ∈ st.garb) : 0 < cnt st t := by
  have : 0 < st.garb.count t := List.count_pos_iff.2 h
  unfold cnt; omega

theorem Dropped.aged {st st' : St P} (ag : Aged st st') {t : Tok} (h : Dropped st t) : Dropped st' t := by
  refine ⟨fun c hc => ?_, fun c hc => ?_⟩
  · obtain ⟨h1, h2⟩ := h.1 c hc
    exact ⟨Nat.lt_of_lt_of_le h1 ag.next, ag.tx c h1 h2⟩
  · obtain ⟨h1, h2⟩ := h.2 c hc
    exact ⟨Nat.lt_of_lt_of_le h1 ag.next, ag.rx c h1 h2⟩

/-- A doomed resource stays so until it is dropped. -/
theorem Adrift.step {st st' : St P} (inv : Inv G st) {op o} (hs : Heap.step G st op = some (st', o)) {t : Tok} (hd : Adrift st t) :
    Adrift st' t ∨ Dropped st' t := by
  have inv' := inv_step inv hs
  have ag := aged_step inv hs
  induction hd with
  | @garb t ht =>
    rcases ag.garb t ht with h1 | ⟨h1, h2⟩
    · exact .inl (.garb h1)
    · have := garb_cnt ht
      refine .inr ⟨fun c hc => ⟨?_, h1 c hc⟩, fun c hc => ⟨?_, h2 c hc⟩⟩
      · subst hc; exact Nat.lt_of_lt_of_le (tx_lt inv this) ag.next
      · subst hc; exact Nat.lt_of_lt_of_le (rx_lt inv this) ag.next
  | @inside c t hc ht hd ih =>
    rcases ag.buf c t hc (hd.not_pool inv) ht with h1 | h1
    · rcases ih with h2 | h2
      · exact .inl (.inside (Nat.lt_of_lt_of_le hc ag.next) h1 h2)
      · exfalso
        have hb := toks_isSome h1
        cases hm : (st'.chan c).buf with
        | none => rw [hm] at hb; cases hb
        | some m =>
          have := (h2.2 c rfl).2
          rw [(inv'.bufs c m hm).1] at this
          cases this
    · exact .inl (.garb h1)

theorem steps_aged {st st' : St P} (inv : Inv G st) (hs : Steps G st st') :
    Inv G st' ∧ (∀ t, Dropped st t → Dropped st' t) ∧ ∀ t, Adrift st t → Adrift st' t ∨ Dropped st' t := by
  induction hs with
  | refl => exact ⟨inv, fun _ h => h, fun _ h => .inl h⟩
  | step _ hs ih =>
    obtain ⟨i1, i2, i3⟩ := ih
    have ag := aged_step i1 hs
    refine ⟨inv_step i1 hs, fun t h => (i2 t h).aged ag, fun t h => ?_⟩
    rcases i3 t h with h1 | h1
    · exact h1.step i1 hs
    · exact .inr (h1.aged ag)

theorem garb_step {st st' : St P} (inv : Inv G st) (ag : Aged st st') {t} (a : t ∈ st.garb) : t ∈ st'.garb ∨ Dropped st' t := by
  rcases ag.garb t a with d | ⟨d1, d2⟩
  · exact .inl d
  · have := garb_cnt a
    refine .inr ⟨fun c hc => ⟨?_, d1 c hc⟩, fun c hc => ⟨?_, d2 c hc⟩⟩
    · subst hc; exact Nat.lt_of_lt_of_le (tx_lt inv this) ag.next
    · subst hc; exact Nat.lt_of_lt_of_le (rx_lt inv this) ag.next

theorem steps_garb {st st' : St P} (inv : Inv G st) (hs : Steps G st st') {t} (ht : t ∈ st.garb) : t ∈ st'.garb ∨ Dropped st' t := by
  induction hs with
  | refl => exact .inl ht
  | step h1 hs ih =>
    obtain ⟨i1, -, -⟩ := steps_aged inv h1
    have ag := aged_step i1 hs
    rcases ih with a | a
    · exact garb_step i1 ag a
    · exact .inr (a.aged ag)

/-- What is inside a message that nobody can receive, stays there as long as the receiving half exists, or its drop is
pending. -/
theorem steps_inside {st st' : St P} (inv : Inv G st) (hs : Steps G st st') {c t} (hc : c < st.next) (ht : t ∈ bufToks (st.chan c))
    (hd : Adrift st (.rx c)) : Adrift st' (.rx c) ∨ t ∈ st'.garb ∨ Dropped st' t := by
  suffices h : (c < st'.next ∧ t ∈ bufToks (st'.chan c) ∧ Adrift st' (.rx c)) ∨ t ∈ st'.garb ∨ Dropped st' t by
    rcases h with h | h
    · exact .inl h.2.2
    · exact .inr h
  induction hs with
  | refl => exact .inl ⟨hc, ht, hd⟩
  | @step st1 st2 op o h1 hs ih =>
    obtain ⟨i1, -, -⟩ := steps_aged inv h1
    have ag := aged_step i1 hs
    have i2 := inv_step i1 hs
    rcases ih with ⟨a1, a2, a3⟩ | a | a
    · rcases ag.buf c t a1 (a3.not_pool i1) a2 with b | b
      · rcases a3.step i1 hs with b2 | b2
        · exact .inl ⟨Nat.lt_of_lt_of_le a1 ag.next, b, b2⟩
        · exfalso
          have hb := toks_isSome b
          cases hm : (st2.chan c).buf with
          | none => rw [hm] at hb; cases hb
          | some m =>
            have := (b2.2 c rfl).2
            rw [(i2.bufs c m hm).1] at this
            cases this
      · exact .inr (.inl b)
    · exact .inr (garb_step i1 ag a)
    · exact .inr (.inr (a.aged ag))

theorem steps_trans {st1 st2 st3 : St P} (h1 : Steps G st1 st2) (h2 : Steps G st2 st3) : Steps G st1 st3 := by
  induction h2 with
  | refl => exact h1
  | step _ hs ih => exact .step ih hs

theorem Adrift.cnt {st : St P} {t} (h : Adrift st t) : 0 < cnt st t := by
  cases h with
  | garb h => exact garb_cnt h
  | inside hc hb _ => have := count_mem_buf hc hb; unfold Heap.cnt; omega

theorem Adrift.not_dropped {st : St P} (inv : Inv G st) {c} (h : Adrift st (.rx c)) : ¬ Dropped st (.rx c) := by
  intro hx
  have h1 := h.cnt
  rw [inv.crx, (hx.2 c rfl).2] at h1
  cases h1

/-- If every pending drop is carried out some day, doomed resources are dropped some day. -/
theorem doomed_dropped {H : Nat → St P} (inv : ∀ k, Inv G (H k)) (hs : ∀ k, Steps G (H k) (H (k + 1)))
    (fair : ∀ k t, t ∈ (H k).garb → ∃ j, k ≤ j ∧ t ∉ (H j).garb) {k t} (hd : Adrift (H k) t) :
    ∃ j, k ≤ j ∧ ∀ i, j ≤ i → Dropped (H i) t := by
  have far : ∀ k j, k ≤ j → Steps G (H k) (H j) := by
    intro k j hj
    induction hj with
    | refl => exact .refl _
    | step _ ih => exact steps_trans ih (hs _)
  suffices h : ∃ j, k ≤ j ∧ Dropped (H j) t by
    obtain ⟨j, h1, h2⟩ := h
    exact ⟨j, h1, fun i hi => (steps_aged (inv j) (far j i hi)).2.1 t h2⟩
  have pend : ∀ k t, t ∈ (H k).garb → ∃ j, k ≤ j ∧ Dropped (H j) t := by
    intro k t ht
    obtain ⟨j, h1, h2⟩ := fair k t ht
    exact ⟨j, h1, (steps_garb (inv k) (far k j h1) ht).resolve_left h2⟩
  induction hd with
  | garb ht => exact pend k _ ht
  | @inside c t hc ht hd ih =>
    obtain ⟨j, h1, h2⟩ := ih
    rcases steps_inside (inv k) (far k j h1) hc ht hd with h3 | h3 | h3
    · exact absurd h2 (h3.not_dropped (inv j))
    · obtain ⟨i, h4, h5⟩ := pend j t h3
      exact ⟨i, by omega, h5⟩
    · exact ⟨j, h1, h3⟩

end Verif.Heap
