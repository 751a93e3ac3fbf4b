import Verif.Proof.TransportSend
/-!
# Transports: bytes read from a connection
-/
namespace Verif.Transport
open Verif.Types Verif.Spec
open Verif.Heap (Val Entry EP Env Sig Reach)

variable {P : Type} [DecidableEq P] {G : Env P}

/-- What a thread has read in its call. -/
def rd : Call P → Option (Nat × List UInt8)
  | .reading c buf _ _ => some (c, buf)
  | _ => none

/-- The bytes read from a connection so far. -/
def consumed (s : Stream) : List UInt8 := s.arrived.take s.taken

def Con (s' s : Stream) : Prop := consumed s' = consumed s ∧ s'.taken ≤ s'.arrived.length

/-- What a step does to the bytes read. -/
inductive RecvCase (st st' : St P) (a : Act P) (r : Ret P) : Prop
  | quiet : (∀ t, rd (st'.thr t) = rd (st.thr t)) → (∀ c, Con (st'.tcp c) (st.tcp c)) →
      (∀ c us, recvUse c us (a, r) = us) → RecvCase st st' a r
  | start {t e c} : a = .recvTcp t e c true → r = .waits → st.thr t = .idle →
      (∀ t', rd (st'.thr t') = if t' = t then some (c, []) else rd (st.thr t')) →
      (∀ c, Con (st'.tcp c) (st.tcp c)) → RecvCase st st' a r
  | some {t n c buf m} : a = .read t n → r = .waits → rd (st.thr t) = some (c, buf) → (buf ++ m).length < size →
      (∀ t', rd (st'.thr t') = if t' = t then some (c, buf ++ m) else rd (st.thr t')) →
      (∀ d, if d = c then consumed (st'.tcp d) = consumed (st.tcp c) ++ m ∧ (st'.tcp d).taken ≤ (st'.tcp d).arrived.length
        else Con (st'.tcp d) (st.tcp d)) → RecvCase st st' a r
  | last {t n c buf m x es} : a = .read t n → r = .okRecv x es (buf ++ m) → rd (st.thr t) = some (c, buf) →
      (buf ++ m).length = size →
      (∀ t', rd (st'.thr t') = if t' = t then none else rd (st.thr t')) →
      (∀ d, if d = c then consumed (st'.tcp d) = consumed (st.tcp c) ++ m ∧ (st'.tcp d).taken ≤ (st'.tcp d).arrived.length
        else Con (st'.tcp d) (st.tcp d)) → RecvCase st st' a r
  | fail {t c buf} : a = .readErr t ∨ a = .readEnd t → r = .err → rd (st.thr t) = some (c, buf) →
      (∀ t', rd (st'.thr t') = if t' = t then none else rd (st.thr t')) →
      (∀ c, Con (st'.tcp c) (st.tcp c)) → RecvCase st st' a r

theorem rd_upd {f : Nat → Call P} {t : Nat} {k : Call P} (h : rd k = rd (f t)) : ∀ t', rd (Heap.upd f t k t') = rd (f t') := by
  intro t'
  by_cases e : t' = t
  · subst e; rw [upd_same, h]
  · rw [upd_ne e]

theorem rd_upd' {f : Nat → Call P} {t : Nat} {k : Call P} :
    ∀ t', rd (Heap.upd f t k t') = if t' = t then rd k else rd (f t') := by
  intro t'
  by_cases e : t' = t
  · subst e; rw [upd_same, if_pos rfl]
  · rw [upd_ne e, if_neg e]

theorem con_same {f : Nat → Stream} (hT : ∀ c, (f c).taken ≤ (f c).arrived.length) : ∀ d, Con (f d) (f d) :=
  fun d => ⟨rfl, hT d⟩

theorem con_upd {f : Nat → Stream} {c : Nat} {s : Stream} (hT : ∀ c, (f c).taken ≤ (f c).arrived.length)
    (h1 : s.taken = (f c).taken) (h2 : s.arrived = (f c).arrived) : ∀ d, Con (Heap.upd f c s d) (f d) := by
  intro d
  by_cases e : d = c
  · subst e; rw [upd_same]; exact ⟨by rw [consumed, consumed, h1, h2], by rw [h1, h2]; exact hT d⟩
  · rw [upd_ne e]; exact ⟨rfl, hT d⟩

theorem shutdown_con {s s' : Stream} {b : Bool} (h : shutdown s b = some s') :
    s'.taken = s.taken ∧ s'.arrived = s.arrived := by
  unfold shutdown at h
  repeat' split at h
  all_goals cases h <;> exact ⟨rfl, rfl⟩

theorem recv_cases {st st' : St P} {a : Act P} {r : Ret P} (hF : Fresh st) (hT : ∀ c, (st.tcp c).taken ≤ (st.tcp c).arrived.length) (hs : step G st a = some (st', r)) :
    RecvCase st st' a r := by
  cases a with
  | api op =>
    simp only [step] at hs
    split at hs
    · obtain ⟨⟨h1, o⟩, h2, h3⟩ := map_some' hs
      cases h3; exact .quiet (fun _ => rfl) (con_same hT) fun _ _ => rfl
    · cases hs
  | forkTcp s g =>
    simp only [step] at hs
    cases g with
    | connect => cases hs; exact .quiet (fun _ => rfl) (con_same hT) fun _ _ => rfl
    | clone => cases hs; exact .quiet (fun _ => rfl) (con_same hT) fun _ _ => rfl
    | spawn =>
      simp only [forkTcp] at hs
      split at hs
      · split at hs
        · obtain ⟨h2, hd, h3⟩ := map_some' hs
          cases h3
          exact .quiet (fun _ => rfl) (con_same hT) fun _ _ => rfl
        · cases hs
      · cases hs
    | done =>
      simp only [forkTcp] at hs
      split at hs
      · split at hs
        · cases hs
          refine .quiet (fun _ => rfl) (con_upd hT ?_ ?_) fun _ _ => rfl
          all_goals rw [hF.none _ (Nat.le_refl _)]
        · cases hs
      · cases hs
  | forkUdp s g =>
    simp only [step] at hs
    cases g with
    | connect => cases hs; exact .quiet (fun _ => rfl) (con_same hT) fun _ _ => rfl
    | clone => cases hs; exact .quiet (fun _ => rfl) (con_same hT) fun _ _ => rfl
    | spawn =>
      simp only [forkUdp] at hs
      split at hs
      · split at hs
        · obtain ⟨h2, hd, h3⟩ := map_some' hs
          cases h3
          exact .quiet (fun _ => rfl) (con_same hT) fun _ _ => rfl
        · cases hs
      · cases hs
    | done =>
      simp only [forkUdp] at hs
      split at hs
      · split at hs
        · cases hs
          exact .quiet (fun _ => rfl) (con_same hT) fun _ _ => rfl
        · cases hs
      · cases hs
  | sendTcp t e x data c tcp =>
    simp only [step, sendTcp] at hs
    split at hs
    · rename_i hg
      simp only [Bool.and_eq_true, decide_eq_true_eq, beq_iff_eq] at hg
      have hi := idle_of hg.1.1.1
      split at hs
      · cases hs
        exact .quiet (fun _ => rfl) (con_upd hT rfl rfl) fun c us => rfl
      · split at hs
        · cases hs
          exact .quiet (rd_upd (by show _ = rd (st.thr t); rw [hi]; rfl)) (con_upd hT rfl rfl) fun c us => rfl
        · cases hs
          exact .quiet (fun _ => rfl) (con_same hT) fun c us => rfl
      · cases hs
    · cases hs
  | sendUdp t e x data u udp ok =>
    simp only [step, sendUdp] at hs
    split at hs
    · split at hs
      · cases hs; exact .quiet (fun _ => rfl) (con_same hT) fun _ _ => rfl
      · split at hs
        · split at hs
          · cases hs; exact .quiet (fun _ => rfl) (con_same hT) fun _ _ => rfl
          · obtain ⟨h2, hd, h3⟩ := map_some' hs
            cases h3; exact .quiet (fun _ => rfl) (con_same hT) fun _ _ => rfl
        · cases hs; exact .quiet (fun _ => rfl) (con_same hT) fun _ _ => rfl
      · cases hs
    · cases hs
  | recvTcp t e c tcp =>
    simp only [step, recvTcp] at hs
    split at hs
    · rename_i hg
      simp only [Bool.and_eq_true, decide_eq_true_eq] at hg
      have hi := idle_of hg.1.1
      split at hs
      · cases hs
        refine .quiet (fun _ => rfl) (con_upd hT rfl rfl) fun c us => ?_
        cases tcp <;> rfl
      · split at hs
        · rename_i htcp
          cases hs
          subst htcp
          exact .start rfl rfl hi (fun t' => rd_upd' t') (con_upd hT rfl rfl)
        · cases hs
          refine .quiet (fun _ => rfl) (con_same hT) fun c us => ?_
          cases tcp <;> rfl
      · cases hs
    · cases hs
  | recvUdp t e c tcp =>
    simp only [step, recvUdp] at hs
    split at hs
    · rename_i hg
      simp only [Bool.and_eq_true, decide_eq_true_eq] at hg
      have hi := idle_of hg.1.1
      repeat' split at hs
      all_goals first | (cases hs; done) | skip
      all_goals cases hs
      · exact .quiet (fun _ => rfl) (con_same hT) fun _ _ => rfl
      · exact .quiet (rd_upd (by rw [takeUdp, setUdp, hi]; rfl)) (con_same hT) fun _ _ => rfl
      · exact .quiet (fun _ => rfl) (con_same hT) fun _ _ => rfl
    · cases hs
  | write t n =>
    simp only [step, write] at hs
    split at hs
    · rename_i c rest here ht
      repeat' split at hs
      all_goals first | (cases hs; done) | skip
      all_goals cases hs
      · refine .quiet (rd_upd (by show _ = rd (st.thr t); rw [ht]; rfl)) (fun d => ?_) fun _ _ => rfl
        have := hT d
        by_cases e : d = c
        · subst e; simpa [Con, consumed, giveTcp, leave, setTcp, Heap.upd] using this
        · simpa [Con, consumed, giveTcp, leave, setTcp, Heap.upd, e] using this
      · exact .quiet (rd_upd (by show _ = rd (st.thr t); rw [ht]; rfl)) (con_upd hT rfl rfl) fun _ _ => rfl
    · cases hs
  | read t n =>
    simp only [step, read] at hs
    split at hs
    · rename_i c buf x es ht
      split at hs
      · rename_i hg
        have hlen : (((st.tcp c).arrived.drop (st.tcp c).taken).take n).length = n := by
          rw [List.length_take, List.length_drop]; omega
        have hcon : ∀ s : Stream, s.arrived = (st.tcp c).arrived → s.taken = (st.tcp c).taken + n →
            consumed s = consumed (st.tcp c) ++ ((st.tcp c).arrived.drop (st.tcp c).taken).take n ∧ s.taken ≤ s.arrived.length := by
          intro s h1 h2
          refine ⟨?_, by rw [h1, h2]; exact hg.2.2⟩
          unfold consumed
          rw [h1, h2, List.take_add]
        split at hs
        · rename_i hfull
          cases hs
          refine .last rfl rfl (by rw [ht]; rfl) hfull (fun t' => rd_upd' t') fun d => ?_
          by_cases e : d = c
          · subst e
            rw [if_pos rfl]
            apply hcon <;> simp [giveTcp, leave, setTcp, Heap.upd]
          · rw [if_neg e]
            have := hT d
            simpa [Con, consumed, giveTcp, leave, setTcp, Heap.upd, e] using this
        · rename_i hfull
          cases hs
          refine .some rfl rfl (by rw [ht]; rfl) ?_ (fun t' => rd_upd' t') fun d => ?_
          · rw [List.length_append, hlen] at hfull ⊢; have := hg.2.1; have := hg.1; omega
          · by_cases e : d = c
            · subst e
              rw [if_pos rfl]
              apply hcon <;> simp [setTcp, Heap.upd]
            · rw [if_neg e]
              have := hT d
              simpa [Con, consumed, setTcp, Heap.upd, e] using this
      · cases hs
    · cases hs
  | take t =>
    simp only [step, take] at hs
    repeat' split at hs
    all_goals first | (cases hs; done) | skip
    rename_i ht _ _ _
    all_goals (cases hs; exact .quiet (rd_upd (by show _ = rd (st.thr t); rw [ht]; rfl)) (con_same hT) fun _ _ => rfl)
  | writeErr t =>
    simp only [step, writeErr] at hs
    split at hs
    · rename_i ht
      obtain ⟨h2, hd, h3⟩ := map_some' hs
      cases h3; exact .quiet (rd_upd (by show _ = rd (st.thr t); rw [ht]; rfl)) (con_same hT) fun _ _ => rfl
    · cases hs
  | readErr t =>
    simp only [step, readErr] at hs
    split at hs
    · rename_i ht
      obtain ⟨h2, hd, h3⟩ := map_some' hs
      cases h3; exact .fail (Or.inl rfl) rfl (by rw [ht]; rfl) (fun t' => rd_upd' t') (con_same hT)
    · cases hs
  | takeErr t =>
    simp only [step, takeErr] at hs
    split at hs
    · rename_i ht
      obtain ⟨h2, hd, h3⟩ := map_some' hs
      cases h3; exact .quiet (rd_upd (by show _ = rd (st.thr t); rw [ht]; rfl)) (con_same hT) fun _ _ => rfl
    · cases hs
  | readEnd t =>
    simp only [step, readEnd, readErr] at hs
    split at hs
    · rename_i ht
      split at hs
      · obtain ⟨h2, hd, h3⟩ := map_some' hs
        cases h3; exact .fail (Or.inr rfl) rfl (by rw [ht]; rfl) (fun t' => rd_upd' t') (con_same hT)
      · cases hs
    · cases hs
  | closeTcp t e c tcp =>
    simp only [step, closeTcp] at hs
    split at hs
    · rename_i hg
      simp only [Bool.and_eq_true, decide_eq_true_eq] at hg
      have hi := idle_of hg.1.1
      split at hs
      · cases hs
        exact .quiet (rd_upd (by show _ = rd (st.thr t); rw [hi]; rfl)) (con_upd hT rfl rfl)
          fun _ _ => rfl
      · obtain ⟨h2, hd, h3⟩ := map_some' hs
        cases h3; exact .quiet (fun _ => rfl) (con_upd hT rfl rfl) fun _ _ => rfl
      · cases hs
    · cases hs
  | closeWait t b =>
    simp only [step, closeWait] at hs
    split at hs
    · rename_i c tcp e ht
      have hw : rd (.idle : Call P) = rd (st.thr t) := by rw [ht]; rfl
      split at hs
      · split at hs
        · cases hs
        · rename_i hd
          split at hs
          · obtain ⟨s2, hsh, h3⟩ := map_some' hs
            cases h3
            exact .quiet (rd_upd hw) (con_upd hT (shutdown_con hsh).1 (shutdown_con hsh).2) fun _ _ => rfl
          · cases hs; exact .quiet (rd_upd hw) (con_same hT) fun _ _ => rfl
      · obtain ⟨h2, hd, h3⟩ := map_some' hs
        cases h3; exact .quiet (rd_upd hw) (con_same hT) fun _ _ => rfl
      · cases hs
    · cases hs
  | cancelTcp t e c b =>
    simp only [step, cancelTcp] at hs
    split at hs
    · split at hs
      · cases hs
      · obtain ⟨s2, hsh, h3⟩ := map_some' hs
        cases h3
        refine .quiet (fun _ => rfl) (fun d => ?_) fun _ _ => rfl
        have := hT d
        by_cases e : d = c
        · subst e; simpa [Con, consumed, takeTcp, setTcp, Heap.upd, shutdown_con hsh] using this
        · simpa [Con, consumed, takeTcp, setTcp, Heap.upd, e] using this
    · cases hs
  | cancelUdp t e c =>
    simp only [step, cancelUdp] at hs
    split at hs
    · obtain ⟨h2, hd, h3⟩ := map_some' hs
      cases h3; exact .quiet (fun _ => rfl) (con_same hT) fun _ _ => rfl
    · cases hs
  | cloneTcp c =>
    simp only [step] at hs; split at hs <;> cases hs
    exact .quiet (fun _ => rfl) (con_upd hT rfl rfl) fun _ _ => rfl
  | dropTcp c =>
    simp only [step] at hs; split at hs <;> cases hs
    exact .quiet (fun _ => rfl) (con_upd hT rfl rfl) fun _ _ => rfl
  | cloneUdp c =>
    simp only [step] at hs; split at hs <;> cases hs
    exact .quiet (fun _ => rfl) (con_same hT) fun _ _ => rfl
  | dropUdp c =>
    simp only [step] at hs; split at hs <;> cases hs
    exact .quiet (fun _ => rfl) (con_same hT) fun _ _ => rfl
  | arrive c bs =>
    simp only [step] at hs; split at hs <;> cases hs
    refine .quiet (fun _ => rfl) (fun d => ?_) fun _ _ => rfl
    have := hT d
    by_cases e : d = c
    · subst e
      refine ⟨?_, ?_⟩
      · simp only [consumed, setTcp, Heap.upd, if_true]
        rw [List.take_append_of_le_length this]
      · simp only [setTcp, Heap.upd, if_true, List.length_append]; omega
    · simpa [Con, consumed, setTcp, Heap.upd, e] using this
  | finish c =>
    simp only [step] at hs; split at hs <;> cases hs
    exact .quiet (fun _ => rfl) (con_upd hT rfl rfl) fun _ _ => rfl
  | reset c =>
    simp only [step] at hs; split at hs <;> cases hs
    exact .quiet (fun _ => rfl) (con_upd hT rfl rfl) fun _ _ => rfl
  | deliver u d =>
    simp only [step] at hs; split at hs <;> cases hs
    exact .quiet (fun _ => rfl) (con_same hT) fun _ _ => rfl

/-- A receiving call and the bytes it has read. -/
def RecvRel (st : St P) (c : Nat) (u : Use) (b : List UInt8) : Prop :=
  match u.result with
  | none => rd (st.thr u.thread) = some (c, b) ∧ b.length < size
  | some none => b.length < size
  | some (some d) => b = d ∧ d.length = size

theorem RecvRel.other {st st' : St P} {c t : Nat} {u : Use} {b : List UInt8} (h : RecvRel st c u b)
    (hw : ∀ t', t' ≠ t → rd (st'.thr t') = rd (st.thr t')) (hu : u.thread ≠ t ∨ u.result ≠ none) : RecvRel st' c u b := by
  unfold RecvRel at h ⊢
  split at h
  · rename_i hr
    rcases hu with hu | hu
    · simpa only [hw _ hu] using h
    · exact absurd hr hu
  · exact h
  · exact h

structure RecvInv (st : St P) (c : Nat) (us : List Use) : Prop where
  shared : ∃ l, Shared (RecvRel st c) (fun t => ∃ buf, rd (st.thr t) = some (c, buf)) us (consumed (st.tcp c)) l
  le : ∀ c, (st.tcp c).taken ≤ (st.tcp c).arrived.length

/-- A step of a call on another stream. -/
theorem recv_elsewhere {st st' : St P} {c c' t : Nat} {us : List Use} {l : List (Nat × UInt8)} {buf : List UInt8}
    {o : Option (Nat × List UInt8)}
    (h : Shared (RecvRel st c) (fun t => ∃ buf, rd (st.thr t) = some (c, buf)) us (consumed (st.tcp c)) l)
    (hrd : rd (st.thr t) = some (c', buf) ∨ rd (st.thr t) = none) (e : c' ≠ c)
    (ho : ∀ buf, o ≠ some (c, buf)) (hw : ∀ t', rd (st'.thr t') = if t' = t then o else rd (st.thr t'))
    (hc : consumed (st'.tcp c) = consumed (st.tcp c)) :
    Shared (RecvRel st' c) (fun t => ∃ buf, rd (st'.thr t) = some (c, buf)) us (consumed (st'.tcp c)) l ∧
      ∀ r, returns t r us = us := by
  have hno' : ∀ buf', rd (st.thr t) ≠ some (c, buf') := by
    intro buf' hb
    rcases hrd with hrd | hrd
    · rw [hrd] at hb; cases hb; exact e rfl
    · rw [hrd] at hb; cases hb
  have hno : ∀ u ∈ us, u.result = none → u.thread ≠ t := by
    intro u hu hn ht
    obtain ⟨b', h3⟩ := h.open_act u hu hn
    rw [ht] at h3; exact hno' _ h3
  refine ⟨?_, fun r => ?_⟩
  · rw [hc]
    refine ⟨h.shares, fun i u hi => ?_, fun u hu hr => ?_, fun t' ht' => ?_, h.uniq, h.one⟩
    · have hr := h.rel i u hi
      refine hr.other (t := t) (fun t' ht => by rw [hw, if_neg ht]) ?_
      by_cases hn : u.result = none
      · exact Or.inl (hno u (List.mem_of_getElem? hi) hn)
      · exact Or.inr hn
    · simp only [hw, if_neg (hno u hu hr)]; exact h.open_act u hu hr
    · obtain ⟨b', hb⟩ := ht'
      rw [hw] at hb
      by_cases e' : t' = t
      · rw [if_pos e'] at hb; exact absurd hb (ho b')
      · rw [if_neg e'] at hb; exact h.act_open t' ⟨b', hb⟩
  · unfold returns
    conv => rhs; rw [← List.map_id us]
    apply List.map_congr_left
    intro u hu
    by_cases hn : u.result = none
    · simp [hno u hu hn]
    · simp [hn]

theorem recvInv_step {st st' : St P} {c : Nat} {us : List Use} {a : Act P} {r : Ret P} (h : RecvInv st c us)
    (hc : RecvCase st st' a r) : RecvInv st' c (recvUse c us (a, r)) := by
  obtain ⟨⟨l, h⟩, -⟩ := h
  cases hc with
  | quiet hw hcon huse =>
    rw [huse]
    refine ⟨⟨l, ?_⟩, fun c => (hcon c).2⟩
    rw [(hcon c).1]
    refine h.quiet (fun u b hr => ?_) fun t => by rw [hw]
    unfold RecvRel at hr ⊢; simpa only [hw] using hr
  | @start t e c' ha hr hi hw hcon =>
    subst ha hr
    have hi' : rd (st.thr t) = none := by rw [hi]; rfl
    simp only [recvUse]
    refine ⟨?_, fun c => (hcon c).2⟩
    by_cases e : c' = c
    · subst e
      rw [if_pos rfl, (hcon c').1]
      refine ⟨l, h.start (fun ⟨rest, hr⟩ => by rw [hi'] at hr; cases hr) (fun u b hr hne => ?_)
        ⟨by rw [hw, if_pos rfl], by decide⟩ fun t' => ?_⟩
      · refine hr.other (t := t) (fun t' ht => by rw [hw, if_neg ht]) ?_
        by_cases hn : u.result = none
        · exact Or.inl (hne hn)
        · exact Or.inr hn
      · rw [hw]
        by_cases e : t' = t
        · subst e; simp
        · simp [e]
    · rw [if_neg e]
      exact ⟨l, (recv_elsewhere h (buf := []) (Or.inr hi') e (by simp [e]) hw (hcon c).1).1⟩
  | @some t n c' buf m ha hr hrd hlen hw hcon =>
    subst ha hr
    simp only [recvUse]
    refine ⟨?_, fun d => by
      have := hcon d
      split at this <;> exact this.2⟩
    by_cases e : c' = c
    · subst e
      obtain ⟨l', h'⟩ := h.move (R' := RecvRel st' c') m (t := t) ⟨buf, hrd⟩
        (fun u b hr hu => hr.other (fun t' ht => by rw [hw, if_neg ht]) hu) (fun u b hr hu hn => by
          unfold RecvRel at hr ⊢
          rw [hn] at hr ⊢
          obtain ⟨h3, h4⟩ := hr
          rw [hu, hrd] at h3
          cases h3
          exact ⟨by rw [hu, hw, if_pos rfl], hlen⟩)
      have hc := hcon c'
      rw [if_pos rfl] at hc
      rw [hc.1]
      refine ⟨l', h'.quiet (fun _ _ hr => hr) fun t' => ?_⟩
      rw [hw]
      by_cases e' : t' = t
      · subst e'; simp [hrd]
      · simp [e']
    · have hc := hcon c
      rw [if_neg (Ne.symm e)] at hc
      exact ⟨l, (recv_elsewhere h (Or.inl hrd) e (by simp [e]) hw hc.1).1⟩
  | @last t n c' buf m x es ha hr hrd hlen hw hcon =>
    subst ha hr
    simp only [recvUse]
    refine ⟨?_, fun d => by
      have := hcon d
      split at this <;> exact this.2⟩
    by_cases e : c' = c
    · subst e
      obtain ⟨l', h'⟩ := h.move (R' := fun u b => match u.result with
          | none => if u.thread = t then b = buf ++ m else rd (st.thr u.thread) = .some (c', b) ∧ b.length < size
          | .some none => b.length < size
          | .some (.some d) => b = d ∧ d.length = size) m (t := t) ⟨buf, hrd⟩
        (fun u b hr hu => by
          unfold RecvRel at hr
          split at hr
          · rename_i hn
            rcases hu with hu | hu
            · simp only [if_neg hu]; exact hr
            · exact absurd hn hu
          · exact hr
          · exact hr)
        (fun u b hr hu hn => by
          unfold RecvRel at hr
          rw [hn] at hr ⊢
          obtain ⟨h3, h4⟩ := hr
          rw [hu, hrd] at h3
          cases h3
          simp only [if_pos hu])
      have hc := hcon c'
      rw [if_pos rfl] at hc
      rw [hc.1]
      refine ⟨l', h'.ret (t := t) (fun u b hr hu => ?_) (fun u b hr hu hn => ?_) fun t' => ?_⟩
      · unfold RecvRel
        split at hr
        · rename_i hn
          rcases hu with hu | hu
          · simp only [if_neg hu] at hr; simpa only [hw, if_neg hu] using hr
          · exact absurd hn hu
        · exact hr
        · exact hr
      · rw [hn] at hr
        simp only [if_pos hu] at hr
        exact ⟨hr, hlen⟩
      · rw [hw]
        by_cases e' : t' = t
        · subst e'; simp
        · simp [e']
    · have hc := hcon c
      rw [if_neg (Ne.symm e)] at hc
      have := recv_elsewhere h (Or.inl hrd) e (by simp) hw hc.1
      rw [this.2]
      exact ⟨l, this.1⟩
  | @fail t c' buf ha hr hrd hw hcon =>
    have huse : recvUse c us (a, r) = returns t none us := by
      rcases ha with rfl | rfl <;> subst hr <;> rfl
    rw [huse]
    refine ⟨?_, fun c => (hcon c).2⟩
    by_cases e : c' = c
    · subst e
      rw [(hcon c').1]
      refine ⟨l, h.ret (t := t) (fun u b hr hu => hr.other (fun t' ht => by rw [hw, if_neg ht]) hu) (fun u b hr hu hn => ?_) fun t' => ?_⟩
      · unfold RecvRel at hr
        rw [hn] at hr
        exact hr.2
      · rw [hw]
        by_cases e' : t' = t
        · subst e'; simp
        · simp [e']
    · have := recv_elsewhere h (Or.inl hrd) e (by simp) hw (hcon c).1
      rw [this.2]
      exact ⟨l, this.1⟩

theorem recvsOn_snoc {c : Nat} {run : List (Act P × Ret P)} {l : Act P × Ret P} :
    recvsOn c (run ++ [l]) = recvUse c (recvsOn c run) l := by
  unfold recvsOn; rw [List.foldl_append]; rfl

theorem run_recvInv {run : List (Act P × Ret P)} {st : St P} (h : Run G run st) (c : Nat) :
    RecvInv st c (recvsOn c run) := by
  induction h with
  | init => exact ⟨⟨[], Shared.nil fun t ⟨rest, hr⟩ => by cases hr⟩, fun _ => Nat.le_refl _⟩
  | snoc hr hs ih =>
    rw [recvsOn_snoc]
    exact recvInv_step ih (recv_cases (run_fresh hr) ih.le hs)

end Verif.Transport
