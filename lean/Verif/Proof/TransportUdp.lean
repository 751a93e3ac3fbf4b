import Verif.Proof.TransportRecv
/-!
# Transports: datagrams
-/
namespace Verif.Transport
open Verif.Types Verif.Spec
open Verif.Heap (Val Entry EP Env Sig Reach)

variable {P : Type} [DecidableEq P] {G : Env P}

/-- The socket a thread waits at. -/
def tk : Call P → Option Nat
  | .taking u _ _ => some u
  | _ => none

def Took (s' s : Dgram) : Prop := s'.taken = s.taken ∧ s.arrived <+: s'.arrived

/-- What a step does to the datagrams taken. -/
inductive TakeCase (st st' : St P) (a : Act P) (r : Ret P) : Prop
  | quiet : (∀ t, tk (st'.thr t) = tk (st.thr t)) → (∀ u, Took (st'.udp u) (st.udp u)) →
      (∀ u us, takeUse u us (a, r) = us) → TakeCase st st' a r
  | start {t e u} : a = .recvUdp t e u true → r = .waits → st.thr t = .idle →
      (∀ t', tk (st'.thr t') = if t' = t then some u else tk (st.thr t')) →
      (∀ u, Took (st'.udp u) (st.udp u)) → TakeCase st st' a r
  | last {t u d x es} : a = .take t → r = .okRecvUdp x es (d.take size ++ zeros.drop d.length) (min d.length size) →
      tk (st.thr t) = some u → (st.udp u).arrived[(st.udp u).taken]? = some d →
      (∀ t', tk (st'.thr t') = if t' = t then none else tk (st.thr t')) →
      (∀ v, if v = u then (st'.udp v).taken = (st.udp u).taken + 1 ∧ (st'.udp v).arrived = (st.udp u).arrived
        else Took (st'.udp v) (st.udp v)) → TakeCase st st' a r
  | fail {t u} : a = .takeErr t → r = .err → tk (st.thr t) = some u →
      (∀ t', tk (st'.thr t') = if t' = t then none else tk (st.thr t')) →
      (∀ u, Took (st'.udp u) (st.udp u)) → TakeCase st st' a r

theorem tk_upd {f : Nat → Call P} {t : Nat} {k : Call P} (h : tk k = tk (f t)) : ∀ t', tk (Heap.upd f t k t') = tk (f t') := by
  intro t'
  by_cases e : t' = t
  · subst e; rw [upd_same, h]
  · rw [upd_ne e]

theorem tk_upd' {f : Nat → Call P} {t : Nat} {k : Call P} :
    ∀ t', tk (Heap.upd f t k t') = if t' = t then tk k else tk (f t') := by
  intro t'
  by_cases e : t' = t
  · subst e; rw [upd_same, if_pos rfl]
  · rw [upd_ne e, if_neg e]

theorem took_same {f : Nat → Dgram} : ∀ d, Took (f d) (f d) := fun _ => ⟨rfl, List.prefix_rfl⟩

theorem took_upd {f : Nat → Dgram} {u : Nat} {s : Dgram} (h1 : s.taken = (f u).taken) (h2 : s.arrived = (f u).arrived) :
    ∀ d, Took (Heap.upd f u s d) (f d) := by
  intro d
  by_cases e : d = u
  · subst e; rw [upd_same]; exact ⟨h1, by rw [h2]; exact List.prefix_rfl⟩
  · rw [upd_ne e]; exact ⟨rfl, List.prefix_rfl⟩

theorem take_cases {st st' : St P} {a : Act P} {r : Ret P} (hN : ∀ u, st.nudp ≤ u → st.udp u = noDgram)
    (hs : step G st a = some (st', r)) : TakeCase st st' a r := by
  cases a with
  | api op =>
    simp only [step] at hs
    split at hs
    · obtain ⟨⟨h1, o⟩, h2, h3⟩ := map_some' hs
      cases h3; exact .quiet (fun _ => rfl) took_same fun _ _ => rfl
    · cases hs
  | forkTcp s g =>
    simp only [step] at hs
    cases g with
    | connect => cases hs; exact .quiet (fun _ => rfl) took_same fun _ _ => rfl
    | clone => cases hs; exact .quiet (fun _ => rfl) took_same fun _ _ => rfl
    | spawn =>
      simp only [forkTcp] at hs
      split at hs
      · split at hs
        · obtain ⟨h2, hd, h3⟩ := map_some' hs
          cases h3
          exact .quiet (fun _ => rfl) took_same fun _ _ => rfl
        · cases hs
      · cases hs
    | done =>
      simp only [forkTcp] at hs
      split at hs
      · split at hs
        · cases hs
          exact .quiet (fun _ => rfl) took_same fun _ _ => rfl
        · cases hs
      · cases hs
  | forkUdp s g =>
    simp only [step] at hs
    cases g with
    | connect => cases hs; exact .quiet (fun _ => rfl) took_same fun _ _ => rfl
    | clone => cases hs; exact .quiet (fun _ => rfl) took_same fun _ _ => rfl
    | spawn =>
      simp only [forkUdp] at hs
      split at hs
      · split at hs
        · obtain ⟨h2, hd, h3⟩ := map_some' hs
          cases h3
          exact .quiet (fun _ => rfl) took_same fun _ _ => rfl
        · cases hs
      · cases hs
    | done =>
      simp only [forkUdp] at hs
      split at hs
      · split at hs
        · cases hs
          refine .quiet (fun _ => rfl) (took_upd ?_ ?_) fun _ _ => rfl
          all_goals rw [hN _ (Nat.le_refl _)]
        · cases hs
      · cases hs
  | sendTcp t e x data c tcp =>
    simp only [step, sendTcp] at hs
    split at hs
    · rename_i hg
      simp only [Bool.and_eq_true, decide_eq_true_eq, beq_iff_eq] at hg
      have hi := idle_of hg.1.1.1
      split at hs
      · cases hs
        exact .quiet (fun _ => rfl) took_same fun c us => rfl
      · split at hs
        · cases hs
          exact .quiet (tk_upd (by show _ = tk (st.thr t); rw [hi]; rfl)) took_same fun c us => rfl
        · cases hs
          exact .quiet (fun _ => rfl) took_same fun c us => rfl
      · cases hs
    · cases hs
  | sendUdp t e x data u udp ok =>
    simp only [step, sendUdp] at hs
    split at hs
    · split at hs
      · cases hs; exact .quiet (fun _ => rfl) (took_upd rfl rfl) fun _ _ => rfl
      · split at hs
        · split at hs
          · cases hs; exact .quiet (fun _ => rfl) (took_upd rfl rfl) fun _ _ => rfl
          · obtain ⟨h2, hd, h3⟩ := map_some' hs
            cases h3; exact .quiet (fun _ => rfl) (took_upd rfl rfl) fun _ _ => rfl
        · cases hs; exact .quiet (fun _ => rfl) took_same fun _ _ => rfl
      · cases hs
    · cases hs
  | recvTcp t e c tcp =>
    simp only [step, recvTcp] at hs
    split at hs
    · rename_i hg
      simp only [Bool.and_eq_true, decide_eq_true_eq] at hg
      have hi := idle_of hg.1.1
      repeat' split at hs
      all_goals first | (cases hs; done) | skip
      all_goals cases hs
      · exact .quiet (fun _ => rfl) took_same fun _ _ => rfl
      · exact .quiet (tk_upd (by show _ = tk (st.thr t); rw [hi]; rfl)) took_same fun _ _ => rfl
      · exact .quiet (fun _ => rfl) took_same fun _ _ => rfl
    · cases hs
  | recvUdp t e c udp =>
    simp only [step, recvUdp] at hs
    split at hs
    · rename_i hg
      simp only [Bool.and_eq_true, decide_eq_true_eq] at hg
      have hi := idle_of hg.1.1
      split at hs
      · cases hs
        refine .quiet (fun _ => rfl) (took_upd rfl rfl) fun c us => ?_
        cases udp <;> rfl
      · split at hs
        · rename_i hudp
          cases hs
          subst hudp
          exact .start rfl rfl hi (fun t' => tk_upd' t') (took_upd rfl rfl)
        · cases hs
          refine .quiet (fun _ => rfl) took_same fun c us => ?_
          cases udp <;> rfl
      · cases hs
    · cases hs
  | write t n =>
    simp only [step, write] at hs
    split at hs
    · rename_i c rest here ht
      repeat' split at hs
      all_goals first | (cases hs; done) | skip
      all_goals cases hs
      all_goals exact .quiet (tk_upd (by show _ = tk (st.thr t); rw [ht]; rfl)) took_same fun _ _ => rfl
    · cases hs
  | read t n =>
    simp only [step, read] at hs
    split at hs
    · rename_i c buf x es ht
      repeat' split at hs
      all_goals first | (cases hs; done) | skip
      all_goals cases hs
      all_goals exact .quiet (tk_upd (by show _ = tk (st.thr t); rw [ht]; rfl)) took_same fun _ _ => rfl
    · cases hs
  | take t =>
    simp only [step, take] at hs
    split at hs
    · rename_i u x es ht
      split at hs
      · cases hs
      · rename_i d hd
        cases hs
        refine .last rfl rfl (by rw [ht]; rfl) hd (fun t' => tk_upd' t') fun v => ?_
        by_cases e : v = u
        · subst e; simp [giveUdp, leave, setUdp, Heap.upd]
        · simp [giveUdp, leave, setUdp, Heap.upd, e, Took]
    · cases hs
  | writeErr t =>
    simp only [step, writeErr] at hs
    split at hs
    · rename_i ht
      obtain ⟨h2, hd, h3⟩ := map_some' hs
      cases h3; exact .quiet (tk_upd (by show _ = tk (st.thr t); rw [ht]; rfl)) took_same fun _ _ => rfl
    · cases hs
  | readErr t =>
    simp only [step, readErr] at hs
    split at hs
    · rename_i ht
      obtain ⟨h2, hd, h3⟩ := map_some' hs
      cases h3; exact .quiet (tk_upd (by show _ = tk (st.thr t); rw [ht]; rfl)) took_same fun _ _ => rfl
    · cases hs
  | takeErr t =>
    simp only [step, takeErr] at hs
    split at hs
    · rename_i ht
      obtain ⟨h2, hd, h3⟩ := map_some' hs
      cases h3; exact .fail rfl rfl (by rw [ht]; rfl) (fun t' => tk_upd' t') took_same
    · cases hs
  | readEnd t =>
    simp only [step, readEnd, readErr] at hs
    split at hs
    · rename_i ht
      split at hs
      · obtain ⟨h2, hd, h3⟩ := map_some' hs
        cases h3; exact .quiet (tk_upd (by show _ = tk (st.thr t); rw [ht]; rfl)) took_same fun _ _ => rfl
      · cases hs
    · cases hs
  | closeTcp t e c tcp =>
    simp only [step, closeTcp] at hs
    split at hs
    · rename_i hg
      simp only [Bool.and_eq_true, decide_eq_true_eq] at hg
      have hi := idle_of hg.1.1
      split at hs
      · cases hs
        exact .quiet (tk_upd (by show _ = tk (st.thr t); rw [hi]; rfl)) took_same
          fun _ _ => rfl
      · obtain ⟨h2, hd, h3⟩ := map_some' hs
        cases h3; exact .quiet (fun _ => rfl) took_same fun _ _ => rfl
      · cases hs
    · cases hs
  | closeWait t b =>
    simp only [step, closeWait] at hs
    split at hs
    · rename_i c tcp e ht
      have hw : tk (.idle : Call P) = tk (st.thr t) := by rw [ht]; rfl
      split at hs
      · split at hs
        · cases hs
        · rename_i hd
          split at hs
          · obtain ⟨s2, hsh, h3⟩ := map_some' hs
            cases h3
            exact .quiet (tk_upd hw) took_same fun _ _ => rfl
          · cases hs; exact .quiet (tk_upd hw) took_same fun _ _ => rfl
      · obtain ⟨h2, hd, h3⟩ := map_some' hs
        cases h3; exact .quiet (tk_upd hw) took_same fun _ _ => rfl
      · cases hs
    · cases hs
  | cancelTcp t e c b =>
    simp only [step, cancelTcp] at hs
    split at hs
    · split at hs
      · cases hs
      · obtain ⟨s2, hsh, h3⟩ := map_some' hs
        cases h3
        exact .quiet (fun _ => rfl) took_same fun _ _ => rfl
    · cases hs
  | cancelUdp t e c =>
    simp only [step, cancelUdp] at hs
    split at hs
    · obtain ⟨h2, hd, h3⟩ := map_some' hs
      cases h3; exact .quiet (fun _ => rfl) (took_upd rfl rfl) fun _ _ => rfl
    · cases hs
  | cloneTcp c =>
    simp only [step] at hs; split at hs <;> cases hs
    exact .quiet (fun _ => rfl) took_same fun _ _ => rfl
  | dropTcp c =>
    simp only [step] at hs; split at hs <;> cases hs
    exact .quiet (fun _ => rfl) took_same fun _ _ => rfl
  | cloneUdp c =>
    simp only [step] at hs; split at hs <;> cases hs
    exact .quiet (fun _ => rfl) (took_upd rfl rfl) fun _ _ => rfl
  | dropUdp c =>
    simp only [step] at hs; split at hs <;> cases hs
    exact .quiet (fun _ => rfl) (took_upd rfl rfl) fun _ _ => rfl
  | arrive c bs =>
    simp only [step] at hs; split at hs <;> cases hs
    exact .quiet (fun _ => rfl) took_same fun _ _ => rfl
  | finish c =>
    simp only [step] at hs; split at hs <;> cases hs
    exact .quiet (fun _ => rfl) took_same fun _ _ => rfl
  | reset c =>
    simp only [step] at hs; split at hs <;> cases hs
    exact .quiet (fun _ => rfl) took_same fun _ _ => rfl
  | deliver u d =>
    simp only [step] at hs; split at hs <;> cases hs
    refine .quiet (fun _ => rfl) (fun v => ?_) fun _ _ => rfl
    by_cases e : v = u
    · subst e; simp [setUdp, Heap.upd, Took]
    · simp [setUdp, Heap.upd, e, Took]

structure TakeInv (st : St P) (u : Nat) (s : List Nat × List (List UInt8 × Nat)) : Prop where
  inside : ∀ t, t ∈ s.1 ↔ tk (st.thr t) = some u
  nodup : s.1.Nodup
  length : s.2.length = (st.udp u).taken
  data : ∀ (k : Nat) (p : List UInt8 × Nat), s.2[k]? = some p → ∃ d, (st.udp u).arrived[k]? = some d ∧ InArray size d p.1 p.2

theorem inArray (d : List UInt8) : InArray size d (d.take size ++ zeros.drop d.length) (min d.length size) := by
  have hz : zeros.length = size := by simp [zeros]
  refine ⟨?_, rfl, ?_, ?_⟩
  · rw [List.length_append, List.length_take, List.length_drop, hz]; omega
  · rw [List.take_append_of_le_length (by rw [List.length_take]; omega), List.take_take]
    congr 1; omega
  · intro b hb
    rw [List.drop_append_of_le_length (by rw [List.length_take]; omega),
      List.drop_eq_nil_of_le (by rw [List.length_take]; omega), List.nil_append] at hb
    exact List.eq_of_mem_replicate (List.mem_of_mem_drop hb)

theorem TakeInv.keep {st st' : St P} {u : Nat} {s : List Nat × List (List UInt8 × Nat)} (h : TakeInv st u s)
    (hT : Took (st'.udp u) (st.udp u)) : s.2.length = (st'.udp u).taken ∧
      ∀ (k : Nat) (p : List UInt8 × Nat), s.2[k]? = some p → ∃ d, (st'.udp u).arrived[k]? = some d ∧ InArray size d p.1 p.2 := by
  refine ⟨by rw [hT.1]; exact h.length, fun k p hp => ?_⟩
  obtain ⟨d, hd, hi⟩ := h.data k p hp
  refine ⟨d, ?_, hi⟩
  obtain ⟨l, hl⟩ := hT.2
  rw [← hl, List.getElem?_append_left]
  · exact hd
  · exact (List.getElem?_eq_some_iff.mp hd).1

theorem takeInv_step {st st' : St P} {u : Nat} {s : List Nat × List (List UInt8 × Nat)} {a : Act P} {r : Ret P}
    (h : TakeInv st u s) (hc : TakeCase st st' a r) : TakeInv st' u (takeUse u s (a, r)) := by
  cases hc with
  | quiet ht hT hu =>
    rw [hu]
    have hk := h.keep (hT u)
    exact ⟨fun t => by rw [ht]; exact h.inside t, h.nodup, hk.1, hk.2⟩
  | @start t e v ha hr hi ht hT =>
    subst ha hr
    have hk := h.keep (hT u)
    have hni : t ∉ s.1 := fun hm => by have := (h.inside t).mp hm; rw [hi] at this; cases this
    simp only [takeUse]
    by_cases e : v = u
    · subst e
      rw [if_pos rfl]
      refine ⟨fun t' => ?_, List.nodup_cons.mpr ⟨hni, h.nodup⟩, hk.1, hk.2⟩
      rw [ht, List.mem_cons]
      by_cases e' : t' = t
      · simp [e']
      · simp [e', h.inside]
    · rw [if_neg e]
      refine ⟨fun t' => ?_, h.nodup, hk.1, hk.2⟩
      rw [ht]
      by_cases e' : t' = t
      · subst e'; simp [hni, e]
      · simp [e', h.inside]
  | @last t v d x es ha hr hv hd ht hT =>
    subst ha hr
    simp only [takeUse]
    by_cases e : v = u
    · subst e
      have hm : t ∈ s.1 := (h.inside t).mpr hv
      have hTv := hT v
      rw [if_pos rfl] at hTv
      rw [if_pos hm]
      refine ⟨fun t' => ?_, h.nodup.erase t, ?_, fun k p hp => ?_⟩
      · rw [ht, h.nodup.mem_erase_iff]
        by_cases e' : t' = t
        · simp [e']
        · simp [e', h.inside]
      · simp [h.length, hTv.1]
      · rw [hTv.2]
        simp only [List.getElem?_append] at hp
        split at hp
        · exact h.data k p hp
        · rename_i hge
          have hk : k - s.2.length = 0 := by
            have := (List.getElem?_eq_some_iff.mp hp).1
            simpa using this
          have hk2 : k = (st.udp v).taken := by rw [← h.length]; omega
          rw [hk] at hp
          cases hp
          exact ⟨d, by rw [hk2]; exact hd, inArray d⟩
    · have hni : t ∉ s.1 := fun hm => by have := (h.inside t).mp hm; rw [hv] at this; cases this; exact e rfl
      have hTu := hT u
      rw [if_neg (Ne.symm e)] at hTu
      have hk := h.keep hTu
      rw [if_neg hni]
      refine ⟨fun t' => ?_, h.nodup, hk.1, hk.2⟩
      rw [ht]
      by_cases e' : t' = t
      · subst e'; simp [hni]
      · simp [e', h.inside]
  | @fail t v ha hr hv ht hT =>
    subst ha hr
    have hk := h.keep (hT u)
    simp only [takeUse]
    refine ⟨fun t' => ?_, h.nodup.erase t, hk.1, hk.2⟩
    rw [ht, h.nodup.mem_erase_iff]
    by_cases e' : t' = t
    · simp [e']
    · simp [e', h.inside]

/-- What a step does to the datagrams sent, and that nothing is known of a socket before it is made. -/
theorem dgram_step {st st' : St P} {a : Act P} {r : Ret P} (hN : ∀ u, st.nudp ≤ u → st.udp u = noDgram)
    (hs : step G st a = some (st', r)) : (∀ u, st'.nudp ≤ u → st'.udp u = noDgram) ∧
      ∀ u, (st'.udp u).sent = (st.udp u).sent ++ sendsUdp u [(a, r)] := by
  have same : ∀ {st2 : St P} {r : Ret P}, st2.udp = st.udp → st.nudp ≤ st2.nudp → (∀ u, sendsUdp u [(a, r)] = []) →
      (∀ u, st2.nudp ≤ u → st2.udp u = noDgram) ∧ ∀ u, (st2.udp u).sent = (st.udp u).sent ++ sendsUdp u [(a, r)] := by
    intro st2 r h1 h2 h3
    exact ⟨fun u hu => by rw [h1]; exact hN u (Nat.le_trans h2 hu), fun u => by rw [h1, h3, List.append_nil]⟩
  have upd : ∀ {st2 : St P} {r : Ret P} (v : Nat) (s : Dgram), st2.udp = Heap.upd st.udp v s → st2.nudp = st.nudp →
      0 < (st.udp v).free → (s.sent = (st.udp v).sent ++ sendsUdp v [(a, r)]) → (∀ u, u ≠ v → sendsUdp u [(a, r)] = []) →
      (∀ u, st2.nudp ≤ u → st2.udp u = noDgram) ∧ ∀ u, (st2.udp u).sent = (st.udp u).sent ++ sendsUdp u [(a, r)] := by
    intro st2 r v s h1 h2 h3 h4 h5
    refine ⟨fun u hu => ?_, fun u => ?_⟩
    · have hne : u ≠ v := by
        rintro rfl
        rw [hN u (h2 ▸ hu)] at h3
        exact absurd h3 (by decide)
      rw [h1, upd_ne hne]; exact hN u (h2 ▸ hu)
    · rw [h1]
      by_cases e : u = v
      · subst e; rw [upd_same, h4]
      · rw [upd_ne e, h5 u e, List.append_nil]
  cases a with
  | sendUdp t e x data v udp ok =>
    simp only [step, sendUdp] at hs
    split at hs
    · rename_i hg
      simp only [Bool.and_eq_true, decide_eq_true_eq] at hg
      split at hs
      · cases hs; exact upd v _ rfl rfl hg.1.2 (by cases udp <;> simp [sendsUdp]) (by intro u _; cases udp <;> rfl)
      · split at hs
        · rename_i hu
          subst hu
          split at hs
          · cases hs
            exact upd v _ rfl rfl hg.1.2 (by simp [sendsUdp]) (fun u hu => by simp [sendsUdp, Ne.symm hu])
          · obtain ⟨h2, hd, h3⟩ := map_some' hs
            cases h3; exact upd v _ rfl rfl hg.1.2 (by simp [sendsUdp]) (fun _ _ => rfl)
        · rename_i hu
          cases hs; exact same rfl (Nat.le_refl _) (fun _ => by cases udp <;> first | rfl | exact absurd rfl hu)
      · cases hs
    · cases hs
  | recvUdp t e v udp =>
    simp only [step, recvUdp] at hs
    split at hs
    · rename_i hg
      simp only [Bool.and_eq_true, decide_eq_true_eq] at hg
      repeat' split at hs
      all_goals first | (cases hs; done) | skip
      all_goals cases hs
      · exact upd v _ rfl rfl hg.1.2 (by simp [sendsUdp]) (fun _ _ => rfl)
      · exact upd v _ rfl rfl hg.1.2 (by simp [sendsUdp]) (fun _ _ => rfl)
      · exact same rfl (Nat.le_refl _) (fun _ => rfl)
    · cases hs
  | cancelUdp t e v =>
    simp only [step, cancelUdp] at hs
    split at hs
    · rename_i hg
      simp only [Bool.and_eq_true, decide_eq_true_eq] at hg
      obtain ⟨h2, hd, h3⟩ := map_some' hs
      cases h3; exact upd v _ rfl rfl hg.1.2 (by simp [sendsUdp]) (fun _ _ => rfl)
    · cases hs
  | cloneUdp v =>
    simp only [step] at hs; split at hs <;> cases hs
    rename_i hg; exact upd v _ rfl rfl hg (by simp [sendsUdp]) (fun _ _ => rfl)
  | dropUdp v =>
    simp only [step] at hs; split at hs <;> cases hs
    rename_i hg; exact upd v _ rfl rfl hg (by simp [sendsUdp]) (fun _ _ => rfl)
  | take t =>
    simp only [step, take] at hs
    split at hs
    · rename_i v x es ht
      split at hs
      · cases hs
      · rename_i d hd
        cases hs
        refine ⟨fun u hu => ?_, fun u => ?_⟩
        · have hne : u ≠ v := by
            rintro rfl
            rw [hN u hu] at hd; cases hd
          simp only [giveUdp, leave, setUdp, upd_ne hne]; exact hN u hu
        · by_cases e : u = v
          · subst e; simp [giveUdp, leave, setUdp, Heap.upd, sendsUdp]
          · simp [giveUdp, leave, setUdp, Heap.upd, e, sendsUdp]
    · cases hs
  | deliver v d =>
    simp only [step] at hs
    split at hs
    · rename_i hlt
      cases hs
      refine ⟨fun u hu => ?_, fun u => ?_⟩
      · have hne : u ≠ v := by rintro rfl; exact absurd hlt (Nat.not_lt.mpr hu)
        simp only [setUdp, upd_ne hne]; exact hN u hu
      · by_cases e : u = v
        · subst e; simp [setUdp, Heap.upd, sendsUdp]
        · simp [setUdp, Heap.upd, e, sendsUdp]
    · cases hs
  | forkUdp s g =>
    simp only [step] at hs
    cases g with
    | connect => cases hs; exact same rfl (Nat.le_refl _) fun _ => rfl
    | clone => cases hs; exact same rfl (Nat.le_succ _) fun _ => rfl
    | spawn =>
      simp only [forkUdp] at hs
      split at hs
      · split at hs
        · obtain ⟨h2, hd, h3⟩ := map_some' hs
          cases h3
          exact same rfl (Nat.le_succ _) fun _ => rfl
        · cases hs
      · cases hs
    | done =>
      simp only [forkUdp] at hs
      split at hs
      · split at hs
        · cases hs
          refine ⟨fun u hu => ?_, fun u => ?_⟩
          · have hne : u ≠ st.nudp := by rintro rfl; exact absurd hu (Nat.not_succ_le_self _)
            simp only [setUdp, upd_ne hne]; exact hN u (Nat.le_of_succ_le hu)
          · by_cases e : u = st.nudp
            · subst e; simp [setUdp, Heap.upd, sendsUdp, hN _ (Nat.le_refl _)]
            · simp [setUdp, Heap.upd, e, sendsUdp]
        · cases hs
      · cases hs
  | forkTcp s g =>
    simp only [step] at hs
    cases g <;> simp only [forkTcp] at hs
    · cases hs; exact same rfl (Nat.le_refl _) fun _ => rfl
    · cases hs; exact same rfl (Nat.le_refl _) fun _ => rfl
    · split at hs
      · split at hs
        · obtain ⟨h2, hd, h3⟩ := map_some' hs
          cases h3
          exact same rfl (Nat.le_refl _) fun _ => rfl
        · cases hs
      · cases hs
    · split at hs
      · split at hs
        · cases hs; exact same rfl (Nat.le_refl _) fun _ => rfl
        · cases hs
      · cases hs
  | _ =>
    simp only [step, sendTcp, recvTcp, write, read, writeErr, readErr, readEnd, takeErr, closeTcp, closeWait, cancelTcp] at hs
    repeat' split at hs
    all_goals first
      | (cases hs; done)
      | (cases hs; exact same rfl (Nat.le_refl _) fun _ => rfl)
      | (obtain ⟨h2, hd, h3⟩ := map_some' hs; cases h3; exact same rfl (Nat.le_refl _) fun _ => rfl)

theorem sendsUdp_snoc {u : Nat} {run : List (Act P × Ret P)} {l : Act P × Ret P} :
    sendsUdp u (run ++ [l]) = sendsUdp u run ++ sendsUdp u [l] := by
  unfold sendsUdp; rw [List.filterMap_append]

/-- The datagrams sent and taken in a run. -/
structure UdpInv (st : St P) (run : List (Act P × Ret P)) : Prop where
  none : ∀ u, st.nudp ≤ u → st.udp u = noDgram
  sent : ∀ u, (st.udp u).sent = sendsUdp u run
  takes : ∀ u, TakeInv st u (run.foldl (takeUse u) ([], []))

theorem run_udpInv {run : List (Act P × Ret P)} {st : St P} (h : Run G run st) : UdpInv st run := by
  induction h with
  | init =>
    exact ⟨fun _ _ => rfl, fun _ => rfl, fun u => ⟨fun t => by simp [init, tk], List.nodup_nil, rfl, fun k p hp => by cases hp⟩⟩
  | snoc hr hs ih =>
    have hd := dgram_step ih.none hs
    refine ⟨hd.1, fun u => ?_, fun u => ?_⟩
    · rw [hd.2, ih.sent, sendsUdp_snoc]
    · rw [List.foldl_append]
      exact takeInv_step (ih.takes u) (take_cases ih.none hs)

end Verif.Transport
