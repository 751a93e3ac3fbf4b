import Verif.Proof.TransportValue
/-!
# Transports: the endpoints inside calls
-/
namespace Verif.Transport
open Verif.Types Verif.Spec
open Verif.Heap (Val Entry EP Env Sig Reach Ev Out Op Tok poolToks takeAll entries)

variable {P : Type} [DecidableEq P] {G : Env P}

/-- No side of a session is held twice. -/
def Distinct (p : List (Entry P)) : Prop := p.Pairwise fun e f => ¬ (e.ep.sid = f.ep.sid ∧ e.ep.side = f.ep.side)

omit [DecidableEq P] in
theorem distinct_of_count : ∀ p : List (Entry P), (∀ s b, (poolToks p).count (Tok.idn s b) ≤ 1) → Distinct p := by
  intro p
  induction p with
  | nil => intro _; exact List.Pairwise.nil
  | cons e p ih =>
    intro h
    refine List.pairwise_cons.mpr ⟨fun f hf hs => ?_, ih fun s b => ?_⟩
    · have := h e.ep.sid e.ep.side
      rw [Heap.poolToks_cons, List.count_append] at this
      have h1 := Heap.count_idn e.ep
      have h2 : 1 ≤ (poolToks p).count (Tok.idn e.ep.sid e.ep.side) := by
        rw [hs.1, hs.2]; exact Heap.count_mem_pool hf (Heap.mem_toks_idn _)
      omega
    · have := h s b
      rw [Heap.poolToks_cons, List.count_append] at this
      omega

theorem reach_distinct {h : Heap.St P} (hr : Reach G h) : Distinct h.pool := by
  apply distinct_of_count
  intro s b
  have := Verif.Prop.C06_linear hr (.idn s b)
  unfold Heap.cnt at this
  omega

omit [DecidableEq P] in
theorem Distinct.nodup {p : List (Entry P)} (h : Distinct p) : p.Nodup :=
  h.imp fun hn he => hn (by rw [he]; exact ⟨rfl, rfl⟩)

omit [DecidableEq P] in
theorem Distinct.ne {p : List (Entry P)} (h : Distinct p) {e f : Entry P} (he : e ∈ p) (hf : f ∈ p) (hne : e ≠ f) : e.ep ≠ f.ep := by
  intro hep
  have key : ∀ q : List (Entry P), Distinct q → e ∈ q → f ∈ q → False := by
    intro q
    induction q with
    | nil => intro _ h1; cases h1
    | cons a q ih =>
      intro hd h1 h2
      obtain ⟨d1, d2⟩ := List.pairwise_cons.mp hd
      rcases List.mem_cons.mp h1 with h1 | h1 <;> rcases List.mem_cons.mp h2 with h2 | h2
      · exact hne (h1.trans h2.symm)
      · exact d1 f h2 (by rw [← h1, hep]; exact ⟨rfl, rfl⟩)
      · exact d1 e h1 (by rw [← h2, hep]; exact ⟨rfl, rfl⟩)
      · exact ih d2 h1 h2
  exact key p h he hf

/-- The pool after each call of `src/binary`. -/
theorem send_pool {h h1 : Heap.St P} {e : Entry P} {v : Val} (hs : Heap.step G h (.send e v) = some (h1, .unit)) :
    ∃ here rest tys, h1.pool = here :: rest ∧ h.pool.Perm (e :: entries v.eps tys ++ rest) := by
  simp only [Heap.step, Heap.sendStep] at hs
  repeat' split at hs
  all_goals cases hs
  all_goals exact ⟨_, _, _, rfl, Heap.takeAll_perm _ _ _ (by assumption)⟩

theorem recv_pool {h h1 : Heap.St P} {e : Entry P} {v : Val} (hs : Heap.step G h (.recv e) = some (h1, .value v)) :
    ∃ es rest, h1.pool = es ++ rest ∧ es.length = v.eps.length + 1 ∧ h.pool.Perm (e :: rest) := by
  simp only [Heap.step, Heap.recvStep] at hs
  split at hs
  · split at hs
    · cases hs
    · rename_i rest hta
      have hp := Heap.takeAll_perm _ _ _ hta
      split at hs
      · split at hs
        · cases hs
        · split at hs
          · rename_i hl
            cases hs
            refine ⟨entries v.eps _ ++ [_], rest, (List.append_assoc _ [_] rest).symm, ?_, by simpa using hp⟩
            simp [entries, hl]
          · cases hs
      · cases hs
      · split at hs <;> cases hs
  · cases hs

theorem recv_pool_err {h h1 : Heap.St P} {e : Entry P} (hs : Heap.step G h (.recv e) = some (h1, .err)) :
    h.pool.Perm (e :: h1.pool) := by
  simp only [Heap.step, Heap.recvStep] at hs
  split at hs
  · split at hs
    · cases hs
    · rename_i rest hta
      have hp := Heap.takeAll_perm _ _ _ hta
      split at hs
      · split at hs
        · cases hs
        · split at hs <;> cases hs
      · cases hs
      · split at hs <;> cases hs
        simpa using hp
  · cases hs

/-- A call of `src/binary` takes only the endpoints it is given. -/
theorem pool_keep {h h' : Heap.St P} {op : Op P} {o : Out} (hs : Heap.step G h op = some (h', o)) {f : Entry P} (hf : f ∈ h.pool)
    (hn : f.ep ∉ opEps op) : f ∈ h'.pool := by
  have perm : ∀ {es rest}, takeAll h.pool es = some rest → (∀ e ∈ es, e.ep ∈ opEps op) → f ∈ rest := by
    intro es rest ht he
    have := (Heap.takeAll_perm _ _ _ ht).mem_iff.mp hf
    rcases List.mem_append.mp this with hm | hm
    · exact absurd (he f hm) hn
    · exact hm
  cases op with
  | new s =>
    simp only [Heap.step] at hs
    cases hs
    simp [hf]
  | send e v =>
    simp only [Heap.step, Heap.sendStep] at hs
    split at hs
    · split at hs
      · cases hs
      · split at hs
        · split at hs
          · cases hs
          · rename_i rest hta
            have hfr := perm hta (fun e' he' => by
              rcases List.mem_cons.mp he' with rfl | he'
              · simp [opEps]
              · exact List.mem_cons_of_mem _ (Heap.mem_entries _ _ he'))
            split at hs
            · cases hs; exact hf
            · split at hs <;> cases hs <;> exact List.mem_cons_of_mem _ hfr
        · cases hs
    · cases hs
  | recv e =>
    simp only [Heap.step, Heap.recvStep] at hs
    split at hs
    · split at hs
      · cases hs
      · rename_i rest hta
        have hfr := perm hta (fun e' he' => by
          rcases List.mem_cons.mp he' with rfl | he'
          · simp [opEps]
          · cases he')
        split at hs
        · split at hs
          · cases hs; exact hf
          · split at hs
            · cases hs; simp [hfr]
            · cases hs; exact hf
        · cases hs; exact hf
        · split at hs
          · cases hs; exact hf
          · cases hs; exact hfr
    · cases hs
  | sigSend e s =>
    simp only [Heap.step, Heap.sigSendStep] at hs
    split at hs
    · split at hs
      · split at hs
        · split at hs
          · cases hs
          · rename_i f' _ _ hta
            have hfr := perm hta (fun e' he' => by
              simp only [List.mem_cons, List.not_mem_nil, or_false] at he'
              rcases he' with rfl | rfl <;> simp [opEps])
            split at hs
            · split at hs
              · cases hs; exact hf
              · cases hs; exact List.mem_cons_of_mem _ hfr
            · cases hs; exact List.mem_cons_of_mem _ hfr
        · split at hs
          · split at hs <;> cases hs <;> exact hf
          · cases hs; exact hf
      · cases hs
    · cases hs
  | sigRecv e =>
    simp only [Heap.step, Heap.sigRecvStep] at hs
    split at hs
    · split at hs
      · split at hs
        · cases hs; exact List.mem_append_right _ hf
        · cases hs; exact hf
        · split at hs <;> cases hs <;> exact hf
      · cases hs
    · cases hs
  | drop e =>
    simp only [Heap.step] at hs
    split at hs
    · cases hs
    · rename_i rest hta
      cases hs
      exact perm hta (fun e' he' => by
        rcases List.mem_cons.mp he' with rfl | he'
        · simp [opEps]
        · cases he')
  | gc i =>
    simp only [Heap.step] at hs
    split at hs
    · cases hs
    · cases hs
      rename_i t _
      cases t <;> exact hf

theorem dropAll_keep {es : List (Entry P)} : ∀ {h h' : Heap.St P}, dropAll G h es = some h' → ∀ {f : Entry P}, f ∈ h.pool →
    (∀ e ∈ es, f.ep ≠ e.ep) → f ∈ h'.pool := by
  induction es with
  | nil => intro h h' hd f hf _; cases hd; exact hf
  | cons e es ih =>
    intro h h' hd f hf hn
    unfold dropAll at hd
    split at hd
    · rename_i h1 o hs
      refine ih hd (pool_keep hs hf ?_) fun e' he' => hn e' (List.mem_cons_of_mem _ he')
      simp only [opEps, List.mem_singleton]
      exact hn e (List.mem_cons_self ..)
    · cases hd

theorem dropAll_some {es : List (Entry P)} : ∀ {h : Heap.St P}, Reach G h → (∀ e ∈ es, e ∈ h.pool) → es.Nodup → ∃ h', dropAll G h es = some h' := by
  induction es with
  | nil => intro h _ _ _; exact ⟨h, rfl⟩
  | cons e es ih =>
    intro h hr hm hn
    obtain ⟨n1, n2⟩ := List.nodup_cons.mp hn
    have he := hm e (List.mem_cons_self ..)
    have hstep : ∃ h1 o, Heap.step G h (.drop e) = some (h1, o) := by
      simp only [Heap.step, takeAll, if_pos he]
      exact ⟨_, _, rfl⟩
    obtain ⟨h1, o, hs⟩ := hstep
    obtain ⟨h2, h3⟩ := ih (hr.step hs) (fun f hf => pool_keep hs (hm f (List.mem_cons_of_mem _ hf)) (by
      simp only [opEps, List.mem_singleton]
      refine (reach_distinct hr).ne (hm f (List.mem_cons_of_mem _ hf)) he ?_
      rintro rfl; exact n1 hf)) n2
    exact ⟨h2, by unfold dropAll; rw [hs]; exact h3⟩

/-- The endpoints inside calls: each is with one thread, and nobody else has it. -/
structure Own (thr : Nat → Call P) (held pool : List (Entry P)) : Prop where
  inHeld : ∀ t e, e ∈ (thr t).held → e ∈ held
  back : ∀ e ∈ held, ∃ t, e ∈ (thr t).held
  inPool : ∀ t e, e ∈ (thr t).held → e ∈ pool
  nodup : ∀ t, (thr t).held.Nodup
  disj : ∀ t t' e, t ≠ t' → e ∈ (thr t).held → e ∉ (thr t').held

omit [DecidableEq P] in
theorem Own.keep {thr : Nat → Call P} {held pool pool' : List (Entry P)} (h : Own thr held pool)
    (hp : ∀ e ∈ held, e ∈ pool → e ∈ pool') : Own thr held pool' :=
  ⟨h.inHeld, h.back, fun t e he => hp e (h.inHeld t e he) (h.inPool t e he), h.nodup, h.disj⟩

omit [DecidableEq P] in
theorem Own.enter {thr : Nat → Call P} {held pool pool' : List (Entry P)} {t : Nat} {k : Call P} (h : Own thr held pool)
    (hi : thr t = .idle) (hp : ∀ e ∈ held, e ∈ pool → e ∈ pool') (hk : ∀ e ∈ k.held, e ∈ pool') (hn : k.held.Nodup)
    (hd : ∀ e ∈ k.held, e ∉ held) : Own (Heap.upd thr t k) (k.held ++ held) pool' := by
  have hit : ∀ e, e ∉ (thr t).held := fun e => by rw [hi]; exact List.not_mem_nil
  refine ⟨fun t' e he => ?_, fun e he => ?_, fun t' e he => ?_, fun t' => ?_, fun t1 t2 e hne he1 he2 => ?_⟩
  · by_cases e' : t' = t
    · subst e'; rw [upd_same] at he; exact List.mem_append_left _ he
    · rw [upd_ne e'] at he; exact List.mem_append_right _ (h.inHeld t' e he)
  · rcases List.mem_append.mp he with he | he
    · exact ⟨t, by rw [upd_same]; exact he⟩
    · obtain ⟨t', ht'⟩ := h.back e he
      refine ⟨t', ?_⟩
      rw [upd_ne (by rintro rfl; exact hit _ ht')]; exact ht'
  · by_cases e' : t' = t
    · subst e'; rw [upd_same] at he; exact hk e he
    · rw [upd_ne e'] at he; exact hp e (h.inHeld t' e he) (h.inPool t' e he)
  · by_cases e' : t' = t
    · subst e'; rw [upd_same]; exact hn
    · rw [upd_ne e']; exact h.nodup t'
  · by_cases e1 : t1 = t
    · subst e1
      rw [upd_same] at he1
      rw [upd_ne (Ne.symm hne)] at he2
      exact hd e he1 (h.inHeld t2 e he2)
    · rw [upd_ne e1] at he1
      by_cases e2 : t2 = t
      · subst e2
        rw [upd_same] at he2
        exact hd e he2 (h.inHeld t1 e he1)
      · rw [upd_ne e2] at he2
        exact h.disj t1 t2 e hne he1 he2

theorem Own.leave {thr : Nat → Call P} {held pool pool' : List (Entry P)} {t : Nat} (h : Own thr held pool)
    (hp : ∀ e ∈ held, e ∈ pool → e ∉ (thr t).held → e ∈ pool') :
    Own (Heap.upd thr t .idle) (held.filter fun e => !(thr t).held.contains e) pool' := by
  have hmem : ∀ e, e ∈ held.filter (fun e => !(thr t).held.contains e) ↔ e ∈ held ∧ e ∉ (thr t).held := by
    intro e; simp [List.mem_filter]
  refine ⟨fun t' e he => ?_, fun e he => ?_, fun t' e he => ?_, fun t' => ?_, fun t1 t2 e hne he1 he2 => ?_⟩
  · by_cases e' : t' = t
    · subst e'; rw [upd_same] at he; cases he
    · rw [upd_ne e'] at he; exact (hmem e).mpr ⟨h.inHeld t' e he, h.disj t' t e e' he⟩
  · obtain ⟨h1, h2⟩ := (hmem e).mp he
    obtain ⟨t', ht'⟩ := h.back e h1
    refine ⟨t', ?_⟩
    rw [upd_ne (by rintro rfl; exact h2 ht')]; exact ht'
  · by_cases e' : t' = t
    · subst e'; rw [upd_same] at he; cases he
    · rw [upd_ne e'] at he; exact hp e (h.inHeld t' e he) (h.inPool t' e he) (h.disj t' t e e' he)
  · by_cases e' : t' = t
    · subst e'; rw [upd_same]; exact List.nodup_nil
    · rw [upd_ne e']; exact h.nodup t'
  · by_cases e1 : t1 = t
    · subst e1; rw [upd_same] at he1; cases he1
    · by_cases e2 : t2 = t
      · subst e2; rw [upd_same] at he2; cases he2
      · rw [upd_ne e1] at he1
        rw [upd_ne e2] at he2
        exact h.disj t1 t2 e hne he1 he2

/-- A thread stays in its call. -/
theorem Own.stay {thr : Nat → Call P} {held pool : List (Entry P)} {t : Nat} {k : Call P} (h : Own thr held pool)
    (hk : k.held = (thr t).held) : Own (Heap.upd thr t k) held pool := by
  have he : ∀ t', (Heap.upd thr t k t').held = (thr t').held := by
    intro t'
    by_cases e : t' = t
    · subst e; rw [upd_same, hk]
    · rw [upd_ne e]
  exact ⟨fun t' e h' => h.inHeld t' e (he t' ▸ h'), fun e h' => by simpa only [he] using h.back e h',
    fun t' e h' => h.inPool t' e (he t' ▸ h'), fun t' => by rw [he]; exact h.nodup t',
    fun t1 t2 e hne h1 h2 => h.disj t1 t2 e hne (he t1 ▸ h1) (he t2 ▸ h2)⟩

omit [DecidableEq P] in
theorem free_not {st : St P} {l : List EP} (h : free st l = true) {e : Entry P} (he : e ∈ st.held) : e.ep ∉ l := by
  intro hm
  have := List.all_eq_true.mp h _ hm
  simp only [Bool.not_eq_true', List.contains_eq_mem, decide_eq_false_iff_not] at this
  exact this (List.mem_map_of_mem he)

theorem chanSend_own {st : St P} {e : Entry P} {x : Val} {data : List UInt8} {r : Heap.St P ⊕ Heap.St P × Entry P}
    (hs : chanSend G st.heap e x data = some r) (hf : free st (e.ep :: x.eps) = true) (hr : Reach G st.heap) :
    match r with
    | .inl h' => ∀ f ∈ st.held, f ∈ st.heap.pool → f ∈ h'.pool
    | .inr p => (∀ f ∈ st.held, f ∈ st.heap.pool → f ∈ p.1.pool) ∧ p.2 ∈ p.1.pool ∧ ∀ f ∈ st.held, f ∈ st.heap.pool → f ≠ p.2 := by
  unfold chanSend at hs
  split at hs
  · rename_i h1 hst
    obtain ⟨here, rest, tys, hp1, hp2⟩ := send_pool hst
    have hd := reach_distinct (hr.step hst)
    rw [hp1] at hd
    have hrest : ∀ f ∈ st.held, f ∈ st.heap.pool → f ∈ rest := by
      intro f hf1 hf2
      have hn := free_not hf hf1
      rcases List.mem_append.mp (hp2.mem_iff.mp hf2) with hm | hm
      · exfalso
        rcases List.mem_cons.mp hm with rfl | hm
        · exact hn (List.mem_cons_self ..)
        · exact hn (List.mem_cons_of_mem _ (Heap.mem_entries _ _ hm))
      · exact hm
    have hne : ∀ f ∈ rest, f.ep ≠ here.ep := by
      intro f hf3 he
      exact (List.pairwise_cons.mp hd).1 f hf3 (by rw [he]; exact ⟨rfl, rfl⟩)
    split at hs
    · rename_i here' _ hpool
      rw [hp1] at hpool
      cases hpool
      split at hs
      · obtain ⟨h2, hdr, h3⟩ := map_some' hs
        cases h3
        intro f h1 h2
        refine dropAll_keep hdr (by rw [hp1]; exact List.mem_cons_of_mem _ (hrest f h1 h2)) fun e' he' => ?_
        rw [List.mem_singleton] at he'
        subst he'
        exact hne f (hrest f h1 h2)
      · cases hs
        refine ⟨fun f h1 h2 => by rw [hp1]; exact List.mem_cons_of_mem _ (hrest f h1 h2), by rw [hp1]; exact List.mem_cons_self .., ?_⟩
        intro f h1 h2 he
        exact hne f (hrest f h1 h2) (by rw [he])
    · cases hs
  · cases hs

theorem chanRecv_own {st : St P} {e : Entry P} {r : Heap.St P ⊕ Heap.St P × Val × List (Entry P)}
    (hs : chanRecv G st.heap e = some r) (hf : free st [e.ep] = true) (hr : Reach G st.heap) :
    match r with
    | .inl h' => ∀ f ∈ st.held, f ∈ st.heap.pool → f ∈ h'.pool
    | .inr p => (∀ f ∈ st.held, f ∈ st.heap.pool → f ∈ p.1.pool) ∧ (∀ f ∈ p.2.2, f ∈ p.1.pool) ∧ p.2.2.Nodup ∧
        ∀ f ∈ st.held, f ∈ st.heap.pool → f ∉ p.2.2 := by
  unfold chanRecv at hs
  split at hs
  · rename_i h1 v hst
    obtain ⟨es, rest, hp1, hp2, hp3⟩ := recv_pool hst
    have hd := reach_distinct (hr.step hst)
    rw [hp1] at hd
    have hrest : ∀ f ∈ st.held, f ∈ st.heap.pool → f ∈ rest := by
      intro f hf1 hf2
      have hn := free_not hf hf1
      rcases List.mem_cons.mp (hp3.mem_iff.mp hf2) with rfl | hm
      · exact absurd (List.mem_cons_self ..) hn
      · exact hm
    cases hs
    have htake : h1.pool.take (v.eps.length + 1) = es := by
      rw [hp1, ← hp2, List.take_left]
    simp only [htake]
    obtain ⟨d1, d2, d3⟩ := List.pairwise_append.mp hd
    refine ⟨fun f h1 h2 => by rw [hp1]; exact List.mem_append_right _ (hrest f h1 h2), fun f hf' => by
      rw [hp1]; exact List.mem_append_left _ hf', Distinct.nodup d1, fun f h1 h2 h3 => ?_⟩
    exact d3 f h3 f (hrest f h1 h2) ⟨rfl, rfl⟩
  · rename_i h1 hst
    cases hs
    intro f hf1 hf2
    exact pool_keep hst hf2 (by simpa [opEps] using free_not hf hf1)
  · cases hs

theorem new_pool {h h1 : Heap.St P} {s : STy P} {o : Out} {there here : Entry P} {rest : List (Entry P)}
    (hr : Reach G h) (hs : Heap.step G h (.new s) = some (h1, o)) (hp : h1.pool = there :: here :: rest) :
    rest = h.pool ∧ ∀ f ∈ rest, f.ep ≠ there.ep ∧ f.ep ≠ here.ep := by
  have hd := reach_distinct (hr.step hs)
  rw [hp] at hd
  obtain ⟨d1, d2⟩ := List.pairwise_cons.mp hd
  obtain ⟨d3, -⟩ := List.pairwise_cons.mp d2
  simp only [Heap.step] at hs
  cases hs
  simp only [List.cons.injEq] at hp
  refine ⟨hp.2.2.symm, fun f hf => ⟨fun he => ?_, fun he => ?_⟩⟩
  · exact d1 f (List.mem_cons_of_mem _ hf) (by rw [he]; exact ⟨rfl, rfl⟩)
  · exact d3 f hf (by rw [he]; exact ⟨rfl, rfl⟩)

theorem sigRecv_pool {h h1 : Heap.St P} {e : Entry P} {s : Sig} (hs : Heap.step G h (.sigRecv e) = some (h1, .signal s)) :
    h1.pool = ends s ++ h.pool := by
  simp only [Heap.step, Heap.sigRecvStep] at hs
  split at hs
  · split at hs
    · split at hs
      · rename_i s' _
        cases hs
        cases s <;> rfl
      · cases hs
      · split at hs <;> cases hs
    · cases hs
  · cases hs

theorem sigRecv_err {h h1 : Heap.St P} {e : Entry P} (hs : Heap.step G h (.sigRecv e) = some (h1, .err)) :
    h1.pool = h.pool := by
  simp only [Heap.step, Heap.sigRecvStep] at hs
  split at hs
  · split at hs
    · split at hs
      · cases hs
      · cases hs
      · split at hs <;> cases hs
        rfl
    · cases hs
  · cases hs

theorem own_step {st st' : St P} {a : Act P} {r : Ret P} (hr : Reach G st.heap) (h : Own st.thr st.held st.heap.pool)
    (hs : step G st a = some (st', r)) : Own st'.thr st'.held st'.heap.pool := by
  have same : Own st.thr st.held st.heap.pool := h
  have notHeld : ∀ {e : Entry P} {l : List EP}, free st l = true → e.ep ∈ l → e ∉ st.held :=
    fun hf hm he => free_not hf he hm
  have drops : ∀ {t : Nat} {es : List (Entry P)} {h' : Heap.St P}, (st.thr t).held = es → dropAll G st.heap es = some h' →
      ∀ e ∈ st.held, e ∈ st.heap.pool → e ∉ (st.thr t).held → e ∈ h'.pool := by
    intro t es h' ht hd e he1 he2 he3
    refine dropAll_keep hd he2 fun e' he' => ?_
    refine (reach_distinct hr).ne he2 (h.inPool t e' (ht ▸ he')) ?_
    rintro rfl; exact he3 (ht ▸ he')
  cases a with
  | api op =>
    simp only [step] at hs
    split at hs
    · rename_i hf
      obtain ⟨⟨h1, o⟩, h2, h3⟩ := map_some' hs
      cases h3
      exact h.keep fun e he1 he2 => pool_keep h2 he2 (free_not hf he1)
    · cases hs
  | forkTcp s g =>
    simp only [step] at hs
    cases g with
    | connect => cases hs; exact h
    | clone => cases hs; exact h
    | spawn =>
      simp only [forkTcp] at hs
      split at hs
      · rename_i hst
        split at hs
        · rename_i hp
          obtain ⟨h2, hd, h3⟩ := map_some' hs
          cases h3
          obtain ⟨n1, n2⟩ := new_pool hr hst hp
          refine h.keep fun e he1 he2 => dropAll_keep hd (by rw [hp, n1]; simp [he2]) fun e' he' => ?_
          have := n2 e (by rw [n1]; exact he2)
          simp only [List.mem_cons, List.not_mem_nil, or_false] at he'
          rcases he' with rfl | rfl
          · exact this.1
          · exact this.2
        · cases hs
      · cases hs
    | done =>
      simp only [forkTcp] at hs
      split at hs
      · rename_i hst
        split at hs
        · cases hs
          exact h.keep fun e he1 he2 => pool_keep hst he2 (by simp [opEps])
        · cases hs
      · cases hs
  | forkUdp s g =>
    simp only [step] at hs
    cases g with
    | connect => cases hs; exact h
    | clone => cases hs; exact h
    | spawn =>
      simp only [forkUdp] at hs
      split at hs
      · rename_i hst
        split at hs
        · rename_i hp
          obtain ⟨h2, hd, h3⟩ := map_some' hs
          cases h3
          obtain ⟨n1, n2⟩ := new_pool hr hst hp
          refine h.keep fun e he1 he2 => dropAll_keep hd (by rw [hp, n1]; simp [he2]) fun e' he' => ?_
          have := n2 e (by rw [n1]; exact he2)
          simp only [List.mem_cons, List.not_mem_nil, or_false] at he'
          rcases he' with rfl | rfl
          · exact this.1
          · exact this.2
        · cases hs
      · cases hs
    | done =>
      simp only [forkUdp] at hs
      split at hs
      · rename_i hst
        split at hs
        · cases hs
          exact h.keep fun e he1 he2 => pool_keep hst he2 (by simp [opEps])
        · cases hs
      · cases hs
  | sendTcp t e x data c tcp =>
    simp only [step, sendTcp] at hs
    split at hs
    · rename_i hg
      simp only [Bool.and_eq_true, decide_eq_true_eq, beq_iff_eq] at hg
      have hi := idle_of hg.1.1.1
      split at hs
      · have ho := chanSend_own (G := G) (by assumption : chanSend G st.heap e x data = some _) hg.2 hr
        cases hs
        exact h.keep ho
      · have ho := chanSend_own (G := G) (by assumption : chanSend G st.heap e x data = some _) hg.2 hr
        split at hs
        · cases hs
          refine h.enter hi ho.1 ?_ (by simp [Call.held]) ?_
          · intro f hf; simp only [Call.held, List.mem_singleton] at hf; subst hf; exact ho.2.1
          · intro f hf hf2; simp only [Call.held, List.mem_singleton] at hf; subst hf
            obtain ⟨t', ht'⟩ := h.back _ hf2
            exact ho.2.2 _ hf2 (h.inPool t' _ ht') rfl
        · cases hs; exact h.keep ho.1
      · cases hs
    · cases hs
  | sendUdp t e x data u udp ok =>
    simp only [step, sendUdp] at hs
    split at hs
    · rename_i hg
      simp only [Bool.and_eq_true, decide_eq_true_eq, beq_iff_eq] at hg
      split at hs
      · have ho := chanSend_own (G := G) (by assumption : chanSend G st.heap e x data = some _) hg.2 hr
        cases hs
        exact h.keep ho
      · have hcs := (by assumption : chanSend G st.heap e x data = some _)
        have ho := chanSend_own (G := G) hcs hg.2 hr
        split at hs
        · split at hs
          · cases hs; exact h.keep ho.1
          · obtain ⟨h2, hd, h3⟩ := map_some' hs
            cases h3
            refine h.keep fun f h1 h2 => dropAll_keep hd (ho.1 f h1 h2) fun e' he' => ?_
            rw [List.mem_singleton] at he'
            subst he'
            exact (reach_distinct (Heap.steps_reach hr (chanSend_steps hcs))).ne (ho.1 f h1 h2) ho.2.1 (ho.2.2 f h1 h2)
        · cases hs; exact h.keep ho.1
      · cases hs
    · cases hs
  | recvTcp t e c tcp =>
    simp only [step, recvTcp] at hs
    split at hs
    · rename_i hg
      simp only [Bool.and_eq_true, decide_eq_true_eq, beq_iff_eq] at hg
      have hi := idle_of hg.1.1
      split at hs
      · have ho := chanRecv_own (G := G) (by assumption : chanRecv G st.heap e = some _) hg.2 hr
        cases hs
        exact h.keep ho
      · have ho := chanRecv_own (G := G) (by assumption : chanRecv G st.heap e = some _) hg.2 hr
        split at hs
        · cases hs
          refine h.enter hi ho.1 ho.2.1 ho.2.2.1 fun f hf hf2 => ?_
          obtain ⟨t', ht'⟩ := h.back _ hf2
          exact ho.2.2.2 _ hf2 (h.inPool t' _ ht') hf
        · cases hs; exact h.keep ho.1
      · cases hs
    · cases hs
  | recvUdp t e c tcp =>
    simp only [step, recvUdp] at hs
    split at hs
    · rename_i hg
      simp only [Bool.and_eq_true, decide_eq_true_eq, beq_iff_eq] at hg
      have hi := idle_of hg.1.1
      split at hs
      · have ho := chanRecv_own (G := G) (by assumption : chanRecv G st.heap e = some _) hg.2 hr
        cases hs
        exact h.keep ho
      · have ho := chanRecv_own (G := G) (by assumption : chanRecv G st.heap e = some _) hg.2 hr
        split at hs
        · cases hs
          refine h.enter hi ho.1 ho.2.1 ho.2.2.1 fun f hf hf2 => ?_
          obtain ⟨t', ht'⟩ := h.back _ hf2
          exact ho.2.2.2 _ hf2 (h.inPool t' _ ht') hf
        · cases hs; exact h.keep ho.1
      · cases hs
    · cases hs
  | write t n =>
    simp only [step, write] at hs
    split at hs
    · rename_i ht
      repeat' split at hs
      all_goals first | (cases hs; done) | skip
      all_goals cases hs
      · exact h.leave fun e _ he _ => he
      · exact h.stay (by rw [ht]; rfl)
    · cases hs
  | read t n =>
    simp only [step, read] at hs
    split at hs
    · rename_i c buf x es ht
      repeat' split at hs
      all_goals first | (cases hs; done) | skip
      all_goals cases hs
      · exact h.leave fun e _ he _ => he
      · exact h.stay (by rw [ht]; rfl)
    · cases hs
  | take t =>
    simp only [step, take] at hs
    repeat' split at hs
    all_goals first | (cases hs; done) | skip
    all_goals cases hs
    exact h.leave fun e _ he _ => he
  | writeErr t =>
    simp only [step, writeErr] at hs
    split at hs
    · rename_i ht
      obtain ⟨h2, hd, h3⟩ := map_some' hs
      cases h3; exact h.leave (drops (by rw [ht]; rfl) hd)
    · cases hs
  | readErr t =>
    simp only [step, readErr] at hs
    split at hs
    · rename_i ht
      obtain ⟨h2, hd, h3⟩ := map_some' hs
      cases h3; exact h.leave (drops (by rw [ht]; rfl) hd)
    · cases hs
  | takeErr t =>
    simp only [step, takeErr] at hs
    split at hs
    · rename_i ht
      obtain ⟨h2, hd, h3⟩ := map_some' hs
      cases h3; exact h.leave (drops (by rw [ht]; rfl) hd)
    · cases hs
  | readEnd t =>
    simp only [step, readEnd, readErr] at hs
    split at hs
    · rename_i ht
      split at hs
      · obtain ⟨h2, hd, h3⟩ := map_some' hs
        cases h3; exact h.leave (drops (by rw [ht]; rfl) hd)
      · cases hs
    · cases hs
  | closeTcp t e c tcp =>
    simp only [step, closeTcp] at hs
    split at hs
    · rename_i hg
      simp only [Bool.and_eq_true, decide_eq_true_eq] at hg
      have hi := idle_of hg.1.1
      have hkeep : ∀ {h1 o}, Heap.step G st.heap (.sigSend e .stop) = some (h1, o) → ∀ f ∈ st.held, f ∈ st.heap.pool → f ∈ h1.pool := by
        intro h1 o hst f hf1 hf2
        exact pool_keep hst hf2 (by simpa [opEps] using free_not hg.2 hf1)
      split at hs
      · rename_i h1 hst
        have hin : e ∈ h1.pool := by
          simp only [Heap.step, Heap.sigSendStep] at hst
          repeat' split at hst
          all_goals cases hst
          all_goals assumption
        cases hs
        refine h.enter hi (hkeep hst) ?_ (by simp [Call.held]) ?_
        · intro f hf; simp only [Call.held, List.mem_singleton] at hf; subst hf; exact hin
        · intro f hf hf2; simp only [Call.held, List.mem_singleton] at hf; subst hf
          exact notHeld hg.2 (List.mem_cons_self ..) hf2
      · rename_i h1 hst
        obtain ⟨h2, hd, h3⟩ := map_some' hs
        cases h3
        refine h.keep fun f hf1 hf2 => dropAll_keep hd (hkeep hst f hf1 hf2) fun e' he' => ?_
        rw [List.mem_singleton] at he'
        subst he'
        intro heq
        exact free_not hg.2 hf1 (by rw [heq]; exact List.mem_cons_self ..)
      · cases hs
    · cases hs
  | closeWait t b =>
    simp only [step, closeWait] at hs
    split at hs
    · rename_i c tcp e ht
      have hin : e ∈ st.heap.pool := h.inPool t e (by rw [ht]; exact List.mem_cons_self ..)
      split at hs
      · rename_i h1 s hst
        split at hs
        · cases hs
        · rename_i h' hd
          have hpool : ∀ f ∈ st.held, f ∈ st.heap.pool → f ∉ (st.thr t).held → f ∈ h'.pool := by
            intro f hf1 hf2 hf3
            have hfe : f ≠ e := by rintro rfl; exact hf3 (by rw [ht]; exact List.mem_cons_self ..)
            have hep : f.ep ≠ e.ep := (reach_distinct hr).ne hf2 hin hfe
            have hd1 := reach_distinct (hr.step hst)
            have hnew := sigRecv_pool hst
            rw [hnew] at hd1
            obtain ⟨-, -, d3⟩ := List.pairwise_append.mp hd1
            refine dropAll_keep hd (by rw [hnew]; exact List.mem_append_right _ hf2) fun e' he' => ?_
            rcases List.mem_append.mp he' with he' | he'
            · intro heq
              exact d3 e' he' f hf2 (by rw [heq]; exact ⟨rfl, rfl⟩)
            · rw [List.mem_singleton] at he'; subst he'; exact hep
          split at hs
          · obtain ⟨s2, hsh, h3⟩ := map_some' hs
            cases h3
            exact h.leave hpool
          · cases hs; exact h.leave hpool
      · rename_i h1 hst
        obtain ⟨h2, hd, h3⟩ := map_some' hs
        cases h3
        have hnew := sigRecv_err hst
        refine h.leave fun f hf1 hf2 hf3 => dropAll_keep hd (by rw [hnew]; exact hf2) fun e' he' => ?_
        rw [List.mem_singleton] at he'
        subst he'
        refine (reach_distinct hr).ne hf2 hin ?_
        rintro rfl; exact hf3 (by rw [ht]; exact List.mem_cons_self ..)
      · cases hs
    · cases hs
  | cancelTcp t e c b =>
    simp only [step, cancelTcp] at hs
    split at hs
    · rename_i hg
      simp only [Bool.and_eq_true, decide_eq_true_eq] at hg
      split at hs
      · cases hs
      · rename_i hd
        obtain ⟨s2, hsh, h3⟩ := map_some' hs
        cases h3
        refine h.keep fun f hf1 hf2 => dropAll_keep hd hf2 fun e' he' => ?_
        rw [List.mem_singleton] at he'
        subst he'
        intro heq
        exact free_not hg.2 hf1 (by rw [heq]; exact List.mem_cons_self ..)
    · cases hs
  | cancelUdp t e c =>
    simp only [step, cancelUdp] at hs
    split at hs
    · rename_i hg
      simp only [Bool.and_eq_true, decide_eq_true_eq] at hg
      obtain ⟨h2, hd, h3⟩ := map_some' hs
      cases h3
      refine h.keep fun f hf1 hf2 => dropAll_keep hd hf2 fun e' he' => ?_
      rw [List.mem_singleton] at he'
      subst he'
      intro heq
      exact free_not hg.2 hf1 (by rw [heq]; exact List.mem_cons_self ..)
    · cases hs
  | _ =>
    simp only [step] at hs; split at hs <;> cases hs
    exact h

theorem run_own {run : List (Act P × Ret P)} {st : St P} (h : Run G run st) : Own st.thr st.held st.heap.pool := by
  induction h with
  | init =>
    exact Own.mk (fun _ _ h => absurd h List.not_mem_nil) (fun _ h => absurd h List.not_mem_nil)
      (fun _ _ h => absurd h List.not_mem_nil) (fun _ => List.nodup_nil) fun _ _ _ _ h => absurd h List.not_mem_nil
  | snoc hr hs ih => exact own_step (run_reach hr) ih hs

end Verif.Transport
