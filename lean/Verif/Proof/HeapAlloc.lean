import Verif.Proof.HeapSig
/-!
# `new` and `send` preserve the invariant
-/
namespace Verif.Heap
open Verif.Types Verif.Spec

variable {P : Type} [DecidableEq P] {G : Env P}

/-- What `S::new()` does. -/
structure Alloc (st st1 : St P) (here there : EP) (s : STy P) (sid idx : Nat) (side : Bool) : Prop where
  pool : st1.pool = st.pool
  garb : st1.garb = st.garb
  trace : st1.trace = st.trace
  nsid : st1.nsid = st.nsid
  proto : st1.proto = st.proto
  next : st.next < st1.next
  old : ∀ c, c < st.next → st1.chan c = st.chan c
  out : ∀ c, st1.next ≤ c → st1.chan c = st.chan c
  new : ∀ c, st.next ≤ c → c < st1.next → (st1.chan c).buf = none ∧ (st1.chan c).tx = true ∧
    (st1.chan c).rx = true ∧ (st1.chan c).sid = sid ∧ (st1.chan c).idx = idx
  uniq : ∀ c c', st.next ≤ c → c < st1.next → st.next ≤ c' → c' < st1.next →
    c = c' ∨ ((st1.chan c).kind = .sig ∧ (st1.chan c).mate = c')
  htx : ∀ c, here.halves.count (.tx c) + there.halves.count (.tx c) =
    if st.next ≤ c ∧ c < st1.next then 1 else 0
  hrx : ∀ c, here.halves.count (.rx c) + there.halves.count (.rx c) =
    if st.next ≤ c ∧ c < st1.next then 1 else 0
  hid : here.sid = sid ∧ here.side = side ∧ there.sid = sid ∧ there.side = (!side)
  tyh : EPTy st1 ⟨here, s⟩
  tyt : EPTy st1 ⟨there, s.dual⟩
  idxh : idxOf st1 here = idx
  idxt : idxOf st1 there = idx

theorem alloc_spec (st : St P) (s : STy P) (sid idx : Nat) (side : Bool) :
    Alloc st (alloc st s sid idx side).1 (alloc st s sid idx side).2.1 (alloc st s sid idx side).2.2 s sid idx side := by
  cases s with
  | send w t k =>
    refine ⟨rfl, rfl, rfl, rfl, rfl, by simp [alloc], ?_, ?_, ?_, ?_, ?_, ?_, by simp [alloc], ?_, ?_, ?_, ?_⟩
    · intro c hc; have : c ≠ st.next := by omega
      simp [alloc, upd, this]
    · intro c hc; simp [alloc] at hc; have : c ≠ st.next := by omega
      simp [alloc, upd, this]
    · intro c h1 h2; simp [alloc] at h2; have : c = st.next := by omega
      subst this; simp [alloc, upd]
    · intro c c' h1 h2 h3 h4; simp [alloc] at h2 h4; left; omega
    · intro c
      have hN : (alloc st (.send w t k) sid idx side).1.next = st.next + 1 := rfl
      generalize (alloc st (.send w t k) sid idx side).1.next = N at hN ⊢
      simp [alloc, EP.halves, List.count_cons]
      by_cases e : st.next = c
      · rw [if_pos e, if_pos (by omega)]
      · rw [if_neg e, if_neg (by omega)]
    · intro c
      have hN : (alloc st (.send w t k) sid idx side).1.next = st.next + 1 := rfl
      generalize (alloc st (.send w t k) sid idx side).1.next = N at hN ⊢
      simp [alloc, EP.halves, List.count_cons]
      by_cases e : st.next = c
      · rw [if_pos e, if_pos (by omega)]
      · rw [if_neg e, if_neg (by omega)]
    · simp [alloc, EPTy, upd]
      exact ⟨w, t, k.dual, ⟨rfl, rfl, rfl⟩, rfl, rfl, (dual_dual k).symm⟩
    · simp [alloc, EPTy, upd, STy.dual]
    · simp [alloc, idxOf, upd]
    · simp [alloc, idxOf, upd]
  | recv w t k =>
    refine ⟨rfl, rfl, rfl, rfl, rfl, by simp [alloc], ?_, ?_, ?_, ?_, ?_, ?_, by simp [alloc], ?_, ?_, ?_, ?_⟩
    · intro c hc; have : c ≠ st.next := by omega
      simp [alloc, upd, this]
    · intro c hc; simp [alloc] at hc; have : c ≠ st.next := by omega
      simp [alloc, upd, this]
    · intro c h1 h2; simp [alloc] at h2; have : c = st.next := by omega
      subst this; simp [alloc, upd]
    · intro c c' h1 h2 h3 h4; simp [alloc] at h2 h4; left; omega
    · intro c
      have hN : (alloc st (.recv w t k) sid idx side).1.next = st.next + 1 := rfl
      generalize (alloc st (.recv w t k) sid idx side).1.next = N at hN ⊢
      simp [alloc, EP.halves, List.count_cons]
      by_cases e : st.next = c
      · rw [if_pos e, if_pos (by omega)]
      · rw [if_neg e, if_neg (by omega)]
    · intro c
      have hN : (alloc st (.recv w t k) sid idx side).1.next = st.next + 1 := rfl
      generalize (alloc st (.recv w t k) sid idx side).1.next = N at hN ⊢
      simp [alloc, EP.halves, List.count_cons]
      by_cases e : st.next = c
      · rw [if_pos e, if_pos (by omega)]
      · rw [if_neg e, if_neg (by omega)]
    · simp [alloc, EPTy, upd]
    · simp [alloc, EPTy, upd, STy.dual]
      exact ⟨w, t, k, ⟨rfl, rfl, rfl⟩, rfl, rfl, rfl⟩
    · simp [alloc, idxOf, upd]
    · simp [alloc, idxOf, upd]
  | fin =>
    refine ⟨rfl, rfl, rfl, rfl, rfl, by simp [alloc], ?_, ?_, ?_, ?_, ?_, ?_, by simp [alloc], ?_, ?_, ?_, ?_⟩
    · intro c hc
      have : c ≠ st.next := by omega
      have : c ≠ st.next + 1 := by omega
      simp [alloc, upd, *]
    · intro c hc; simp [alloc] at hc
      have : c ≠ st.next := by omega
      have : c ≠ st.next + 1 := by omega
      simp [alloc, upd, *]
    · intro c h1 h2; simp [alloc] at h2
      by_cases e : c = st.next
      · subst e; simp [alloc, upd]
      · have : c = st.next + 1 := by omega
        subst this; simp [alloc, upd]
    · intro c c' h1 h2 h3 h4; simp [alloc] at h2 h4
      by_cases e : c = st.next
      · subst e
        by_cases e' : c' = st.next
        · left; exact e'.symm
        · right; simp [alloc, upd]; omega
      · have : c = st.next + 1 := by omega
        subst this
        by_cases e' : c' = st.next
        · right; simp [alloc, upd]; exact e'.symm
        · left; omega
    · intro c
      have hN : (alloc st .fin sid idx side).1.next = st.next + 2 := rfl
      generalize (alloc st .fin sid idx side).1.next = N at hN ⊢
      simp [alloc, EP.halves, List.count_cons]
      by_cases e : st.next = c
      · rw [if_pos e, if_neg (by omega), if_pos (by omega)]
      · by_cases e' : st.next + 1 = c
        · rw [if_neg e, if_pos e', if_pos (by omega)]
        · rw [if_neg e, if_neg e', if_neg (by omega)]
    · intro c
      have hN : (alloc st .fin sid idx side).1.next = st.next + 2 := rfl
      generalize (alloc st .fin sid idx side).1.next = N at hN ⊢
      simp [alloc, EP.halves, List.count_cons]
      by_cases e : st.next = c
      · rw [if_pos e, if_neg (by omega), if_pos (by omega)]
      · by_cases e' : st.next + 1 = c
        · rw [if_neg e, if_pos e', if_pos (by omega)]
        · rw [if_neg e, if_neg e', if_neg (by omega)]
    · simp [alloc, EPTy, upd]
    · simp [alloc, EPTy, upd, STy.dual]
    · simp [alloc, idxOf, upd]
    · simp [alloc, idxOf, upd]

/-- Sum over the channels after allocation. -/
theorem Alloc.sum {st st1 : St P} {here there : EP} {s : STy P} {sid idx : Nat} {side : Bool}
    (a : Alloc st st1 here there s sid idx side) (t : Tok) :
    sumTo st1.next (fun c => (bufToks (st1.chan c)).count t) =
      sumTo st.next (fun c => (bufToks (st.chan c)).count t) := by
  rw [sumTo_ext (n := st.next) (Nat.le_of_lt a.next)]
  · exact sumTo_congr (fun c hc => by rw [a.old c hc])
  · intro c h1 h2
    simp [bufToks, (a.new c h1 h2).1]

theorem halves_idn (e : EP) (s : Nat) (b : Bool) : e.halves.count (.idn s b) = 0 := by
  unfold EP.halves; split <;> simp [List.count_cons]

theorem toks_tx (e : EP) (c : Nat) : e.toks.count (.tx c) = e.halves.count (.tx c) := by
  simp [EP.toks, List.count_cons]

theorem toks_rx (e : EP) (c : Nat) : e.toks.count (.rx c) = e.halves.count (.rx c) := by
  simp [EP.toks, List.count_cons]

theorem toks_idn (e : EP) (s : Nat) (b : Bool) :
    e.toks.count (.idn s b) = if e.sid = s ∧ e.side = b then 1 else 0 := by
  simp [EP.toks, List.count_cons, halves_idn]

theorem inv_new {st : St P} (h : Inv G st) (s : STy P) {st' : St P} {o : Out}
    (hs : step G st (.new s) = some (st', o)) : Inv G st' := by
  simp only [step] at hs
  have a := alloc_spec st s st.nsid 0 true
  generalize (alloc st s st.nsid 0 true).1 = st1 at *
  generalize (alloc st s st.nsid 0 true).2.1 = here at *
  generalize (alloc st s st.nsid 0 true).2.2 = there at *
  cases hs
  obtain ⟨hh1, hh2, ht1, ht2⟩ := a.hid
  have hn := a.next
  have x : Ext st { st1 with pool := ⟨here, s⟩ :: ⟨there, s.dual⟩ :: st.pool, nsid := st.nsid + 1,
                             proto := upd st.proto st.nsid s } :=
    { next := Nat.le_of_lt a.next
      nsid := Nat.le_succ _
      stat := fun c hc => by simp only [a.old c hc]
      proto := fun i hi => by have : i ≠ st.nsid := by omega
                              simp [upd, this] }
  have x1 : Ext st1 { st1 with pool := ⟨here, s⟩ :: ⟨there, s.dual⟩ :: st.pool, nsid := st.nsid + 1,
                               proto := upd st.proto st.nsid s } :=
    { next := Nat.le_refl _
      nsid := by rw [a.nsid]; exact Nat.le_succ _
      stat := fun c hc => rfl
      proto := fun i hi => by rw [a.nsid] at hi
                              have : i ≠ st.nsid := by omega
                              simp [upd, this, a.proto] }
  have hc : ∀ t, cnt { st1 with pool := ⟨here, s⟩ :: ⟨there, s.dual⟩ :: st.pool, nsid := st.nsid + 1,
                                proto := upd st.proto st.nsid s } t
      = cnt st t + (here.toks.count t + there.toks.count t) := by
    intro t
    have := a.sum t
    unfold cnt
    simp only [poolToks_cons, List.count_append, this, a.garb]
    omega
  have hocc : ∀ e, Occ G { st1 with pool := ⟨here, s⟩ :: ⟨there, s.dual⟩ :: st.pool, nsid := st.nsid + 1,
                                    proto := upd st.proto st.nsid s } e →
      e = ⟨here, s⟩ ∨ e = ⟨there, s.dual⟩ ∨ Occ G st e := by
    intro e he
    rcases he with he | ⟨c, hc, he⟩
    · simp only [List.mem_cons] at he
      rcases he with he | he | he
      · exact Or.inl he
      · exact Or.inr (Or.inl he)
      · exact Or.inr (Or.inr (Or.inl he))
    · simp only at he hc
      by_cases e' : c < st.next
      · rw [a.old c e'] at he; exact Or.inr (Or.inr (Or.inr ⟨c, e', he⟩))
      · simp [bufEntries, (a.new c (by omega) hc).1] at he
  have hpr : ∀ e, Prin G { st1 with pool := ⟨here, s⟩ :: ⟨there, s.dual⟩ :: st.pool, nsid := st.nsid + 1,
                                    proto := upd st.proto st.nsid s } e →
      e = ⟨here, s⟩ ∨ e = ⟨there, s.dual⟩ ∨ Prin G st e := by
    intro e he
    rcases he with he | ⟨c, hc, he⟩
    · simp only [List.mem_cons] at he
      rcases he with he | he | he
      · exact Or.inl he
      · exact Or.inr (Or.inl he)
      · exact Or.inr (Or.inr (Or.inl he))
    · simp only at he hc
      by_cases e' : c < st.next
      · rw [a.old c e'] at he; exact Or.inr (Or.inr (Or.inr ⟨c, e', he⟩))
      · simp [bufPrin, (a.new c (by omega) hc).1] at he
  have hh0 : hist st.trace st.nsid = [] := h.hnew _ (Nat.le_refl _)
  have posN : ∀ (f : EP), f.sid = st.nsid → idxOf st1 f = 0 →
      Pos { st1 with pool := ⟨here, s⟩ :: ⟨there, s.dual⟩ :: st.pool, nsid := st.nsid + 1,
                     proto := upd st.proto st.nsid s } f := by
    intro f hf hi
    have hi' : idxOf { st1 with pool := ⟨here, s⟩ :: ⟨there, s.dual⟩ :: st.pool, nsid := st.nsid + 1,
                                proto := upd st.proto st.nsid s } f = 0 := hi
    unfold Pos
    rw [hi', hf]
    simp only [a.trace, hh0]
    split <;> simp
  obtain ⟨Q, q1, q2, q3⟩ := h.spec
  refine
    { ctx := fun c => ?_
      crx := fun c => ?_
      cid := fun s' b => ?_
      cnew := fun s' b hs => ?_
      dead := fun c hc => ?_
      chans := fun c hc => ?_
      uniq := fun c c' hc hc' => ?_
      occ := fun e he => ?_
      bufs := fun c m hm => ?_
      full := fun c hc hk hrx hlt => ?_
      spec := ⟨Q, by rw [← q1, ← a.trace], fun e he => ?_, fun s b hs => q3 s b (by simp only at hs; omega)⟩
      hnew := fun s' hs => by simp only at hs ⊢; rw [a.trace]; exact h.hnew s' (by omega) }
  · rw [hc, toks_tx, toks_tx, a.htx, h.ctx]
    by_cases e : c < st.next
    · simp only [a.old c e]; rw [if_neg (by omega : ¬ (st.next ≤ c ∧ c < st1.next)), Nat.add_zero]
    · have hd := (h.dead c (by omega)).1
      rw [hd]
      by_cases e' : c < st1.next
      · simp only [(a.new c (by omega) e').2.1]; rw [if_pos (by omega : st.next ≤ c ∧ c < st1.next)]; rfl
      · simp only [a.out c (by omega), hd]; rw [if_neg (by omega : ¬ (st.next ≤ c ∧ c < st1.next)), Nat.add_zero]
  · rw [hc, toks_rx, toks_rx, a.hrx, h.crx]
    by_cases e : c < st.next
    · simp only [a.old c e]; rw [if_neg (by omega : ¬ (st.next ≤ c ∧ c < st1.next)), Nat.add_zero]
    · have hd := (h.dead c (by omega)).2.1
      rw [hd]
      by_cases e' : c < st1.next
      · simp only [(a.new c (by omega) e').2.2.1]; rw [if_pos (by omega : st.next ≤ c ∧ c < st1.next)]; rfl
      · simp only [a.out c (by omega), hd]; rw [if_neg (by omega : ¬ (st.next ≤ c ∧ c < st1.next)), Nat.add_zero]
  · rw [hc, toks_idn, toks_idn, hh1, hh2, ht1, ht2]
    by_cases e : st.nsid = s'
    · subst e
      rw [h.cnew _ _ (Nat.le_refl _)]
      cases b <;> simp
    · have := h.cid s' b
      simp [e]; exact this
  · simp only at hs
    rw [hc, toks_idn, toks_idn, hh1, hh2, ht1, ht2, h.cnew s' b (by omega)]
    have : st.nsid ≠ s' := by omega
    simp [this]
  · simp only at hc ⊢
    rw [a.out c hc]; exact h.dead c (by omega)
  · simp only at hc ⊢
    by_cases e : c < st.next
    · rw [a.old c e, a.trace]
      have := h.chans c e
      exact ⟨by omega, this.2⟩
    · have := a.new c (by omega) hc
      rw [this.2.2.2.1, this.2.2.2.2]
      exact ⟨by omega, Nat.zero_le _⟩
  · simp only at hc hc' ⊢
    by_cases e : c < st.next
    · by_cases e' : c' < st.next
      · rw [a.old c e, a.old c' e']; exact h.uniq c c' e e'
      · rw [a.old c e, (a.new c' (by omega) hc').2.2.2.1]
        intro hh
        have := (h.chans c e).1
        omega
    · by_cases e' : c' < st.next
      · rw [a.old c' e', (a.new c (by omega) hc).2.2.2.1]
        intro hh
        have := (h.chans c' e').1
        omega
      · intro _ _; exact a.uniq c c' (by omega) hc (by omega) hc'
  · rcases hocc e he with e1 | e1 | e1
    · subst e1
      exact ⟨x1.epty a.tyh, posN _ hh1 a.idxh, by
        rw [x1.idx a.tyh]; simp [a.idxh, hh1, hh2, upd, view, dropK], by simp [hh1]⟩
    · subst e1
      exact ⟨x1.epty a.tyt, posN _ ht1 a.idxt, by
        rw [x1.idx a.tyt]; simp [a.idxt, ht1, ht2, upd, view, dropK], by simp [ht1]⟩
    · have w := h.occ e e1
      exact x.wt w (x.pos w (by simp only [a.trace]))
  · simp only at hm ⊢
    by_cases e : c < st.next
    · rw [a.old c e] at hm ⊢
      refine ⟨(h.bufs c m hm).1, x.msg e (h.bufs c m hm).2 ?_ ?_⟩
      · intro v k e; subst e; exact h.contOcc hm
      · intro s' i y hy; simp only [a.trace]; exact hy
    · by_cases e' : c < st1.next
      · rw [(a.new c (by omega) e').1] at hm; cases hm
      · rw [a.out c (by omega), (h.dead c (by omega)).2.2] at hm; cases hm
  · simp only at hc hk hrx hlt ⊢
    by_cases e : c < st.next
    · rw [a.old c e] at *
      rw [a.trace] at hlt
      exact h.full c e hk hrx hlt
    · have := a.new c (by omega) hc
      rw [this.2.2.2.1, this.2.2.2.2, a.trace, hh0] at hlt
      simp at hlt
  · rcases hpr e he with e1 | e1 | e1
    · subst e1
      simp only [hh1, a.trace, hh0]
      rw [q3 _ _ (Nat.le_refl _)]; simp
    · subst e1
      simp only [ht1, a.trace, hh0]
      rw [q3 _ _ (Nat.le_refl _)]; simp
    · have w := h.occ e e1.occ
      simp only [a.trace]
      have hi := x.idx w.ty
      simp only [a.trace] at hi
      rw [q2 e e1]
      exact congrArg (fun n => (hist st.trace e.ep.sid).drop n) hi.symm

theorem snd_facts {st : St P} (h : Inv G st) {e : Entry P} (he : e ∈ st.pool) {c : Nat}
    (hn : e.ep.node = .snd c) : c < st.next ∧ (st.chan c).tx = true ∧ (st.chan c).sid = e.ep.sid ∧
      (st.chan c).dir = e.ep.side ∧ (st.chan c).idx = (hist st.trace e.ep.sid).length ∧
      (st.chan c).buf = none ∧
      ∃ w t s, (st.chan c).kind = .data w t s ∧ e.ty = .send w t s.dual := by
  have w := h.occ e (Or.inl he)
  have := w.ty
  unfold EPTy at this
  rw [hn] at this
  have hpos := w.pos
  unfold Pos at hpos
  rw [hn] at hpos
  simp only [idxOf, hn] at hpos
  refine ⟨this.1, ?_, this.2.1, this.2.2.1, hpos, ?_, this.2.2.2⟩
  · have h1 := Occ.count (G := G) (Or.inl he : Occ G st e) (t := .tx c) (by simp [EP.halves, hn])
    rw [h.ctx] at h1
    cases hx : (st.chan c).tx
    · rw [hx] at h1; simp at h1
    · rfl
  · cases hb : (st.chan c).buf with
    | none => rfl
    | some m =>
      have hm := (h.bufs c m hb).2
      obtain ⟨w, t, s, hk, -⟩ := this.2.2.2
      cases m with
      | sig s => simp only [MsgOk] at hm; rw [hk] at hm; cases hm
      | data v k =>
        simp only [MsgOk] at hm
        obtain ⟨_, _, _, _, _, _, _, hh, _⟩ := hm
        rw [this.2.1, hpos, List.getElem?_eq_none (Nat.le_refl _)] at hh
        cases hh

theorem Inv.others_tx {st : St P} (h : Inv G st) {e : Entry P} {more : List (Entry P)} (hp : st.pool = e :: more)
    {c : Nat} (hn : e.ep.node = .snd c) {e' : Entry P}
    (he : e' ∈ more ∨ ∃ c, c < st.next ∧ e' ∈ bufEntries G (st.chan c)) : e'.ep.node ≠ .snd c := by
  intro hn'
  have hc := h.ctx c
  have h1 : cnt st (.tx c) ≤ 1 := by rw [hc]; split <;> omega
  unfold cnt at h1
  rw [hp, poolToks_cons, List.count_append, toks_tx] at h1
  have h3 : e.ep.halves.count (.tx c) = 1 := by simp [EP.halves, hn]
  have hm : Tok.tx c ∈ e'.ep.halves := by simp [EP.halves, hn']
  rcases he with he | ⟨c, hcn, he⟩
  · have := count_mem_pool he (halves_sub hm); omega
  · have := count_mem_buf hcn (mem_bufEntries_toks he hm); omega

/-- The common part of a successful and a discarded `send`. `buf'` is the new content of the slot. -/
theorem inv_send_core {st : St P} (h : Inv G st) {e : Entry P} {c : Nat} {w : Option Window} {t : P} {k : STy P}
    {tys : List (STy P)} {v : Val} {rest : List (Entry P)} {st1 : St P} {here there : EP}
    (hty : e.ty = .send w t k) (hn : e.ep.node = .snd c) (htys : G t v.tag = some tys)
    (hlen : v.eps.length = tys.length)
    (htake : st.pool.Perm (e :: entries v.eps tys ++ rest))
    (a : Alloc st st1 here there k e.ep.sid ((st.chan c).idx + 1) e.ep.side)
    (buf' : Option Msg) (garb' : List Tok)
    (hbuf : (buf' = some (.data v there) ∧ garb' = st.garb ∧ (st.chan c).rx = true) ∨
      (buf' = none ∧ garb' = v.toks ++ (there.halves ++ st.garb) ∧ (st.chan c).rx = false)) :
    Inv G { st1 with chan := upd st1.chan c { st.chan c with buf := buf', tx := false }
                     pool := ⟨here, k⟩ :: rest
                     garb := garb'
                     trace := st.trace ++ [.sent e.ep.sid e.ep.side t v] } := by
  have hmem : e ∈ st.pool := htake.mem_iff.2 (by simp)
  obtain ⟨hcn, htx, hsid, hdir, hidx, hb0, w', t', s', hkind, hty'⟩ := snd_facts h hmem hn
  rw [hty] at hty'
  injection hty' with ew et ek
  subst ew et ek
  have hp := h.perm htake
  have hoth : ∀ e', (e' ∈ entries v.eps tys ++ rest ∨ ∃ c', c' < st.next ∧ e' ∈ bufPrin G (st.chan c')) →
      ¬ (e'.ep.sid = e.ep.sid ∧ e'.ep.side = e.ep.side) :=
    fun e' he' => hp.others rfl he'
  have hotx : ∀ e', (e' ∈ entries v.eps tys ++ rest ∨ ∃ c', c' < st.next ∧ e' ∈ bufEntries G (st.chan c')) →
      e'.ep.node ≠ .snd c :=
    fun e' he' => hp.others_tx rfl hn he'
  obtain ⟨hh1, hh2, ht1, ht2⟩ := a.hid
  have hne := a.next
  have hsl : e.ep.sid < st.nsid := (h.occ e (Or.inl hmem)).sid
  generalize hst' : ({ st1 with chan := upd st1.chan c { st.chan c with buf := buf', tx := false }
                                pool := ⟨here, s'.dual⟩ :: rest
                                garb := garb'
                                trace := st.trace ++ [.sent e.ep.sid e.ep.side t v] } : St P) = st'
  have f_next : st'.next = st1.next := by rw [← hst']
  have f_nsid : st'.nsid = st.nsid := by rw [← hst']; exact a.nsid
  have f_proto : st'.proto = st.proto := by rw [← hst']; exact a.proto
  have f_trace : st'.trace = st.trace ++ [.sent e.ep.sid e.ep.side t v] := by rw [← hst']
  have f_pool : st'.pool = ⟨here, s'.dual⟩ :: rest := by rw [← hst']
  have f_garb : st'.garb = garb' := by rw [← hst']
  have f_c : st'.chan c = { st.chan c with buf := buf', tx := false } := by rw [← hst']; simp [upd]
  have f_old : ∀ i, i < st.next → i ≠ c → st'.chan i = st.chan i := by
    intro i hi hne; rw [← hst']; simp [upd, hne, a.old i hi]
  have f_ge : ∀ i, st.next ≤ i → st'.chan i = st1.chan i := by
    intro i hi; rw [← hst']; have : i ≠ c := by omega
    simp [upd, this]
  have x : Ext st st' :=
    { next := by omega
      nsid := by omega
      stat := fun i hi => by
        by_cases e : i = c
        · subst e; rw [f_c]; rfl
        · rw [f_old i hi e]
      proto := fun _ _ => by rw [f_proto] }
  have x1 : Ext st1 st' :=
    { next := by omega
      nsid := by rw [f_nsid, a.nsid]; exact Nat.le_refl _
      stat := fun i hi => by
        by_cases e : i = c
        · subst e; rw [f_c, a.old _ hcn]; rfl
        · by_cases e2 : i < st.next
          · rw [f_old i e2 e, a.old i e2]
          · rw [f_ge i (by omega)]
      proto := fun _ _ => by rw [f_proto, a.proto] }
  have hists : ∀ s, hist st'.trace s = hist st.trace s ++ (if e.ep.sid = s then [(t, v)] else []) := by
    intro s; rw [f_trace, hist_append]
  have hlen' : (hist st'.trace e.ep.sid).length = (st.chan c).idx + 1 := by
    rw [hists, if_pos rfl, hidx]; simp
  have hsum : ∀ tok, sumTo st'.next (fun i => (bufToks (st'.chan i)).count tok) =
      sumTo st.next (fun i => (bufToks (st.chan i)).count tok) + (bufToks (st'.chan c)).count tok := by
    intro tok
    have h1 := sumTo_upd (n := st1.next) (f := fun i => (bufToks (st'.chan i)).count tok)
      (g := fun i => (bufToks (st1.chan i)).count tok) c (by omega) (fun i hi hne => by
        by_cases e2 : i < st.next
        · rw [f_old i e2 hne, a.old i e2]
        · rw [f_ge i (by omega)])
    have h2 := a.sum tok
    have h3 : (bufToks (st1.chan c)).count tok = 0 := by rw [a.old c hcn]; simp [bufToks, hb0]
    rw [f_next]
    omega
  have hcc : ∀ tok, cnt st' tok + (Tok.idn e.ep.sid e.ep.side :: [Tok.tx c]).count tok =
      cnt st tok + (here.toks.count tok + there.halves.count tok) := by
    intro tok
    have h1 := hsum tok
    have h2 := poolToks_perm htake tok
    have h3 : e.ep.toks = Tok.idn e.ep.sid e.ep.side :: [Tok.tx c] := by simp [EP.toks, EP.halves, hn]
    have h4 := poolToks_entries v.eps tys hlen
    unfold cnt
    rw [h1, h2, f_pool, f_garb]
    rw [List.cons_append, poolToks_cons, poolToks_cons, poolToks_append, h3, h4]
    simp only [List.count_append]
    have h5 : (bufToks (st'.chan c)).count tok + garb'.count tok =
        (v.eps.flatMap EP.toks).count tok + there.halves.count tok + st.garb.count tok := by
      rcases hbuf with ⟨b1, b2, -⟩ | ⟨b1, b2, -⟩
      · rw [f_c, b1, b2]
        simp only [bufToks, Msg.toks, Val.toks, List.count_append]
      · rw [f_c, b1, b2]
        simp only [bufToks, Val.toks, List.count_append, List.count_nil]; omega
    omega
  -- occurrences
  have hocc : ∀ e', Occ G st' e' → e' = ⟨here, s'.dual⟩ ∨ e' = ⟨there, s'⟩ ∨
      (e' ∈ entries v.eps tys ++ rest ∨ ∃ c', c' < st.next ∧ e' ∈ bufEntries G (st.chan c')) := by
    intro e' he'
    rcases he' with he' | ⟨c', hc', he'⟩
    · rw [f_pool] at he'
      simp only [List.mem_cons] at he'
      rcases he' with he' | he'
      · exact Or.inl he'
      · exact Or.inr (Or.inr (Or.inl (by simp [he'])))
    · by_cases e2 : c' = c
      · subst e2
        rw [f_c] at he'
        rcases hbuf with ⟨b1, -, -⟩ | ⟨b1, -, -⟩
        · rw [b1] at he'
          simp only [bufEntries, hkind, msgEntries, htys, Option.getD_some, List.mem_append, List.mem_singleton] at he'
          rcases he' with he' | he'
          · exact Or.inr (Or.inr (Or.inl (by simp [he'])))
          · exact Or.inr (Or.inl he')
        · rw [b1] at he'; simp [bufEntries] at he'
      · by_cases e3 : c' < st.next
        · rw [f_old c' e3 e2] at he'; exact Or.inr (Or.inr (Or.inr ⟨c', e3, he'⟩))
        · rw [f_ge c' (by omega)] at he'
          simp [bufEntries, (a.new c' (by omega) (by omega)).1] at he'
  have hprin : ∀ e', Prin G st' e' → e' = ⟨here, s'.dual⟩ ∨
      (e' ∈ entries v.eps tys ++ rest ∨ ∃ c', c' < st.next ∧ e' ∈ bufPrin G (st.chan c')) := by
    intro e' he'
    rcases he' with he' | ⟨c', hc', he'⟩
    · rw [f_pool] at he'
      simp only [List.mem_cons] at he'
      rcases he' with he' | he'
      · exact Or.inl he'
      · exact Or.inr (Or.inl (by simp [he']))
    · by_cases e2 : c' = c
      · subst e2
        rw [f_c] at he'
        rcases hbuf with ⟨b1, -, -⟩ | ⟨b1, -, -⟩
        · rw [b1] at he'
          simp only [bufPrin, hkind, msgPrin, htys, Option.getD_some] at he'
          exact Or.inr (Or.inl (by simp [he']))
        · rw [b1] at he'; simp [bufPrin] at he'
      · by_cases e3 : c' < st.next
        · rw [f_old c' e3 e2] at he'; exact Or.inr (Or.inr ⟨c', e3, he'⟩)
        · rw [f_ge c' (by omega)] at he'
          simp [bufPrin, (a.new c' (by omega) (by omega)).1] at he'
  have toOcc : ∀ e', (e' ∈ entries v.eps tys ++ rest ∨ ∃ c', c' < st.next ∧ e' ∈ bufEntries G (st.chan c')) →
      Occ G st e' := by
    intro e' he'
    rcases he' with he' | he'
    · exact Or.inl (htake.mem_iff.2 (by rw [List.cons_append]; exact List.mem_cons_of_mem _ he'))
    · exact Or.inr he'
  have toPrin : ∀ e', (e' ∈ entries v.eps tys ++ rest ∨ ∃ c', c' < st.next ∧ e' ∈ bufPrin G (st.chan c')) →
      Prin G st e' := by
    intro e' he'
    rcases he' with he' | he'
    · exact Or.inl (htake.mem_iff.2 (by rw [List.cons_append]; exact List.mem_cons_of_mem _ he'))
    · exact Or.inr he'
  have hproto := (h.occ e (Or.inl hmem)).proto
  rw [hty] at hproto
  have hie : idxOf st e.ep = (st.chan c).idx := by simp [idxOf, hn]
  rw [hie] at hproto
  have hcont : s'.dual = view e.ep.side (dropK ((st.chan c).idx + 1) (st.proto e.ep.sid)) := by
    have := congrArg STy.cont hproto
    rw [cont_view] at this
    exact this
  have posN : ∀ f : EP, f.sid = e.ep.sid → idxOf st' f = (st.chan c).idx + 1 → Pos st' f := by
    intro f hf hi
    unfold Pos
    rw [hi, hf, hlen']
    split <;> simp
  have posO : ∀ e', (e' ∈ entries v.eps tys ++ rest ∨ ∃ c', c' < st.next ∧ e' ∈ bufEntries G (st.chan c')) →
      Pos st' e'.ep := by
    intro e' he'
    have w := h.occ e' (toOcc e' he')
    by_cases es : e.ep.sid = e'.ep.sid
    · have hi := x.idx w.ty
      have hpos := w.pos
      have hty2 := w.ty
      have hpos' := hotx e' he'
      unfold Pos at *
      unfold EPTy at hty2
      rw [hi]
      cases hnode : e'.ep.node with
      | rcv c' =>
        rw [hnode] at hpos
        simp only at hpos ⊢
        rw [hists, if_pos es, List.length_append]; omega
      | snd c' =>
        exfalso
        rw [hnode] at hpos hty2 hpos'
        simp only [idxOf, hnode] at hpos hty2
        have hu := h.uniq c c' hcn hty2.1 (by rw [hsid, hty2.2.1, es]) (by rw [hidx, hpos, es])
        rcases hu with hu | hu
        · exact hpos' (by rw [hu])
        · rw [hkind] at hu; cases hu.1
      | fin t' r' =>
        exfalso
        rw [hnode] at hpos hty2 hpos'
        simp only [idxOf, hnode] at hpos hty2
        have hu := h.uniq c t' hcn hty2.1 (by rw [hsid, hty2.2.2.1, es]) (by rw [hidx, hpos, es])
        rcases hu with hu | hu
        · have := hty2.2.2.2.2.2.2.1
          rw [← hu, hkind] at this; cases this
        · rw [hkind] at hu; cases hu.1
    · exact x.pos w (by rw [hists, if_neg es, List.append_nil])
  obtain ⟨Q, q1, q2, q3⟩ := h.spec
  refine
    { ctx := fun i => ?_
      crx := fun i => ?_
      cid := fun s' b => ?_
      cnew := fun s' b hs => ?_
      dead := fun i hi => ?_
      chans := fun i hi => ?_
      uniq := fun i i' hi hi' => ?_
      occ := fun e' he' => ?_
      bufs := fun i m hm => ?_
      full := fun i hi hk hrx hlt => ?_
      spec := ?_
      hnew := fun s' hs => ?_ }
  · have h1 := hcc (.tx i)
    have h2 := a.htx i
    rw [toks_tx] at h1
    have h3 : (Tok.idn e.ep.sid e.ep.side :: [Tok.tx c]).count (.tx i) = if c = i then 1 else 0 := by
      simp [List.count_cons]
    rw [h3, h.ctx, h2] at h1
    by_cases e1 : i = c
    · subst e1
      rw [if_pos rfl, htx, if_neg (by omega : ¬ (st.next ≤ i ∧ i < st1.next))] at h1
      rw [f_c]; simp at h1 ⊢; exact h1
    · rw [if_neg (fun hh => e1 hh.symm)] at h1
      by_cases e2 : i < st.next
      · rw [f_old i e2 e1]; rw [if_neg (by omega : ¬ (st.next ≤ i ∧ i < st1.next))] at h1; exact h1
      · have hd := (h.dead i (by omega)).1
        rw [hd] at h1
        rw [f_ge i (by omega)]
        by_cases e3 : i < st1.next
        · rw [if_pos (by omega : st.next ≤ i ∧ i < st1.next)] at h1
          rw [(a.new i (by omega) e3).2.1]; exact h1
        · rw [if_neg (by omega : ¬ (st.next ≤ i ∧ i < st1.next))] at h1
          rw [a.out i (by omega), hd]; exact h1
  · have h1 := hcc (.rx i)
    have h2 := a.hrx i
    rw [toks_rx] at h1
    have h3 : (Tok.idn e.ep.sid e.ep.side :: [Tok.tx c]).count (.rx i) = 0 := by simp [List.count_cons]
    rw [h3, h.crx, h2] at h1
    by_cases e1 : i = c
    · subst e1
      rw [if_neg (by omega : ¬ (st.next ≤ i ∧ i < st1.next))] at h1
      rw [f_c]; exact h1
    · by_cases e2 : i < st.next
      · rw [f_old i e2 e1]; rw [if_neg (by omega : ¬ (st.next ≤ i ∧ i < st1.next))] at h1; exact h1
      · have hd := (h.dead i (by omega)).2.1
        rw [hd] at h1
        rw [f_ge i (by omega)]
        by_cases e3 : i < st1.next
        · rw [if_pos (by omega : st.next ≤ i ∧ i < st1.next)] at h1
          rw [(a.new i (by omega) e3).2.2.1]; exact h1
        · rw [if_neg (by omega : ¬ (st.next ≤ i ∧ i < st1.next))] at h1
          rw [a.out i (by omega), hd]; exact h1
  · have h1 := hcc (.idn s' b)
    have h2 := h.cid s' b
    rw [toks_idn, halves_idn, hh1, hh2] at h1
    have h3 : (Tok.idn e.ep.sid e.ep.side :: [Tok.tx c]).count (.idn s' b) =
        if e.ep.sid = s' ∧ e.ep.side = b then 1 else 0 := by simp [List.count_cons]
    rw [h3] at h1; omega
  · have h1 := hcc (.idn s' b)
    have h2 := h.cnew s' b (by omega)
    rw [toks_idn, halves_idn, hh1, hh2] at h1
    have h3 : (Tok.idn e.ep.sid e.ep.side :: [Tok.tx c]).count (.idn s' b) =
        if e.ep.sid = s' ∧ e.ep.side = b then 1 else 0 := by simp [List.count_cons]
    rw [h3] at h1; omega
  · rw [f_ge i (by omega), a.out i (by omega)]; exact h.dead i (by omega)
  · by_cases e2 : i < st.next
    · have hs := x.stat i e2
      simp only [stat, Prod.mk.injEq] at hs
      rw [hs.2.1, hs.2.2.1, f_nsid, hists, List.length_append]
      have := h.chans i e2
      exact ⟨this.1, by omega⟩
    · rw [f_ge i (by omega)]
      have := a.new i (by omega) (by omega)
      rw [this.2.2.2.1, this.2.2.2.2, f_nsid, hlen']
      exact ⟨hsl, Nat.le_refl _⟩
  · by_cases e1 : i < st.next
    · have hs := x.stat i e1
      simp only [stat, Prod.mk.injEq] at hs
      by_cases e2 : i' < st.next
      · have hs' := x.stat i' e2
        simp only [stat, Prod.mk.injEq] at hs'
        rw [hs.1, hs.2.1, hs.2.2.1, hs.2.2.2.2, hs'.2.1, hs'.2.2.1]
        exact h.uniq i i' e1 e2
      · have hnw := a.new i' (by omega) (by omega)
        rw [hs.2.1, hs.2.2.1, f_ge i' (by omega), hnw.2.2.2.1, hnw.2.2.2.2]
        intro g1 g2
        have := (h.chans i e1).2
        rw [g1] at this; omega
    · have hnw := a.new i (by omega) (by omega)
      by_cases e2 : i' < st.next
      · have hs' := x.stat i' e2
        simp only [stat, Prod.mk.injEq] at hs'
        rw [hs'.2.1, hs'.2.2.1, f_ge i (by omega), hnw.2.2.2.1, hnw.2.2.2.2]
        intro g1 g2
        have := (h.chans i' e2).2
        rw [← g1] at this; omega
      · intro _ _
        rw [f_ge i (by omega)]
        exact a.uniq i i' (by omega) (by omega) (by omega) (by omega)
  · rcases hocc e' he' with e1 | e1 | e1
    · subst e1
      have hi : idxOf st' here = (st.chan c).idx + 1 := (x1.idx a.tyh).trans a.idxh
      exact ⟨x1.epty a.tyh, posN _ hh1 hi, by simp only; rw [hi, hh1, hh2, f_proto]; exact hcont,
        by simp only; rw [hh1, f_nsid]; exact hsl⟩
    · subst e1
      have ht' := a.tyt
      rw [dual_dual] at ht'
      have hi : idxOf st' there = (st.chan c).idx + 1 := (x1.idx ht').trans a.idxt
      exact ⟨x1.epty ht', posN _ ht1 hi, by
        simp only; rw [hi, ht1, ht2, f_proto, view_not, ← hcont, dual_dual],
        by simp only; rw [ht1, f_nsid]; exact hsl⟩
    · exact x.wt (h.occ e' (toOcc e' e1)) (posO e' e1)
  · by_cases e1 : i = c
    · subst e1
      rw [f_c] at hm ⊢
      rcases hbuf with ⟨b1, -, b3⟩ | ⟨b1, -, -⟩
      · simp only [b1] at hm
        cases hm
        refine ⟨b3, ?_⟩
        simp only [MsgOk]
        rw [f_c]
        have ht' := a.tyt
        rw [dual_dual] at ht'
        refine ⟨w, t, s', tys, hkind, htys, hlen, ?_, by rw [ht1, hsid], by rw [ht2, hdir], (x1.idx ht').trans a.idxt⟩
        simp only
        rw [hsid, hists, if_pos rfl, hidx]
        simp
      · simp only [b1] at hm; cases hm
    · by_cases e2 : i < st.next
      · rw [f_old i e2 e1] at hm ⊢
        refine ⟨(h.bufs i m hm).1, x.msg e2 (h.bufs i m hm).2 ?_ ?_⟩
        · intro v k e; subst e; exact h.contOcc hm
        · intro s'' j y hy
          rw [hists, List.getElem?_append_left]
          · exact hy
          · refine Nat.lt_of_not_le fun hle => ?_
            rw [List.getElem?_eq_none hle] at hy; cases hy
      · rw [f_ge i (by omega)] at hm
        by_cases e3 : i < st1.next
        · rw [(a.new i (by omega) e3).1] at hm; cases hm
        · rw [a.out i (by omega), (h.dead i (by omega)).2.2] at hm; cases hm
  · by_cases e1 : i = c
    · subst e1
      rw [f_c] at hrx ⊢
      rcases hbuf with ⟨b1, -, -⟩ | ⟨-, -, b3⟩
      · simp [b1]
      · simp only at hrx; rw [b3] at hrx; cases hrx
    · by_cases e2 : i < st.next
      · rw [f_old i e2 e1] at *
        refine h.full i e2 hk hrx ?_
        rw [hists, List.length_append] at hlt
        by_cases es : e.ep.sid = (st.chan i).sid
        · rw [if_pos es] at hlt
          have hle := (h.chans i e2).2
          refine Nat.lt_of_le_of_ne hle fun heq => ?_
          have hu := h.uniq c i hcn e2 (by rw [hsid, es]) (by rw [hidx, heq, es])
          rcases hu with hu | hu
          · exact e1 hu.symm
          · rw [hkind] at hu; cases hu.1
        · rw [if_neg es] at hlt; simpa using hlt
      · rw [f_ge i (by omega)] at hlt
        have hnw := a.new i (by omega) (by omega)
        rw [hnw.2.2.2.1, hnw.2.2.2.2, hlen'] at hlt
        omega
  · refine ⟨setQ Q e.ep.sid (!e.ep.side) (Q e.ep.sid (!e.ep.side) ++ [(t, v)]), ?_, ?_, ?_⟩
    · rw [f_trace, fifoRun_append, q1]; rfl
    · intro e' he'
      rcases hprin e' he' with e1 | e1
      · subst e1
        simp only
        have hi : idxOf st' here = (st.chan c).idx + 1 := (x1.idx a.tyh).trans a.idxh
        rw [hi, hh1, hh2]
        unfold setQ
        rw [if_neg (by simp)]
        have := q2 e (Or.inl hmem)
        rw [hie, hidx, List.drop_eq_nil_of_le (Nat.le_refl _)] at this
        rw [this, List.drop_eq_nil_of_le (by omega)]
      · have hno := hoth e' e1
        have w := h.occ e' (toPrin e' e1).occ
        have hq := q2 e' (toPrin e' e1)
        rw [x.idx w.ty, hists]
        unfold setQ
        by_cases es : e.ep.sid = e'.ep.sid
        · have hside : e'.ep.side = (!e.ep.side) := by
            cases h1 : e'.ep.side <;> cases h2 : e.ep.side <;> simp_all
          rw [if_pos ⟨es.symm, hside⟩, if_pos es, es, ← hside, hq]
          rw [List.drop_append_of_le_length]
          have := w.pos
          unfold Pos at this
          split at this <;> omega
        · rw [if_neg (fun hh => es hh.1.symm), if_neg es, List.append_nil]; exact hq
    · intro s'' b hs
      unfold setQ
      rw [if_neg (fun hh => by have := hh.1; omega)]
      exact q3 s'' b (by omega)
  · rw [hists, if_neg (by omega), List.append_nil]; exact h.hnew s' (by omega)

end Verif.Heap
