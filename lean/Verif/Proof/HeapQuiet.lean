import Verif.Proof.HeapInv
/-!
# Steps that create no session preserve the invariant: `drop`, `gc`, signals, `recv`
-/
namespace Verif.Heap
open Verif.Types Verif.Spec

variable {P : Type} [DecidableEq P] {G : Env P}

/-- Preservation for steps that allocate nothing and add nothing to a session's history of sends. -/
theorem Inv.quiet {st st' : St P} (h : Inv G st)
    (hnext : st'.next = st.next) (hnsid : st'.nsid = st.nsid) (hproto : st'.proto = st.proto)
    (hhist : ∀ s, hist st'.trace s = hist st.trace s)
    (hstat : ∀ c, stat (st'.chan c) = stat (st.chan c))
    (hctx : ∀ c, cnt st' (.tx c) = if (st'.chan c).tx then 1 else 0)
    (hcrx : ∀ c, cnt st' (.rx c) = if (st'.chan c).rx then 1 else 0)
    (hcid : ∀ s b, cnt st' (.idn s b) ≤ cnt st (.idn s b))
    (hdead : ∀ c, st.next ≤ c → st'.chan c = st.chan c)
    (hocc : ∀ e, Occ G st' e → Occ G st e)
    (hbuf : ∀ c m, (st'.chan c).buf = some m → (st'.chan c).rx = true ∧
      ((st.chan c).buf = some m ∨ ∃ s, m = .sig s ∧ (st.chan c).kind = .sig))
    (hfull : ∀ c, (st.chan c).kind ≠ .sig → (st'.chan c).rx = true →
      (st.chan c).rx = true ∧ (st'.chan c).buf = (st.chan c).buf)
    (hspec : ∃ Q, fifoRun (noMsgs P) st'.trace = some Q ∧
      (∀ e, Prin G st' e → Q e.ep.sid e.ep.side = (hist st.trace e.ep.sid).drop (idxOf st e.ep)) ∧
      (∀ s b, st.nsid ≤ s → Q s b = [])) : Inv G st' := by
  have x : Ext st st' :=
    { next := by omega, nsid := by omega, stat := fun c _ => hstat c, proto := fun s _ => by rw [hproto] }
  have hs : ∀ c, (st'.chan c).kind = (st.chan c).kind ∧ (st'.chan c).sid = (st.chan c).sid ∧
      (st'.chan c).idx = (st.chan c).idx ∧ (st'.chan c).dir = (st.chan c).dir ∧
      (st'.chan c).mate = (st.chan c).mate := by
    intro c; have := hstat c; simpa only [stat, Prod.mk.injEq] using this
  refine
    { ctx := hctx
      crx := hcrx
      cid := fun s b => Nat.le_trans (hcid s b) (h.cid s b)
      cnew := fun s b hs => Nat.le_zero.1 (Nat.le_trans (hcid s b) (by rw [h.cnew s b (by omega)]; exact Nat.le_refl _))
      dead := fun c hc => by rw [hdead c (by omega)]; exact h.dead c (by omega)
      chans := fun c hc => ?_
      uniq := fun c c' hc hc' => ?_
      occ := fun e he => ?_
      bufs := fun c m hm => ?_
      full := fun c hc hk hrx hlt => ?_
      spec := ?_
      hnew := fun s hs => by rw [hhist]; exact h.hnew s (by omega) }
  · obtain ⟨-, a, b, -⟩ := hs c
    rw [a, b, hhist, hnsid]; exact h.chans c (by omega)
  · obtain ⟨k, a, b, -, m⟩ := hs c
    obtain ⟨-, a', b', -⟩ := hs c'
    rw [a, b, a', b', k, m]; exact h.uniq c c' (by omega) (by omega)
  · have w := h.occ e (hocc e he)
    exact x.wt w (x.pos w (hhist _))
  · obtain ⟨h1, h2⟩ := hbuf c m hm
    refine ⟨h1, ?_⟩
    rcases h2 with h2 | ⟨s, rfl, hk⟩
    · refine x.msg (h.buf_lt h2) (h.bufs c m h2).2 ?_ (fun s i y hy => by rw [hhist]; exact hy)
      intro v k e; subst e; exact h.contOcc h2
    · simp only [MsgOk]; rw [(hs c).1]; exact hk
  · obtain ⟨k, a, b, -⟩ := hs c
    rw [k] at hk
    obtain ⟨h1, h2⟩ := hfull c hk hrx
    rw [h2]
    rw [a, b, hhist] at hlt
    exact h.full c (by omega) hk h1 hlt
  · obtain ⟨Q, q1, q2, q3⟩ := hspec
    refine ⟨Q, q1, fun e he => ?_, fun s b hs => q3 s b (by omega)⟩
    rw [hhist, x.idx (h.occ e (hocc e he.occ)).ty]; exact q2 e he

theorem sum_upd_buf (st : St P) (c : Nat) (hc : c < st.next) (ch : Chan P) (t : Tok) :
    sumTo st.next (fun i => (bufToks (upd st.chan c ch i)).count t) + (bufToks (st.chan c)).count t
      = sumTo st.next (fun i => (bufToks (st.chan i)).count t) + (bufToks ch).count t := by
  have := sumTo_upd (n := st.next) (f := fun i => (bufToks (upd st.chan c ch i)).count t)
    (g := fun i => (bufToks (st.chan i)).count t) c hc (fun i _ hne => by simp [upd, hne])
  simpa [upd] using this

theorem sum_upd_same (st : St P) (c : Nat) (ch : Chan P) (hb : ch.buf = (st.chan c).buf) (t : Tok) :
    sumTo st.next (fun i => (bufToks (upd st.chan c ch i)).count t)
      = sumTo st.next (fun i => (bufToks (st.chan i)).count t) := by
  apply sumTo_congr
  intro i _
  by_cases e : i = c
  · subst e; simp [upd, bufToks, hb]
  · simp [upd, e]

theorem occ_upd {st : St P} {c : Nat} {ch : Chan P} {p : List (Entry P)} {g : List Tok} {tr : List (Ev P)} {e : Entry P}
    (h : Occ G { st with chan := upd st.chan c ch, pool := p, garb := g, trace := tr } e)
    (hch : e ∈ bufEntries G ch → e ∈ p ∨ e ∈ bufEntries G (st.chan c) ∧ c < st.next)
    : e ∈ p ∨ ∃ c', c' < st.next ∧ e ∈ bufEntries G (st.chan c') := by
  rcases h with h | ⟨c', hc', h⟩
  · exact Or.inl h
  · by_cases e' : c' = c
    · subst e'
      simp [upd] at h
      rcases hch h with h | h
      · exact Or.inl h
      · exact Or.inr ⟨c', h.2, h.1⟩
    · simp [upd, e'] at h
      exact Or.inr ⟨c', hc', h⟩

theorem prin_upd {st : St P} {c : Nat} {ch : Chan P} {p : List (Entry P)} {g : List Tok} {tr : List (Ev P)} {e : Entry P}
    (h : Prin G { st with chan := upd st.chan c ch, pool := p, garb := g, trace := tr } e)
    (hch : e ∈ bufPrin G ch → e ∈ p ∨ e ∈ bufPrin G (st.chan c) ∧ c < st.next)
    : e ∈ p ∨ ∃ c', c' < st.next ∧ e ∈ bufPrin G (st.chan c') := by
  rcases h with h | ⟨c', hc', h⟩
  · exact Or.inl h
  · by_cases e' : c' = c
    · subst e'
      simp [upd] at h
      rcases hch h with h | h
      · exact Or.inl h
      · exact Or.inr ⟨c', h.2, h.1⟩
    · simp [upd, e'] at h
      exact Or.inr ⟨c', hc', h⟩

/-- `drop`, and the failing `recv`. -/
theorem inv_drop {st : St P} (h : Inv G st) {e : Entry P} {rest : List (Entry P)}
    (ht : takeAll st.pool [e] = some rest) :
    Inv G { st with pool := rest, garb := e.ep.toks ++ st.garb } := by
  have hp := takeAll_perm _ _ _ ht
  have hc : ∀ t, cnt { st with pool := rest, garb := e.ep.toks ++ st.garb } t = cnt st t := by
    intro t
    unfold cnt
    rw [poolToks_perm hp]
    simp only [List.cons_append, List.nil_append, poolToks_cons, List.count_append]
    omega
  have ho : ∀ e', Occ G { st with pool := rest, garb := e.ep.toks ++ st.garb } e' → Occ G st e' := by
    intro e' he
    rcases he with he | he
    · exact Or.inl (hp.mem_iff.2 (by simp only [List.mem_append]; exact Or.inr he))
    · exact Or.inr he
  have hpr : ∀ e', Prin G { st with pool := rest, garb := e.ep.toks ++ st.garb } e' → Prin G st e' := by
    intro e' he
    rcases he with he | he
    · exact Or.inl (hp.mem_iff.2 (by simp only [List.mem_append]; exact Or.inr he))
    · exact Or.inr he
  obtain ⟨Q, q1, q2, q3⟩ := h.spec
  exact h.quiet rfl rfl rfl (fun _ => rfl) (fun _ => rfl) (fun c => by rw [hc]; exact h.ctx c)
    (fun c => by rw [hc]; exact h.crx c) (fun s b => by rw [hc]; exact Nat.le_refl _) (fun _ _ => rfl) ho
    (fun c m hm => ⟨(h.bufs c m hm).1, Or.inl hm⟩) (fun c _ hr => ⟨hr, rfl⟩)
    ⟨Q, q1, fun e he => q2 e (hpr e he), q3⟩

theorem count_eraseIdx {l : List Tok} {i : Nat} {t : Tok} (h : l[i]? = some t) (x : Tok) :
    l.count x = (l.eraseIdx i).count x + if t = x then 1 else 0 := by
  induction l generalizing i with
  | nil => simp at h
  | cons a l ih =>
    cases i with
    | zero =>
      simp at h; subst h
      simp only [List.eraseIdx_zero, List.tail_cons, List.count_cons, beq_iff_eq]
    | succ i =>
      simp at h
      simp only [List.eraseIdx_cons_succ, List.count_cons]
      rw [ih h]; omega

/-- `gc`. -/
theorem inv_gc {st : St P} (h : Inv G st) {i : Nat} {t : Tok} (ht : st.garb[i]? = some t) :
    Inv G (gcTok { st with garb := st.garb.eraseIdx i } t) := by
  obtain ⟨Q, q1, q2, q3⟩ := h.spec
  have hcount := count_eraseIdx ht
  have hge : ∀ t', t = t' → 1 ≤ cnt st t' := by
    intro t' e; subst e
    have := hcount t
    rw [if_pos rfl] at this
    unfold cnt; omega
  cases t with
  | idn s b =>
    have ho : ∀ e', Occ G { st with garb := st.garb.eraseIdx i } e' → Occ G st e' := fun e' he => he
    have hpr : ∀ e', Prin G { st with garb := st.garb.eraseIdx i } e' → Prin G st e' := fun e' he => he
    have hc : ∀ t, cnt { st with garb := st.garb.eraseIdx i } t + (if Tok.idn s b = t then 1 else 0) = cnt st t := by
      intro t
      have := hcount t
      unfold cnt; dsimp only; omega
    refine h.quiet rfl rfl rfl (fun _ => rfl) (fun _ => rfl) (fun c => ?_) (fun c => ?_) (fun s' b' => ?_)
      (fun _ _ => rfl) ho (fun c m hm => ⟨(h.bufs c m hm).1, Or.inl hm⟩) (fun c _ hr => ⟨hr, rfl⟩)
      ⟨Q, q1, fun e he => q2 e (hpr e he), q3⟩
    · have := hc (.tx c); simp only [reduceCtorEq, if_false] at this; exact this.trans (h.ctx c)
    · have := hc (.rx c); simp only [reduceCtorEq, if_false] at this; exact this.trans (h.crx c)
    · have := hc (.idn s' b'); exact Nat.le.intro this
  | tx c =>
    have h1 := hge (.tx c) rfl
    rw [h.ctx c] at h1
    have htx : (st.chan c).tx = true := by
      cases hx : (st.chan c).tx
      · rw [hx] at h1; simp at h1
      · rfl
    have hcn : c < st.next := by
      refine Nat.lt_of_not_le fun hle => ?_
      have := (h.dead c hle).1; rw [htx] at this; cases this
    have hc : ∀ t, cnt (gcTok { st with garb := st.garb.eraseIdx i } (.tx c)) t + (if Tok.tx c = t then 1 else 0)
        = cnt st t := by
      intro t
      have := hcount t
      unfold cnt gcTok; dsimp only
      rw [sum_upd_same st c { st.chan c with tx := false } rfl]; omega
    have ho : ∀ e', Occ G (gcTok { st with garb := st.garb.eraseIdx i } (.tx c)) e' → Occ G st e' := by
      intro e' he
      exact occ_upd (tr := st.trace) he (fun hm => Or.inr ⟨hm, hcn⟩)
    have hpr : ∀ e', Prin G (gcTok { st with garb := st.garb.eraseIdx i } (.tx c)) e' → Prin G st e' := by
      intro e' he
      exact prin_upd (tr := st.trace) he (fun hm => Or.inr ⟨hm, hcn⟩)
    refine h.quiet rfl rfl rfl (fun _ => rfl) ?_ (fun c' => ?_) (fun c' => ?_) (fun s' b' => ?_)
      ?_ ho ?_ ?_ ⟨Q, q1, fun e he => q2 e (hpr e he), q3⟩
    · intro c'
      by_cases e : c' = c
      · subst e; simp [gcTok, upd, stat]
      · simp [gcTok, upd, e]
    · have := hc (.tx c')
      rw [h.ctx c'] at this
      by_cases e : c' = c
      · subst e; simp [gcTok, upd]; simp [htx] at this; exact this
      · have e' : ¬ (Tok.tx c = Tok.tx c') := by intro hh; injection hh with hh; exact e hh.symm
        rw [if_neg e'] at this
        simp only [gcTok, upd, e, if_false]; exact this
    · have := hc (.rx c')
      simp only [reduceCtorEq, if_false] at this
      rw [h.crx c'] at this
      refine Eq.trans this ?_
      by_cases e : c' = c
      · subst e; simp [gcTok, upd]
      · simp [gcTok, upd, e]
    · have := hc (.idn s' b'); exact Nat.le.intro this
    · intro c' hc'
      have : c' ≠ c := by omega
      simp [gcTok, upd, this]
    · intro c' m hm
      by_cases e : c' = c
      · subst e; simp [gcTok, upd] at hm ⊢; exact ⟨(h.bufs _ m hm).1, Or.inl hm⟩
      · simp [gcTok, upd, e] at hm ⊢; exact ⟨(h.bufs _ m hm).1, Or.inl hm⟩
    · intro c' _ hr
      by_cases e : c' = c
      · subst e; simp [gcTok, upd] at hr ⊢; exact hr
      · simp [gcTok, upd, e] at hr ⊢; exact hr
  | rx c =>
    have h1 := hge (.rx c) rfl
    rw [h.crx c] at h1
    have hrx : (st.chan c).rx = true := by
      cases hx : (st.chan c).rx
      · rw [hx] at h1; simp at h1
      · rfl
    have hcn : c < st.next := by
      refine Nat.lt_of_not_le fun hle => ?_
      have := (h.dead c hle).2.1; rw [hrx] at this; cases this
    have hc : ∀ t, cnt (gcTok { st with garb := st.garb.eraseIdx i } (.rx c)) t + (if Tok.rx c = t then 1 else 0)
        = cnt st t := by
      intro t
      have := hcount t
      have h2 := sum_upd_buf st c hcn { st.chan c with rx := false, buf := none } t
      have h3 : (bufToks { st.chan c with rx := false, buf := none }).count t = 0 := by simp [bufToks]
      unfold cnt gcTok; dsimp only
      rw [List.count_append]
      (try dsimp only at h2 h3); omega
    have ho : ∀ e', Occ G (gcTok { st with garb := st.garb.eraseIdx i } (.rx c)) e' → Occ G st e' := by
      intro e' he
      exact occ_upd (tr := st.trace) he (fun hm => by simp [bufEntries] at hm)
    have hpr : ∀ e', Prin G (gcTok { st with garb := st.garb.eraseIdx i } (.rx c)) e' → Prin G st e' := by
      intro e' he
      exact prin_upd (tr := st.trace) he (fun hm => by simp [bufPrin] at hm)
    refine h.quiet rfl rfl rfl (fun _ => rfl) ?_ (fun c' => ?_) (fun c' => ?_) (fun s' b' => ?_)
      ?_ ho ?_ ?_ ⟨Q, q1, fun e he => q2 e (hpr e he), q3⟩
    · intro c'
      by_cases e : c' = c
      · subst e; simp [gcTok, upd, stat]
      · simp [gcTok, upd, e]
    · have := hc (.tx c')
      simp only [reduceCtorEq, if_false] at this
      rw [h.ctx c'] at this
      refine Eq.trans this ?_
      by_cases e : c' = c
      · subst e; simp [gcTok, upd]
      · simp [gcTok, upd, e]
    · have := hc (.rx c')
      rw [h.crx c'] at this
      by_cases e : c' = c
      · subst e; simp [gcTok, upd]; simp [hrx] at this; exact this
      · have e' : ¬ (Tok.rx c = Tok.rx c') := by intro hh; injection hh with hh; exact e hh.symm
        rw [if_neg e'] at this
        simp only [gcTok, upd, e, if_false]; exact this
    · have := hc (.idn s' b'); exact Nat.le.intro this
    · intro c' hc'
      have : c' ≠ c := by omega
      simp [gcTok, upd, this]
    · intro c' m hm
      by_cases e : c' = c
      · subst e; simp [gcTok, upd] at hm
      · simp [gcTok, upd, e] at hm ⊢; exact ⟨(h.bufs _ m hm).1, Or.inl hm⟩
    · intro c' _ hr
      by_cases e : c' = c
      · subst e; simp [gcTok, upd] at hr
      · simp [gcTok, upd, e] at hr ⊢; exact hr

end Verif.Heap
