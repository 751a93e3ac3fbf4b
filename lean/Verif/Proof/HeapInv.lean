import Verif.Model.Heap
import Verif.Spec.Fifo
import Verif.Spec.Holders
/-!
# The invariant of the heap model
-/
namespace Verif.Heap
open Verif.Types Verif.Spec

/-! ## Types -/

theorem dual_dual {P : Type} (s : STy P) : s.dual.dual = s := by
  induction s with
  | send w t s ih => simp [STy.dual, ih]
  | recv w t s ih => simp [STy.dual, ih]
  | fin => rfl

theorem view_not {P : Type} (b : Bool) (s : STy P) : view (!b) s = (view b s).dual := by
  cases b <;> simp [view, dual_dual]

theorem cont_dual {P : Type} (s : STy P) : STy.cont s.dual = (STy.cont s).dual := by
  cases s <;> rfl

theorem cont_view {P : Type} (b : Bool) (s : STy P) : STy.cont (view b s) = view b (STy.cont s) := by
  cases b <;> simp [view, cont_dual]

/-! ## Counting resources -/

theorem sumTo_congr {n : Nat} {f g : Nat → Nat} (h : ∀ c, c < n → f c = g c) : sumTo n f = sumTo n g := by
  induction n with
  | zero => rfl
  | succ n ih => simp only [sumTo]; rw [ih (fun c hc => h c (by omega)), h n (by omega)]

theorem sumTo_upd {n : Nat} {f g : Nat → Nat} (c : Nat) (hc : c < n) (h : ∀ i, i < n → i ≠ c → f i = g i) :
    sumTo n f + g c = sumTo n g + f c := by
  induction n with
  | zero => omega
  | succ n ih =>
    simp only [sumTo]
    by_cases e : c = n
    · subst e
      rw [sumTo_congr (g := g) (fun i hi => h i (by omega) (by omega))]; omega
    · have := ih (by omega) (fun i hi hn => h i (by omega) hn)
      have := h n (by omega) (fun x => e x.symm)
      omega

theorem sumTo_ext {n m : Nat} {f : Nat → Nat} (h : n ≤ m) (h0 : ∀ c, n ≤ c → c < m → f c = 0) :
    sumTo m f = sumTo n f := by
  induction m with
  | zero => have : n = 0 := by omega
            subst this; rfl
  | succ m ih =>
    by_cases e : n = m + 1
    · subst e; rfl
    · simp only [sumTo]
      rw [ih (by omega) (fun c h1 h2 => h0 c h1 (by omega)), h0 m (by omega) (by omega)]; rfl

theorem sumTo_pos {n c : Nat} {f : Nat → Nat} (h : c < n) : f c ≤ sumTo n f := by
  induction n with
  | zero => omega
  | succ n ih =>
    simp only [sumTo]
    by_cases e : c = n
    · subst e; omega
    · have := ih (by omega); omega

theorem sumTo_pos_iff {n : Nat} {f : Nat → Nat} (h : 0 < sumTo n f) : ∃ c, c < n ∧ 0 < f c := by
  induction n with
  | zero => simp [sumTo] at h
  | succ n ih =>
    simp only [sumTo] at h
    by_cases e : 0 < f n
    · exact ⟨n, by omega, e⟩
    · obtain ⟨c, h1, h2⟩ := ih (by omega)
      exact ⟨c, by omega, h2⟩

theorem poolToks_cons {P : Type} (e : Entry P) (p : List (Entry P)) :
    poolToks (e :: p) = e.ep.toks ++ poolToks p := by simp [poolToks]

theorem poolToks_append {P : Type} (p q : List (Entry P)) : poolToks (p ++ q) = poolToks p ++ poolToks q := by
  simp [poolToks]

theorem poolToks_perm {P : Type} {p q : List (Entry P)} (h : p.Perm q) (t : Tok) :
    (poolToks p).count t = (poolToks q).count t := by
  apply List.Perm.count_eq
  exact h.flatMap_right _

theorem poolToks_entries {P : Type} : ∀ (eps : List EP) (tys : List (STy P)), eps.length = tys.length →
    poolToks (entries eps tys) = eps.flatMap EP.toks := by
  intro eps
  induction eps with
  | nil => intro tys _; simp [entries, poolToks]
  | cons e eps ih =>
    intro tys h
    cases tys with
    | nil => simp at h
    | cons t tys =>
      have : entries (e :: eps) (t :: tys) = ⟨e, t⟩ :: entries eps tys := rfl
      rw [this, poolToks_cons, ih tys (by simpa using h)]
      simp

theorem mem_toks_idn (e : EP) : Tok.idn e.sid e.side ∈ e.toks := by
  unfold EP.toks; simp

theorem halves_sub {e : EP} {t : Tok} (h : t ∈ e.halves) : t ∈ e.toks := by
  unfold EP.toks; simp [h]

theorem count_idn (e : EP) : 1 ≤ e.toks.count (Tok.idn e.sid e.side) :=
  List.count_pos_iff.2 (mem_toks_idn e)

theorem count_mem_pool {P : Type} {p : List (Entry P)} {e : Entry P} {t : Tok} (h : e ∈ p) (ht : t ∈ e.ep.toks) :
    1 ≤ (poolToks p).count t := by
  apply List.count_pos_iff.2
  simp only [poolToks, List.mem_flatMap]
  exact ⟨e, h, ht⟩

theorem takeAll_perm {P : Type} [DecidableEq P] : ∀ (es pool rest : List (Entry P)),
    takeAll pool es = some rest → pool.Perm (es ++ rest) := by
  intro es
  induction es with
  | nil => intro pool rest h; simp [takeAll] at h; simp [h]
  | cons e es ih =>
    intro pool rest h
    unfold takeAll at h
    split at h
    · rename_i hm
      exact (List.perm_cons_erase hm).trans ((ih _ _ h).cons e)
    · cases h

/-! ## Occurrences of endpoints -/

/-- Endpoints inside a message, with the types given by the channel. -/
def msgEntries {P : Type} (G : Env P) : Kind P → Msg → List (Entry P)
  | .data _ t s, .data v k => entries v.eps ((G t v.tag).getD []) ++ [⟨k, s⟩]
  | .sig, .sig (.offer e) => [⟨e, .fin⟩]
  | _, _ => []

def bufEntries {P : Type} (G : Env P) (ch : Chan P) : List (Entry P) :=
  match ch.buf with
  | some m => msgEntries G ch.kind m
  | none => []

/-- A usable endpoint: held by client code or inside an undelivered message. -/
def Occ {P : Type} (G : Env P) (st : St P) (e : Entry P) : Prop :=
  e ∈ st.pool ∨ ∃ c, c < st.next ∧ e ∈ bufEntries G (st.chan c)

def idxOf {P : Type} (st : St P) (e : EP) : Nat :=
  match e.node with
  | .snd c => (st.chan c).idx
  | .rcv c => (st.chan c).idx
  | .fin t _ => (st.chan t).idx

/-- The endpoint matches the static type of its channel. -/
def EPTy {P : Type} (st : St P) (e : Entry P) : Prop :=
  match e.ep.node with
  | .snd c => c < st.next ∧ (st.chan c).sid = e.ep.sid ∧ (st.chan c).dir = e.ep.side ∧
      ∃ w t s, (st.chan c).kind = .data w t s ∧ e.ty = .send w t s.dual
  | .rcv c => c < st.next ∧ (st.chan c).sid = e.ep.sid ∧ (st.chan c).dir = (!e.ep.side) ∧
      ∃ w t s, (st.chan c).kind = .data w t s ∧ e.ty = .recv w t s
  | .fin t r => t < st.next ∧ r < st.next ∧ (st.chan t).sid = e.ep.sid ∧ (st.chan r).sid = e.ep.sid ∧
      (st.chan t).dir = e.ep.side ∧ (st.chan r).dir = (!e.ep.side) ∧
      (st.chan t).kind = .sig ∧ (st.chan r).kind = .sig ∧ (st.chan r).idx = (st.chan t).idx ∧
      (st.chan t).mate = r ∧ (st.chan r).mate = t ∧ e.ty = .fin

/-- Position of the endpoint in the history of its session. -/
def Pos {P : Type} (st : St P) (e : EP) : Prop :=
  match e.node with
  | .rcv _ => idxOf st e ≤ (hist st.trace e.sid).length
  | _ => idxOf st e = (hist st.trace e.sid).length

structure WT {P : Type} (st : St P) (e : Entry P) : Prop where
  ty : EPTy st e
  pos : Pos st e.ep
  proto : e.ty = view e.ep.side (dropK (idxOf st e.ep) (st.proto e.ep.sid))
  sid : e.ep.sid < st.nsid

def MsgOk {P : Type} (G : Env P) (st : St P) (c : Nat) : Msg → Prop
  | .data v k => ∃ w t s tys, (st.chan c).kind = .data w t s ∧ G t v.tag = some tys ∧
      v.eps.length = tys.length ∧
      (hist st.trace (st.chan c).sid)[(st.chan c).idx]? = some (t, v) ∧
      k.sid = (st.chan c).sid ∧ k.side = (!(st.chan c).dir) ∧ idxOf st k = (st.chan c).idx + 1
  | .sig _ => (st.chan c).kind = .sig

structure Inv {P : Type} [DecidableEq P] (G : Env P) (st : St P) : Prop where
  ctx : ∀ c, cnt st (.tx c) = if (st.chan c).tx then 1 else 0
  crx : ∀ c, cnt st (.rx c) = if (st.chan c).rx then 1 else 0
  cid : ∀ s b, cnt st (.idn s b) ≤ 1
  cnew : ∀ s b, st.nsid ≤ s → cnt st (.idn s b) = 0
  dead : ∀ c, st.next ≤ c → (st.chan c).tx = false ∧ (st.chan c).rx = false ∧ (st.chan c).buf = none
  chans : ∀ c, c < st.next → (st.chan c).sid < st.nsid ∧
    (st.chan c).idx ≤ (hist st.trace (st.chan c).sid).length
  uniq : ∀ c c', c < st.next → c' < st.next → (st.chan c).sid = (st.chan c').sid →
    (st.chan c).idx = (st.chan c').idx → c = c' ∨ ((st.chan c).kind = .sig ∧ (st.chan c).mate = c')
  occ : ∀ e, Occ G st e → WT st e
  bufs : ∀ c m, (st.chan c).buf = some m → (st.chan c).rx = true ∧ MsgOk G st c m
  full : ∀ c, c < st.next → (st.chan c).kind ≠ .sig → (st.chan c).rx = true →
    (st.chan c).idx < (hist st.trace (st.chan c).sid).length → (st.chan c).buf.isSome
  spec : ∃ Q, fifoRun (noMsgs P) st.trace = some Q ∧
    (∀ e, Prin G st e → Q e.ep.sid e.ep.side = (hist st.trace e.ep.sid).drop (idxOf st e.ep)) ∧
    (∀ s b, st.nsid ≤ s → Q s b = [])
  hnew : ∀ s, st.nsid ≤ s → hist st.trace s = []

/-! ## Basic facts -/

theorem hist_append {P : Type} (tr : List (Ev P)) (ev : Ev P) (s : Nat) :
    hist (tr ++ [ev]) s = hist tr s ++ (match ev with
      | .sent s' _ t v => if s' = s then [(t, v)] else []
      | .rcvd _ _ _ _ => []) := by
  unfold hist
  rw [List.filterMap_append]
  congr 1
  cases ev with
  | sent s' b t v =>
    by_cases e : s' = s <;> simp [e]
  | rcvd s' b t v => simp

theorem fifoRun_append {P : Type} [DecidableEq P] : ∀ (tr : List (Ev P)) (Q : Queues P) (ev : Ev P),
    fifoRun Q (tr ++ [ev]) = (fifoRun Q tr).bind (fun Q' => fifoStep Q' ev) := by
  intro tr
  induction tr with
  | nil =>
    intro Q ev
    simp only [List.nil_append, fifoRun, Option.bind_some]
    cases fifoStep Q ev <;> rfl
  | cons x tr ih =>
    intro Q ev
    simp only [List.cons_append, fifoRun]
    cases fifoStep Q x with
    | none => rfl
    | some Q' => simp only [ih]

theorem mem_entries {P : Type} {e : Entry P} : ∀ (eps : List EP) (tys : List (STy P)),
    e ∈ entries eps tys → e.ep ∈ eps := by
  intro eps
  unfold entries
  induction eps with
  | nil => intro tys h; simp at h
  | cons x xs ih =>
    intro tys h
    cases tys with
    | nil => simp at h
    | cons y ys =>
      simp only [List.zipWith_cons_cons, List.mem_cons] at h
      rcases h with h | h
      · simp [h]
      · exact List.mem_cons_of_mem _ (ih ys h)

theorem mem_bufPrin_toks {P : Type} {G : Env P} {ch : Chan P} {e : Entry P} (h : e ∈ bufPrin G ch)
    {t : Tok} (ht : t ∈ e.ep.toks) : t ∈ bufToks ch := by
  unfold bufPrin at h
  unfold bufToks
  cases hb : ch.buf with
  | none => rw [hb] at h; simp at h
  | some m =>
    rw [hb] at h
    simp only at h ⊢
    cases m with
    | data v k =>
      cases hk : ch.kind with
      | sig => rw [hk] at h; simp [msgPrin] at h
      | data w ty s =>
        rw [hk] at h
        simp only [msgPrin] at h
        simp only [Msg.toks, List.mem_append]
        left
        unfold Val.toks
        rw [List.mem_flatMap]
        exact ⟨e.ep, mem_entries _ _ h, ht⟩
    | sig s =>
      cases s with
      | offer f =>
        cases hk : ch.kind with
        | sig =>
          rw [hk] at h
          simp only [msgPrin, List.mem_singleton] at h
          rw [h] at ht; exact ht
        | data w ty s => rw [hk] at h; simp [msgPrin] at h
      | stop => cases hk : ch.kind <;> rw [hk] at h <;> simp [msgPrin] at h
      | cancel => cases hk : ch.kind <;> rw [hk] at h <;> simp [msgPrin] at h

/-- An endpoint in a message is the continuation or one of the values. -/
theorem bufEntries_cases {P : Type} {G : Env P} {ch : Chan P} {e : Entry P} (h : e ∈ bufEntries G ch) :
    e ∈ bufPrin G ch ∨ ∃ v w t, ch.buf = some (.data v e.ep) ∧ ch.kind = .data w t e.ty := by
  unfold bufEntries at h
  unfold bufPrin
  cases hb : ch.buf with
  | none => rw [hb] at h; simp at h
  | some m =>
    rw [hb] at h
    simp only at h ⊢
    cases m with
    | data v k =>
      cases hk : ch.kind with
      | sig => rw [hk] at h; simp [msgEntries] at h
      | data w ty s =>
        rw [hk] at h
        simp only [msgEntries, List.mem_append, List.mem_singleton] at h
        rcases h with h | h
        · exact Or.inl h
        · right; subst h; exact ⟨v, w, ty, rfl, rfl⟩
    | sig s =>
      left
      cases s <;> cases hk : ch.kind <;> rw [hk] at h <;> exact h

theorem bufPrin_sub {P : Type} {G : Env P} {ch : Chan P} {e : Entry P} (h : e ∈ bufPrin G ch) :
    e ∈ bufEntries G ch := by
  unfold bufPrin at h
  unfold bufEntries
  cases hb : ch.buf with
  | none => rw [hb] at h; simp at h
  | some m =>
    rw [hb] at h
    simp only at h ⊢
    cases m with
    | data v k =>
      cases hk : ch.kind with
      | sig => rw [hk] at h; simp [msgPrin] at h
      | data w ty s =>
        rw [hk] at h
        simp only [msgEntries, List.mem_append]
        exact Or.inl h
    | sig s => cases s <;> cases hk : ch.kind <;> rw [hk] at h <;> exact h

theorem Prin.occ {P : Type} {G : Env P} {st : St P} {e : Entry P} (h : Prin G st e) : Occ G st e := by
  rcases h with h | ⟨c, hc, h⟩
  · exact Or.inl h
  · exact Or.inr ⟨c, hc, bufPrin_sub h⟩

theorem mem_bufEntries_toks {P : Type} {G : Env P} {ch : Chan P} {e : Entry P} (h : e ∈ bufEntries G ch)
    {t : Tok} (ht : t ∈ e.ep.halves) : t ∈ bufToks ch := by
  rcases bufEntries_cases h with h | ⟨v, w, ty, hb, -⟩
  · exact mem_bufPrin_toks h (halves_sub ht)
  · simp [bufToks, hb, Msg.toks, ht]

theorem count_mem_buf {P : Type} {st : St P} {c : Nat} (hc : c < st.next) {t : Tok}
    (h : t ∈ bufToks (st.chan c)) : 1 ≤ sumTo st.next (fun c => (bufToks (st.chan c)).count t) := by
  have h1 : 1 ≤ (bufToks (st.chan c)).count t := List.count_pos_iff.2 h
  exact Nat.le_trans h1 (sumTo_pos (f := fun c => (bufToks (st.chan c)).count t) hc)

/-- A resource of a usable endpoint is counted. -/
theorem Occ.count {P : Type} {G : Env P} {st : St P} {e : Entry P} (h : Occ G st e) {t : Tok} (ht : t ∈ e.ep.halves) :
    1 ≤ cnt st t := by
  unfold cnt
  rcases h with h | ⟨c, hc, h⟩
  · have := count_mem_pool h (halves_sub ht); omega
  · have := count_mem_buf hc (mem_bufEntries_toks h ht); omega

/-- The invariant does not depend on the order of the pool. -/
theorem Inv.perm {P : Type} [DecidableEq P] {G : Env P} {st : St P} (h : Inv G st) {p : List (Entry P)}
    (hp : st.pool.Perm p) : Inv G { st with pool := p } := by
  have hc : ∀ t, cnt { st with pool := p } t = cnt st t := by
    intro t; unfold cnt; rw [poolToks_perm hp]
  have ho : ∀ e, Occ G { st with pool := p } e → Occ G st e := by
    intro e he
    rcases he with he | he
    · exact Or.inl (hp.mem_iff.2 he)
    · exact Or.inr he
  have hpr : ∀ e, Prin G { st with pool := p } e → Prin G st e := by
    intro e he
    rcases he with he | he
    · exact Or.inl (hp.mem_iff.2 he)
    · exact Or.inr he
  obtain ⟨Q, q1, q2, q3⟩ := h.spec
  exact
    { ctx := fun c => by rw [hc]; exact h.ctx c
      crx := fun c => by rw [hc]; exact h.crx c
      cid := fun s b => by rw [hc]; exact h.cid s b
      cnew := fun s b hs => by rw [hc]; exact h.cnew s b hs
      dead := h.dead
      chans := h.chans
      uniq := h.uniq
      occ := fun e he => ⟨(h.occ e (ho e he)).ty, (h.occ e (ho e he)).pos, (h.occ e (ho e he)).proto, (h.occ e (ho e he)).sid⟩
      bufs := fun c m hm => by
        have := h.bufs c m hm
        cases m <;> exact this
      full := h.full
      spec := ⟨Q, q1, fun e he => q2 e (hpr e he), q3⟩
      hnew := h.hnew }

/-- With `e` at the head of the pool, no other current endpoint has the same identity. -/
theorem Inv.others {P : Type} [DecidableEq P] {G : Env P} {st : St P} (h : Inv G st) {e : Entry P}
    {more : List (Entry P)} (hp : st.pool = e :: more) {e' : Entry P}
    (he : e' ∈ more ∨ ∃ c, c < st.next ∧ e' ∈ bufPrin G (st.chan c)) :
    ¬ (e'.ep.sid = e.ep.sid ∧ e'.ep.side = e.ep.side) := by
  rintro ⟨h1, h2⟩
  have hc := h.cid e.ep.sid e.ep.side
  have hm : Tok.idn e.ep.sid e.ep.side ∈ e'.ep.toks := by rw [← h1, ← h2]; exact mem_toks_idn _
  unfold cnt at hc
  rw [hp, poolToks_cons, List.count_append] at hc
  have h3 := count_idn e.ep
  rcases he with he | ⟨c, hcn, he⟩
  · have := count_mem_pool he hm; omega
  · have := count_mem_buf hcn (mem_bufPrin_toks he hm); omega

/-- Static part of a channel. -/
def stat {P : Type} (ch : Chan P) : Kind P × Nat × Nat × Bool × Nat := (ch.kind, ch.sid, ch.idx, ch.dir, ch.mate)

/-- `st'` extends `st`: channels keep their static part. -/
structure Ext {P : Type} (st st' : St P) : Prop where
  next : st.next ≤ st'.next
  nsid : st.nsid ≤ st'.nsid
  stat : ∀ c, c < st.next → stat (st'.chan c) = stat (st.chan c)
  proto : ∀ s, s < st.nsid → st'.proto s = st.proto s

theorem EPTy.lt {P : Type} {st : St P} {e : Entry P} (h : EPTy st e) :
    match e.ep.node with
    | .snd c => c < st.next
    | .rcv c => c < st.next
    | .fin t r => t < st.next ∧ r < st.next := by
  unfold EPTy at h
  cases hn : e.ep.node <;> rw [hn] at h <;> simp only at h ⊢
  · exact h.1
  · exact h.1
  · exact ⟨h.1, h.2.1⟩

theorem Ext.idx {P : Type} {st st' : St P} (x : Ext st st') {e : Entry P} (h : EPTy st e) :
    idxOf st' e.ep = idxOf st e.ep := by
  have hl := h.lt
  unfold idxOf
  cases hn : e.ep.node with
  | snd c => rw [hn] at hl; have := x.stat c hl; simp only [Heap.stat, Prod.mk.injEq] at this; simp [this.2.2.1]
  | rcv c => rw [hn] at hl; have := x.stat c hl; simp only [Heap.stat, Prod.mk.injEq] at this; simp [this.2.2.1]
  | fin t r => rw [hn] at hl; have := x.stat t hl.1; simp only [Heap.stat, Prod.mk.injEq] at this; simp [this.2.2.1]

theorem Ext.epty {P : Type} {st st' : St P} (x : Ext st st') {e : Entry P} (h : EPTy st e) : EPTy st' e := by
  have hn := x.next
  unfold EPTy at *
  cases hn : e.ep.node with
  | snd c =>
    rw [hn] at h; simp only at h ⊢
    have := x.stat c h.1; simp only [Heap.stat, Prod.mk.injEq] at this
    rw [this.1, this.2.1, this.2.2.2.1]
    exact ⟨by omega, h.2⟩
  | rcv c =>
    rw [hn] at h; simp only at h ⊢
    have := x.stat c h.1; simp only [Heap.stat, Prod.mk.injEq] at this
    rw [this.1, this.2.1, this.2.2.2.1]
    exact ⟨by omega, h.2⟩
  | fin t r =>
    rw [hn] at h; simp only at h ⊢
    have a := x.stat t h.1; simp only [Heap.stat, Prod.mk.injEq] at a
    have b := x.stat r h.2.1; simp only [Heap.stat, Prod.mk.injEq] at b
    rw [a.1, a.2.1, a.2.2.1, a.2.2.2.1, a.2.2.2.2, b.1, b.2.1, b.2.2.1, b.2.2.2.1, b.2.2.2.2]
    exact ⟨by omega, by omega, h.2.2⟩

theorem Ext.wt {P : Type} {st st' : St P} (x : Ext st st') {e : Entry P} (h : WT st e)
    (hp : Pos st' e.ep) : WT st' e :=
  { ty := x.epty h.ty
    pos := hp
    proto := by rw [x.idx h.ty, x.proto _ h.sid]; exact h.proto
    sid := Nat.lt_of_lt_of_le h.sid x.nsid }

theorem Ext.pos {P : Type} {st st' : St P} (x : Ext st st') {e : Entry P} (h : WT st e)
    (hh : hist st'.trace e.ep.sid = hist st.trace e.ep.sid) : Pos st' e.ep := by
  have hi := x.idx h.ty
  have := h.pos
  unfold Pos at *
  rw [hi, hh]
  exact this

theorem Ext.msg {P : Type} {G : Env P} {st st' : St P} (x : Ext st st') {c : Nat} (hc : c < st.next) {m : Msg}
    (h : MsgOk G st c m) (hk : ∀ v k, m = .data v k → ∃ s, EPTy st ⟨k, s⟩)
    (hh : ∀ s (i : Nat) y, (hist st.trace s)[i]? = some y → (hist st'.trace s)[i]? = some y) : MsgOk G st' c m := by
  have a := x.stat c hc
  simp only [Heap.stat, Prod.mk.injEq] at a
  cases m with
  | sig s => simp only [MsgOk] at *; rw [a.1]; exact h
  | data v k =>
    simp only [MsgOk] at *
    obtain ⟨w, t, s, tys, h1, h2, h3, h4, h5, h6, h7⟩ := h
    obtain ⟨s', hk⟩ := hk v k rfl
    have := x.idx hk
    simp only at this
    refine ⟨w, t, s, tys, by rw [a.1]; exact h1, h2, h3, ?_, by rw [a.2.1]; exact h5,
      by rw [a.2.2.2.1]; exact h6, by rw [this, a.2.2.1]; exact h7⟩
    rw [a.2.1, a.2.2.1]; exact hh _ _ _ h4

/-- The continuation inside a message is a usable endpoint. -/
theorem Inv.contOcc {P : Type} [DecidableEq P] {G : Env P} {st : St P} (h : Inv G st) {c : Nat} {v : Val} {k : EP}
    (hb : (st.chan c).buf = some (.data v k)) : ∃ s, EPTy st ⟨k, s⟩ := by
  obtain ⟨-, hm⟩ := h.bufs c _ hb
  simp only [MsgOk] at hm
  obtain ⟨w, t, s, tys, h1, -⟩ := hm
  have hc : c < st.next := by
    refine Nat.lt_of_not_le fun hle => ?_
    have := (h.dead c hle).2.2
    rw [hb] at this; cases this
  refine ⟨s, (h.occ ⟨k, s⟩ (Or.inr ⟨c, hc, ?_⟩)).ty⟩
  unfold bufEntries
  rw [hb]
  simp only [h1, msgEntries]
  simp

theorem Inv.buf_lt {P : Type} [DecidableEq P] {G : Env P} {st : St P} (h : Inv G st) {c : Nat} {m : Msg}
    (hb : (st.chan c).buf = some m) : c < st.next := by
  refine Nat.lt_of_not_le fun hle => ?_
  have := (h.dead c hle).2.2
  rw [hb] at this; cases this

end Verif.Heap
