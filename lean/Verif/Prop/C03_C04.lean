import Verif.Proof.HeapDemo
/-!
# C03, C04: outcomes of `send` and `recv`
-/
namespace Verif.Prop
open Verif.Types Verif.Heap Verif.Spec

variable {P : Type} [DecidableEq P] {G : Env P}

theorem takeAll_total : ∀ (es pool rest : List (Entry P)), pool.Perm (es ++ rest) →
    ∃ r, takeAll pool es = some r ∧ r.Perm rest := by
  intro es
  induction es with
  | nil => intro pool rest h; exact ⟨pool, rfl, h⟩
  | cons e es ih =>
    intro pool rest h
    have hm : e ∈ pool := h.mem_iff.2 (by simp)
    unfold takeAll
    rw [if_pos hm]
    apply ih
    have := (List.perm_cons_erase hm).symm.trans h
    exact this.cons_inv

/-- C03.  In every reachable state, whoever owns a sending endpoint `e` and the endpoints contained in the
value `v` (a value of the announced payload type) can call `send`; the call returns at once, never blocks
and never fails, and hands back an endpoint of the continuation type, in place of what was passed in. -/
theorem C03_send {st : St P} (h : Reach G st) {e : Entry P} {w : Option Window} {t : P} {k : STy P}
    (hty : e.ty = .send w t k) {v : Val} {tys : List (STy P)} (hv : G t v.tag = some tys)
    (hl : v.eps.length = tys.length) {rest : List (Entry P)}
    (hp : st.pool.Perm (e :: entries v.eps tys ++ rest)) :
    ∃ st' here rest', step G st (.send e v) = some (st', .unit) ∧
      st'.pool = ⟨here, k⟩ :: rest' ∧ rest'.Perm rest ∧ here.sid = e.ep.sid ∧ here.side = e.ep.side ∧
      st'.trace = st.trace ++ [.sent e.ep.sid e.ep.side t v] := by
  have inv := reach_inv h
  have hm : e ∈ st.pool := hp.mem_iff.2 (by simp)
  obtain ⟨r, hr, hr'⟩ := takeAll_total (e :: entries v.eps tys) st.pool rest hp
  have hn : ∃ c, e.ep.node = .snd c := by
    have := (inv.occ e (Or.inl hm)).ty
    unfold EPTy at this
    cases hn : e.ep.node with
    | snd c => exact ⟨c, rfl⟩
    | rcv c =>
      rw [hn] at this
      obtain ⟨_, _, _, _, _, _, _, h1⟩ := this
      rw [hty] at h1; cases h1
    | fin t r =>
      rw [hn] at this
      rw [hty] at this
      have := this.2.2.2.2.2.2.2.2.2.2.2
      cases this
  obtain ⟨c, hn⟩ := hn
  have hb := (snd_facts inv hm hn).2.2.2.2.2.1
  have a := alloc_spec st k e.ep.sid ((st.chan c).idx + 1) e.ep.side
  simp only [step, sendStep, hty, hn, hv, hl, hr, hb, Option.isSome_none, Bool.and_false,
    Bool.false_eq_true, if_false, if_true]
  by_cases hrx : (st.chan c).rx = true
  · simp only [hrx, if_true]
    exact ⟨_, _, r, rfl, rfl, hr', a.hid.1, a.hid.2.1, rfl⟩
  · simp only [hrx, if_false, Bool.false_eq_true]
    exact ⟨_, _, r, rfl, rfl, hr', a.hid.1, a.hid.2.1, rfl⟩

/-- C03.  However the call is made, no other outcome is possible, and the slot it writes to was empty. -/
theorem C03_never_blocks {st st' : St P} (h : Reach G st) {e : Entry P} {v : Val} {o : Out}
    (hs : step G st (.send e v) = some (st', o)) :
    o = .unit ∧ ∀ c, e.ep.node = .snd c → (st.chan c).buf = none := by
  have inv := reach_inv h
  simp only [step] at hs
  unfold sendStep at hs
  split at hs
  · rename_i w t k c hty hn
    split at hs
    · cases hs
    · rename_i tys htys
      split at hs
      · split at hs
        · cases hs
        · rename_i rest htake
          have hm : e ∈ st.pool := (takeAll_perm _ _ _ htake).mem_iff.2 (by simp)
          have hb := (snd_facts inv hm hn).2.2.2.2.2.1
          simp only [hb, Option.isSome_none, Bool.and_false, Bool.false_eq_true, if_false] at hs
          refine ⟨?_, fun c' hc => ?_⟩
          · split at hs <;> cases hs <;> rfl
          · rw [hn] at hc; cases hc; exact hb
      · cases hs
  · cases hs

/-- C04.  `recv` on an owned receiving endpoint returns the oldest value its partner has sent and it has not
yet received, with the announced payload type; if there is none it waits as long as the sending half
exists, and reports an error once it is gone.  Nothing else can happen. -/
theorem C04_recv {st : St P} (h : Reach G st) {e : Entry P} (he : e ∈ st.pool) {w : Option Window} {t : P}
    {k : STy P} (hty : e.ty = .recv w t k) :
    ∃ c st' o, e.ep.node = .rcv c ∧ step G st (.recv e) = some (st', o) ∧
      match pending st.trace e.ep.sid e.ep.side with
      | (t', v) :: _ => t' = t ∧ o = .value v ∧ st'.trace = st.trace ++ [.rcvd e.ep.sid e.ep.side t v] ∧
          ∃ there tys, G t v.tag = some tys ∧ there.sid = e.ep.sid ∧ there.side = e.ep.side ∧
            st'.pool = entries v.eps tys ++ ⟨there, k⟩ :: st.pool.erase e
      | [] => if 0 < cnt st (.tx c) then o = .block ∧ st' = st
              else o = .err ∧ st'.trace = st.trace ∧ st'.pool = st.pool.erase e := by
  have inv := reach_inv h
  have hn : ∃ c, e.ep.node = .rcv c := by
    have := (inv.occ e (Or.inl he)).ty
    unfold EPTy at this
    cases hn : e.ep.node with
    | rcv c => exact ⟨c, rfl⟩
    | snd c =>
      rw [hn] at this
      obtain ⟨_, _, _, _, _, _, _, h1⟩ := this
      rw [hty] at h1; cases h1
    | fin t r =>
      rw [hn] at this
      rw [hty] at this
      have := this.2.2.2.2.2.2.2.2.2.2.2
      cases this
  obtain ⟨c, hn⟩ := hn
  have htake : takeAll st.pool [e] = some (st.pool.erase e) := by simp [takeAll, he]
  have hi : idxOf st e.ep = (st.chan c).idx := by simp [idxOf, hn]
  have hpend := inv.pend (Or.inl he : Prin G st e)
  by_cases hlt : idxOf st e.ep < (hist st.trace e.ep.sid).length
  · obtain ⟨v, there, w', t', s', tys, hb, hk, hty', hg, hlen, hh, hocc, h1, h2, -⟩ := inv.next (Or.inl he) hn hlt
    rw [hty] at hty'; cases hty'
    have : pending st.trace e.ep.sid e.ep.side = (t, v) :: (hist st.trace e.ep.sid).drop (idxOf st e.ep + 1) := by
      rw [hpend, List.drop_eq_getElem_cons hlt]
      rw [List.getElem?_eq_getElem hlt] at hh
      rw [Option.some.inj hh]
    refine ⟨c, ?_⟩
    rw [this]
    simp only [step, recvStep, hty, hn, htake, hb, hg, hlen, if_true]
    exact ⟨_, _, trivial, rfl, trivial, rfl, rfl, there, tys, rfl, h1, h2, rfl⟩
  · have hle := idx_le inv (Or.inl he : Occ G st e)
    have hpe : pending st.trace e.ep.sid e.ep.side = [] := by
      rw [hpend]; exact List.drop_eq_nil_of_le (by omega)
    obtain ⟨hc, hrx, hsid, hdir, w', t', s', hk, hty'⟩ := rcv_facts inv he hn
    have hb : (st.chan c).buf = none := by
      cases hb : (st.chan c).buf with
      | none => rfl
      | some m =>
        have hok := (inv.bufs c m hb).2
        cases m with
        | sig x => simp only [MsgOk] at hok; rw [hk] at hok; cases hok
        | data v k' =>
          simp only [MsgOk] at hok
          obtain ⟨_, _, _, _, _, _, _, h4, _⟩ := hok
          rw [hsid, List.getElem?_eq_none (by omega)] at h4; cases h4
    refine ⟨c, ?_⟩
    rw [hpe]
    simp only [step, recvStep, hty, hn, htake, hb]
    have hctx := inv.ctx c
    cases htx : (st.chan c).tx with
    | true =>
      rw [htx] at hctx
      simp only [if_true] at hctx ⊢
      exact ⟨_, _, trivial, rfl, by rw [if_pos (by omega)]; exact ⟨rfl, rfl⟩⟩
    | false =>
      rw [htx] at hctx
      simp only [Bool.false_eq_true, if_false] at hctx ⊢
      exact ⟨_, _, trivial, rfl, by rw [if_neg (by omega)]; exact ⟨rfl, rfl, rfl⟩⟩

/-- C04, who the sending half belongs to.  When no drop is in progress and nothing is pending, the sending
half of a waiting receiver exists exactly when the partner's endpoint of the same session does: held by
client code, or travelling as a value inside an undelivered message. -/
theorem C04_peer {st : St P} (h : Reach G st) (hg : st.garb = []) {e : Entry P} (he : e ∈ st.pool) {c : Nat}
    (hn : e.ep.node = .rcv c) (hp : pending st.trace e.ep.sid e.ep.side = []) :
    0 < cnt st (.tx c) ↔ ∃ p, Prin G st p ∧ p.ep.sid = e.ep.sid ∧ p.ep.side = (!e.ep.side) := by
  have inv := reach_inv h
  obtain ⟨hc, hs, hd, w, t, s, hk, hty⟩ := (inv.occ e (Or.inl he)).ty.rcv hn
  have hi : idxOf st e.ep = (st.chan c).idx := by simp [idxOf, hn]
  constructor
  · intro hpos
    obtain ⟨e2, he2, hm⟩ := inv.held hpos (by rw [hg]; simp) (by simp)
    have wt := inv.occ e2 he2
    obtain ⟨p, p1, p2, p3, -⟩ := inv.root hg _ e2 he2 (Nat.le_refl _)
    have : e2.ep.sid = e.ep.sid ∧ e2.ep.side = (!e.ep.side) := by
      unfold EP.halves at hm
      cases hn2 : e2.ep.node with
      | rcv c' => rw [hn2] at hm; simp at hm
      | snd c' =>
        rw [hn2] at hm; simp at hm; subst hm
        obtain ⟨_, g2, g3, _⟩ := wt.ty.snd hn2
        rw [← g2, ← g3, hs, hd]; exact ⟨rfl, rfl⟩
      | fin t' r' =>
        rw [hn2] at hm; simp at hm; subst hm
        obtain ⟨_, _, _, _, _, _, g, _⟩ := wt.ty.fin hn2
        rw [hk] at g; cases g
    exact ⟨p, p1, p2.trans this.1, p3.trans this.2⟩
  · rintro ⟨p, p1, p2, p3⟩
    have hpend := inv.pend (Or.inl he : Prin G st e)
    rw [hp] at hpend
    have hlen : (st.chan c).idx = (hist st.trace e.ep.sid).length := by
      have h1 := congrArg List.length hpend
      simp only [List.length_nil, List.length_drop] at h1
      have h2 := idx_le inv (Or.inl he : Occ G st e)
      omega
    obtain ⟨e', t1, t2, t3, t4⟩ := inv.tip _ p p1.occ (Nat.le_refl _)
    rw [p2] at t2 t4
    rw [p3] at t3
    have wt := (inv.occ e' t1).ty
    cases hn2 : e'.ep.node with
    | snd c' =>
      obtain ⟨g1, g2, g3, _⟩ := wt.snd hn2
      simp only [idxOf, hn2] at t4
      rcases inv.uniq c c' hc g1 (by rw [hs, g2, t2]) (by omega) with hu | hu
      · subst hu
        exact Occ.count t1 (by simp [EP.halves, hn2])
      · rw [hk] at hu; cases hu.1
    | rcv c' =>
      obtain ⟨g1, g2, g3, _⟩ := wt.rcv hn2
      simp only [idxOf, hn2] at t4
      rcases inv.uniq c c' hc g1 (by rw [hs, g2, t2]) (by omega) with hu | hu
      · subst hu
        rw [hd, t3] at g3
        simp at g3
      · rw [hk] at hu; cases hu.1
    | fin t' r' =>
      obtain ⟨g1, _, g2, _, _, _, g3, _⟩ := wt.fin hn2
      simp only [idxOf, hn2] at t4
      rcases inv.uniq c t' hc g1 (by rw [hs, g2, t2]) (by omega) with hu | hu
      · subst hu
        rw [hk] at g3; cases g3
      · rw [hk] at hu; cases hu.1

/-- The hypotheses of `C03_send` are met with a payload containing an endpoint: after two calls of `new`,
variant 1 of the enum, holding an `End`, is sent on the first session. -/
example : ∃ st, Reach demoEnv st ∧ st.pool.Perm
    (⟨⟨.snd 0, 0, true⟩, .send none 1 .fin⟩ :: entries [⟨.fin 1 2, 1, true⟩] [.fin] ++
      [⟨⟨.fin 2 1, 1, false⟩, .fin⟩, ⟨⟨.rcv 0, 0, false⟩, .recv none 1 .fin⟩]) ∧
    demoEnv 1 1 = some [.fin] := by
  refine ⟨_, runOps_reach (ops := [.new (.send none 1 .fin), .new .fin]) rfl, ?_, rfl⟩
  decide

/-- The hypotheses of `C04_recv` are met with something pending, and of `C04_peer` with nothing pending. -/
example : (∃ st, Reach demoEnv st ∧ ⟨⟨.rcv 1, 0, false⟩, .recv none 0 .fin⟩ ∈ st.pool ∧
      pending st.trace 0 false ≠ []) ∧
    (∃ st, Reach demoEnv st ∧ st.garb = [] ∧ ⟨⟨.rcv 0, 0, false⟩, .recv none 0 .fin⟩ ∈ st.pool ∧
      pending st.trace 0 false = []) := by
  constructor
  · obtain ⟨st, h1, h2, h3, -⟩ := demo_reach
    exact ⟨st, h1, by rw [h2]; simp, by rw [h3]; simp⟩
  · exact ⟨_, runOps_reach (ops := [.new (.send none 0 .fin)]) rfl, rfl, by simp [alloc, init, STy.dual], rfl⟩

end Verif.Prop
