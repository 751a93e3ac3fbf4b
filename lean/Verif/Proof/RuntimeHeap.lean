import Verif.Prop.C05_C38
/-!
# Facts about the channels needed for the runtime: effects of the calls, chains of undelivered messages, peers
-/
namespace Verif.Heap
open Verif.Types Verif.Spec Verif.Prop

variable {P : Type} [DecidableEq P] {G : Env P}

/-! ## Pending messages -/

theorem sentBy_snoc (tr : List (Ev P)) (ev : Ev P) (s : Nat) (b : Bool) :
    sentBy s b (tr ++ [ev]) = sentBy s b tr ++ sentBy s b [ev] := by simp [sentBy, List.filterMap_append]

theorem rcvdBy_snoc (tr : List (Ev P)) (ev : Ev P) (s : Nat) (b : Bool) :
    rcvdBy s b (tr ++ [ev]) = rcvdBy s b tr ++ rcvdBy s b [ev] := by simp [rcvdBy, List.filterMap_append]

theorem pending_sent {st : St P} (h : Reach G st) (s : Nat) (b : Bool) (t : P) (v : Val) (s' : Nat) (b' : Bool) :
    pending (st.trace ++ [.sent s b t v]) s' b' =
      if s' = s ∧ b' = (!b) then pending st.trace s' b' ++ [(t, v)] else pending st.trace s' b' := by
  have hle := (C05_prefix h s' b').length_le
  unfold pending
  rw [sentBy_snoc, rcvdBy_snoc]
  have e1 : rcvdBy s' b' [Ev.sent s b t v] = [] := rfl
  rw [e1, List.append_nil]
  by_cases hh : s' = s ∧ b' = (!b)
  · have e2 : sentBy s' (!b') [Ev.sent s b t v] = [(t, v)] := by
      obtain ⟨rfl, rfl⟩ := hh; simp [sentBy]
    rw [if_pos hh, e2, List.drop_append_of_le_length hle]
  · have e2 : sentBy s' (!b') [Ev.sent s b t v] = [] := by
      simp only [sentBy, List.filterMap_cons, List.filterMap_nil]
      rw [if_neg]
      rintro ⟨rfl, h2⟩
      exact hh ⟨rfl, by rw [h2, Bool.not_not]⟩
    rw [if_neg hh, e2, List.append_nil]

theorem pending_rcvd (tr : List (Ev P)) (s : Nat) (b : Bool) (t : P) (v : Val) {x l} (hx : pending tr s b = x :: l)
    (s' : Nat) (b' : Bool) :
    pending (tr ++ [.rcvd s b t v]) s' b' = if s' = s ∧ b' = b then l else pending tr s' b' := by
  unfold pending at *
  rw [sentBy_snoc, rcvdBy_snoc]
  have e1 : sentBy s' (!b') [Ev.rcvd s b t v] = [] := rfl
  rw [e1, List.append_nil]
  by_cases hh : s' = s ∧ b' = b
  · have e2 : rcvdBy s' b' [Ev.rcvd s b t v] = [(t, v)] := by
      obtain ⟨rfl, rfl⟩ := hh; simp [rcvdBy]
    rw [if_pos hh, e2]
    obtain ⟨rfl, rfl⟩ := hh
    rw [List.length_append, List.length_singleton, ← List.drop_drop, hx]
    rfl
  · have e2 : rcvdBy s' b' [Ev.rcvd s b t v] = [] := by
      simp only [rcvdBy, List.filterMap_cons, List.filterMap_nil]
      rw [if_neg]
      rintro ⟨rfl, h2⟩
      exact hh ⟨rfl, h2.symm⟩
    rw [if_neg hh, e2, List.append_nil]

theorem pending_new {st : St P} (h : Reach G st) {s : Nat} (hs : st.nsid ≤ s) (b : Bool) : pending st.trace s b = [] := by
  obtain ⟨Q, q1, -, q3⟩ := (reach_inv h).spec
  rw [pending_eq q1, q3 s b hs]

/-! ## Chains -/

/-- Every undelivered message of a side that still exists is in the slot of a channel. -/
theorem Inv.chain {st : St P} (h : Inv G st) : ∀ (n : Nat) (e : Entry P), Occ G st e →
    (hist st.trace e.ep.sid).length - idxOf st e.ep ≤ n → ∀ x ∈ (hist st.trace e.ep.sid).drop (idxOf st e.ep),
    ∃ c k w s, c < st.next ∧ (st.chan c).buf = some (.data x.2 k) ∧ (st.chan c).kind = .data w x.1 s := by
  intro n
  induction n with
  | zero =>
    intro e he hn x hx
    rw [List.drop_eq_nil_of_le (by omega)] at hx; cases hx
  | succ n ih =>
    intro e he hn x hx
    by_cases hlt : idxOf st e.ep < (hist st.trace e.ep.sid).length
    · have hpos := (h.occ e he).pos
      unfold Pos at hpos
      cases hnode : e.ep.node with
      | snd c => rw [hnode] at hpos; simp only at hpos; omega
      | fin t r => rw [hnode] at hpos; simp only at hpos; omega
      | rcv c =>
        obtain ⟨v, k, w, t, s, tys, hb, hkind, -, -, -, hget, hk, k1, k2, k3⟩ := h.next he hnode hlt
        rw [List.drop_eq_getElem_cons hlt] at hx
        rw [List.getElem?_eq_getElem hlt] at hget
        rw [Option.some.inj hget] at hx
        rcases List.mem_cons.1 hx with rfl | hx
        · exact ⟨c, k, w, s, ((h.occ e he).ty.rcv hnode).1, hb, hkind⟩
        · exact ih ⟨k, s⟩ hk (by simp only; rw [k1, k3]; omega) x (by simp only; rw [k1, k3]; exact hx)
    · rw [List.drop_eq_nil_of_le (by omega)] at hx; cases hx

/-- The endpoints inside a pending message of an existing side are current endpoints. -/
theorem Inv.travels {st : St P} (h : Inv G st) {e : Entry P} (he : Prin G st e) {t : P} {v : Val}
    (hx : (t, v) ∈ pending st.trace e.ep.sid e.ep.side) :
    ∃ tys, G t v.tag = some tys ∧ v.eps.length = tys.length ∧ ∀ f ∈ entries v.eps tys, Prin G st f := by
  rw [h.pend he] at hx
  obtain ⟨c, k, w, s, hc, hb, hk⟩ := h.chain _ e he.occ (Nat.le_refl _) _ hx
  have hok := (h.bufs c _ hb).2
  simp only [MsgOk] at hok
  obtain ⟨w', t', s', tys, h1, h2, h3, -⟩ := hok
  rw [hk] at h1; cases h1
  refine ⟨tys, h2, h3, fun f hf => Or.inr ⟨c, hc, ?_⟩⟩
  simp [bufPrin, hb, hk, msgPrin, h2, hf]

/-! ## Peers -/

theorem Inv.peer_tx {st : St P} (inv : Inv G st) {e : Entry P} (he : e ∈ st.pool) {c : Nat}
    (hn : e.ep.node = .rcv c) (hp : pending st.trace e.ep.sid e.ep.side = [])
    {p : Entry P} (p1 : Prin G st p) (p2 : p.ep.sid = e.ep.sid) (p3 : p.ep.side = (!e.ep.side)) :
    0 < cnt st (.tx c) := by
  obtain ⟨hc, hs, hd, w, t, s, hk, hty⟩ := (inv.occ e (Or.inl he)).ty.rcv hn
  have hi : idxOf st e.ep = (st.chan c).idx := by simp [idxOf, hn]
  have hpend := inv.pend (Or.inl he : Prin G st e)
  rw [hp] at hpend
  have hlen : (st.chan c).idx = (hist st.trace e.ep.sid).length := by
    have h1 := congrArg List.length hpend
    simp only [List.length_nil, List.length_drop] at h1
    have h2 := idx_le inv (Or.inl he : Occ G st e)
    omega
  obtain ⟨e', t1, t2, t3, t4⟩ := inv.tip _ p p1.occ (Nat.le_refl _)
  rw [p2] at t2 t4
  rw [p3] at t3
  have wt := (inv.occ e' t1).ty
  cases hn2 : e'.ep.node with
  | snd c' =>
    obtain ⟨g1, g2, g3, _⟩ := wt.snd hn2
    simp only [idxOf, hn2] at t4
    rcases inv.uniq c c' hc g1 (by rw [hs, g2, t2]) (by omega) with hu | hu
    · subst hu
      exact Occ.count t1 (by simp [EP.halves, hn2])
    · rw [hk] at hu; cases hu.1
  | rcv c' =>
    obtain ⟨g1, g2, g3, _⟩ := wt.rcv hn2
    simp only [idxOf, hn2] at t4
    rcases inv.uniq c c' hc g1 (by rw [hs, g2, t2]) (by omega) with hu | hu
    · subst hu
      rw [hd, t3] at g3
      simp at g3
    · rw [hk] at hu; cases hu.1
  | fin t' r' =>
    obtain ⟨g1, _, g2, _, _, _, g3, _⟩ := wt.fin hn2
    simp only [idxOf, hn2] at t4
    rcases inv.uniq c t' hc g1 (by rw [hs, g2, t2]) (by omega) with hu | hu
    · subst hu
      rw [hk] at g3; cases g3
    · rw [hk] at hu; cases hu.1

/-- The peer of an `End`, while its side exists, is the `End` with the same channels, the other way round. -/
theorem Inv.peer_fin {st : St P} (inv : Inv G st) {e : Entry P} (he : Occ G st e) {t r : Nat}
    (hn : e.ep.node = .fin t r) {p : Entry P} (p1 : Prin G st p) (p2 : p.ep.sid = e.ep.sid)
    (p3 : p.ep.side = (!e.ep.side)) : ∃ p', Occ G st p' ∧ p'.ep.node = .fin r t := by
  obtain ⟨h1, h2, h3, h4, h5, h6, h7, h8, h9, h10, h11, h12⟩ := (inv.occ e he).ty.fin hn
  have hpos := (inv.occ e he).pos
  simp only [Pos, hn, idxOf] at hpos
  obtain ⟨e', t1, t2, t3, t4⟩ := inv.tip _ p p1.occ (Nat.le_refl _)
  rw [p2] at t2 t4
  rw [p3] at t3
  have wt := (inv.occ e' t1).ty
  cases hn2 : e'.ep.node with
  | snd c' =>
    obtain ⟨g1, g2, g3, w, x, s, gk, -⟩ := wt.snd hn2
    simp only [idxOf, hn2] at t4
    rcases inv.uniq t c' h1 g1 (by rw [h3, g2, t2]) (by omega) with hu | hu
    · subst hu; rw [h7] at gk; cases gk
    · rw [h10] at hu; rw [← hu.2, h8] at gk; cases gk
  | rcv c' =>
    obtain ⟨g1, g2, g3, w, x, s, gk, -⟩ := wt.rcv hn2
    simp only [idxOf, hn2] at t4
    rcases inv.uniq t c' h1 g1 (by rw [h3, g2, t2]) (by omega) with hu | hu
    · subst hu; rw [h7] at gk; cases gk
    · rw [h10] at hu; rw [← hu.2, h8] at gk; cases gk
  | fin t' r' =>
    obtain ⟨g1, g1', g2, g2', g3, g3', g4, g5, g6, g7, g8, -⟩ := wt.fin hn2
    simp only [idxOf, hn2] at t4
    rcases inv.uniq t t' h1 g1 (by rw [h3, g2, t2]) (by omega) with hu | hu
    · subst hu
      rw [h5, t3] at g3; simp at g3
    · have : t' = r := by rw [← hu.2, h10]
      subst this
      have : r' = t := by rw [← g7, h11]
      subst this
      exact ⟨e', t1, hn2⟩

/-- While one side can send, the other side is not at its end. -/
theorem Inv.snd_fin {st : St P} (inv : Inv G st) {e : Entry P} (he : e ∈ st.pool) {c : Nat} (hn : e.ep.node = .snd c)
    {p : Entry P} (hp : Occ G st p) (p2 : p.ep.sid = e.ep.sid) {t r : Nat} : p.ep.node ≠ .fin t r := by
  intro hn2
  obtain ⟨g1, g1', g2, g2', g3, g3', g4, g5, g6, g7, g8, -⟩ := (inv.occ p hp).ty.fin hn2
  obtain ⟨h1, -, h2, h3, h4, -, w, x, s, hk, -⟩ := snd_facts inv he hn
  have hpos := (inv.occ p hp).pos
  simp only [Pos, hn2, idxOf] at hpos
  rcases inv.uniq c t h1 g1 (by rw [h2, g2, p2]) (by rw [h4, hpos, p2]) with hu | hu
  · subst hu; rw [hk] at g4; cases g4
  · rw [hk] at hu; cases hu.1

/-! ## Nodes and types -/

theorem Inv.node_send {st : St P} (h : Inv G st) {e : Entry P} (he : Occ G st e) {w t k} (hty : e.ty = .send w t k) :
    ∃ c, e.ep.node = .snd c := by
  have := (h.occ e he).ty
  unfold EPTy at this
  cases hn : e.ep.node with
  | snd c => exact ⟨c, rfl⟩
  | rcv c => rw [hn] at this; obtain ⟨_, _, _, _, _, _, _, h1⟩ := this; rw [hty] at h1; cases h1
  | fin t r => rw [hn, hty] at this; cases this.2.2.2.2.2.2.2.2.2.2.2

theorem Inv.node_fin {st : St P} (h : Inv G st) {e : Entry P} (he : Occ G st e) (hty : e.ty = .fin) :
    ∃ t r, e.ep.node = .fin t r := by
  have := (h.occ e he).ty
  unfold EPTy at this
  cases hn : e.ep.node with
  | snd c => rw [hn] at this; obtain ⟨_, _, _, _, _, _, _, h1⟩ := this; rw [hty] at h1; cases h1
  | rcv c => rw [hn] at this; obtain ⟨_, _, _, _, _, _, _, h1⟩ := this; rw [hty] at h1; cases h1
  | fin t r => exact ⟨t, r, rfl⟩

/-! ## Effects on the ends of sessions -/

/-- `x` is an `End` with sender `t` and receiver `r`. -/
def Ends (G : Env P) (st : St P) (x : Entry P) (t r : Nat) : Prop := Occ G st x ∧ x.ep.node = .fin t r

theorem Inv.ends_lt {st : St P} (inv : Inv G st) {x t r} (h : Ends G st x t r) : t < st.next ∧ r < st.next ∧
    (st.chan t).kind = .sig ∧ (st.chan r).kind = .sig := by
  obtain ⟨g1, g1', g2, g2', g3, g3', g4, g5, -⟩ := (inv.occ x h.1).ty.fin h.2
  exact ⟨g1, g1', g4, g5⟩

theorem send_ends {st st' : St P} (inv : Inv G st) {e : Entry P} {v : Val} {o : Out}
    (hs : step G st (.send e v) = some (st', o)) {x t r} (hx : Ends G st' x t r) :
    (Ends G st x t r ∧ (st'.chan t).buf = (st.chan t).buf ∧ (st'.chan r).buf = (st.chan r).buf) ∨
    (x.ep.sid = e.ep.sid ∧ (st'.chan t).buf = none ∧ (st'.chan r).buf = none) := by
  simp only [step] at hs
  unfold sendStep at hs
  split at hs
  · rename_i w ty k c hty hn
    split at hs
    · cases hs
    · rename_i tys htys
      split at hs
      · split at hs
        · cases hs
        · rename_i rest htake
          have hp := takeAll_perm _ _ _ htake
          have hm : e ∈ st.pool := hp.mem_iff.2 (by simp)
          obtain ⟨f1, f2, f3, f4, f5, hb, w', ty', s', f6, f7⟩ := snd_facts inv hm hn
          rw [hty] at f7; cases f7
          have a := alloc_spec st s'.dual e.ep.sid ((st.chan c).idx + 1) e.ep.side
          simp only [hb, Option.isSome_none, Bool.and_false, Bool.false_eq_true, if_false] at hs
          generalize (alloc st s'.dual e.ep.sid ((st.chan c).idx + 1) e.ep.side).1 = st1 at *
          generalize (alloc st s'.dual e.ep.sid ((st.chan c).idx + 1) e.ep.side).2.1 = here at *
          generalize (alloc st s'.dual e.ep.sid ((st.chan c).idx + 1) e.ep.side).2.2 = there at *
          have hlt := a.next
          have new : ∀ f : Entry P, (f = ⟨here, s'.dual⟩ ∨ f = ⟨there, s'.dual.dual⟩) → f.ep.node = .fin t r →
              f.ep.sid = e.ep.sid ∧ (st.next ≤ t ∧ t < st1.next) ∧ (st.next ≤ r ∧ r < st1.next) := by
            rintro f (rfl | rfl) hn2
            · have h1 := a.htx t
              have h2 := a.hrx r
              simp only [] at hn2
              simp only [EP.halves, hn2] at h1 h2
              refine ⟨a.hid.1, ?_, ?_⟩
              · by_cases hc : st.next ≤ t ∧ t < st1.next
                · exact hc
                · rw [if_neg hc] at h1; simp at h1
              · by_cases hc : st.next ≤ r ∧ r < st1.next
                · exact hc
                · rw [if_neg hc] at h2; simp at h2
            · have h1 := a.htx t
              have h2 := a.hrx r
              simp only [] at hn2
              simp only [EP.halves, hn2] at h1 h2
              refine ⟨a.hid.2.2.1, ?_, ?_⟩
              · by_cases hc : st.next ≤ t ∧ t < st1.next
                · exact hc
                · rw [if_neg hc] at h1; simp at h1
              · by_cases hc : st.next ≤ r ∧ r < st1.next
                · exact hc
                · rw [if_neg hc] at h2; simp at h2
          have old : ∀ (st2 : St P) (ch : Chan P), st2.chan = upd st1.chan c ch → Ends G st x t r →
              (st2.chan t).buf = (st.chan t).buf ∧ (st2.chan r).buf = (st.chan r).buf := by
            intro st2 ch e2 h2
            obtain ⟨g1, g2, g3, g4⟩ := inv.ends_lt h2
            have ht : t ≠ c := by intro e; subst e; rw [f6] at g3; cases g3
            have hr : r ≠ c := by intro e; subst e; rw [f6] at g4; cases g4
            rw [e2]
            simp [upd, ht, hr, a.old t g1, a.old r g2]
          have fresh : ∀ (st2 : St P) (ch : Chan P), st2.chan = upd st1.chan c ch →
              (st.next ≤ t ∧ t < st1.next) → (st.next ≤ r ∧ r < st1.next) →
              (st2.chan t).buf = none ∧ (st2.chan r).buf = none := by
            intro st2 ch e2 h2 h3
            have ht : t ≠ c := by omega
            have hr : r ≠ c := by omega
            rw [e2]
            simp [upd, ht, hr, (a.new t h2.1 h2.2).1, (a.new r h3.1 h3.2).1]
          have pool : ∀ y : Entry P, y ∈ (⟨here, s'.dual⟩ : Entry P) :: rest → Occ G st y ∨ y = ⟨here, s'.dual⟩ := by
            intro y hy
            rcases List.mem_cons.1 hy with hy | hy
            · exact .inr hy
            · exact .inl (.inl (hp.mem_iff.2 (by simp [hy])))
          have other : ∀ c' , c' < st1.next → c' ≠ c → ∀ y ∈ bufEntries G (st1.chan c'), Occ G st y := by
            intro c' h1 h2 y hy
            by_cases h3 : c' < st.next
            · rw [a.old c' h3] at hy; exact .inr ⟨c', h3, hy⟩
            · have := (a.new c' (by omega) h1).1
              simp [bufEntries, this] at hy
          obtain ⟨hocc, hxn⟩ := hx
          split at hs
          · cases hs
            rcases hocc with hy | ⟨c', h1, h2⟩
            · rcases pool x hy with h | h
              · exact .inl ⟨⟨h, hxn⟩, old _ _ rfl ⟨h, hxn⟩⟩
              · obtain ⟨n1, n2, n3⟩ := new x (.inl h) hxn
                exact .inr ⟨n1, fresh _ _ rfl n2 n3⟩
            · by_cases hc : c' = c
              · subst hc
                simp only [upd, if_true, bufEntries, f6, msgEntries, htys, Option.getD_some, List.mem_append,
                  List.mem_singleton] at h2
                rcases h2 with h2 | h2
                · have h : Occ G st x := .inl (hp.mem_iff.2 (by simp [h2]))
                  exact .inl ⟨⟨h, hxn⟩, old _ _ rfl ⟨h, hxn⟩⟩
                · obtain ⟨n1, n2, n3⟩ := new x (.inr (by rw [h2, dual_dual])) hxn
                  exact .inr ⟨n1, fresh _ _ rfl n2 n3⟩
              · simp only [upd, hc, if_false] at h2
                have h := other c' h1 hc x h2
                exact .inl ⟨⟨h, hxn⟩, old _ _ rfl ⟨h, hxn⟩⟩
          · cases hs
            rcases hocc with hy | ⟨c', h1, h2⟩
            · rcases pool x hy with h | h
              · exact .inl ⟨⟨h, hxn⟩, old _ _ rfl ⟨h, hxn⟩⟩
              · obtain ⟨n1, n2, n3⟩ := new x (.inl h) hxn
                exact .inr ⟨n1, fresh _ _ rfl n2 n3⟩
            · by_cases hc : c' = c
              · subst hc
                simp [upd, bufEntries, hb] at h2
              · simp only [upd, hc, if_false] at h2
                have h := other c' h1 hc x h2
                exact .inl ⟨⟨h, hxn⟩, old _ _ rfl ⟨h, hxn⟩⟩
      · cases hs
  · cases hs

theorem new_ends {st st' : St P} (inv : Inv G st) {s : STy P} {o : Out}
    (hs : step G st (.new s) = some (st', o)) {x t r} (hx : Ends G st' x t r) :
    (Ends G st x t r ∧ (st'.chan t).buf = (st.chan t).buf ∧ (st'.chan r).buf = (st.chan r).buf) ∨
    (x.ep.sid = st.nsid ∧ (st'.chan t).buf = none ∧ (st'.chan r).buf = none) := by
  simp only [step] at hs
  have a := alloc_spec st s st.nsid 0 true
  generalize (alloc st s st.nsid 0 true).1 = st1 at *
  generalize (alloc st s st.nsid 0 true).2.1 = here at *
  generalize (alloc st s st.nsid 0 true).2.2 = there at *
  cases hs
  have hlt := a.next
  obtain ⟨hocc, hxn⟩ := hx
  have old : Occ G st x → (Ends G st x t r ∧ (st1.chan t).buf = (st.chan t).buf ∧ (st1.chan r).buf = (st.chan r).buf) := by
    intro h
    obtain ⟨g1, g2, g3, g4⟩ := inv.ends_lt ⟨h, hxn⟩
    exact ⟨⟨h, hxn⟩, by rw [a.old t g1], by rw [a.old r g2]⟩
  have h1 := a.htx t
  have h2 := a.hrx r
  have new : x.ep = here ∨ x.ep = there → (x.ep.sid = st.nsid ∧ (st1.chan t).buf = none ∧ (st1.chan r).buf = none) := by
    intro hxe
    have t1 : st.next ≤ t ∧ t < st1.next := by
      by_cases hc : st.next ≤ t ∧ t < st1.next
      · exact hc
      · rw [if_neg hc] at h1
        rcases hxe with e | e <;> rw [e] at hxn <;> simp [EP.halves, hxn] at h1
    have r1 : st.next ≤ r ∧ r < st1.next := by
      by_cases hc : st.next ≤ r ∧ r < st1.next
      · exact hc
      · rw [if_neg hc] at h2
        rcases hxe with e | e <;> rw [e] at hxn <;> simp [EP.halves, hxn] at h2
    refine ⟨?_, (a.new t t1.1 t1.2).1, (a.new r r1.1 r1.2).1⟩
    rcases hxe with e | e
    · rw [e]; exact a.hid.1
    · rw [e]; exact a.hid.2.2.1
  rcases hocc with hy | ⟨c, h3, h4⟩
  · simp only [List.mem_cons] at hy
    rcases hy with rfl | rfl | hy
    · exact .inr (new (.inl rfl))
    · exact .inr (new (.inr rfl))
    · exact .inl (old (.inl hy))
  · simp only at h3 h4
    by_cases h5 : c < st.next
    · rw [a.old c h5] at h4; exact .inl (old (.inr ⟨c, h5, h4⟩))
    · have := (a.new c (by omega) h3).1
      simp [bufEntries, this] at h4

theorem recv_ends {st st' : St P} (inv : Inv G st) {e : Entry P} {v : Val}
    (hs : step G st (.recv e) = some (st', .value v)) {x t r} (hx : Ends G st' x t r) :
    Ends G st x t r ∧ (st'.chan t).buf = (st.chan t).buf ∧ (st'.chan r).buf = (st.chan r).buf := by
  simp only [step] at hs
  unfold recvStep at hs
  split at hs
  · rename_i w ty k c hty hn
    split at hs
    · cases hs
    · rename_i rest htake
      have hp := takeAll_perm _ _ _ htake
      have hm : e ∈ st.pool := hp.mem_iff.2 (by simp)
      obtain ⟨f1, f2, f3, f4, w', ty', s', f6, f7⟩ := rcv_facts inv hm hn
      rw [hty] at f7; cases f7
      simp only at hs
      split at hs
      · rename_i v' there hb
        split at hs
        · cases hs
        · rename_i tys htys
          split at hs
          · rename_i hlen
            cases hs
            have hbe : bufEntries G (st.chan c) = entries v.eps tys ++ [⟨there, k⟩] := by
              simp [bufEntries, hb, f6, msgEntries, htys]
            obtain ⟨hocc, hxn⟩ := hx
            have h : Occ G st x := by
              rcases hocc with hy | ⟨c', h1, h2⟩
              · simp only [List.mem_append, List.mem_cons] at hy
                rcases hy with hy | hy | hy
                · exact .inr ⟨c, f1, by rw [hbe]; simp [hy]⟩
                · exact .inr ⟨c, f1, by rw [hbe]; simp [hy]⟩
                · exact .inl (hp.mem_iff.2 (by simp [hy]))
              · simp only at h1 h2
                by_cases hc : c' = c
                · subst hc; simp [upd, bufEntries] at h2
                · simp only [upd, hc, if_false] at h2
                  exact .inr ⟨c', h1, h2⟩
            obtain ⟨g1, g2, g3, g4⟩ := inv.ends_lt ⟨h, hxn⟩
            have ht : t ≠ c := by intro e; subst e; rw [f6] at g3; cases g3
            have hr : r ≠ c := by intro e; subst e; rw [f6] at g4; cases g4
            exact ⟨⟨h, hxn⟩, by simp [upd, ht], by simp [upd, hr]⟩
          · cases hs
      · cases hs
      · split at hs <;> cases hs
  · cases hs

theorem drop_ends {st st' : St P} {e : Entry P} {o : Out}
    (hs : step G st (.drop e) = some (st', o)) {x t r} (hx : Ends G st' x t r) :
    Ends G st x t r ∧ (st'.chan t).buf = (st.chan t).buf ∧ (st'.chan r).buf = (st.chan r).buf := by
  simp only [step] at hs
  split at hs
  · cases hs
  · rename_i rest htake
    have hp := takeAll_perm _ _ _ htake
    cases hs
    refine ⟨⟨?_, hx.2⟩, rfl, rfl⟩
    rcases hx.1 with hy | hy
    · exact .inl (hp.mem_iff.2 (by simp; exact .inr hy))
    · exact .inr hy

theorem gc_ends {st st' : St P} (inv : Inv G st) {i : Nat} {o : Out}
    (hs : step G st (.gc i) = some (st', o)) {x t r} (hx : Ends G st' x t r) :
    Ends G st x t r ∧ ((st'.chan t).buf = (st.chan t).buf ∨ (.rx t ∈ st.garb ∧ (st'.chan t).buf = none)) ∧
      (st'.chan r).buf = (st.chan r).buf := by
  simp only [step] at hs
  split at hs
  · cases hs
  · rename_i tok ht
    have hmem : tok ∈ st.garb := List.mem_of_getElem? ht
    cases hs
    obtain ⟨hocc, hxn⟩ := hx
    cases tok with
    | idn s b => exact ⟨⟨hocc, hxn⟩, .inl rfl, rfl⟩
    | tx c =>
      have h : Occ G st x := by
        rcases hocc with hy | ⟨c', h1, h2⟩
        · exact .inl hy
        · refine .inr ⟨c', h1, ?_⟩
          simp only [gcTok, upd] at h2
          by_cases hc : c' = c
          · subst hc; simpa [bufEntries] using h2
          · simpa [hc] using h2
      refine ⟨⟨h, hxn⟩, .inl ?_, ?_⟩ <;> simp only [gcTok, upd] <;> split <;> simp_all
    | rx c =>
      have h : Occ G st x := by
        rcases hocc with hy | ⟨c', h1, h2⟩
        · exact .inl hy
        · refine .inr ⟨c', h1, ?_⟩
          simp only [gcTok, upd] at h2
          by_cases hc : c' = c
          · subst hc; simp [bufEntries] at h2
          · simpa [hc] using h2
      have hr : r ≠ c := by
        rintro rfl
        have h1 := inv.crx r
        have : 2 ≤ cnt st (.rx r) := by
          have g : 1 ≤ st.garb.count (.rx r) := List.count_pos_iff.2 hmem
          unfold cnt
          rcases h with h | ⟨c', hc', h⟩
          · have := count_mem_pool (t := .rx r) h (halves_sub (by simp [EP.halves, hxn])); omega
          · have := count_mem_buf hc' (mem_bufEntries_toks h (t := .rx r) (by simp [EP.halves, hxn])); omega
        split at h1 <;> omega
      refine ⟨⟨h, hxn⟩, ?_, ?_⟩
      · by_cases hc : t = c
        · subst hc; exact .inr ⟨hmem, by simp [gcTok, upd]⟩
        · exact .inl (by simp [gcTok, upd, hc])
      · simp [gcTok, upd, hr]

/-- Plain data of a state that most calls keep. -/
theorem drop_rest {st st' : St P} {e : Entry P} {o : Out} (hs : step G st (.drop e) = some (st', o)) :
    st'.trace = st.trace ∧ st'.nsid = st.nsid ∧ st.pool.Perm (e :: st'.pool) := by
  simp only [step] at hs
  split at hs
  · cases hs
  · rename_i rest htake
    have hp := takeAll_perm _ _ _ htake
    cases hs
    exact ⟨rfl, rfl, hp⟩

theorem gc_rest {st st' : St P} {i : Nat} {o : Out} (hs : step G st (.gc i) = some (st', o)) :
    st'.trace = st.trace ∧ st'.nsid = st.nsid ∧ st'.pool = st.pool := by
  simp only [step] at hs
  split at hs
  · cases hs
  · rename_i tok ht
    cases hs
    cases tok <;> exact ⟨rfl, rfl, rfl⟩

theorem send_nsid {st st' : St P} {e : Entry P} {v : Val} {o : Out} (hs : step G st (.send e v) = some (st', o)) :
    st'.nsid = st.nsid := by
  simp only [step] at hs
  unfold sendStep at hs
  split at hs
  · rename_i w ty k c hty hn
    have a := alloc_spec st k e.ep.sid ((st.chan c).idx + 1) e.ep.side
    repeat' (split at hs)
    all_goals first
      | (cases hs; done)
      | (cases hs; rfl)
      | (simp only at hs; repeat' (split at hs)
         all_goals (cases hs; first | rfl | exact a.nsid))
  · cases hs

theorem recv_nsid {st st' : St P} {e : Entry P} {o : Out} (hs : step G st (.recv e) = some (st', o)) :
    st'.nsid = st.nsid := by
  simp only [step] at hs
  unfold recvStep at hs
  split at hs
  · split at hs
    · cases hs
    · simp only at hs
      split at hs
      · split at hs
        · cases hs; rfl
        · split at hs <;> cases hs <;> rfl
      · cases hs; rfl
      · split at hs <;> cases hs <;> rfl
  · cases hs

/-! ## `new`, and the signals of `close` -/

theorem new_rest (G : Env P) (st : St P) (s : STy P) : ∃ st' a b, step G st (.new s) = some (st', .unit) ∧
    st'.pool = ⟨a, s⟩ :: ⟨b, s.dual⟩ :: st.pool ∧ a.sid = st.nsid ∧ a.side = true ∧ b.sid = st.nsid ∧ b.side = false ∧
    st'.trace = st.trace ∧ st'.nsid = st.nsid + 1 := by
  have a := alloc_spec st s st.nsid 0 true
  refine ⟨_, _, _, rfl, rfl, a.hid.1, a.hid.2.1, a.hid.2.2.1, a.hid.2.2.2, a.trace, rfl⟩

theorem Inv.occ_garb {st : St P} (inv : Inv G st) {e : Entry P} (he : Occ G st e) {t : Tok} (ht : t ∈ e.ep.halves) :
    t ∉ st.garb := by
  intro hg
  have h1 : 2 ≤ cnt st t := by
    have g : 1 ≤ st.garb.count t := List.count_pos_iff.2 hg
    unfold cnt
    rcases he with h | ⟨c', hc', h⟩
    · have := count_mem_pool h (halves_sub ht); omega
    · have := count_mem_buf hc' (mem_bufEntries_toks h ht); omega
  cases t with
  | tx c => have := inv.ctx c; split at this <;> omega
  | rx c => have := inv.crx c; split at this <;> omega
  | idn s b => have := inv.cid s b; omega

theorem Inv.ends_live {st : St P} (inv : Inv G st) {x t r} (h : Ends G st x t r) :
    (st.chan t).tx = true ∧ (st.chan r).rx = true := by
  have h1 := Occ.count h.1 (t := .tx t) (by simp [EP.halves, h.2])
  have h2 := Occ.count h.1 (t := .rx r) (by simp [EP.halves, h.2])
  rw [inv.ctx] at h1
  rw [inv.crx] at h2
  constructor
  · split at h1
    · assumption
    · omega
  · split at h2
    · assumption
    · omega

/-- The two ends of a session use the same two channels. -/
theorem Inv.ends_same {st : St P} (inv : Inv G st) {x t r x' t' r'} (h : Ends G st x t r) (h' : Ends G st x' t' r')
    (hs : x.ep.sid = x'.ep.sid) :
    (x.ep.side = x'.ep.side → t = t' ∧ r = r') ∧ (x.ep.side ≠ x'.ep.side → t = r' ∧ r = t') := by
  obtain ⟨a1, a1', a2, a2', a3, a3', a4, a5, a6, a7, a8, -⟩ := (inv.occ x h.1).ty.fin h.2
  obtain ⟨b1, b1', b2, b2', b3, b3', b4, b5, b6, b7, b8, -⟩ := (inv.occ x' h'.1).ty.fin h'.2
  have p1 := (inv.occ x h.1).pos
  have p2 := (inv.occ x' h'.1).pos
  simp only [Pos, h.2, idxOf] at p1
  simp only [Pos, h'.2, idxOf] at p2
  have hu := inv.uniq t t' a1 b1 (by rw [a2, b2, hs]) (by rw [p1, p2, hs])
  constructor
  · intro hd
    rcases hu with hu | ⟨-, hu⟩
    · subst hu; exact ⟨rfl, by rw [← a7, ← b7]⟩
    · rw [a7] at hu; subst hu
      rw [a3'] at b3; rw [hd] at b3; simp at b3
  · intro hd
    rcases hu with hu | ⟨-, hu⟩
    · subst hu; rw [a3] at b3; exact absurd b3 hd
    · rw [a7] at hu; subst hu
      exact ⟨by rw [← a8, b7], rfl⟩

/-- Ends of different sessions use different channels. -/
theorem Inv.ends_diff {st : St P} (inv : Inv G st) {x t r x' t' r'} (h : Ends G st x t r) (h' : Ends G st x' t' r')
    (hs : x.ep.sid ≠ x'.ep.sid) : t ≠ t' ∧ t ≠ r' ∧ r ≠ t' ∧ r ≠ r' := by
  obtain ⟨a1, a1', a2, a2', -⟩ := (inv.occ x h.1).ty.fin h.2
  obtain ⟨b1, b1', b2, b2', -⟩ := (inv.occ x' h'.1).ty.fin h'.2
  refine ⟨?_, ?_, ?_, ?_⟩ <;> rintro rfl <;> exact hs (by simp_all)

theorem Inv.ends_ne {st : St P} (inv : Inv G st) {x t r} (h : Ends G st x t r) : t ≠ r := by
  obtain ⟨a1, a1', a2, a2', a3, a3', -⟩ := (inv.occ x h.1).ty.fin h.2
  rintro rfl
  rw [a3] at a3'; simp at a3'

/-- State with the signal in slot `t` changed. -/
def putSig (st : St P) (t : Nat) (b : Option Msg) : St P :=
  { st with chan := upd st.chan t { st.chan t with buf := b } }

theorem sigSend_eq (G : Env P) {st : St P} {e : Entry P} (he : e ∈ st.pool) (hty : e.ty = .fin) {t r}
    (hn : e.ep.node = .fin t r) : step G st (.sigSend e .stop) =
      if (st.chan t).rx then if (st.chan t).buf.isSome then some (st, .block)
        else some (putSig st t (some (.sig .stop)), .unit)
      else some (st, .err) := by
  simp only [step, sigSendStep, hty, hn, he, if_true]
  rfl

theorem sigRecv_eq (G : Env P) {st : St P} {e : Entry P} (he : e ∈ st.pool) (hty : e.ty = .fin) {t r}
    (hn : e.ep.node = .fin t r) (hb : (st.chan r).buf = none ∨ (st.chan r).buf = some (.sig .stop)) :
    step G st (.sigRecv e) =
      if (st.chan r).buf = none then if (st.chan r).tx then some (st, .block) else some (st, .err)
      else some (putSig st r none, .signal .stop) := by
  simp only [step, sigRecvStep, hty, hn, he, if_true]
  rcases hb with hb | hb <;> simp [hb, putSig]

theorem putSig_ends {st : St P} {t : Nat} {b : Option Msg} (hk : (st.chan t).kind = .sig)
    (hb : b = none ∨ b = some (.sig .stop)) {x t' r'} (hx : Ends G (putSig st t b) x t' r') : Ends G st x t' r' := by
  obtain ⟨hocc, hn⟩ := hx
  refine ⟨?_, hn⟩
  rcases hocc with h | ⟨c, h1, h2⟩
  · exact .inl h
  · refine .inr ⟨c, h1, ?_⟩
    simp only [putSig, upd] at h2
    by_cases hc : c = t
    · subst hc
      rcases hb with rfl | rfl <;> simp [bufEntries, hk, msgEntries] at h2
    · simpa [hc] using h2

end Verif.Heap
