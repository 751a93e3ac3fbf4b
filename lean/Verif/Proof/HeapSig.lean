import Verif.Proof.HeapQuiet
/-!
# Signals and `recv` preserve the invariant
-/
namespace Verif.Heap
open Verif.Types Verif.Spec

variable {P : Type} [DecidableEq P] {G : Env P}

theorem sig_entries {ch : Chan P} (hk : ch.kind = .sig) : bufEntries G ch = bufPrin G ch := by
  unfold bufEntries bufPrin
  cases ch.buf with
  | none => rfl
  | some m =>
    rw [hk]
    cases m with
    | data v k => rfl
    | sig s => cases s <;> rfl

/-- Changing the slot of a signal channel, with the endpoints moving accordingly between pool, slot and
pending drops. -/
theorem inv_sig {st : St P} (h : Inv G st) {c : Nat} (hc : c < st.next) (hk : (st.chan c).kind = .sig)
    {m : Option Msg} {p : List (Entry P)} {g : List Tok}
    (hm : ∀ x, m = some x → (st.chan c).rx = true ∧ ∃ s, x = .sig s)
    (hcnt : ∀ t, (poolToks p).count t + (bufToks { st.chan c with buf := m }).count t + g.count t =
      (poolToks st.pool).count t + (bufToks (st.chan c)).count t + st.garb.count t)
    (hocc : ∀ e, e ∈ p ∨ e ∈ bufEntries G { st.chan c with buf := m } →
      e ∈ st.pool ∨ e ∈ bufEntries G (st.chan c)) :
    Inv G { st with chan := upd st.chan c { st.chan c with buf := m }, pool := p, garb := g } := by
  obtain ⟨Q, q1, q2, q3⟩ := h.spec
  have hcc : ∀ t, cnt { st with chan := upd st.chan c { st.chan c with buf := m }, pool := p, garb := g } t
      = cnt st t := by
    intro t
    have h2 := sum_upd_buf st c hc { st.chan c with buf := m } t
    have := hcnt t
    unfold cnt; dsimp only at *
    omega
  have ho : ∀ e, Occ G { st with chan := upd st.chan c { st.chan c with buf := m }, pool := p, garb := g } e →
      Occ G st e := by
    intro e he
    rcases he with he | ⟨c', hc', he⟩
    · rcases hocc e (Or.inl he) with x | x
      · exact Or.inl x
      · exact Or.inr ⟨c, hc, x⟩
    · by_cases e' : c' = c
      · subst e'
        simp [upd] at he
        rcases hocc e (Or.inr he) with x | x
        · exact Or.inl x
        · exact Or.inr ⟨c', hc, x⟩
      · simp [upd, e'] at he
        exact Or.inr ⟨c', hc', he⟩
  have hpr : ∀ e, Prin G { st with chan := upd st.chan c { st.chan c with buf := m }, pool := p, garb := g } e →
      Prin G st e := by
    rw [sig_entries hk] at hocc
    rw [sig_entries (ch := { st.chan c with buf := m }) hk] at hocc
    intro e he
    rcases he with he | ⟨c', hc', he⟩
    · rcases hocc e (Or.inl he) with x | x
      · exact Or.inl x
      · exact Or.inr ⟨c, hc, x⟩
    · by_cases e' : c' = c
      · subst e'
        simp [upd] at he
        rcases hocc e (Or.inr he) with x | x
        · exact Or.inl x
        · exact Or.inr ⟨c', hc, x⟩
      · simp [upd, e'] at he
        exact Or.inr ⟨c', hc', he⟩
  refine h.quiet rfl rfl rfl (fun _ => rfl) ?_ (fun c' => ?_) (fun c' => ?_) (fun s' b' => ?_)
      ?_ ho ?_ ?_ ⟨Q, q1, fun e he => q2 e (hpr e he), q3⟩
  · intro c'
    by_cases e : c' = c
    · subst e; simp [upd, stat]
    · simp [upd, e]
  · rw [hcc, h.ctx]
    by_cases e : c' = c
    · subst e; simp [upd]
    · simp [upd, e]
  · rw [hcc, h.crx]
    by_cases e : c' = c
    · subst e; simp [upd]
    · simp [upd, e]
  · rw [hcc]; exact Nat.le_refl _
  · intro c' hc'
    have : c' ≠ c := by omega
    simp [upd, this]
  · intro c' x hx
    by_cases e : c' = c
    · subst e
      simp [upd] at hx ⊢
      obtain ⟨a, s, b⟩ := hm x hx
      exact ⟨a, Or.inr ⟨⟨s, b⟩, hk⟩⟩
    · simp [upd, e] at hx ⊢; exact ⟨(h.bufs _ x hx).1, Or.inl hx⟩
  · intro c' hk' hr
    by_cases e : c' = c
    · subst e; exact absurd hk hk'
    · simp [upd, e] at hr ⊢; exact hr

theorem fin_facts {st : St P} (h : Inv G st) {e : Entry P} (he : e ∈ st.pool) {t r : Nat}
    (hn : e.ep.node = .fin t r) : t < st.next ∧ r < st.next ∧ (st.chan t).kind = .sig ∧ (st.chan r).kind = .sig := by
  have := (h.occ e (Or.inl he)).ty
  unfold EPTy at this
  rw [hn] at this
  exact ⟨this.1, this.2.1, this.2.2.2.2.2.2.1, this.2.2.2.2.2.2.2.1⟩

theorem inv_sigSend {st st' : St P} {o : Out} (h : Inv G st) {e : Entry P} {s : Sig}
    (hs : sigSendStep st e s = some (st', o)) : Inv G st' := by
  unfold sigSendStep at hs
  split at hs
  · rename_i t r hty hn
    split at hs
    · rename_i hmem
      obtain ⟨ht, hr, hkt, hkr⟩ := fin_facts h hmem hn
      have plain : ∀ s : Sig, (∀ f, s ≠ .offer f) → (st.chan t).rx = true → (st.chan t).buf.isSome = false →
          Inv G { st with chan := upd st.chan t { st.chan t with buf := some (.sig s) } } := by
        intro s hs hrx hb
        have hb' : (st.chan t).buf = none := by simpa using hb
        have h0 : bufToks { st.chan t with buf := some (.sig s) } = [] := by
          cases s with
          | offer f => exact absurd rfl (hs f)
          | stop => rfl
          | cancel => rfl
        have h1 : bufEntries G { st.chan t with buf := some (.sig s) } = [] := by
          cases s with
          | offer f => exact absurd rfl (hs f)
          | stop => simp [bufEntries, msgEntries]
          | cancel => simp [bufEntries, msgEntries]
        have h2 : bufToks (st.chan t) = [] := by simp [bufToks, hb']
        refine inv_sig (m := some (.sig s)) (p := st.pool) (g := st.garb) h ht hkt ?_ ?_ ?_
        · intro x hx; cases hx; exact ⟨hrx, _, rfl⟩
        · intro tok; rw [h0, h2]
        · intro e' he'; rw [h1] at he'; simp at he'; exact Or.inl he'
      have plain2 : ∀ s : Sig, (∀ f, s ≠ .offer f) →
          (if (st.chan t).rx = true then
            if (st.chan t).buf.isSome = true then some (st, Out.block)
            else some ({ st with chan := upd st.chan t { st.chan t with buf := some (.sig s) } }, .unit)
          else some (st, .err)) = some (st', o) → Inv G st' := by
        clear hs
        intro s hne hh
        split at hh
        · rename_i hrx
          split at hh
          · cases hh; exact h
          · rename_i hb
            cases hh
            exact plain s hne hrx (by simpa using hb)
        · cases hh; exact h
      dsimp only at hs
      cases s with
      | stop => exact plain2 .stop (by intro f; simp) hs
      | cancel => exact plain2 .cancel (by intro f; simp) hs
      | offer f =>
        simp only at hs
        split at hs
        · cases hs
        · rename_i rest htake
          have hp := takeAll_perm _ _ _ htake
          simp only [List.cons_append, List.nil_append] at hp
          split at hs
          · rename_i hrx
            split at hs
            · cases hs; exact h
            · rename_i hb
              cases hs
              have hb' : (st.chan t).buf = none := by simpa using hb
              refine inv_sig (m := some (.sig (.offer f))) (p := e :: rest) (g := st.garb) h ht hkt ?_ ?_ ?_
              · intro x hx; cases hx; exact ⟨hrx, _, rfl⟩
              · intro tok
                rw [poolToks_perm hp]
                have h2 : bufToks (st.chan t) = [] := by simp [bufToks, hb']
                have h3 : bufToks { st.chan t with buf := some (.sig (.offer f)) } = f.toks := rfl
                rw [h2, h3]
                simp only [poolToks_cons, List.count_append, List.count_nil]
                omega
              · intro e' he'
                left
                apply hp.mem_iff.2
                rcases he' with he' | he'
                · simp only [List.mem_cons] at he' ⊢
                  rcases he' with he' | he'
                  · exact Or.inl he'
                  · exact Or.inr (Or.inr he')
                · simp only [bufEntries, hkt, msgEntries, List.mem_singleton] at he'
                  simp [he']
          · cases hs
            have hp2 : st.pool.Perm (⟨f, .fin⟩ :: e :: rest) := hp.trans (List.Perm.swap _ _ _)
            have hi := h.perm hp2
            have ht2 : takeAll (⟨f, .fin⟩ :: e :: rest) [(⟨f, .fin⟩ : Entry P)] = some (e :: rest) := by
              simp [takeAll]
            exact inv_drop (st := { st with pool := ⟨f, .fin⟩ :: e :: rest }) hi ht2
    · cases hs
  · cases hs

theorem inv_sigRecv {st st' : St P} {o : Out} (h : Inv G st) {e : Entry P}
    (hs : sigRecvStep st e = some (st', o)) : Inv G st' := by
  unfold sigRecvStep at hs
  split at hs
  · rename_i t r hty hn
    split at hs
    · rename_i hmem
      obtain ⟨ht, hr, hkt, hkr⟩ := fin_facts h hmem hn
      simp only at hs
      split at hs
      · rename_i s hb
        cases hs
        refine inv_sig (m := none) (p := _) (g := st.garb) h hr hkr ?_ ?_ ?_
        · intro x hx; cases hx
        · intro tok
          have h2 : bufToks { st.chan r with buf := none } = [] := rfl
          have h3 : bufToks (st.chan r) = (Msg.sig s).toks := by simp [bufToks, hb]
          rw [h2, h3]
          cases s with
          | offer f =>
            simp only [List.cons_append, List.nil_append, poolToks_cons, List.count_append, Msg.toks, List.count_nil]
            omega
          | stop => simp [Msg.toks]
          | cancel => simp [Msg.toks]
        · intro e' he'
          have h2 : bufEntries G { st.chan r with buf := none } = [] := rfl
          rw [h2] at he'
          have h3 : bufEntries G (st.chan r) = msgEntries G .sig (.sig s) := by simp [bufEntries, hb, hkr]
          rw [h3]
          cases s with
          | offer f =>
            simp only [List.cons_append, List.nil_append, List.mem_cons, List.not_mem_nil, or_false] at he'
            simp only [msgEntries, List.mem_singleton]
            rcases he' with he' | he'
            · exact Or.inr he'
            · exact Or.inl he'
          | stop => simp at he'; exact Or.inl he'
          | cancel => simp at he'; exact Or.inl he'
      · cases hs; exact h
      · split at hs
        · cases hs; exact h
        · cases hs; exact h
    · cases hs
  · cases hs

theorem rcv_facts {st : St P} (h : Inv G st) {e : Entry P} (he : e ∈ st.pool) {c : Nat}
    (hn : e.ep.node = .rcv c) : c < st.next ∧ (st.chan c).rx = true ∧ (st.chan c).sid = e.ep.sid ∧
      (st.chan c).dir = (!e.ep.side) ∧
      ∃ w t s, (st.chan c).kind = .data w t s ∧ e.ty = .recv w t s := by
  have := (h.occ e (Or.inl he)).ty
  unfold EPTy at this
  rw [hn] at this
  refine ⟨this.1, ?_, this.2.1, this.2.2.1, this.2.2.2⟩
  have h1 := Occ.count (G := G) (Or.inl he : Occ G st e) (t := .rx c) (by simp [EP.halves, hn])
  rw [h.crx] at h1
  cases hx : (st.chan c).rx
  · rw [hx] at h1; simp at h1
  · rfl

theorem inv_recv {st st' : St P} {o : Out} (h : Inv G st) {e : Entry P}
    (hs : recvStep G st e = some (st', o)) : Inv G st' := by
  unfold recvStep at hs
  split at hs
  · rename_i w t k c hty hn
    split at hs
    · cases hs
    · rename_i rest htake
      have hp := takeAll_perm _ _ _ htake
      have hmem : e ∈ st.pool := hp.mem_iff.2 (by simp)
      simp only [List.cons_append, List.nil_append] at hp
      have h0 := h
      obtain ⟨hcn, hrx, hsid, hdir, w', t', s', hkind, hty'⟩ := rcv_facts h hmem hn
      rw [hty] at hty'
      cases hty'
      simp only at hs
      split at hs
      · rename_i v there hb
        split at hs
        · cases hs; exact h
        · rename_i tys htys
          split at hs
          · rename_i hlen
            cases hs
            -- success
            have hm := (h.bufs c _ hb).2
            simp only [MsgOk] at hm
            obtain ⟨w2, t2, s2, tys2, hk2, hg2, hl2, hh2, hks, hkside, hkidx⟩ := hm
            rw [hkind] at hk2; cases hk2
            rw [htys] at hg2; cases hg2
            have hperm := h.perm hp
            have hoth : ∀ e', (e' ∈ rest ∨ ∃ c', c' < st.next ∧ e' ∈ bufPrin G (st.chan c')) →
                ¬ (e'.ep.sid = e.ep.sid ∧ e'.ep.side = e.ep.side) :=
              fun e' he' => hperm.others rfl he'
            have hbe : bufEntries G (st.chan c) = entries v.eps tys ++ [⟨there, k⟩] := by
              simp [bufEntries, hb, hkind, msgEntries, htys]
            have hbp : bufPrin G (st.chan c) = entries v.eps tys := by
              simp [bufPrin, hb, hkind, msgPrin, htys]
            have htt : there.toks = .idn e.ep.sid e.ep.side :: there.halves := by
              rw [EP.toks, hks, hkside, hsid, hdir, Bool.not_not]
            have hbt : bufToks (st.chan c) = v.toks ++ there.halves := by simp [bufToks, hb, Msg.toks]
            have ho0 : ∀ e', Occ G { st with
                chan := upd st.chan c { st.chan c with buf := none, rx := false }
                pool := entries v.eps tys ++ ⟨there, k⟩ :: rest
                trace := st.trace ++ [.rcvd e.ep.sid e.ep.side t v] } e' →
                (e' ∈ rest ∨ ∃ c', c' < st.next ∧ c' ≠ c ∧ e' ∈ bufEntries G (st.chan c')) ∨
                  e' ∈ bufEntries G (st.chan c) := by
              intro e' he'
              rcases he' with he' | ⟨c', hc', he'⟩
              · simp only [List.mem_append, List.mem_cons] at he'
                rw [hbe]
                rcases he' with he' | he' | he'
                · exact Or.inr (by simp [he'])
                · exact Or.inr (by simp [he'])
                · exact Or.inl (Or.inl he')
              · by_cases e2 : c' = c
                · subst e2; simp [upd, bufEntries] at he'
                · simp [upd, e2] at he'; exact Or.inl (Or.inr ⟨c', hc', e2, he'⟩)
            have ho : ∀ e', Occ G { st with
                chan := upd st.chan c { st.chan c with buf := none, rx := false }
                pool := entries v.eps tys ++ ⟨there, k⟩ :: rest
                trace := st.trace ++ [.rcvd e.ep.sid e.ep.side t v] } e' → Occ G st e' := by
              intro e' he'
              rcases ho0 e' he' with (x | ⟨c', hc', -, x⟩) | x
              · exact Or.inl (hp.mem_iff.2 (by simp [x]))
              · exact Or.inr ⟨c', hc', x⟩
              · exact Or.inr ⟨c, hcn, x⟩
            have hpr : ∀ e', Prin G { st with
                chan := upd st.chan c { st.chan c with buf := none, rx := false }
                pool := entries v.eps tys ++ ⟨there, k⟩ :: rest
                trace := st.trace ++ [.rcvd e.ep.sid e.ep.side t v] } e' →
                e' = ⟨there, k⟩ ∨ e' ∈ rest ∨ ∃ c', c' < st.next ∧ e' ∈ bufPrin G (st.chan c') := by
              intro e' he'
              rcases he' with he' | ⟨c', hc', he'⟩
              · simp only [List.mem_append, List.mem_cons] at he'
                rcases he' with he' | he' | he'
                · exact Or.inr (Or.inr ⟨c, hcn, by rw [hbp]; exact he'⟩)
                · exact Or.inl he'
                · exact Or.inr (Or.inl he')
              · by_cases e2 : c' = c
                · subst e2; simp [upd, bufPrin] at he'
                · simp [upd, e2] at he'; exact Or.inr (Or.inr ⟨c', hc', he'⟩)
            have hcc : ∀ tok, cnt { st with
                chan := upd st.chan c { st.chan c with buf := none, rx := false }
                pool := entries v.eps tys ++ ⟨there, k⟩ :: rest
                trace := st.trace ++ [.rcvd e.ep.sid e.ep.side t v] } tok + e.ep.halves.count tok = cnt st tok := by
              intro tok
              have h2 := sum_upd_buf st c hcn { st.chan c with buf := none, rx := false } tok
              have h3 : (bufToks { st.chan c with buf := none, rx := false }).count tok = 0 := by simp [bufToks]
              unfold cnt
              rw [poolToks_perm hp]
              simp only [poolToks_append, poolToks_cons, List.count_append]
              rw [poolToks_entries _ _ hlen, htt, EP.toks]
              rw [hbt] at h2
              simp only [List.count_append, Val.toks] at h2
              simp only [List.count_cons]
              dsimp only at h2 h3
              omega
            obtain ⟨Q, q1, q2, q3⟩ := h.spec
            have hQ := q2 e (Or.inl hmem)
            have hidx : idxOf st e.ep = (st.chan c).idx := by simp [idxOf, hn]
            rw [hidx] at hQ
            have hlt : (st.chan c).idx < (hist st.trace e.ep.sid).length := by
              rw [hsid] at hh2
              refine Nat.lt_of_not_le fun hle => ?_
              rw [List.getElem?_eq_none hle] at hh2; cases hh2
            have hdrop : (hist st.trace e.ep.sid).drop (st.chan c).idx =
                (t, v) :: (hist st.trace e.ep.sid).drop ((st.chan c).idx + 1) := by
              rw [List.drop_eq_getElem_cons hlt]
              congr 1
              rw [hsid, List.getElem?_eq_getElem hlt] at hh2
              exact Option.some.inj hh2
            refine h.quiet rfl rfl rfl ?_ ?_ (fun c' => ?_) (fun c' => ?_) (fun s' b' => ?_) ?_ ho ?_ ?_ ?_
            · intro s; rw [hist_append]; simp
            · intro c'
              by_cases e2 : c' = c
              · subst e2; simp [upd, stat]
              · simp [upd, e2]
            · have := hcc (.tx c')
              have h5 : e.ep.halves.count (.tx c') = 0 := by simp [EP.halves, hn, List.count_cons]
              rw [h5, Nat.add_zero] at this
              rw [this, h.ctx]
              by_cases e2 : c' = c
              · subst e2; simp [upd]
              · simp [upd, e2]
            · have := hcc (.rx c')
              rw [h.crx] at this
              by_cases e2 : c' = c
              · subst e2
                have h5 : e.ep.halves.count (.rx c') = 1 := by simp [EP.halves, hn, List.count_cons]
                rw [h5, hrx] at this
                simp only [upd, if_true]
                simp only [if_true] at this
                simp only [Bool.false_eq_true, if_false]
                omega
              · have h5 : e.ep.halves.count (.rx c') = 0 := by
                  simp [EP.halves, hn, List.count_cons]; exact fun x => e2 x.symm
                rw [h5] at this
                simp only [upd, e2, if_false]; exact this
            · have := hcc (.idn s' b'); exact Nat.le.intro this
            · intro c' hc'
              have : c' ≠ c := by omega
              simp [upd, this]
            · intro c' m hm
              by_cases e2 : c' = c
              · subst e2; simp [upd] at hm
              · simp [upd, e2] at hm ⊢; exact ⟨(h.bufs _ m hm).1, Or.inl hm⟩
            · intro c' _ hr
              by_cases e2 : c' = c
              · subst e2; simp [upd] at hr
              · simp [upd, e2] at hr ⊢; exact hr
            · refine ⟨setQ Q e.ep.sid e.ep.side ((hist st.trace e.ep.sid).drop ((st.chan c).idx + 1)), ?_, ?_, ?_⟩
              · rw [fifoRun_append, q1, Option.bind_some]
                simp only [fifoStep]
                rw [hQ, hdrop]
                simp
              · intro e' he'
                unfold setQ
                rcases hpr e' he' with x | x
                · subst x
                  simp only
                  rw [if_pos ⟨hks.trans hsid, by rw [hkside, hdir, Bool.not_not]⟩, hkidx, hks, hsid]
                · have e3 := hoth e' x
                  rw [if_neg e3]
                  refine q2 e' ?_
                  rcases x with x | x
                  · exact Or.inl (hp.mem_iff.2 (by simp [x]))
                  · exact Or.inr x
              · intro s b hs
                unfold setQ
                have := (h.occ e (Or.inl hmem)).sid
                rw [if_neg (fun hh => by have := hh.1; omega)]; exact q3 s b hs
          · cases hs; exact h
      · cases hs; exact h
      · split at hs
        · cases hs; exact h
        · cases hs; exact inv_drop h htake
  · cases hs

end Verif.Heap
