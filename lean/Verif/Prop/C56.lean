import Verif.Prop.C55
import Verif.Proof.TransportCall
import Verif.Prop.C11
import Verif.Model.TransportChoice
/-!
# C56: failures, closing and waiting over TCP and UDP
-/
namespace Verif.Prop
open Verif.Types Verif.Spec Verif.Transport
open Verif.Heap (Val Entry EP Env Sig Reach Ev Out Op Tok cnt takeAll)

variable {P : Type} [DecidableEq P] {G : Env P}

/-- What goes out of scope leaves the hands of the clients and is dropped; the channels stay as they are for now. -/
theorem dropAll_out {es : List (Entry P)} : ∀ {h h' : Heap.St P}, dropAll G h es = some h' →
    h.pool.Perm (es ++ h'.pool) ∧ h'.chan = h.chan ∧ h'.next = h.next ∧ (∀ k ∈ h.garb, k ∈ h'.garb) ∧
    ∀ e ∈ es, ∀ k ∈ e.ep.toks, k ∈ h'.garb := by
  induction es with
  | nil => intro h h' hd; cases hd; exact ⟨.refl _, rfl, rfl, fun _ hk => hk, fun _ he => absurd he List.not_mem_nil⟩
  | cons e es ih =>
    intro h h' hd
    unfold dropAll at hd
    split at hd
    · rename_i h1 o hs
      simp only [Heap.step] at hs
      split at hs
      · cases hs
      · rename_i rest ht
        cases hs
        obtain ⟨i1, i2, i3, i4, i5⟩ := ih hd
        refine ⟨((Heap.takeAll_perm _ _ _ ht).trans (List.Perm.cons _ i1)), i2, i3, fun k hk => i4 k (List.mem_append_right _ hk),
          fun f hf k hk => ?_⟩
        rcases List.mem_cons.mp hf with rfl | hf
        · exact i4 k (List.mem_append_left _ hk)
        · exact i5 f hf k hk
    · cases hd

theorem dropAll_gone {es : List (Entry P)} {h h' : Heap.St P} (hr : Reach G h) (hd : dropAll G h es = some h') :
    ∀ e ∈ es, e ∉ h'.pool := by
  intro e he hm
  have hp := (dropAll_out hd).1
  have hn := (hp.nodup_iff).mp (reach_distinct hr).nodup
  exact (List.nodup_append.mp hn).2.2 e he e hm rfl

/-! ## Sending -/

theorem send_node {h h1 : Heap.St P} {e : Entry P} {v : Val} {o : Out} (hs : Heap.step G h (.send e v) = some (h1, o)) :
    ∃ c, e.ep.node = .snd c := by
  simp only [Heap.step, Heap.sendStep] at hs
  repeat' split at hs
  all_goals first | (cases hs; done) | exact ⟨_, by assumption⟩

/-- **C56**, a partner that is gone: `send_tcp` panics if and only if the receiving end of its channel does not exist any more,
and then no byte is written; otherwise the value is on its way before the socket is touched. -/
theorem C56_send {run : List (Act P × Ret P)} {st st' : St P} (h : Run G run st) {t : Nat} {e : Entry P} {x : Val}
    {data : List UInt8} {c : Nat} {tcp : Bool} {r : Ret P} (hs : step G st (.sendTcp t e x data c tcp) = some (st', r)) :
    (∀ d, (st'.tcp d).sent = (st.tcp d).sent) ∧
    (∃ ty, st'.heap.trace = st.heap.trace ++ [.sent e.ep.sid e.ep.side ty (pair x data)]) ∧
    ∃ ch, e.ep.node = .snd ch ∧
      (cnt st.heap (.rx ch) = 0 → r = .panic ∧ st'.thr = st.thr) ∧
      (0 < cnt st.heap (.rx ch) → if tcp then r = .waits else ∃ here, r = .okSend here) := by
  have hr := run_reach h
  have ht : ∀ (s : St P) (d : Nat), ((takeTcp s c).tcp d).sent = (s.tcp d).sent := by
    intro s d
    by_cases e : d = c
    · subst e; simp [takeTcp, setTcp, upd_same]
    · simp [takeTcp, setTcp, upd_ne e]
  simp only [step, sendTcp] at hs
  split at hs
  · cases hc : chanSend G st.heap e x data with
    | none => rw [hc] at hs; cases hs
    | some q =>
      rw [hc] at hs
      unfold chanSend at hc
      split at hc
      · rename_i h1 hst
        have htr := trace_step hr hst
        simp only at htr
        obtain ⟨ch, hch⟩ := send_node hst
        have hcnt := (Heap.reach_inv hr).crx ch
        have hg : gone st.heap e = !(st.heap.chan ch).rx := by simp [gone, hch]
        split at hc
        · rename_i here rest hp
          split at hc
          · rename_i hgone
            rw [hg] at hgone
            simp only [Bool.not_eq_true'] at hgone
            obtain ⟨h2, hd, rfl⟩ := map_some' hc
            cases hs
            obtain ⟨ty, hty⟩ := htr
            refine ⟨fun d => ht _ d, ⟨ty, (dropAll_trace hd).trans hty⟩, ch, hch, fun _ => ⟨rfl, rfl⟩, fun hpos => ?_⟩
            rw [hcnt, hgone] at hpos
            simp at hpos
          · rename_i hgone
            rw [hg] at hgone
            simp only [Bool.not_eq_true', Bool.not_eq_false] at hgone
            cases hc
            simp only at hs
            split at hs
            · rename_i htcp
              cases hs
              refine ⟨fun d => ht _ d, htr, ch, hch, fun h0 => ?_, fun _ => ?_⟩
              · rw [hcnt, hgone] at h0; simp at h0
              · rw [if_pos htcp]
            · rename_i htcp
              cases hs
              refine ⟨fun d => rfl, htr, ch, hch, fun h0 => ?_, fun _ => ?_⟩
              · rw [hcnt, hgone] at h0; simp at h0
              · rw [if_neg htcp]; exact ⟨_, rfl⟩
        · cases hc
      · cases hc
  · cases hs

/-- **C56**, a failed write: `send_tcp` returns `Err` although the value is on its way: what the partner will receive is
the same as before; the continuation is dropped. -/
theorem C56_failed_write {run : List (Act P × Ret P)} {st st' : St P} (h : Run G run st) {t : Nat} {r : Ret P}
    (hs : step G st (.writeErr t) = some (st', r)) :
    r = .err ∧ st'.heap.trace = st.heap.trace ∧ st'.thr t = .idle ∧
    ∃ c rest here, st.thr t = .writing c rest here ∧ here ∉ st'.heap.pool ∧ (∀ k ∈ here.ep.toks, k ∈ st'.heap.garb) ∧
      ∀ d, (st'.tcp d) = (st.tcp d) := by
  simp only [step, writeErr] at hs
  split at hs
  · rename_i c rest here hthr
    obtain ⟨h1, hd, he⟩ := map_some' hs
    cases he
    exact ⟨rfl, dropAll_trace hd, by simp [leave, upd_same], c, rest, here, hthr,
      dropAll_gone (run_reach h) hd _ (List.mem_cons_self ..), (dropAll_out hd).2.2.2.2 _ (List.mem_cons_self ..), fun _ => rfl⟩
  · cases hs

/-! ## Receiving -/

/-- **C56**, no message: `recv_tcp` returns `Err` before the socket is touched if and only if all messages of the partner
have been received and its sending end does not exist any more. -/
theorem C56_recv {run : List (Act P × Ret P)} {st st' : St P} (h : Run G run st) {t : Nat} {e : Entry P} {c : Nat} {tcp : Bool} {r : Ret P}
    (hs : step G st (.recvTcp t e c tcp) = some (st', r)) :
    (∀ d, (st'.tcp d).taken = (st.tcp d).taken) ∧
    ∃ ch, e.ep.node = .rcv ch ∧
      (r = .err ↔ pending st.heap.trace e.ep.sid e.ep.side = [] ∧ cnt st.heap (.tx ch) = 0) := by
  have hr := run_reach h
  have ht : ∀ (s : St P) (d : Nat), ((takeTcp s c).tcp d).taken = (s.tcp d).taken := by
    intro s d
    by_cases e : d = c
    · subst e; simp [takeTcp, setTcp, upd_same]
    · simp [takeTcp, setTcp, upd_ne e]
  have key : ∀ {h1 : Heap.St P} {o : Out}, Heap.step G st.heap (.recv e) = some (h1, o) → ∃ ch, e.ep.node = .rcv ch ∧
      (∀ v, o = .value v → pending st.heap.trace e.ep.sid e.ep.side ≠ []) ∧
      (o = .err → pending st.heap.trace e.ep.sid e.ep.side = [] ∧ cnt st.heap (.tx ch) = 0) := by
    intro h1 o hst
    have hm : e ∈ st.heap.pool ∧ ∃ w ty k, e.ty = .recv w ty k := by
      simp only [Heap.step, Heap.recvStep] at hst
      split at hst
      · rename_i w ty k ch hty hn
        split at hst
        · cases hst
        · rename_i rest hta
          refine ⟨(Heap.takeAll_perm _ _ _ hta).mem_iff.mpr (by simp), w, ty, k, hty⟩
      · cases hst
    obtain ⟨hm, w, ty, k, hty⟩ := hm
    obtain ⟨ch, h2, o2, hn, hs2, hcase⟩ := C04_recv hr hm hty
    rw [hst] at hs2
    cases hs2
    refine ⟨ch, hn, fun v hv => ?_, fun he => ?_⟩
    · subst hv
      split at hcase
      · rename_i hp; rw [hp]; simp
      · split at hcase
        · exact absurd hcase.1 (by simp)
        · exact absurd hcase.1 (by simp)
    · subst he
      split at hcase
      · exact absurd hcase.2.1 (by simp)
      · rename_i hp
        split at hcase
        · exact absurd hcase.1 (by simp)
        · exact ⟨hp, by omega⟩
  simp only [step, recvTcp] at hs
  split at hs
  · cases hc : chanRecv G st.heap e with
    | none => rw [hc] at hs; cases hs
    | some q =>
      rw [hc] at hs
      unfold chanRecv at hc
      split at hc
      · rename_i h1 v hst
        cases hc
        obtain ⟨ch, hn, k1, k2⟩ := key hst
        simp only at hs
        split at hs
        · cases hs
          exact ⟨fun d => ht _ d, ch, hn, ⟨fun h0 => (nomatch h0), fun hp => absurd hp.1 (k1 v rfl)⟩⟩
        · cases hs
          exact ⟨fun d => rfl, ch, hn, ⟨fun h0 => (nomatch h0), fun hp => absurd hp.1 (k1 v rfl)⟩⟩
      · rename_i h1 hst
        cases hc
        obtain ⟨ch, hn, k1, k2⟩ := key hst
        cases hs
        exact ⟨fun d => ht _ d, ch, hn, ⟨fun _ => k2 rfl, fun _ => rfl⟩⟩
      · cases hc
  · cases hs

/-- **C56**, a failed read: `recv_tcp` returns `Err`; the value it had received is lost, and every endpoint in it, as well
as the continuation, is dropped. -/
theorem C56_failed_read {run : List (Act P × Ret P)} {st st' : St P} (h : Run G run st) {t : Nat} {r : Ret P}
    (hs : step G st (.readErr t) = some (st', r) ∨ step G st (.readEnd t) = some (st', r)) :
    r = .err ∧ st'.heap.trace = st.heap.trace ∧ st'.thr t = .idle ∧ (∀ d, st'.tcp d = st.tcp d) ∧
    ∃ c buf x es, st.thr t = .reading c buf x es ∧ (∀ e ∈ es, e ∉ st'.heap.pool) ∧ ∀ e ∈ es, ∀ k ∈ e.ep.toks, k ∈ st'.heap.garb := by
  have key : ∀ {st' : St P} {r : Ret P}, readErr G st t = some (st', r) →
      r = .err ∧ st'.heap.trace = st.heap.trace ∧ st'.thr t = .idle ∧ (∀ d, st'.tcp d = st.tcp d) ∧
      ∃ c buf x es, st.thr t = .reading c buf x es ∧ (∀ e ∈ es, e ∉ st'.heap.pool) ∧ ∀ e ∈ es, ∀ k ∈ e.ep.toks, k ∈ st'.heap.garb := by
    intro st' r hs
    simp only [readErr] at hs
    split at hs
    · rename_i c buf x es hthr
      obtain ⟨h1, hd, he⟩ := map_some' hs
      cases he
      exact ⟨rfl, dropAll_trace hd, by simp [leave, upd_same], fun _ => rfl, c, buf, x, es, hthr,
        dropAll_gone (run_reach h) hd, (dropAll_out hd).2.2.2.2⟩
    · cases hs
  rcases hs with hs | hs
  · exact key hs
  · simp only [step, readEnd] at hs
    split at hs
    · split at hs
      · exact key hs
      · cases hs
    · cases hs

/-! ## Waiting -/

/-- **C56**, no call is stuck: whenever a thread is inside a call over a socket, the call returns `Err` as soon as the
operating system reports an error (the endpoints it holds can be dropped); it takes any bytes that have arrived, and writes as long as the
connection is there. -/
theorem C56_progress {run : List (Act P × Ret P)} {st : St P} (h : Run G run st) (t : Nat) :
    (∀ c rest here, st.thr t = .writing c rest here → (∃ st', step G st (.writeErr t) = some (st', .err)) ∧
      ((st.tcp c).shut = false → (st.tcp c).broken = false → rest ≠ [] ∧ ∃ st', step G st (.write t rest.length) = some (st', .okSend here))) ∧
    (∀ c buf x es, st.thr t = .reading c buf x es → (∃ st', step G st (.readErr t) = some (st', .err)) ∧
      (128 ≤ (st.tcp c).arrived.length - (st.tcp c).taken + buf.length →
        ∃ st' data, step G st (.read t (128 - buf.length)) = some (st', .okRecv x es data)) ∧
      ((st.tcp c).taken = (st.tcp c).arrived.length → ((st.tcp c).ended || (st.tcp c).shut) = true →
        ∃ st', step G st (.readEnd t) = some (st', .err))) ∧
    (∀ u x es, st.thr t = .taking u x es → (∃ st', step G st (.takeErr t) = some (st', .err)) ∧
      ((st.udp u).taken < (st.udp u).arrived.length → ∃ st' data n, step G st (.take t) = some (st', .okRecvUdp x es data n))) := by
  have hr := run_reach h
  have own := run_own h
  have hdrop : ∃ h', dropAll G st.heap (st.thr t).held = some h' := dropAll_some hr (own.inPool t) (own.nodup t)
  refine ⟨fun c rest here ht => ⟨?_, fun hsh hbr => ?_⟩, fun c buf x es ht => ⟨?_, fun hlen => ?_, fun htk hend => ?_⟩, fun u x es ht => ⟨?_, fun hlen => ?_⟩⟩
  · rw [ht] at hdrop
    obtain ⟨h', hd⟩ := hdrop
    simp only [Call.held] at hd
    simp only [step, writeErr, ht, hd, Option.map_some]
    exact ⟨_, rfl⟩
  · have hne : rest ≠ [] := by have := run_callOk h t; rw [ht] at this; exact this
    refine ⟨hne, ?_⟩
    have hpos : 0 < rest.length := List.length_pos_iff.mpr hne
    simp only [step, write, ht]
    rw [if_pos ⟨hpos, Nat.le_refl _, hsh, hbr⟩, if_pos trivial]
    exact ⟨_, rfl⟩
  · rw [ht] at hdrop
    obtain ⟨h', hd⟩ := hdrop
    simp only [Call.held] at hd
    simp only [step, readErr, ht, hd, Option.map_some]
    exact ⟨_, rfl⟩
  · have hb : buf.length < 128 := by have := run_callOk h t; rw [ht] at this; exact this
    have hle := (run_recvInv h c).le c
    simp only [step, Transport.read, ht]
    have hsz : size = 128 := rfl
    rw [if_pos ⟨by omega, by omega, by omega⟩, if_pos (by
      rw [List.length_append, List.length_take, List.length_drop]; omega)]
    exact ⟨_, _, rfl⟩
  · rw [ht] at hdrop
    obtain ⟨h', hd⟩ := hdrop
    simp only [Call.held] at hd
    simp only [step, readEnd, readErr, ht, hd, Option.map_some]
    rw [if_pos ⟨htk, hend⟩]
    exact ⟨_, rfl⟩
  · rw [ht] at hdrop
    obtain ⟨h', hd⟩ := hdrop
    simp only [Call.held] at hd
    simp only [step, takeErr, ht, hd, Option.map_some]
    exact ⟨_, rfl⟩
  · simp only [step, Transport.take, ht]
    rw [List.getElem?_eq_getElem hlen]
    exact ⟨_, _, _, rfl⟩

/-! ## Closing -/

/-- **C56**, `close_tcp`, first half: it returns `Err` at once if and only if the partner's `End` does not exist any more;
the connection is then left open. -/
theorem C56_close {run : List (Act P × Ret P)} {st st' : St P} (h : Run G run st) {t : Nat} {e : Entry P} {c : Nat} {tcp : Bool} {r : Ret P}
    (hs : step G st (.closeTcp t e c tcp) = some (st', r)) :
    (r = .err ∨ r = .waits) ∧ (∀ d, (st'.tcp d).shut = (st.tcp d).shut) ∧
    ∃ ctx crx, e.ep.node = .fin ctx crx ∧ (r = .err ↔ cnt st.heap (.rx ctx) = 0) ∧ (r = .err → e ∉ st'.heap.pool) ∧
      (r = .waits → st'.thr t = .closing c tcp e) := by
  have hr := run_reach h
  have ht : ∀ (s : St P) (d : Nat), ((takeTcp s c).tcp d).shut = (s.tcp d).shut := by
    intro s d
    by_cases e : d = c
    · subst e; simp [takeTcp, setTcp, upd_same]
    · simp [takeTcp, setTcp, upd_ne e]
  have key : ∀ {h1 : Heap.St P} {o : Out}, Heap.step G st.heap (.sigSend e .stop) = some (h1, o) → ∃ ctx crx, e.ep.node = .fin ctx crx ∧
      (o = .err → cnt st.heap (.rx ctx) = 0) ∧ (o = .unit → cnt st.heap (.rx ctx) ≠ 0) := by
    intro h1 o hst
    simp only [Heap.step, Heap.sigSendStep] at hst
    split at hst
    · rename_i ctx crx hty hn
      have hc := (Heap.reach_inv hr).crx ctx
      refine ⟨ctx, crx, hn, fun ho => ?_, fun ho => ?_⟩
      all_goals subst ho; repeat' split at hst
      all_goals first | (cases hst; done) | skip
      · rename_i hrx; rw [hc, if_neg hrx]
      · rename_i hrx _; rw [hc, if_pos hrx]; exact Nat.one_ne_zero
    · cases hst
  simp only [step, closeTcp] at hs
  split at hs
  · split at hs
    · rename_i h1 hst
      obtain ⟨ctx, crx, hn, -, k2⟩ := key hst
      cases hs
      exact ⟨Or.inr rfl, fun d => ht _ d, ctx, crx, hn, ⟨fun h0 => (nomatch h0), fun h0 => absurd h0 (k2 rfl)⟩, fun h0 => (nomatch h0),
        fun _ => by simp [enter, upd_same]⟩
    · rename_i h1 hst
      obtain ⟨ctx, crx, hn, k1, -⟩ := key hst
      obtain ⟨h2, hd, he⟩ := map_some' hs
      cases he
      exact ⟨Or.inl rfl, fun d => ht _ d, ctx, crx, hn, ⟨fun _ => k1 rfl, fun _ => rfl⟩,
        fun _ => dropAll_gone (hr.step hst) hd _ (List.mem_cons_self ..), fun h0 => (nomatch h0)⟩
    · cases hs
  · cases hs

/-- The signals in the channel of an `End`. -/
theorem sigRecv_cases {h h1 : Heap.St P} {e : Entry P} {o : Out} (hs : Heap.step G h (.sigRecv e) = some (h1, o)) :
    ∃ ctx crx, e.ep.node = .fin ctx crx ∧ (∀ s, o = .signal s → (h.chan crx).buf = some (.sig s)) ∧
      (o = .err → (h.chan crx).buf = none ∧ (h.chan crx).tx = false) := by
  simp only [Heap.step, Heap.sigRecvStep] at hs
  split at hs
  · rename_i ctx crx hty hn
    refine ⟨ctx, crx, hn, fun s ho => ?_, fun ho => ?_⟩
    · subst ho
      split at hs
      · split at hs
        · rename_i hb; cases hs; exact hb
        · cases hs
        · split at hs <;> cases hs
      · cases hs
    · subst ho
      split at hs
      · split at hs
        · cases hs
        · cases hs
        · rename_i hb
          split at hs
          · cases hs
          · rename_i htx; exact ⟨hb, by simpa using htx⟩
      · cases hs
  · cases hs

/-- **C56**, `close_tcp`, second half: it returns `Ok` on any signal of the partner, and with the flag the connection is then
shut down (or is gone already); it returns `Err` if and only if there is no signal and the partner's `End` does not exist any more, and
then the connection is left open.  In both cases the `End` is dropped. -/
theorem C56_close_wait {run : List (Act P × Ret P)} {st st' : St P} (h : Run G run st) {t : Nat} {b : Bool} {r : Ret P}
    (hs : step G st (.closeWait t b) = some (st', r)) :
    ∃ c tcp e ctx crx, st.thr t = .closing c tcp e ∧ e.ep.node = .fin ctx crx ∧ e ∉ st'.heap.pool ∧ st'.thr t = .idle ∧
      ((r = .ok ∧ (∃ s, (st.heap.chan crx).buf = some (.sig s)) ∧
          (tcp = true → (st'.tcp c).shut = true ∨ (st'.tcp c).broken = true) ∧ (tcp = false → st'.tcp = st.tcp)) ∨
       (r = .err ∧ (st.heap.chan crx).buf = none ∧ cnt st.heap (.tx crx) = 0 ∧ st'.tcp = st.tcp)) := by
  have hr := run_reach h
  simp only [step, closeWait] at hs
  split at hs
  · rename_i c tcp e hthr
    split at hs
    · rename_i h1 s hst
      obtain ⟨ctx, crx, hn, k1, -⟩ := sigRecv_cases hst
      split at hs
      · cases hs
      · rename_i h2 hd
        have hgone := dropAll_gone (hr.step hst) hd e (by simp)
        split at hs
        · rename_i htcp
          obtain ⟨s', hsd, he⟩ := map_some' hs
          cases he
          refine ⟨c, tcp, e, ctx, crx, hthr, hn, hgone, by simp [leave, setTcp, upd_same], Or.inl ⟨rfl, ⟨s, k1 s rfl⟩, fun _ => ?_, fun h0 => ?_⟩⟩
          · simp only [setTcp, upd_same]
            unfold shutdown at hsd
            split at hsd
            · cases hsd; exact Or.inl rfl
            · split at hsd <;> cases hsd
              rename_i hb
              simp only [Bool.or_eq_true, Bool.and_eq_true] at hb
              rcases hb with hb | hb
              · exact Or.inr hb
              · exact Or.inl hb.1
          · rw [h0] at htcp; cases htcp
        · rename_i htcp
          cases hs
          exact ⟨c, tcp, e, ctx, crx, hthr, hn, hgone, by simp [leave, upd_same],
            Or.inl ⟨rfl, ⟨s, k1 s rfl⟩, fun h0 => absurd h0 htcp, fun _ => rfl⟩⟩
    · rename_i h1 hst
      obtain ⟨ctx, crx, hn, -, k2⟩ := sigRecv_cases hst
      obtain ⟨h2, hd, he⟩ := map_some' hs
      cases he
      obtain ⟨b1, b2⟩ := k2 rfl
      refine ⟨c, tcp, e, ctx, crx, hthr, hn, dropAll_gone (hr.step hst) hd _ (List.mem_cons_self ..), by simp [leave, upd_same],
        Or.inr ⟨rfl, b1, ?_, rfl⟩⟩
      rw [(Heap.reach_inv hr).ctx crx, b2]
      rfl
    · cases hs
  · cases hs

/-- **C56**, `close_tcp` returns as soon as the partner has sent any signal or its `End` is gone. -/
theorem C56_close_returns {run : List (Act P × Ret P)} {st : St P} (h : Run G run st) {t c : Nat} {tcp : Bool} {e : Entry P}
    (ht : st.thr t = .closing c tcp e) :
    ∃ ctx crx, e.ep.node = .fin ctx crx ∧
      ((∃ s, (st.heap.chan crx).buf = some (.sig s)) → ∃ st', step G st (.closeWait t true) = some (st', .ok)) ∧
      ((st.heap.chan crx).buf = none → cnt st.heap (.tx crx) = 0 → ∃ st', step G st (.closeWait t true) = some (st', .err)) := by
  have hr := run_reach h
  have own := run_own h
  have hp : e ∈ st.heap.pool := own.inPool t e (by rw [ht]; exact List.mem_cons_self ..)
  have hok := run_callOk h t
  rw [ht] at hok
  obtain ⟨hty, ctx, crx, hn⟩ := hok
  have hsig : ∀ o h1, Heap.step G st.heap (.sigRecv e) = some (h1, o) → ∀ s, o = .signal s →
      ∃ h2, dropAll G h1 (ends s ++ [e]) = some h2 := by
    intro o h1 hst s ho
    subst ho
    have hr1 := hr.step hst
    have hpool := sigRecv_pool hst
    have hd := (reach_distinct hr1).nodup
    rw [hpool] at hd
    refine dropAll_some hr1 (fun f hf => ?_) ?_
    · rw [hpool]
      rcases List.mem_append.mp hf with hf | hf
      · exact List.mem_append_left _ hf
      · rw [List.mem_singleton.mp hf]; exact List.mem_append_right _ hp
    · obtain ⟨d1, d2, d3⟩ := List.nodup_append.mp hd
      refine List.nodup_append.mpr ⟨d1, by simp, fun a ha b hb => ?_⟩
      rw [List.mem_singleton.mp hb]
      exact d3 a ha e hp
  refine ⟨ctx, crx, hn, fun ⟨s, hb⟩ => ?_, fun hb hc => ?_⟩
  · obtain ⟨h1, hst⟩ : ∃ h1, Heap.step G st.heap (.sigRecv e) = some (h1, .signal s) := by
      simp only [Heap.step, Heap.sigRecvStep, hty, hn]
      rw [if_pos hp, hb]
      exact ⟨_, rfl⟩
    obtain ⟨h2, hd⟩ := hsig _ _ hst s rfl
    simp only [step, closeWait, ht, hst, hd, shutdown, if_true, Option.map_some]
    split <;> exact ⟨_, rfl⟩
  · have htx : (st.heap.chan crx).tx = false := by
      have := (Heap.reach_inv hr).ctx crx
      rw [hc] at this
      cases hx : (st.heap.chan crx).tx with
      | false => rfl
      | true => rw [hx] at this; cases this
    have hst : Heap.step G st.heap (.sigRecv e) = some (st.heap, .err) := by
      simp only [Heap.step, Heap.sigRecvStep, hty, hn]
      rw [if_pos hp, hb]
      simp [htx]
    obtain ⟨h2, hd⟩ : ∃ h2, dropAll G st.heap [e] = some h2 := dropAll_some hr (by simpa using hp) (by simp)
    simp only [step, closeWait, ht, hst, hd, Option.map_some]
    exact ⟨_, rfl⟩

/-- **C56**, `cancel_tcp`: the endpoint is dropped first; the call panics only if the connection has been reset, or if it has been shut
down already (through another clone) and the other end has finished.  Otherwise it returns and the connection is shut down. -/
theorem C56_cancel {run : List (Act P × Ret P)} {st st' : St P} (h : Run G run st) {t : Nat} {e : Entry P} {c : Nat} {b : Bool} {r : Ret P}
    (hs : step G st (.cancelTcp t e c b) = some (st', r)) :
    e ∉ st'.heap.pool ∧ (∀ k ∈ e.ep.toks, k ∈ st'.heap.garb) ∧
    ((r = .ok ∧ (st'.tcp c).shut = true) ∨
     (r = .panic ∧ ((st.tcp c).broken = true ∨ ((st.tcp c).shut = true ∧ (st.tcp c).ended = true)))) := by
  simp only [step, cancelTcp] at hs
  split at hs
  · split at hs
    · cases hs
    · rename_i h1 hd
      obtain ⟨s', hsd, he⟩ := map_some' hs
      cases he
      refine ⟨dropAll_gone (run_reach h) hd _ (List.mem_cons_self ..), (dropAll_out hd).2.2.2.2 _ (List.mem_cons_self ..), ?_⟩
      unfold shutdown at hsd
      split at hsd
      · rename_i hb
        cases hsd
        rw [if_pos hb]
        exact Or.inl ⟨rfl, by simp [takeTcp, setTcp, upd_same]⟩
      · rename_i hb
        rw [if_neg hb]
        split at hsd <;> cases hsd
        rename_i hc
        simp only [Bool.or_eq_true, Bool.and_eq_true] at hc
        exact Or.inr ⟨rfl, hc⟩
  · cases hs

omit [DecidableEq P] in
theorem sendUse_cases {c : Nat} {us : List Use} {a : Act P} {r : Ret P} {i : Nat} {u : Use} (h : (sendUse c us (a, r))[i]? = some u) :
    us[i]? = some u ∨ (∀ d, u.result ≠ some (some d)) ∨
    ∃ t n here v, a = .write t n ∧ r = .okSend here ∧ us[i]? = some v ∧ v.thread = t ∧ v.result = none := by
  unfold sendUse at h
  split at h
  · split at h
    · rcases Nat.lt_or_ge i us.length with hi | hi
      · rw [List.getElem?_append_left hi] at h; exact Or.inl h
      · rw [List.getElem?_append_right hi] at h
        refine Or.inr (Or.inl fun d hd => ?_)
        have := List.mem_of_getElem? h
        rw [List.mem_singleton] at this
        rw [this] at hd; cases hd
    · exact Or.inl h
  · rename_i t n here ha
    cases ha
    unfold returns at h
    rw [List.getElem?_map] at h
    obtain ⟨v, hv, he⟩ := Option.map_eq_some_iff.mp h
    split at he
    · rename_i hc
      exact Or.inr (Or.inr ⟨t, n, here, v, rfl, rfl, hv, hc.1, hc.2⟩)
    · subst he; exact Or.inl hv
  · unfold returns at h
    rw [List.getElem?_map] at h
    obtain ⟨v, hv, he⟩ := Option.map_eq_some_iff.mp h
    split at he
    · subst he
      exact Or.inr (Or.inl fun d hd => by cases hd)
    · subst he; exact Or.inl hv
  · exact Or.inl h

/-- **C56**, after the end of a connection: once it has been shut down, through any clone, or reset, no byte is written to it any
more, and every call of `send_tcp` with the flag that had not returned `Ok` before never does. -/
theorem C56_closed {run more : List (Act P × Ret P)} {st st' : St P} (h : Run G run st) {c : Nat} (hc : c < st.ntcp)
    (hcl : (st.tcp c).shut = true ∨ (st.tcp c).broken = true) (h' : Run G (run ++ more) st') :
    (st'.tcp c).sent = (st.tcp c).sent ∧
    ∀ (i : Nat) (u : Use) (d : List UInt8), (sendsOn c (run ++ more))[i]? = some u → u.result = some (some d) →
      (sendsOn c run)[i]? = some u := by
  have key := run_more h (Q := fun run' s => c < s.ntcp ∧ closed (s.tcp c) ∧ (s.tcp c).sent = (st.tcp c).sent ∧
      ∀ (i : Nat) (u : Use) (d : List UInt8), (sendsOn c run')[i]? = some u → u.result = some (some d) → (sendsOn c run)[i]? = some u)
    ⟨hc, hcl, rfl, fun _ _ _ hu _ => hu⟩ (fun run' s a r s' _ hrun hs hq => by
      obtain ⟨q1, q2, q3, q4⟩ := hq
      obtain ⟨k1, k2, k3⟩ := stream_step hs q1
      refine ⟨Nat.lt_of_lt_of_le q1 k1, k2 q2, (k3 q2).trans q3, fun i u d hu hd => ?_⟩
      have hu' : (sendUse c (sendsOn c run') (a, r))[i]? = some u := by
        have : sendsOn c (run' ++ [(a, r)]) = sendUse c (sendsOn c run') (a, r) := by
          simp [sendsOn, List.foldl_append]
        rw [← this]; exact hu
      rcases sendUse_cases hu' with h1 | h1 | ⟨t, n, here, v, rfl, rfl, hv, ht, hres⟩
      · exact q4 i u d h1 hd
      · exact absurd hd (h1 d)
      · exfalso
        obtain ⟨l, hl⟩ := run_sendInv hrun c
        have hrel := (hl.rel i v hv).2
        rw [hres, ht] at hrel
        obtain ⟨rest, hw, -⟩ := hrel
        simp only [step, write] at hs
        split at hs
        · rename_i c' rest' here' hthr
          rw [hthr] at hw
          simp only [wr, Option.some.injEq, Prod.mk.injEq] at hw
          obtain ⟨rfl, -⟩ := hw
          split at hs
          · rename_i hcond
            rcases q2 with q2 | q2
            · rw [q2] at hcond; exact absurd hcond.2.2.1 (by simp)
            · rw [q2] at hcond; exact absurd hcond.2.2.2 (by simp)
          · cases hs
        · cases hs) h'
  exact ⟨key.2.2.1, key.2.2.2⟩

/-! ## Forking -/

theorem dropTwo {h h' : Heap.St P} {a b : Entry P} {p : List (Entry P)} (hp : h.pool = a :: b :: p) (hd : dropAll G h [a, b] = some h') :
    h'.pool = p := by
  simp only [dropAll, Heap.step, hp, takeAll, List.mem_cons, true_or, if_true, List.erase_cons_head, Option.some.injEq] at hd
  rw [← hd]

/-- **C56**, `fork_tcp`: if the connection cannot be made or cloned, `Err` and no session has been created; if the thread cannot be started,
`Err`, and both ends of the new session are dropped; otherwise a session of type `s` on one side and its dual on the
other, and one connection with two handles. -/
theorem C56_fork_tcp {run : List (Act P × Ret P)} {st st' : St P} (h : Run G run st) {s : STy P} {g : Stage} {r : Ret P}
    (hs : step G st (.forkTcp s g) = some (st', r)) :
    (g = .connect ∨ g = .clone → r = .err ∧ st'.heap = st.heap ∧ st'.tcp = st.tcp) ∧
    (g = .spawn → r = .err ∧ st'.heap.pool = st.heap.pool ∧ st'.tcp = st.tcp ∧
      ∀ b, Tok.idn st.heap.nsid b ∈ st'.heap.garb) ∧
    (g = .done → ∃ there here, r = .okFork there here st.ntcp ∧ st'.heap.pool = there :: here :: st.heap.pool ∧
      there.ty = s ∧ here.ty = s.dual ∧ there.ep.sid = st.heap.nsid ∧ here.ep.sid = st.heap.nsid ∧ there.ep.side ≠ here.ep.side ∧
      (st'.tcp st.ntcp).free = 2 ∧ (st'.tcp st.ntcp).sent = [] ∧ (st'.tcp st.ntcp).arrived = [] ∧
      ∀ d, d ≠ st.ntcp → st'.tcp d = st.tcp d) := by
  have hr := run_reach h
  have key : ∀ {h1 : Heap.St P} {o : Out}, Heap.step G st.heap (.new s) = some (h1, o) → ∃ there here, h1.pool = there :: here :: st.heap.pool ∧
      there.ty = s ∧ here.ty = s.dual ∧ there.ep.sid = st.heap.nsid ∧ here.ep.sid = st.heap.nsid ∧ there.ep.side = true ∧ here.ep.side = false := by
    intro h1 o hst
    simp only [Heap.step] at hst
    cases hst
    cases s <;> exact ⟨_, _, rfl, rfl, rfl, rfl, rfl, rfl, rfl⟩
  cases g with
  | connect =>
    simp only [step, forkTcp] at hs; cases hs
    exact ⟨fun _ => ⟨rfl, rfl, rfl⟩, fun h0 => (nomatch h0), fun h0 => nomatch h0⟩
  | clone =>
    simp only [step, forkTcp] at hs; cases hs
    exact ⟨fun _ => ⟨rfl, rfl, rfl⟩, fun h0 => (nomatch h0), fun h0 => nomatch h0⟩
  | spawn =>
    refine ⟨fun h0 => h0.elim (fun h0 => (nomatch h0)) fun h0 => (nomatch h0), fun _ => ?_, fun h0 => nomatch h0⟩
    simp only [step, forkTcp] at hs
    split at hs
    · rename_i h1 o hst
      obtain ⟨there, here, hp, -, -, i1, i2, i3, i4⟩ := key hst
      rw [hp] at hs
      obtain ⟨h2, hd, he⟩ := map_some' hs
      cases he
      obtain ⟨d1, -, -, -, d2⟩ := dropAll_out hd
      rw [hp] at d1
      refine ⟨rfl, ?_, rfl, fun b => ?_⟩
      · exact dropTwo hp hd
      · cases b with
        | true => exact d2 there (List.mem_cons_self ..) _ (by rw [← i1, ← i3]; exact List.mem_cons_self ..)
        | false => exact d2 here (List.mem_cons_of_mem _ (List.mem_cons_self ..)) _ (by rw [← i2, ← i4]; exact List.mem_cons_self ..)
    · cases hs
  | done =>
    refine ⟨fun h0 => h0.elim (fun h0 => (nomatch h0)) fun h0 => (nomatch h0), fun h0 => (nomatch h0), fun _ => ?_⟩
    simp only [step, forkTcp] at hs
    split at hs
    · rename_i h1 o hst
      obtain ⟨there, here, hp, j1, j2, i1, i2, i3, i4⟩ := key hst
      rw [hp] at hs
      cases hs
      refine ⟨there, here, rfl, hp, j1, j2, i1, i2, by rw [i3, i4]; simp, ?_, ?_, ?_, fun d hd => ?_⟩
      all_goals simp [setTcp, upd_same, noStream]
      rw [upd_ne hd]
    · cases hs

/-- **C56**, `fork_udp`: as `C56_fork_tcp`, but it panics if the thread cannot be started. -/
theorem C56_fork_udp {run : List (Act P × Ret P)} {st st' : St P} (h : Run G run st) {s : STy P} {g : Stage} {r : Ret P}
    (hs : step G st (.forkUdp s g) = some (st', r)) :
    (g = .connect ∨ g = .clone → r = .err ∧ st'.heap = st.heap ∧ st'.udp = st.udp) ∧
    (g = .spawn → r = .panic ∧ st'.heap.pool = st.heap.pool ∧ st'.udp = st.udp ∧
      ∀ b, Tok.idn st.heap.nsid b ∈ st'.heap.garb) ∧
    (g = .done → ∃ there here, r = .okFork there here st.nudp ∧ st'.heap.pool = there :: here :: st.heap.pool ∧
      there.ty = s ∧ here.ty = s.dual ∧ there.ep.sid = st.heap.nsid ∧ here.ep.sid = st.heap.nsid ∧ there.ep.side ≠ here.ep.side ∧
      (st'.udp st.nudp).free = 2 ∧ (st'.udp st.nudp).sent = [] ∧ (st'.udp st.nudp).arrived = [] ∧
      ∀ d, d ≠ st.nudp → st'.udp d = st.udp d) := by
  have hr := run_reach h
  have key : ∀ {h1 : Heap.St P} {o : Out}, Heap.step G st.heap (.new s) = some (h1, o) → ∃ there here, h1.pool = there :: here :: st.heap.pool ∧
      there.ty = s ∧ here.ty = s.dual ∧ there.ep.sid = st.heap.nsid ∧ here.ep.sid = st.heap.nsid ∧ there.ep.side = true ∧ here.ep.side = false := by
    intro h1 o hst
    simp only [Heap.step] at hst
    cases hst
    cases s <;> exact ⟨_, _, rfl, rfl, rfl, rfl, rfl, rfl, rfl⟩
  cases g with
  | connect =>
    simp only [step, forkUdp] at hs; cases hs
    exact ⟨fun _ => ⟨rfl, rfl, rfl⟩, fun h0 => (nomatch h0), fun h0 => nomatch h0⟩
  | clone =>
    simp only [step, forkUdp] at hs; cases hs
    exact ⟨fun _ => ⟨rfl, rfl, rfl⟩, fun h0 => (nomatch h0), fun h0 => nomatch h0⟩
  | spawn =>
    refine ⟨fun h0 => h0.elim (fun h0 => (nomatch h0)) fun h0 => (nomatch h0), fun _ => ?_, fun h0 => nomatch h0⟩
    simp only [step, forkUdp] at hs
    split at hs
    · rename_i h1 o hst
      obtain ⟨there, here, hp, -, -, i1, i2, i3, i4⟩ := key hst
      rw [hp] at hs
      obtain ⟨h2, hd, he⟩ := map_some' hs
      cases he
      obtain ⟨d1, -, -, -, d2⟩ := dropAll_out hd
      refine ⟨rfl, dropTwo hp hd, rfl, fun b => ?_⟩
      cases b with
      | true => exact d2 there (List.mem_cons_self ..) _ (by rw [← i1, ← i3]; exact List.mem_cons_self ..)
      | false => exact d2 here (List.mem_cons_of_mem _ (List.mem_cons_self ..)) _ (by rw [← i2, ← i4]; exact List.mem_cons_self ..)
    · cases hs
  | done =>
    refine ⟨fun h0 => h0.elim (fun h0 => (nomatch h0)) fun h0 => (nomatch h0), fun h0 => (nomatch h0), fun _ => ?_⟩
    simp only [step, forkUdp] at hs
    split at hs
    · rename_i h1 o hst
      obtain ⟨there, here, hp, j1, j2, i1, i2, i3, i4⟩ := key hst
      rw [hp] at hs
      cases hs
      refine ⟨there, here, rfl, hp, j1, j2, i1, i2, by rw [i3, i4]; simp, ?_, ?_, ?_, fun d hd => ?_⟩
      all_goals simp [setUdp, upd_same, noDgram]
      rw [upd_ne hd]
    · cases hs

/-! ## UDP -/

/-- **C56**, `send_udp`: it panics if and only if the receiving end of its channel does not exist any more, and then sends nothing;
otherwise the value is on its way, whether or not the datagram could be sent: if it could not, the call returns `Err`. -/
theorem C56_send_udp {run : List (Act P × Ret P)} {st st' : St P} (h : Run G run st) {t : Nat} {e : Entry P} {x : Val}
    {data : List UInt8} {u : Nat} {udp ok : Bool} {r : Ret P} (hs : step G st (.sendUdp t e x data u udp ok) = some (st', r)) :
    (∃ ty, st'.heap.trace = st.heap.trace ++ [.sent e.ep.sid e.ep.side ty (pair x data)]) ∧
    ∃ ch, e.ep.node = .snd ch ∧
      (cnt st.heap (.rx ch) = 0 → r = .panic ∧ ∀ d, (st'.udp d).sent = (st.udp d).sent) ∧
      (0 < cnt st.heap (.rx ch) →
        if udp then
          if ok then (∃ here, r = .okSendUdp here 128) ∧ (st'.udp u).sent = (st.udp u).sent ++ [data]
          else r = .err ∧ ∀ d, (st'.udp d).sent = (st.udp d).sent
        else (∃ here, r = .okSendUdp here 0) ∧ ∀ d, (st'.udp d).sent = (st.udp d).sent) := by
  have hr := run_reach h
  have ht : ∀ (s : St P) (d : Nat), ((takeUdp s u).udp d).sent = (s.udp d).sent := by
    intro s d
    by_cases e : d = u
    · subst e; simp [takeUdp, setUdp, upd_same]
    · simp [takeUdp, setUdp, upd_ne e]
  simp only [step, sendUdp] at hs
  split at hs
  · rename_i hcond
    simp only [Bool.and_eq_true, beq_iff_eq] at hcond
    have hlen : data.length = 128 := hcond.1.1.2
    cases hc : chanSend G st.heap e x data with
    | none => rw [hc] at hs; cases hs
    | some q =>
      rw [hc] at hs
      unfold chanSend at hc
      split at hc
      · rename_i h1 hst
        have htr := trace_step hr hst
        simp only at htr
        obtain ⟨ch, hch⟩ := send_node hst
        have hcnt := (Heap.reach_inv hr).crx ch
        have hg : gone st.heap e = !(st.heap.chan ch).rx := by simp [gone, hch]
        split at hc
        · rename_i here rest hp
          split at hc
          · rename_i hgone
            rw [hg] at hgone
            simp only [Bool.not_eq_true'] at hgone
            obtain ⟨h2, hd, rfl⟩ := map_some' hc
            cases hs
            obtain ⟨ty, hty⟩ := htr
            refine ⟨⟨ty, (dropAll_trace hd).trans hty⟩, ch, hch, fun _ => ⟨rfl, fun d => ht _ d⟩, fun hpos => ?_⟩
            rw [hcnt, hgone] at hpos
            simp at hpos
          · rename_i hgone
            rw [hg] at hgone
            simp only [Bool.not_eq_true', Bool.not_eq_false] at hgone
            cases hc
            have hno : ¬ cnt st.heap (.rx ch) = 0 := by rw [hcnt, hgone]; simp
            simp only at hs
            split at hs
            · rename_i hudp
              split at hs
              · rename_i hok
                cases hs
                refine ⟨htr, ch, hch, fun h0 => absurd h0 hno, fun _ => ?_⟩
                rw [if_pos hudp, if_pos hok]
                exact ⟨⟨here, by rw [hlen]⟩, by simp [setUdp, upd_same]⟩
              · rename_i hok
                obtain ⟨h2, hd, he⟩ := map_some' hs
                cases he
                obtain ⟨ty, hty⟩ := htr
                refine ⟨⟨ty, (dropAll_trace hd).trans hty⟩, ch, hch, fun h0 => absurd h0 hno, fun _ => ?_⟩
                rw [if_pos hudp, if_neg hok]
                exact ⟨rfl, fun d => ht _ d⟩
            · rename_i hudp
              cases hs
              refine ⟨htr, ch, hch, fun h0 => absurd h0 hno, fun _ => ?_⟩
              rw [if_neg hudp]
              exact ⟨⟨here, rfl⟩, fun _ => rfl⟩
        · cases hc
      · cases hc
  · cases hs

/-- **C56**, a failed `recv` of a datagram: `recv_udp` returns `Err`; the value and all endpoints in it are dropped; no datagram is
taken. -/
theorem C56_failed_take {run : List (Act P × Ret P)} {st st' : St P} (h : Run G run st) {t : Nat} {r : Ret P}
    (hs : step G st (.takeErr t) = some (st', r)) :
    r = .err ∧ st'.heap.trace = st.heap.trace ∧ st'.thr t = .idle ∧ (∀ d, st'.udp d = st.udp d) ∧
    ∃ u x es, st.thr t = .taking u x es ∧ (∀ e ∈ es, e ∉ st'.heap.pool) ∧ ∀ e ∈ es, ∀ k ∈ e.ep.toks, k ∈ st'.heap.garb := by
  simp only [step, takeErr] at hs
  split at hs
  · rename_i u x es hthr
    obtain ⟨h1, hd, he⟩ := map_some' hs
    cases he
    exact ⟨rfl, dropAll_trace hd, by simp [leave, upd_same], fun _ => rfl, u, x, es, hthr,
      dropAll_gone (run_reach h) hd, (dropAll_out hd).2.2.2.2⟩
  · cases hs

/-! ## Choice -/

/-- **C56**, choice: if one side runs `choose_tcp!(label, ..)` and the other `offer_tcp!`, the arm of that label runs, if there is
one, with the other end of the session that `choose_tcp!` returns; if there is none, `offer_tcp!` panics.  It never
returns `Err`. -/
theorem C56_choice {st st1 st2 : Heap.St P} (h : Reach G st) {e e' : Entry P} {tag : Nat} {s : STy P} {here : EP}
    {w w' : Option Window} {t t' : P} {arms : Nat → Bool}
    (hty : e.ty = .send w t .fin) (hG : G t tag = some [s.dual])
    (hc : ChoosesNet G e tag s st here st1) (hs : Heap.Steps G st1 st2)
    (he' : e' ∈ st2.pool) (hsid : e'.ep.sid = e.ep.sid) (hty' : e'.ty = .recv w' t' .fin) :
    ∃ there, Joined here there ∧
      ∀ res st3, OffersNet G arms e' st2 res st3 → res = if arms tag then .arm tag there else .panic := by
  cases hc with
  | mk a1 a2 a3 a4 a5 a6 a7 a8 =>
    have hc' := Choice.Chooses.mk a1 a2 a3 a4 a5 a6 a7
    obtain ⟨there, hj, ⟨st4, v, hv⟩, -, hof⟩ := C11_agree h hty hG hc' (steps_trans' a8 hs) he' hsid hty'
    refine ⟨there, hj, fun res st3 ho => ?_⟩
    cases ho with
    | got b1 b2 b3 b4 b5 =>
      obtain ⟨k1, k2⟩ := hof _ _ _ (Choice.Offers.mk b1 b2 b3 b4 b5)
      rw [k1, k2]
    | err b1 => rw [hv] at b1; cases b1

end Verif.Prop
