import Verif.Proof.TransportOwn
/-!
# C55: what the calls over TCP and UDP carry
-/
namespace Verif.Prop
open Verif.Types Verif.Spec Verif.Transport
open Verif.Heap (Val Entry EP Env Sig Reach Ev Out Op)

variable {P : Type} [DecidableEq P] {G : Env P}

/-! ## The session -/

/-- **C55**, the session: whatever calls over sockets are made, by whatever threads, the channels do what some sequence of
calls of `send`, `recv`, `close` and drops does.  So all that is proved of sessions holds of them. -/
theorem C55_session {run : List (Act P × Ret P)} {st : St P} (h : Run G run st) : Reach G st.heap := run_reach h

/-- **C55**, the values: on each side of each session, the `i`-th receiving call that finds a message returns, if it
returns `Ok`, the value given to the `i`-th sending call of the other side. -/
theorem C55_values {run : List (Act P × Ret P)} {st : St P} (h : Run G run st) (s : Nat) (b : Bool) :
    (received s b run).length ≤ (given s (!b) run).length ∧
    ∀ (i : Nat) (u : Recv) (x : Val), (received s b run)[i]? = some u → u.result = some (some x) →
      (given s (!b) run)[i]? = some x := run_values h s b

/-! ## Bytes of a connection -/

/-- **C55**, outgoing bytes: every byte accepted by the connection belongs to one call of `send_tcp`, and the bytes of
each call are the beginning of its data, in order; all of its data if the call has returned `Ok`.  Nothing else is written. -/
theorem C55_out {run : List (Act P × Ret P)} {st : St P} (h : Run G run st) (c : Nat) :
    ∃ l, Shares (sendsOn c run) (st.tcp c).sent l ∧ (OneThread (sendsOn c run) → InOrder l) ∧
      ∀ (i : Nat) (u : Use), (sendsOn c run)[i]? = some u → u.given.length = 128 ∧ bytesOf i l <+: u.given ∧
        (∀ d, u.result = some (some d) → bytesOf i l = u.given) := by
  obtain ⟨l, hl⟩ := run_sendInv h c
  refine ⟨l, hl.shares, fun ho => (hl.one ho).1, fun i u hi => ?_⟩
  obtain ⟨h1, h2⟩ := hl.rel i u hi
  refine ⟨h1, ?_, fun d hd => ?_⟩
  · split at h2
    · obtain ⟨rest, -, hr⟩ := h2
      exact ⟨rest, hr⟩
    · exact h2
    · rw [h2]; exact List.prefix_rfl
  · rw [hd] at h2; exact h2

theorem flatten_range {α : Type} {us : List Use} {f : Nat → List α} {g : Use → List α}
    (h : ∀ (i : Nat) (u : Use), us[i]? = some u → f i = g u) :
    ((List.range us.length).map f).flatten = (us.map g).flatten := by
  congr 1
  apply List.ext_getElem
  · simp
  · intro i h1 h2
    simp only [List.length_map, List.length_range] at h1
    simp only [List.getElem_map, List.getElem_range]
    exact h i _ (List.getElem?_eq_getElem h1)

/-- **C55**, frames: if one thread does all the sending on a connection and all its calls have returned `Ok`, what has been
written is the data of the calls one after the other. -/
theorem C55_frames {run : List (Act P × Ret P)} {st : St P} (h : Run G run st) (c : Nat)
    (ho : OneThread (sendsOn c run)) (ha : EachOk (sendsOn c run)) :
    (st.tcp c).sent = ((sendsOn c run).map (·.given)).flatten := by
  obtain ⟨l, h1, h2, h3⟩ := C55_out h c
  rw [← h1.bytes, inOrder_flatten _ l (h2 ho) h1.calls]
  refine flatten_range fun i u hi => ?_
  obtain ⟨d, hd⟩ := ha u (List.mem_of_getElem? hi)
  exact (h3 i u hi).2.2 d hd

/-- **C55**, incoming bytes: every byte read from the connection belongs to one call of `recv_tcp`; a call that returns `Ok`
returns its bytes, 128 of them; a call that has not, has read fewer. -/
theorem C55_in {run : List (Act P × Ret P)} {st : St P} (h : Run G run st) (c : Nat) :
    (st.tcp c).taken ≤ (st.tcp c).arrived.length ∧
    ∃ l, Shares (recvsOn c run) ((st.tcp c).arrived.take (st.tcp c).taken) l ∧ (OneThread (recvsOn c run) → InOrder l) ∧
      ∀ (i : Nat) (u : Use), (recvsOn c run)[i]? = some u →
        (∀ d, u.result = some (some d) → d = bytesOf i l ∧ d.length = 128) ∧
        ((∀ d, u.result ≠ some (some d)) → (bytesOf i l).length < 128) := by
  obtain ⟨⟨l, hl⟩, hle⟩ := run_recvInv h c
  refine ⟨hle c, l, hl.shares, fun ho => (hl.one ho).1, fun i u hi => ?_⟩
  have hr := hl.rel i u hi
  unfold RecvRel at hr
  split at hr
  · rename_i hn
    exact ⟨fun d hd => by rw [hn] at hd; (cases hd), fun _ => hr.2⟩
  · rename_i hn
    exact ⟨fun d hd => by rw [hn] at hd; (cases hd), fun _ => hr⟩
  · rename_i d hn
    exact ⟨fun d' hd => by rw [hn] at hd; cases hd; exact ⟨hr.1.symm, hr.2⟩, fun hd => absurd hn (hd d)⟩

theorem flatten_slice {α : Type} {n : Nat} : ∀ {ls : List (List α)}, (∀ l ∈ ls, l.length = n) → ∀ {i : Nat} {l : List α},
    ls[i]? = some l → (ls.flatten.drop (n * i)).take n = l := by
  intro ls
  induction ls with
  | nil => intro _ i l hi; simp at hi
  | cons a ls ih =>
    intro hn i l hi
    have ha := hn a (List.mem_cons_self ..)
    cases i with
    | zero =>
      simp only [List.getElem?_cons_zero, Option.some.injEq] at hi
      subst hi
      rw [Nat.mul_zero, List.drop_zero, List.flatten_cons, List.take_append_of_le_length (by omega),
        List.take_of_length_le (by omega)]
    | succ i =>
      have hi' : ls[i]? = some l := by simpa using hi
      rw [List.flatten_cons, Nat.mul_succ, Nat.add_comm, ← List.drop_drop, ← ha, List.drop_left, ha]
      exact ih (fun x hx => hn x (List.mem_cons_of_mem _ hx)) hi'

/-- **C55**, reads: if one thread does all the receiving on a connection and all its calls have returned `Ok`, the `i`-th call
returned bytes `128 i` to `128 i + 127` of what has arrived, however the bytes were cut on their way. -/
theorem C55_reads {run : List (Act P × Ret P)} {st : St P} (h : Run G run st) (c : Nat)
    (ho : OneThread (recvsOn c run)) (ha : EachOk (recvsOn c run)) (i : Nat) (u : Use) (d : List UInt8)
    (hu : (recvsOn c run)[i]? = some u) (hd : u.result = some (some d)) :
    d = ((st.tcp c).arrived.drop (128 * i)).take 128 ∧ d.length = 128 := by
  obtain ⟨hle, l, h1, h2, h3⟩ := C55_in h c
  have hfl : (st.tcp c).arrived.take (st.tcp c).taken = ((recvsOn c run).map fun u => (u.result.join).getD []).flatten := by
    rw [← h1.bytes, inOrder_flatten _ l (h2 ho) h1.calls]
    refine flatten_range fun i u hi => ?_
    obtain ⟨d, hd⟩ := ha u (List.mem_of_getElem? hi)
    rw [((h3 i u hi).1 d hd).1.symm, hd]; rfl
  have hlen : ∀ x ∈ (recvsOn c run).map (fun u => (u.result.join).getD []), x.length = 128 := by
    intro x hx
    obtain ⟨v, hv, rfl⟩ := List.mem_map.mp hx
    obtain ⟨d, hd⟩ := ha v hv
    obtain ⟨j, hj⟩ := List.getElem?_of_mem hv
    rw [hd]
    exact ((h3 j v hj).1 d hd).2
  have hget : ((recvsOn c run).map fun u => (u.result.join).getD [])[i]? = some d := by
    rw [List.getElem?_map, hu]; simp [hd]
  have hs := flatten_slice hlen hget
  have hdl := hlen d (List.mem_of_getElem? hget)
  refine ⟨?_, hdl⟩
  rw [← hfl] at hs
  rw [← hs, ← List.take_append_drop (st.tcp c).taken (st.tcp c).arrived]
  have hlt : 128 * i + 128 ≤ ((st.tcp c).arrived.take (st.tcp c).taken).length := by
    have := congrArg List.length hs
    rw [hdl, List.length_take, List.length_drop] at this
    omega
  rw [List.take_left' (by rw [List.length_take]; omega), List.drop_append_of_le_length (by omega),
    List.take_append_of_le_length (by rw [List.length_drop]; omega)]

/-- **C55**, an echo server: if the other end of the connection sends back what it gets, if one thread does all the
sending and one all the receiving, and all calls have returned `Ok`, the `i`-th `recv_tcp` returns the data given to the
`i`-th `send_tcp`.  The full property, that `recv_tcp` returns the data given to the matching `send_tcp` of its partner, is false:
`C55_data_lost` and `C55_torn`. -/
theorem C55_echo_partial {run : List (Act P × Ret P)} {st : St P} (h : Run G run st) (c : Nat)
    (hecho : (st.tcp c).arrived <+: (st.tcp c).sent)
    (ho : OneThread (sendsOn c run)) (ha : EachOk (sendsOn c run))
    (ho' : OneThread (recvsOn c run)) (ha' : EachOk (recvsOn c run)) (i : Nat) (u : Use) (d : List UInt8)
    (hu : (recvsOn c run)[i]? = some u) (hd : u.result = some (some d)) :
    ∃ v, (sendsOn c run)[i]? = some v ∧ d = v.given := by
  obtain ⟨h1, h2⟩ := C55_reads h c ho' ha' i u d hu hd
  have hsent := C55_frames h c ho ha
  have hlen : ∀ x ∈ (sendsOn c run).map (·.given), x.length = 128 := by
    intro x hx
    obtain ⟨v, hv, rfl⟩ := List.mem_map.mp hx
    obtain ⟨j, hj⟩ := List.getElem?_of_mem hv
    obtain ⟨l, -, -, h3⟩ := C55_out h c
    exact (h3 j v hj).1
  obtain ⟨rest, hrest⟩ := hecho
  have hal : 128 * i + 128 ≤ (st.tcp c).arrived.length := by
    have := congrArg List.length h1
    rw [h2, List.length_take, List.length_drop] at this
    omega
  have hd' : d = ((st.tcp c).sent.drop (128 * i)).take 128 := by
    rw [← hrest, List.drop_append_of_le_length (by omega), List.take_append_of_le_length (by rw [List.length_drop]; omega)]
    exact h1
  have hi : i < (sendsOn c run).length := by
    have hsl : (st.tcp c).sent.length = 128 * (sendsOn c run).length := by
      rw [hsent, List.length_flatten]
      have : ((sendsOn c run).map (·.given)).map List.length = List.replicate (sendsOn c run).length 128 := by
        apply List.ext_getElem
        · simp
        · intro j h1 h2
          simp only [List.getElem_map, List.getElem_replicate]
          exact hlen _ (List.mem_map_of_mem (List.getElem_mem _))
      rw [this, List.sum_replicate_nat]
      omega
    have := congrArg List.length hrest
    rw [List.length_append] at this
    omega
  refine ⟨_, List.getElem?_eq_getElem hi, ?_⟩
  have hget : ((sendsOn c run).map (·.given))[i]? = some ((sendsOn c run)[i]).given := by
    rw [List.getElem?_map, List.getElem?_eq_getElem hi]; rfl
  rw [hd', hsent]
  exact flatten_slice hlen hget

/-- **C55**, the flag: with `tcp = false` (`udp = false`) the socket is not touched and the data returned are zeros. -/
theorem C55_plain {st st' : St P} {r : Ret P} (t : Nat) (e : Entry P) (x : Val) (data : List UInt8) (c : Nat) (ok : Bool) :
    (step G st (.sendTcp t e x data c false) = some (st', r) → ∀ d, (st'.tcp d).sent = (st.tcp d).sent ∧ st'.thr = st.thr) ∧
    (step G st (.recvTcp t e c false) = some (st', r) → (∀ d, (st'.tcp d).taken = (st.tcp d).taken) ∧ st'.thr = st.thr ∧
      (r = .err ∨ ∃ x es, r = .okRecv x es (List.replicate 128 0))) ∧
    (step G st (.sendUdp t e x data c false ok) = some (st', r) → ∀ d, (st'.udp d).sent = (st.udp d).sent ∧ st'.thr = st.thr) ∧
    (step G st (.recvUdp t e c false) = some (st', r) → (∀ d, (st'.udp d).taken = (st.udp d).taken) ∧ st'.thr = st.thr ∧
      (r = .err ∨ ∃ x es, r = .okRecvUdp x es (List.replicate 128 0) 0)) := by
  have ht : ∀ (s : St P) (d : Nat), ((takeTcp s c).tcp d).sent = (s.tcp d).sent ∧ ((takeTcp s c).tcp d).taken = (s.tcp d).taken := by
    intro s d
    by_cases e : d = c
    · subst e; simp [takeTcp, setTcp, upd_same]
    · simp [takeTcp, setTcp, upd_ne e]
  have hu : ∀ (s : St P) (d : Nat), ((takeUdp s c).udp d).sent = (s.udp d).sent ∧ ((takeUdp s c).udp d).taken = (s.udp d).taken := by
    intro s d
    by_cases e : d = c
    · subst e; simp [takeUdp, setUdp, upd_same]
    · simp [takeUdp, setUdp, upd_ne e]
  refine ⟨fun hs => ?_, fun hs => ?_, fun hs => ?_, fun hs => ?_⟩
  · simp only [step, sendTcp, Bool.false_eq_true, if_false] at hs
    repeat' split at hs
    all_goals cases hs
    · exact fun d => ⟨(ht _ d).1, rfl⟩
    · exact fun d => ⟨rfl, rfl⟩
  · simp only [step, recvTcp, Bool.false_eq_true, if_false] at hs
    repeat' split at hs
    all_goals cases hs
    · exact ⟨fun d => (ht _ d).2, rfl, Or.inl rfl⟩
    · exact ⟨fun d => rfl, rfl, Or.inr ⟨_, _, rfl⟩⟩
  · simp only [step, sendUdp, Bool.false_eq_true, if_false] at hs
    repeat' split at hs
    all_goals cases hs
    · exact fun d => ⟨(hu _ d).1, rfl⟩
    · exact fun d => ⟨rfl, rfl⟩
  · simp only [step, recvUdp, Bool.false_eq_true, if_false] at hs
    repeat' split at hs
    all_goals cases hs
    · exact ⟨fun d => (hu _ d).2, rfl, Or.inl rfl⟩
    · exact ⟨fun d => rfl, rfl, Or.inr ⟨_, _, rfl⟩⟩

/-! ## Datagrams -/

/-- **C55**, datagrams out: a UDP socket has sent exactly the data of the calls of `send_udp` with `udp = true` that returned
`Ok`, in this order. -/
theorem C55_datagrams_out {run : List (Act P × Ret P)} {st : St P} (h : Run G run st) (u : Nat) :
    (st.udp u).sent = sendsUdp u run := (run_udpInv h).sent u

/-- **C55**, datagrams in: whichever threads call `recv_udp` on a socket, the `k`-th of the calls to return `Ok` returns the
`k`-th datagram that has arrived, cut to 128 bytes or followed by zeros, and the number of its bytes; and no datagram is taken
otherwise. -/
theorem C55_datagrams {run : List (Act P × Ret P)} {st : St P} (h : Run G run st) (u : Nat) :
    (takesUdp u run).length = (st.udp u).taken ∧
    ∀ (k : Nat) (p : List UInt8 × Nat), (takesUdp u run)[k]? = some p →
      ∃ d, (st.udp u).arrived[k]? = some d ∧ InArray 128 d p.1 p.2 :=
  ⟨((run_udpInv h).takes u).length, ((run_udpInv h).takes u).data⟩

end Verif.Prop
