import Verif.Prop.C55
import Verif.Proof.TransportDemo
/-!
# C55: concrete runs; what the calls do not carry
-/
namespace Verif.Prop
open Verif.Types Verif.Spec Verif.Transport
open Verif.Heap (Val Entry EP Env Sig Reach Ev Out Op demoEnv)

abbrev bsA : List UInt8 := List.replicate 128 65
abbrev bsB : List UInt8 := List.replicate 128 66
abbrev bsC : List UInt8 := List.replicate 128 67

abbrev twice : STy Nat := .send none 0 (.send none 0 .fin)
abbrev snd0 : Entry Nat := ⟨⟨.snd 0, 0, true⟩, .send none 0 (.send none 0 .fin)⟩
abbrev rcv0 : Entry Nat := ⟨⟨.rcv 0, 0, false⟩, .recv none 0 (.recv none 0 .fin)⟩
abbrev snd1 : Entry Nat := ⟨⟨.snd 1, 0, true⟩, .send none 0 .fin⟩
abbrev rcv1 : Entry Nat := ⟨⟨.rcv 1, 0, false⟩, .recv none 0 .fin⟩
abbrev val7 : Val := ⟨0, 7, []⟩
abbrev val8 : Val := ⟨0, 8, []⟩

/-- Two sends and two receives on one session, one thread each, through an echo server; the bytes are cut in many ways. -/
def echoRun : List (Act Nat) :=
  [.forkTcp twice .done, .sendTcp 1 snd0 val7 bsA 0 true, .write 1 100, .write 1 28, .sendTcp 1 snd1 val8 bsB 0 true,
   .write 1 128, .arrive 0 (bsA ++ bsB.take 60), .recvTcp 2 rcv0 0 true, .read 2 50, .read 2 78, .recvTcp 2 rcv1 0 true,
   .read 2 60, .arrive 0 (bsB.drop 60), .read 2 68]

theorem echo_case : (after demoEnv echoRun).map (fun p => (sendsOn 0 p.1, recvsOn 0 p.1, (p.2.tcp 0).sent, (p.2.tcp 0).arrived)) =
    some ([⟨1, bsA, some (some [])⟩, ⟨1, bsB, some (some [])⟩],
      [⟨2, [], some (some bsA)⟩, ⟨2, [], some (some bsB)⟩], bsA ++ bsB, bsA ++ bsB) := by decide +kernel

theorem echo_values : (after demoEnv echoRun).map (fun p => (received 0 false p.1, given 0 true p.1)) =
    some ([⟨2, 0, false, some (some val7)⟩, ⟨2, 0, false, some (some val8)⟩], [val7, val8]) := by decide +kernel

/-- The hypotheses of `C55_frames`, `C55_reads` and `C55_echo_partial` are met. -/
example : ∃ run st, Run demoEnv run st ∧ OneThread (sendsOn 0 run) ∧ EachOk (sendsOn 0 run) ∧ OneThread (recvsOn 0 run) ∧
    EachOk (recvsOn 0 run) ∧ (st.tcp 0).arrived <+: (st.tcp 0).sent ∧
    (recvsOn 0 run)[1]? = some ⟨2, [], some (some bsB)⟩ ∧ (sendsOn 0 run)[1]? = some ⟨1, bsB, some (some [])⟩ := by
  obtain ⟨run, st, h, hp⟩ := after_run echo_case
  simp only [Prod.mk.injEq] at hp
  obtain ⟨h1, h2, h3, h4⟩ := hp
  refine ⟨run, st, h, ?_, ?_, ?_, ?_, ?_, ?_, ?_⟩
  · rw [h1]; exact ⟨1, by simp⟩
  · rw [h1]; intro u hu; simp at hu; rcases hu with rfl | rfl <;> exact ⟨_, rfl⟩
  · rw [h2]; exact ⟨2, by simp⟩
  · rw [h2]; intro u hu; simp at hu; rcases hu with rfl | rfl <;> exact ⟨_, rfl⟩
  · rw [h3, h4]; exact List.prefix_rfl
  · rw [h2]; rfl
  · rw [h1]; rfl

/-- The data given to `send_tcp` with a value and the data returned with it by `recv_tcp` are the same: what the types
`Send<(T, [u8; 128]), S>` and `Recv<(T, [u8; 128]), S>` promise. -/
def DataArrives (run : List (Act Nat × Ret Nat)) : Prop :=
  ∀ t e x data c f t' r, (Act.sendTcp t e x data c f, r) ∈ run →
    (∀ e' c' f' es d, (Act.recvTcp t' e' c' f', Ret.okRecv x es d) ∈ run → d = data) ∧
    (∀ n es d, (Act.read t' n, Ret.okRecv x es d) ∈ run → d = data)

def lostRun : List (Act Nat) := [.forkTcp twice .done, .sendTcp 1 snd0 val7 bsA 0 false, .recvTcp 2 rcv0 0 false]
def lostRets : List (Ret Nat) := [.okFork snd0 rcv0 0, .okSend snd1, .okRecv val7 [rcv1] (List.replicate 128 0)]

theorem lost_case : (after demoEnv lostRun).map (fun p => (p.1.map (·.2), ())) = some (lostRets, ()) := by decide +kernel

/-- **C55**, negation of the full property: the data sent through the channel with the value are dropped.  Without
the flag the receiver gets zeros. -/
theorem C55_data_lost : ∃ run st, Run demoEnv run st ∧ ¬ DataArrives run ∧
    (Act.sendTcp 1 snd0 val7 bsA 0 false, Ret.okSend snd1) ∈ run ∧
    (Act.recvTcp 2 rcv0 0 false, Ret.okRecv val7 [rcv1] (List.replicate 128 0)) ∈ run := by
  obtain ⟨st, h, -⟩ := after_rets (f := fun _ => ()) lost_case
  have hz : lostRun.zip lostRets = [(.forkTcp twice .done, .okFork snd0 rcv0 0),
    (Act.sendTcp 1 snd0 val7 bsA 0 false, Ret.okSend snd1),
    (Act.recvTcp 2 rcv0 0 false, Ret.okRecv val7 [rcv1] (List.replicate 128 0))] := by
    simp only [lostRun, lostRets, List.zip_cons_cons, List.zip_nil_right]
  rw [hz] at h
  refine ⟨_, st, h, fun hd => ?_, List.mem_cons_of_mem _ (List.mem_cons_self ..),
    List.mem_cons_of_mem _ (List.mem_cons_of_mem _ (List.mem_cons_self ..))⟩
  have := (hd _ _ _ _ _ _ 2 _ (List.mem_cons_of_mem _ (List.mem_cons_self ..))).1 _ _ _ _ _
    (List.mem_cons_of_mem _ (List.mem_cons_of_mem _ (List.mem_cons_self ..)))
  exact absurd this (by decide +kernel)

/-- Two sessions; the receivers of both read from clones of one stream in turns. -/
def tornRun : List (Act Nat) :=
  [.forkTcp twice .done, .cloneTcp 0, .api (.new twice),
   .sendTcp 1 snd0 val7 bsA 0 true, .write 1 128,
   .sendTcp 1 ⟨⟨.snd 1, 1, true⟩, twice⟩ val8 bsB 0 true, .write 1 128,
   .arrive 0 (bsA ++ bsB),
   .recvTcp 2 rcv0 0 true, .read 2 64, .recvTcp 3 ⟨⟨.rcv 1, 1, false⟩, .recv none 0 (.recv none 0 .fin)⟩ 0 true, .read 3 100,
   .read 2 64, .read 3 28]

theorem torn_case : (after demoEnv tornRun).map (fun p => (sendsOn 0 p.1, recvsOn 0 p.1, (p.2.tcp 0).sent, (p.2.tcp 0).arrived)) =
    some ([⟨1, bsA, some (some [])⟩, ⟨1, bsB, some (some [])⟩],
      [⟨2, [], some (some (List.replicate 64 65 ++ List.replicate 64 66))⟩,
       ⟨3, [], some (some (List.replicate 64 65 ++ List.replicate 64 66))⟩], bsA ++ bsB, bsA ++ bsB) := by decide +kernel

/-- **C55**, torn frames: with two threads reading, even through an echo server and with every call returning
`Ok`, calls of `recv_tcp` return data that were given to no call of `send_tcp`.  So `OneThread` is needed in
`C55_reads` and `C55_echo_partial`. -/
theorem C55_torn : ∃ run st, Run demoEnv run st ∧ (st.tcp 0).arrived = (st.tcp 0).sent ∧ OneThread (sendsOn 0 run) ∧
    EachOk (sendsOn 0 run) ∧ EachOk (recvsOn 0 run) ∧
    ∃ u ∈ recvsOn 0 run, ∃ d, u.result = some (some d) ∧ ∀ v ∈ sendsOn 0 run, d ≠ v.given := by
  obtain ⟨run, st, h, hp⟩ := after_run torn_case
  simp only [Prod.mk.injEq] at hp
  obtain ⟨h1, h2, h3, h4⟩ := hp
  refine ⟨run, st, h, by rw [h3, h4], ?_, ?_, ?_, ?_⟩
  · rw [h1]; exact ⟨1, by simp⟩
  · rw [h1]; intro u hu; simp at hu; rcases hu with rfl | rfl <;> exact ⟨_, rfl⟩
  · rw [h2]; intro u hu; simp at hu; rcases hu with rfl | rfl <;> exact ⟨_, rfl⟩
  · rw [h1, h2]
    refine ⟨_, List.mem_cons_self .., _, rfl, ?_⟩
    decide

/-- Two calls of `recv_udp` on one socket, one waiting while the other takes the first datagram; a long datagram is cut, a
short one followed by zeros. -/
def udpRun : List (Act Nat) :=
  [.forkUdp twice .done, .cloneUdp 0, .api (.new twice), .sendUdp 1 snd0 val7 bsA 0 true true,
   .sendUdp 1 ⟨⟨.snd 1, 1, true⟩, twice⟩ val8 bsB 0 true true,
   .recvUdp 2 rcv0 0 true, .recvUdp 3 ⟨⟨.rcv 1, 1, false⟩, .recv none 0 (.recv none 0 .fin)⟩ 0 true,
   .deliver 0 (bsC ++ bsC), .deliver 0 [1, 2, 3], .take 3, .take 2]

theorem udp_case : (after demoEnv udpRun).map (fun p => (takesUdp 0 p.1, (p.2.udp 0).arrived, (p.2.udp 0).sent, sendsUdp 0 p.1)) =
    some ([(bsC, 128), ([1, 2, 3] ++ List.replicate 125 0, 3)], [bsC ++ bsC, [1, 2, 3]], [bsA, bsB], [bsA, bsB]) := by decide +kernel

example : ∃ run st, Run demoEnv run st ∧ (takesUdp 0 run)[1]? = some ([1, 2, 3] ++ List.replicate 125 0, 3) ∧
    (st.udp 0).arrived[1]? = some [1, 2, 3] := by
  obtain ⟨run, st, h, hp⟩ := after_run udp_case
  simp only [Prod.mk.injEq] at hp
  exact ⟨run, st, h, by rw [hp.1]; rfl, by rw [hp.2.1]; rfl⟩

/-- **C55**, long datagrams: what does not fit is lost, and the number returned does not tell. -/
theorem C55_cut : ∃ run st, Run demoEnv run st ∧ (takesUdp 0 run)[0]? = some (bsC, 128) ∧
    ∃ d, (st.udp 0).arrived[0]? = some d ∧ d.length = 256 := by
  obtain ⟨run, st, h, hp⟩ := after_run udp_case
  simp only [Prod.mk.injEq] at hp
  exact ⟨run, st, h, by rw [hp.1]; rfl, _, by rw [hp.2.1]; rfl, by decide +kernel⟩

end Verif.Prop
