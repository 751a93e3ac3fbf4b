import Verif.Prop.C56
import Verif.Prop.C55_Cases
/-!
# C56: concrete runs
-/
namespace Verif.Prop
open Verif.Types Verif.Spec Verif.Transport
open Verif.Heap (Val Entry EP Env Sig Reach Ev Out Op Tok cnt demoEnv)

/-- **C56**, `Err` does not mean "not sent": the write fails after 100 bytes, `send_tcp` returns `Err`, and the partner receives
the value. -/
def failedRun : List (Act Nat) :=
  [.forkTcp twice .done, .sendTcp 1 snd0 val7 bsA 0 true, .write 1 100, .reset 0, .writeErr 1, .recvTcp 2 rcv0 0 false]

theorem failed_case : (after demoEnv failedRun).map (fun p => (p.1.map (·.2), (p.2.tcp 0).sent)) =
    some ([.okFork snd0 rcv0 0, .waits, .waits, .none, .err, .okRecv val7 [rcv1] zeros], bsA.take 100) := by decide +kernel

theorem C56_err_delivered : ∃ st, Run demoEnv (failedRun.zip [.okFork snd0 rcv0 0, .waits, .waits, .none, .err, .okRecv val7 [rcv1] zeros]) st ∧
    (st.tcp 0).sent = bsA.take 100 := after_rets (f := fun st => (st.tcp 0).sent) failed_case

/-- **C56**, negation: `cancel_tcp` ("Always succeeds", `/repo/src/transport/tcp/cancel.rs`) panics when the other end of the session has
been cancelled before it through its own clone and the server has finished. -/
def cancelRun : List (Act Nat) :=
  [.forkTcp twice .done, .cancelTcp 1 snd0 0 true, .finish 0, .cancelTcp 2 rcv0 0 false]

theorem cancel_case : (after demoEnv cancelRun).map (fun p => (p.1.map (·.2), (p.2.tcp 0).broken)) =
    some ([.okFork snd0 rcv0 0, .ok, .none, .panic], false) := by decide +kernel

theorem C56_cancel_panics : ∃ st, Run demoEnv (cancelRun.zip [.okFork snd0 rcv0 0, .ok, .none, .panic]) st ∧
    (st.tcp 0).broken = false := after_rets (f := fun st => (st.tcp 0).broken) cancel_case

abbrev endA : Entry Nat := ⟨⟨.fin 0 1, 0, true⟩, .fin⟩
abbrev endB : Entry Nat := ⟨⟨.fin 1 0, 0, false⟩, .fin⟩

/-- **C56**, negation: `close_tcp` returns `Ok` although the partner has not closed but sent `Cancel`; `close`
(`/repo/src/binary/close.rs`) panics then. -/
def closeRun : List (Act Nat) :=
  [.forkTcp .fin .done, .closeTcp 1 endA 0 true, .api (.sigSend endB .cancel), .closeWait 1 true]

theorem close_case : (after demoEnv closeRun).map (fun p => (p.1.map (·.2), (p.2.tcp 0).shut)) =
    some ([.okFork endA endB 0, .waits, .api .unit, .ok], true) := by decide +kernel

theorem C56_close_cancelled : ∃ st, Run demoEnv (closeRun.zip [.okFork endA endB 0, .waits, .api .unit, .ok]) st ∧
    (st.tcp 0).shut = true := after_rets (f := fun st => (st.tcp 0).shut) close_case

/-- Both ends close: one connection, shut down twice. -/
def closeBoth : List (Act Nat) :=
  [.forkTcp .fin .done, .closeTcp 1 endA 0 true, .closeTcp 2 endB 0 true, .closeWait 2 true, .finish 0, .closeWait 1 false]

theorem both_case : (after demoEnv closeBoth).map (fun p => (p.1.map (·.2), (p.2.tcp 0).shut)) =
    some ([.okFork endA endB 0, .waits, .waits, .ok, .none, .ok], true) := by decide +kernel

/-- The partner is gone: `close_tcp` returns `Err` and leaves the connection open. -/
def closeGone : List (Act Nat) :=
  [.forkTcp .fin .done, .closeTcp 1 endA 0 true, .api (.drop endB), .api (.gc 0), .api (.gc 0), .api (.gc 0), .closeWait 1 true]

theorem gone_case : (after demoEnv closeGone).map (fun p => (p.1.map (·.2), (p.2.tcp 0).shut)) =
    some ([.okFork endA endB 0, .waits, .api .unit, .api .unit, .api .unit, .api .unit, .err], false) := by decide +kernel

/-- The partner is gone: `send_tcp` panics and writes nothing. -/
def sendGone : List (Act Nat) :=
  [.forkTcp twice .done, .api (.drop rcv0), .api (.gc 0), .api (.gc 0), .sendTcp 1 snd0 val7 bsA 0 true]

theorem sendGone_case : (after demoEnv sendGone).map (fun p => (p.1.map (·.2), (p.2.tcp 0).sent)) =
    some ([.okFork snd0 rcv0 0, .api .unit, .api .unit, .api .unit, .panic], []) := by decide +kernel

/-- A delegated endpoint is lost with a failed read: the connection is at its end after 60 bytes.  Payload type `1`, variant 0. -/
abbrev delegS : Entry Nat := ⟨⟨.snd 0, 0, true⟩, .send none 1 .fin⟩
abbrev delegR : Entry Nat := ⟨⟨.rcv 0, 0, false⟩, .recv none 1 .fin⟩

def lostEp : List (Act Nat) :=
  [.forkTcp (.send none 1 .fin) .done, .api (.new (.recv none 0 (.recv none 1 .fin))),
   .sendTcp 1 delegS ⟨0, 5, [⟨.rcv 1, 1, true⟩]⟩ bsA 0 false,
   .arrive 0 (bsA.take 60), .finish 0, .recvTcp 2 delegR 0 true, .read 2 60, .readEnd 2]

theorem lostEp_case : (after demoEnv lostEp).map (fun p => (p.1.map (·.2), p.2.heap.pool)) =
    some ([.okFork delegS delegR 0, .api .unit, .okSend ⟨⟨.fin 2 3, 0, true⟩, .fin⟩, .none, .none, .waits, .waits, .err],
      [⟨⟨.fin 2 3, 0, true⟩, .fin⟩, ⟨⟨.snd 1, 1, false⟩, .send none 0 (.send none 1 .fin)⟩]) := by decide +kernel

/-- The hypotheses of `C56_failed_read` are met with endpoints to lose. -/
example : ∃ run st st', Run demoEnv run st ∧ step demoEnv st (.readEnd 2) = some (st', .err) ∧
    ∃ c buf x es, st.thr 2 = .reading c buf x es ∧ es.length = 2 := by
  have hc : (after demoEnv lostEp.dropLast).map (fun p => ((step demoEnv p.2 (.readEnd 2)).map (·.2), p.2.thr 2)) =
      some (some .err, .reading 0 (bsA.take 60) ⟨0, 5, [⟨.rcv 1, 1, true⟩]⟩
        [⟨⟨.rcv 1, 1, true⟩, .recv none 0 (.recv none 1 .fin)⟩, ⟨⟨.fin 3 2, 0, false⟩, .fin⟩]) := by decide +kernel
  obtain ⟨run, st, hr, hf⟩ := after_run hc
  simp only [Prod.mk.injEq] at hf
  obtain ⟨p, hp, he⟩ := Option.map_eq_some_iff.mp hf.1
  exact ⟨run, st, p.1, hr, by rw [hp, ← he], _, _, _, _, hf.2, rfl⟩

/-- The hypotheses of `C56_closed` are met, with a call under way when the connection is shut down by the other end. -/
def shutRun : List (Act Nat) := [.forkTcp twice .done, .sendTcp 1 snd0 val7 bsA 0 true, .write 1 100, .cancelTcp 2 rcv0 0 true]

example : ∃ run st, Run demoEnv run st ∧ 0 < st.ntcp ∧ (st.tcp 0).shut = true ∧ sendsOn 0 run = [⟨1, bsA, none⟩] ∧
    ∃ more st', Run demoEnv (run ++ more) st' ∧ more ≠ [] := by
  have hc : (after demoEnv shutRun).map (fun p => ((p.2.ntcp, (p.2.tcp 0).shut, sendsOn 0 p.1), (step demoEnv p.2 (.writeErr 1)).isSome)) =
      some ((1, true, [⟨1, bsA, none⟩]), true) := by decide +kernel
  obtain ⟨run, st, hr, hf⟩ := after_run hc
  simp only [Prod.mk.injEq] at hf
  obtain ⟨p, hp⟩ := Option.isSome_iff_exists.mp hf.2
  exact ⟨run, st, hr, by rw [hf.1.1]; decide, hf.1.2.1, hf.1.2.2, [_], p.1, .snoc hr hp, by simp⟩

/-- `choose_tcp!` and `offer_tcp!` on a recursive `enum`; an arm is missing in the second. -/
example : ∃ st st1 here, Reach demoEnv st ∧
    ChoosesNet demoEnv ⟨⟨.snd 0, 0, true⟩, .send none 1 .fin⟩ 0 (.send none 0 (.send none 1 .fin)) st here st1 ∧
    demoEnv 1 0 = some [(STy.send none 0 (.send none 1 .fin)).dual] ∧
    ⟨⟨.rcv 0, 0, false⟩, .recv none 1 .fin⟩ ∈ st1.pool ∧
    (∃ there st2, OffersNet demoEnv (fun _ => true) ⟨⟨.rcv 0, 0, false⟩, .recv none 1 .fin⟩ st1 (.arm 0 there) st2) ∧
    ∃ st2, OffersNet demoEnv (fun k => k == 1) ⟨⟨.rcv 0, 0, false⟩, .recv none 1 .fin⟩ st1 .panic st2 := by
  exact ⟨_, _, ⟨.snd 1, 1, true⟩, Heap.runOps_reach (ops := [.new (.send none 1 .fin)]) rfl,
    .mk (there := ⟨.rcv 1, 1, false⟩) (d := 9) rfl rfl (.refl _) rfl rfl (.refl _) rfl (.refl _), rfl, by decide,
    ⟨⟨.rcv 1, 1, false⟩, _, (.got (v := ⟨0, 9, [⟨.rcv 1, 1, false⟩]⟩) (k := ⟨.fin 3 2, 0, false⟩) rfl rfl (by decide) (.refl _) rfl)⟩,
    _, (.got (v := ⟨0, 9, [⟨.rcv 1, 1, false⟩]⟩) (k := ⟨.fin 3 2, 0, false⟩) rfl rfl (by decide) (.refl _) rfl)⟩

end Verif.Prop
