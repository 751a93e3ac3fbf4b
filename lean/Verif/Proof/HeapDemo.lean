import Verif.Proof.HeapFacts
/-!
# Concrete runs, used to show that the hypotheses of the theorems are met
-/
namespace Verif.Heap
open Verif.Types Verif.Spec

/-- Running a list of calls. -/
def runOps {P : Type} [DecidableEq P] (G : Env P) : List (Op P) → St P → Option (St P)
  | [], st => some st
  | op :: ops, st => match step G st op with
    | none => none
    | some (st', _) => runOps G ops st'

theorem runOps_steps {P : Type} [DecidableEq P] {G : Env P} : ∀ (ops : List (Op P)) (st0 st st' : St P), Steps G st0 st →
    runOps G ops st = some st' → Steps G st0 st' := by
  intro ops
  induction ops with
  | nil => intro st0 st st' hs h; cases h; exact hs
  | cons op ops ih =>
    intro st0 st st' hs h
    unfold runOps at h
    split at h
    · cases h
    · rename_i st1 o hst
      exact ih st0 st1 st' (hs.step hst) h

theorem runOps_reach {P : Type} [DecidableEq P] {G : Env P} {ops : List (Op P)} {st' : St P}
    (h : runOps G ops (init P) = some st') : Reach G st' :=
  steps_reach .init (runOps_steps ops _ _ _ (.refl _) h)

/-- Payload types of the demonstrations: `0` is plain data; `1` is a recursive `enum` whose variant 0 carries a
receiver of plain data followed by the same `enum`, and variant 1 an `End`; `2` carries a receiver of itself
and a sender of plain data. -/
def demoEnv : Env Nat
  | 0, _ => some []
  | 1, 0 => some [.recv none 0 (.recv none 1 .fin)]
  | 1, 1 => some [.fin]
  | 2, 0 => some [.recv none 2 .fin, .send none 0 .fin]
  | _, _ => none

/-- Two sends in a row on one session, then one receive. -/
def demoOps : List (Op Nat) :=
  [ .new (.send none 0 (.send none 0 .fin)),
    .send ⟨⟨.snd 0, 0, true⟩, .send none 0 (.send none 0 .fin)⟩ ⟨0, 7, []⟩,
    .send ⟨⟨.snd 1, 0, true⟩, .send none 0 .fin⟩ ⟨0, 8, []⟩,
    .recv ⟨⟨.rcv 0, 0, false⟩, .recv none 0 (.recv none 0 .fin)⟩ ]

/-- A state reached by `demoOps`: one message received, one in transit. -/
theorem demo_reach : ∃ st, Reach demoEnv st ∧
    st.pool = [⟨⟨.rcv 1, 0, false⟩, .recv none 0 .fin⟩, ⟨⟨.fin 2 3, 0, true⟩, .fin⟩] ∧
    pending st.trace 0 false = [(0, ⟨0, 8, []⟩)] ∧ st.garb = [] ∧
    st.trace = [.sent 0 true 0 ⟨0, 7, []⟩, .sent 0 true 0 ⟨0, 8, []⟩, .rcvd 0 false 0 ⟨0, 7, []⟩] := by
  refine ⟨_, runOps_reach (ops := demoOps) rfl, rfl, rfl, rfl, rfl⟩

/-- The same without the receive. -/
theorem demo_reach3 : ∃ st, Reach demoEnv st ∧
    st.pool = [⟨⟨.fin 2 3, 0, true⟩, .fin⟩, ⟨⟨.rcv 0, 0, false⟩, .recv none 0 (.recv none 0 .fin)⟩] := by
  refine ⟨_, runOps_reach (ops := demoOps.take 3) rfl, rfl⟩

end Verif.Heap
