import Verif.Spec.Transport
import Verif.Proof.HeapFacts
/-!
# Transports: the channels below, and the bytes of a connection
-/
namespace Verif.Transport
open Verif.Types Verif.Spec
open Verif.Heap (Val Entry EP Env Sig Reach)

variable {P : Type} [DecidableEq P] {G : Env P}

theorem dropAll_steps : ∀ (es : List (Entry P)) (h h' : Heap.St P), dropAll G h es = some h' → Heap.Steps G h h' := by
  intro es
  induction es with
  | nil => intro h h' hd; cases hd; exact .refl _
  | cons e es ih =>
    intro h h' hd
    unfold dropAll at hd
    split at hd
    · rename_i h1 o hs
      have := ih _ _ hd
      clear ih hd
      induction this with
      | refl => exact .step (.refl _) hs
      | step _ a b => exact b.step a
    · cases hd

theorem steps_trans' {a b c : Heap.St P} (h : Heap.Steps G a b) (h' : Heap.Steps G b c) : Heap.Steps G a c := by
  induction h' with
  | refl => exact h
  | step _ hs ih => exact ih.step hs

theorem chanSend_steps {h : Heap.St P} {e : Entry P} {x : Val} {data : List UInt8} {r : Heap.St P ⊕ Heap.St P × Entry P}
    (hs : chanSend G h e x data = some r) : Heap.Steps G h (match r with | .inl h' => h' | .inr p => p.1) := by
  unfold chanSend at hs
  split at hs
  · rename_i h1 hst
    split at hs
    · split at hs
      · cases hd : dropAll G h1 [‹_›] with
        | none => rw [hd] at hs; cases hs
        | some h2 =>
          rw [hd] at hs; cases hs
          exact steps_trans' (.step (.refl _) hst) (dropAll_steps _ _ _ hd)
      · cases hs; exact .step (.refl _) hst
    · cases hs
  · cases hs

theorem chanRecv_steps {h : Heap.St P} {e : Entry P} {r : Heap.St P ⊕ Heap.St P × Val × List (Entry P)}
    (hs : chanRecv G h e = some r) : Heap.Steps G h (match r with | .inl h' => h' | .inr p => p.1) := by
  unfold chanRecv at hs
  split at hs
  · cases hs; exact .step (.refl _) ‹_›
  · cases hs; exact .step (.refl _) ‹_›
  · cases hs

theorem map_some' {α β : Type} {o : Option α} {f : α → β} {b : β} (h : o.map f = some b) : ∃ a, o = some a ∧ f a = b := by
  cases o with
  | none => cases h
  | some a => exact ⟨a, rfl, Option.some.inj h⟩

/-- The channels make only steps of `src/binary`. -/
theorem step_heap {st st' : St P} {a : Act P} {r : Ret P} (hs : step G st a = some (st', r)) :
    Heap.Steps G st.heap st'.heap := by
  cases a with
  | api op =>
    simp only [step] at hs
    split at hs
    · obtain ⟨⟨h1, o⟩, h2, h3⟩ := map_some' hs
      cases h3; exact .step (.refl _) h2
    · cases hs
  | forkTcp s g =>
    simp only [step] at hs
    cases g with
    | connect => cases hs; exact .refl _
    | clone => cases hs; exact .refl _
    | spawn =>
      simp only [forkTcp] at hs
      split at hs
      · split at hs
        · obtain ⟨h2, hd, h3⟩ := map_some' hs
          cases h3
          exact steps_trans' (.step (.refl _) ‹_›) (dropAll_steps _ _ _ hd)
        · cases hs
      · cases hs
    | done =>
      simp only [forkTcp] at hs
      split at hs
      · split at hs
        · cases hs; exact .step (.refl _) ‹_›
        · cases hs
      · cases hs
  | forkUdp s g =>
    simp only [step] at hs
    cases g with
    | connect => cases hs; exact .refl _
    | clone => cases hs; exact .refl _
    | spawn =>
      simp only [forkUdp] at hs
      split at hs
      · split at hs
        · obtain ⟨h2, hd, h3⟩ := map_some' hs
          cases h3
          exact steps_trans' (.step (.refl _) ‹_›) (dropAll_steps _ _ _ hd)
        · cases hs
      · cases hs
    | done =>
      simp only [forkUdp] at hs
      split at hs
      · split at hs
        · cases hs; exact .step (.refl _) ‹_›
        · cases hs
      · cases hs
  | sendTcp t e x data c tcp =>
    simp only [step, sendTcp] at hs
    repeat' split at hs
    all_goals first | (cases hs; done) | skip
    all_goals
      cases hs
      exact chanSend_steps ‹_›
  | sendUdp t e x data u udp ok =>
    simp only [step, sendUdp] at hs
    split at hs
    · split at hs
      · cases hs; exact chanSend_steps ‹_›
      · split at hs
        · split at hs
          · cases hs; exact chanSend_steps ‹_›
          · obtain ⟨h2, hd, h3⟩ := map_some' hs
            cases h3
            have hc := chanSend_steps (G := G) (by assumption : chanSend G st.heap e x data = some _)
            exact steps_trans' hc (dropAll_steps _ _ _ hd)
        · cases hs; exact chanSend_steps ‹_›
      · cases hs
    · cases hs
  | recvTcp t e c tcp =>
    simp only [step, recvTcp] at hs
    repeat' split at hs
    all_goals first | (cases hs; done) | skip
    all_goals
      cases hs
      exact chanRecv_steps ‹_›
  | recvUdp t e c tcp =>
    simp only [step, recvUdp] at hs
    repeat' split at hs
    all_goals first | (cases hs; done) | skip
    all_goals
      cases hs
      exact chanRecv_steps ‹_›
  | write t n =>
    simp only [step, write] at hs
    repeat' split at hs
    all_goals first | (cases hs; done) | skip
    all_goals (cases hs; exact .refl _)
  | read t n =>
    simp only [step, read] at hs
    repeat' split at hs
    all_goals first | (cases hs; done) | skip
    all_goals (cases hs; exact .refl _)
  | take t =>
    simp only [step, take] at hs
    repeat' split at hs
    all_goals first | (cases hs; done) | skip
    all_goals (cases hs; exact .refl _)
  | writeErr t =>
    simp only [step, writeErr] at hs
    split at hs
    · obtain ⟨h2, hd, h3⟩ := map_some' hs
      cases h3; exact dropAll_steps _ _ _ hd
    · cases hs
  | readErr t =>
    simp only [step, readErr] at hs
    split at hs
    · obtain ⟨h2, hd, h3⟩ := map_some' hs
      cases h3; exact dropAll_steps _ _ _ hd
    · cases hs
  | takeErr t =>
    simp only [step, takeErr] at hs
    split at hs
    · obtain ⟨h2, hd, h3⟩ := map_some' hs
      cases h3; exact dropAll_steps _ _ _ hd
    · cases hs
  | readEnd t =>
    simp only [step, readEnd, readErr] at hs
    split at hs
    · split at hs
      · obtain ⟨h2, hd, h3⟩ := map_some' hs
        cases h3; exact dropAll_steps _ _ _ hd
      · cases hs
    · cases hs
  | closeTcp t e c tcp =>
    simp only [step, closeTcp] at hs
    split at hs
    · split at hs
      · cases hs; exact .step (.refl _) ‹_›
      · obtain ⟨h2, hd, h3⟩ := map_some' hs
        cases h3; exact steps_trans' (.step (.refl _) ‹_›) (dropAll_steps _ _ _ hd)
      · cases hs
    · cases hs
  | closeWait t b =>
    simp only [step, closeWait] at hs
    split at hs
    · split at hs
      · split at hs
        · cases hs
        · rename_i hd
          split at hs
          · obtain ⟨s2, _, h3⟩ := map_some' hs
            cases h3; exact steps_trans' (.step (.refl _) ‹_›) (dropAll_steps _ _ _ hd)
          · cases hs; exact steps_trans' (.step (.refl _) ‹_›) (dropAll_steps _ _ _ hd)
      · obtain ⟨h2, hd, h3⟩ := map_some' hs
        cases h3; exact steps_trans' (.step (.refl _) ‹_›) (dropAll_steps _ _ _ hd)
      · cases hs
    · cases hs
  | cancelTcp t e c b =>
    simp only [step, cancelTcp] at hs
    split at hs
    · split at hs
      · cases hs
      · rename_i hd
        obtain ⟨s2, _, h3⟩ := map_some' hs
        cases h3; exact dropAll_steps _ _ _ hd
    · cases hs
  | cancelUdp t e c =>
    simp only [step, cancelUdp] at hs
    split at hs
    · obtain ⟨h2, hd, h3⟩ := map_some' hs
      cases h3; exact dropAll_steps _ _ _ hd
    · cases hs
  | cloneTcp c => simp only [step] at hs; split at hs <;> cases hs; exact .refl _
  | dropTcp c => simp only [step] at hs; split at hs <;> cases hs; exact .refl _
  | cloneUdp c => simp only [step] at hs; split at hs <;> cases hs; exact .refl _
  | dropUdp c => simp only [step] at hs; split at hs <;> cases hs; exact .refl _
  | arrive c bs => simp only [step] at hs; split at hs <;> cases hs; exact .refl _
  | finish c => simp only [step] at hs; split at hs <;> cases hs; exact .refl _
  | reset c => simp only [step] at hs; split at hs <;> cases hs; exact .refl _
  | deliver u d => simp only [step] at hs; split at hs <;> cases hs; exact .refl _

theorem run_reach {run : List (Act P × Ret P)} {st : St P} (h : Run G run st) : Reach G st.heap := by
  induction h with
  | init => exact .init
  | snoc _ hs ih => exact Heap.steps_reach ih (step_heap hs)

end Verif.Transport
