import Verif.Proof.Transport
import Verif.Proof.TransportShare
/-!
# Transports: bytes written to a connection
-/
namespace Verif.Transport
open Verif.Types Verif.Spec
open Verif.Heap (Val Entry EP Env Sig Reach)

variable {P : Type} [DecidableEq P] {G : Env P}

/-- The stream a thread is using. -/
def onTcp : Call P → Option Nat
  | .writing c _ _ => some c
  | .reading c _ _ _ => some c
  | .closing c _ _ => some c
  | _ => none

/-- Streams that do not exist yet are not used. -/
structure Fresh (st : St P) : Prop where
  none : ∀ c, st.ntcp ≤ c → st.tcp c = noStream
  used : ∀ t c, onTcp (st.thr t) = some c → c < st.ntcp

theorem idle_of {st : St P} {t : Nat} (h : isIdle st t = true) : st.thr t = .idle := by
  unfold isIdle at h
  split at h
  · assumption
  · cases h

theorem Fresh.lt {st : St P} (h : Fresh st) {c : Nat} (hf : 0 < (st.tcp c).free) : c < st.ntcp := by
  refine Nat.lt_of_not_le fun hle => ?_
  rw [h.none c hle] at hf
  exact absurd hf (by decide)

theorem upd_same {α : Type} {f : Nat → α} {c : Nat} {x : α} : Heap.upd f c x c = x := by simp [Heap.upd]

theorem upd_ne {α : Type} {f : Nat → α} {c d : Nat} {x : α} (h : d ≠ c) : Heap.upd f c x d = f d := by simp [Heap.upd, h]

/-- Streams below `ntcp` may change, threads may enter calls on such streams. -/
theorem Fresh.mk' {st st' : St P} (h : Fresh st) (hn : st.ntcp ≤ st'.ntcp)
    (ht : ∀ c, st'.ntcp ≤ c → st'.tcp c = st.tcp c)
    (hu : ∀ t c, onTcp (st'.thr t) = some c → onTcp (st.thr t) = some c ∨ c < st'.ntcp) : Fresh st' where
  none := fun c hc => by rw [ht c hc]; exact h.none c (Nat.le_trans hn hc)
  used := fun t c hc => by
    rcases hu t c hc with h1 | h1
    · exact Nat.lt_of_lt_of_le (h.used t c h1) hn
    · exact h1

theorem upd_high {st : St P} {c : Nat} {f : Stream → Stream} (h : c < st.ntcp) :
    ∀ d, st.ntcp ≤ d → (setTcp st c f).tcp d = st.tcp d := by
  intro d hd
  have : d ≠ c := by omega
  simp [setTcp, Heap.upd, this]

theorem high {st : St P} {c : Nat} (h : c < st.ntcp) {f : Nat → Stream} (hf : ∀ d, d ≠ c → f d = st.tcp d) :
    ∀ d, st.ntcp ≤ d → f d = st.tcp d := fun d hd => hf d (by omega)

theorem enter_used {st : St P} {t c : Nat} {k : Call P} (hk : onTcp k = some c) (hc : c < st.ntcp) :
    ∀ t' c', onTcp (Heap.upd st.thr t k t') = some c' → onTcp (st.thr t') = some c' ∨ c' < st.ntcp := by
  intro t' c' h
  by_cases e : t' = t
  · subst e; rw [upd_same, hk] at h; cases h; exact Or.inr hc
  · rw [upd_ne e] at h; exact Or.inl h

theorem leave_used {st : St P} {t : Nat} {k : Call P} (hk : onTcp k = none) :
    ∀ t' c', onTcp (Heap.upd st.thr t k t') = some c' → onTcp (st.thr t') = some c' ∨ c' < st.ntcp := by
  intro t' c' h
  by_cases e : t' = t
  · subst e; rw [upd_same, hk] at h; cases h
  · rw [upd_ne e] at h; exact Or.inl h

theorem fresh_step {st st' : St P} {a : Act P} {r : Ret P} (h : Fresh st) (hs : step G st a = some (st', r)) :
    Fresh st' := by
  cases a with
  | api op =>
    simp only [step] at hs
    split at hs
    · obtain ⟨⟨h1, o⟩, h2, h3⟩ := map_some' hs
      cases h3; exact h.mk' (Nat.le_refl _) (fun _ _ => rfl) fun _ _ => Or.inl
    · cases hs
  | forkTcp s g =>
    simp only [step] at hs
    cases g with
    | connect => cases hs; exact h
    | clone => cases hs; exact h.mk' (Nat.le_succ _) (fun _ _ => rfl) fun _ _ => Or.inl
    | spawn =>
      simp only [forkTcp] at hs
      split at hs
      · split at hs
        · obtain ⟨h2, hd, h3⟩ := map_some' hs
          cases h3
          exact h.mk' (Nat.le_succ _) (fun _ _ => rfl) fun _ _ => Or.inl
        · cases hs
      · cases hs
    | done =>
      simp only [forkTcp] at hs
      split at hs
      · split at hs
        · cases hs
          refine h.mk' (Nat.le_succ _) (fun c hc => ?_) fun _ _ => Or.inl
          exact upd_high (st := { st with heap := _, ntcp := st.ntcp + 1 }) (Nat.lt_succ_self _) c hc
        · cases hs
      · cases hs
  | forkUdp s g =>
    simp only [step] at hs
    cases g with
    | connect => cases hs; exact h
    | clone => cases hs; exact h.mk' (Nat.le_refl _) (fun _ _ => rfl) fun _ _ => Or.inl
    | spawn =>
      simp only [forkUdp] at hs
      split at hs
      · split at hs
        · obtain ⟨h2, hd, h3⟩ := map_some' hs
          cases h3
          exact h.mk' (Nat.le_refl _) (fun _ _ => rfl) fun _ _ => Or.inl
        · cases hs
      · cases hs
    | done =>
      simp only [forkUdp] at hs
      split at hs
      · split at hs
        · cases hs
          exact h.mk' (Nat.le_refl _) (fun c hc => rfl) fun _ _ => Or.inl
        · cases hs
      · cases hs
  | sendTcp t e x data c tcp =>
    simp only [step, sendTcp] at hs
    split at hs
    · rename_i hg
      simp only [Bool.and_eq_true, decide_eq_true_eq] at hg
      have hc := h.lt hg.1.2
      repeat' split at hs
      all_goals first | (cases hs; done) | skip
      all_goals cases hs
      · exact h.mk' (Nat.le_refl _) (high hc fun d hd => by simp [enter, takeTcp, setTcp, Heap.upd, hd]) fun _ _ => Or.inl
      · exact h.mk' (Nat.le_refl _) (high hc fun d hd => by simp [enter, takeTcp, setTcp, Heap.upd, hd]) (enter_used rfl hc)
      · exact h.mk' (Nat.le_refl _) (fun _ _ => rfl) fun _ _ => Or.inl
    · cases hs
  | sendUdp t e x data u udp ok =>
    simp only [step, sendUdp] at hs
    split at hs
    · split at hs
      · cases hs; exact h.mk' (Nat.le_refl _) (fun _ _ => rfl) fun _ _ => Or.inl
      · split at hs
        · split at hs
          · cases hs; exact h.mk' (Nat.le_refl _) (fun _ _ => rfl) fun _ _ => Or.inl
          · obtain ⟨h2, hd, h3⟩ := map_some' hs
            cases h3; exact h.mk' (Nat.le_refl _) (fun _ _ => rfl) fun _ _ => Or.inl
        · cases hs; exact h.mk' (Nat.le_refl _) (fun _ _ => rfl) fun _ _ => Or.inl
      · cases hs
    · cases hs
  | recvTcp t e c tcp =>
    simp only [step, recvTcp] at hs
    split at hs
    · rename_i hg
      simp only [Bool.and_eq_true, decide_eq_true_eq] at hg
      have hc := h.lt hg.1.2
      repeat' split at hs
      all_goals first | (cases hs; done) | skip
      all_goals cases hs
      · exact h.mk' (Nat.le_refl _) (high hc fun d hd => by simp [enter, takeTcp, setTcp, Heap.upd, hd]) fun _ _ => Or.inl
      · exact h.mk' (Nat.le_refl _) (high hc fun d hd => by simp [enter, takeTcp, setTcp, Heap.upd, hd]) (enter_used rfl hc)
      · exact h.mk' (Nat.le_refl _) (fun _ _ => rfl) fun _ _ => Or.inl
    · cases hs
  | recvUdp t e c tcp =>
    simp only [step, recvUdp] at hs
    split at hs
    · repeat' split at hs
      all_goals first | (cases hs; done) | skip
      all_goals cases hs
      · exact h.mk' (Nat.le_refl _) (fun _ _ => rfl) fun _ _ => Or.inl
      · exact h.mk' (Nat.le_refl _) (fun _ _ => rfl) (leave_used rfl)
      · exact h.mk' (Nat.le_refl _) (fun _ _ => rfl) fun _ _ => Or.inl
    · cases hs
  | write t n =>
    simp only [step, write] at hs
    split at hs
    · rename_i c rest here ht
      have hc : c < st.ntcp := h.used t c (by rw [ht]; rfl)
      repeat' split at hs
      all_goals first | (cases hs; done) | skip
      all_goals cases hs
      · exact h.mk' (Nat.le_refl _) (high hc fun d hd => by simp [giveTcp, leave, setTcp, Heap.upd, hd]) (leave_used rfl)
      · exact h.mk' (Nat.le_refl _) (high hc fun d hd => by simp [setTcp, Heap.upd, hd]) (enter_used rfl hc)
    · cases hs
  | read t n =>
    simp only [step, read] at hs
    split at hs
    · rename_i c rest x es ht
      have hc : c < st.ntcp := h.used t c (by rw [ht]; rfl)
      repeat' split at hs
      all_goals first | (cases hs; done) | skip
      all_goals cases hs
      · exact h.mk' (Nat.le_refl _) (high hc fun d hd => by simp [giveTcp, leave, setTcp, Heap.upd, hd]) (leave_used rfl)
      · exact h.mk' (Nat.le_refl _) (high hc fun d hd => by simp [setTcp, Heap.upd, hd]) (enter_used rfl hc)
    · cases hs
  | take t =>
    simp only [step, take] at hs
    repeat' split at hs
    all_goals first | (cases hs; done) | skip
    all_goals (cases hs; exact h.mk' (Nat.le_refl _) (fun _ _ => rfl) (leave_used rfl))
  | writeErr t =>
    simp only [step, writeErr] at hs
    split at hs
    · obtain ⟨h2, hd, h3⟩ := map_some' hs
      cases h3; exact h.mk' (Nat.le_refl _) (fun _ _ => rfl) (leave_used rfl)
    · cases hs
  | readErr t =>
    simp only [step, readErr] at hs
    split at hs
    · obtain ⟨h2, hd, h3⟩ := map_some' hs
      cases h3; exact h.mk' (Nat.le_refl _) (fun _ _ => rfl) (leave_used rfl)
    · cases hs
  | takeErr t =>
    simp only [step, takeErr] at hs
    split at hs
    · obtain ⟨h2, hd, h3⟩ := map_some' hs
      cases h3; exact h.mk' (Nat.le_refl _) (fun _ _ => rfl) (leave_used rfl)
    · cases hs
  | readEnd t =>
    simp only [step, readEnd, readErr] at hs
    split at hs
    · split at hs
      · obtain ⟨h2, hd, h3⟩ := map_some' hs
        cases h3; exact h.mk' (Nat.le_refl _) (fun _ _ => rfl) (leave_used rfl)
      · cases hs
    · cases hs
  | closeTcp t e c tcp =>
    simp only [step, closeTcp] at hs
    split at hs
    · rename_i hg
      simp only [Bool.and_eq_true, decide_eq_true_eq] at hg
      have hc := h.lt hg.1.2
      split at hs
      · cases hs
        exact h.mk' (Nat.le_refl _) (high hc fun d hd => by simp [enter, takeTcp, setTcp, Heap.upd, hd]) (enter_used rfl hc)
      · obtain ⟨h2, hd, h3⟩ := map_some' hs
        cases h3; exact h.mk' (Nat.le_refl _) (high hc fun d hd => by simp [enter, takeTcp, setTcp, Heap.upd, hd]) fun _ _ => Or.inl
      · cases hs
    · cases hs
  | closeWait t b =>
    simp only [step, closeWait] at hs
    split at hs
    · rename_i c tcp e ht
      have hc : c < st.ntcp := h.used t c (by rw [ht]; rfl)
      split at hs
      · split at hs
        · cases hs
        · rename_i hd
          split at hs
          · obtain ⟨s2, _, h3⟩ := map_some' hs
            cases h3
            exact h.mk' (Nat.le_refl _) (high hc fun d hd => by simp [leave, setTcp, Heap.upd, hd]) (leave_used rfl)
          · cases hs; exact h.mk' (Nat.le_refl _) (fun _ _ => rfl) (leave_used rfl)
      · obtain ⟨h2, hd, h3⟩ := map_some' hs
        cases h3; exact h.mk' (Nat.le_refl _) (fun _ _ => rfl) (leave_used rfl)
      · cases hs
    · cases hs
  | cancelTcp t e c b =>
    simp only [step, cancelTcp] at hs
    split at hs
    · rename_i hg
      simp only [Bool.and_eq_true, decide_eq_true_eq] at hg
      have hc := h.lt hg.1.2
      split at hs
      · cases hs
      · rename_i hd
        obtain ⟨s2, _, h3⟩ := map_some' hs
        cases h3
        refine h.mk' (Nat.le_refl _) (fun d hd => ?_) fun _ _ => Or.inl
        have : d ≠ c := by simp only [takeTcp, setTcp] at hd; omega
        simp [takeTcp, setTcp, Heap.upd, this]
    · cases hs
  | cancelUdp t e c =>
    simp only [step, cancelUdp] at hs
    split at hs
    · obtain ⟨h2, hd, h3⟩ := map_some' hs
      cases h3; exact h.mk' (Nat.le_refl _) (fun _ _ => rfl) fun _ _ => Or.inl
    · cases hs
  | cloneTcp c =>
    simp only [step] at hs; split at hs <;> cases hs
    exact h.mk' (Nat.le_refl _) (upd_high (h.lt ‹_›)) fun _ _ => Or.inl
  | dropTcp c =>
    simp only [step] at hs; split at hs <;> cases hs
    exact h.mk' (Nat.le_refl _) (upd_high (h.lt ‹_›)) fun _ _ => Or.inl
  | cloneUdp c =>
    simp only [step] at hs; split at hs <;> cases hs
    exact h.mk' (Nat.le_refl _) (fun _ _ => rfl) fun _ _ => Or.inl
  | dropUdp c =>
    simp only [step] at hs; split at hs <;> cases hs
    exact h.mk' (Nat.le_refl _) (fun _ _ => rfl) fun _ _ => Or.inl
  | arrive c bs =>
    simp only [step] at hs; split at hs <;> cases hs
    rename_i hg
    exact h.mk' (Nat.le_refl _) (upd_high hg.1) fun _ _ => Or.inl
  | finish c =>
    simp only [step] at hs; split at hs <;> cases hs
    exact h.mk' (Nat.le_refl _) (upd_high ‹_›) fun _ _ => Or.inl
  | reset c =>
    simp only [step] at hs; split at hs <;> cases hs
    exact h.mk' (Nat.le_refl _) (upd_high ‹_›) fun _ _ => Or.inl
  | deliver u d =>
    simp only [step] at hs; split at hs <;> cases hs
    exact h.mk' (Nat.le_refl _) (fun _ _ => rfl) fun _ _ => Or.inl

theorem run_fresh {run : List (Act P × Ret P)} {st : St P} (h : Run G run st) : Fresh st := by
  induction h with
  | init => exact ⟨fun _ _ => rfl, fun _ _ h => by cases h⟩
  | snoc _ hs ih => exact fresh_step ih hs

/-- What a thread is writing. -/
def wr : Call P → Option (Nat × List UInt8)
  | .writing c rest _ => some (c, rest)
  | _ => none

/-- What a step does to the bytes written. -/
inductive SendCase (st st' : St P) (a : Act P) (r : Ret P) : Prop
  | quiet : (∀ t, wr (st'.thr t) = wr (st.thr t)) → (∀ c, (st'.tcp c).sent = (st.tcp c).sent) →
      (∀ c us, sendUse c us (a, r) = us) → SendCase st st' a r
  | start {t e x data c} : a = .sendTcp t e x data c true → r = .waits → st.thr t = .idle → data.length = size →
      (∀ t', wr (st'.thr t') = if t' = t then some (c, data) else wr (st.thr t')) →
      (∀ c, (st'.tcp c).sent = (st.tcp c).sent) → SendCase st st' a r
  | some {t n c rest} : a = .write t n → r = .waits → wr (st.thr t) = some (c, rest) → n < rest.length →
      (∀ t', wr (st'.thr t') = if t' = t then some (c, rest.drop n) else wr (st.thr t')) →
      (∀ d, (st'.tcp d).sent = if d = c then (st.tcp c).sent ++ rest.take n else (st.tcp d).sent) → SendCase st st' a r
  | last {t n c rest here} : a = .write t n → r = .okSend here → wr (st.thr t) = some (c, rest) →
      (∀ t', wr (st'.thr t') = if t' = t then none else wr (st.thr t')) →
      (∀ d, (st'.tcp d).sent = if d = c then (st.tcp c).sent ++ rest else (st.tcp d).sent) → SendCase st st' a r
  | fail {t c rest} : a = .writeErr t → r = .err → wr (st.thr t) = some (c, rest) →
      (∀ t', wr (st'.thr t') = if t' = t then none else wr (st.thr t')) →
      (∀ c, (st'.tcp c).sent = (st.tcp c).sent) → SendCase st st' a r

theorem wr_upd {f : Nat → Call P} {t : Nat} {k : Call P} (h : wr k = wr (f t)) : ∀ t', wr (Heap.upd f t k t') = wr (f t') := by
  intro t'
  by_cases e : t' = t
  · subst e; rw [upd_same, h]
  · rw [upd_ne e]

theorem wr_upd' {f : Nat → Call P} {t : Nat} {k : Call P} :
    ∀ t', wr (Heap.upd f t k t') = if t' = t then wr k else wr (f t') := by
  intro t'
  by_cases e : t' = t
  · subst e; rw [upd_same, if_pos rfl]
  · rw [upd_ne e, if_neg e]

/-- A change of a stream that keeps the bytes sent. -/
theorem sent_upd {f : Nat → Stream} {c : Nat} {s : Stream} (h : s.sent = (f c).sent) :
    ∀ d, (Heap.upd f c s d).sent = (f d).sent := by
  intro d
  by_cases e : d = c
  · subst e; rw [upd_same, h]
  · rw [upd_ne e]

theorem shutdown_sent {s s' : Stream} {b : Bool} (h : shutdown s b = some s') : s'.sent = s.sent := by
  unfold shutdown at h
  repeat' split at h
  all_goals cases h <;> rfl

theorem send_cases {st st' : St P} {a : Act P} {r : Ret P} (hF : Fresh st) (hs : step G st a = some (st', r)) :
    SendCase st st' a r := by
  cases a with
  | api op =>
    simp only [step] at hs
    split at hs
    · obtain ⟨⟨h1, o⟩, h2, h3⟩ := map_some' hs
      cases h3; exact .quiet (fun _ => rfl) (fun _ => rfl) fun _ _ => rfl
    · cases hs
  | forkTcp s g =>
    simp only [step] at hs
    cases g with
    | connect => cases hs; exact .quiet (fun _ => rfl) (fun _ => rfl) fun _ _ => rfl
    | clone => cases hs; exact .quiet (fun _ => rfl) (fun _ => rfl) fun _ _ => rfl
    | spawn =>
      simp only [forkTcp] at hs
      split at hs
      · split at hs
        · obtain ⟨h2, hd, h3⟩ := map_some' hs
          cases h3
          exact .quiet (fun _ => rfl) (fun _ => rfl) fun _ _ => rfl
        · cases hs
      · cases hs
    | done =>
      simp only [forkTcp] at hs
      split at hs
      · split at hs
        · cases hs
          refine .quiet (fun _ => rfl) (sent_upd ?_) fun _ _ => rfl
          rw [hF.none _ (Nat.le_refl _)]
        · cases hs
      · cases hs
  | forkUdp s g =>
    simp only [step] at hs
    cases g with
    | connect => cases hs; exact .quiet (fun _ => rfl) (fun _ => rfl) fun _ _ => rfl
    | clone => cases hs; exact .quiet (fun _ => rfl) (fun _ => rfl) fun _ _ => rfl
    | spawn =>
      simp only [forkUdp] at hs
      split at hs
      · split at hs
        · obtain ⟨h2, hd, h3⟩ := map_some' hs
          cases h3
          exact .quiet (fun _ => rfl) (fun _ => rfl) fun _ _ => rfl
        · cases hs
      · cases hs
    | done =>
      simp only [forkUdp] at hs
      split at hs
      · split at hs
        · cases hs
          exact .quiet (fun _ => rfl) (fun _ => rfl) fun _ _ => rfl
        · cases hs
      · cases hs
  | sendTcp t e x data c tcp =>
    simp only [step, sendTcp] at hs
    split at hs
    · rename_i hg
      simp only [Bool.and_eq_true, decide_eq_true_eq, beq_iff_eq] at hg
      have hi := idle_of hg.1.1.1
      split at hs
      · cases hs
        refine .quiet (fun _ => rfl) (sent_upd rfl) fun c us => ?_
        cases tcp <;> rfl
      · split at hs
        · rename_i htcp
          cases hs
          subst htcp
          exact .start rfl rfl hi hg.1.1.2 (fun t' => wr_upd' t') (sent_upd rfl)
        · cases hs
          refine .quiet (fun _ => rfl) (fun _ => rfl) fun c us => ?_
          cases tcp <;> rfl
      · cases hs
    · cases hs
  | sendUdp t e x data u udp ok =>
    simp only [step, sendUdp] at hs
    split at hs
    · split at hs
      · cases hs; exact .quiet (fun _ => rfl) (fun _ => rfl) fun _ _ => rfl
      · split at hs
        · split at hs
          · cases hs; exact .quiet (fun _ => rfl) (fun _ => rfl) fun _ _ => rfl
          · obtain ⟨h2, hd, h3⟩ := map_some' hs
            cases h3; exact .quiet (fun _ => rfl) (fun _ => rfl) fun _ _ => rfl
        · cases hs; exact .quiet (fun _ => rfl) (fun _ => rfl) fun _ _ => rfl
      · cases hs
    · cases hs
  | recvTcp t e c tcp =>
    simp only [step, recvTcp] at hs
    split at hs
    · rename_i hg
      simp only [Bool.and_eq_true, decide_eq_true_eq] at hg
      have hi := idle_of hg.1.1
      split at hs
      · cases hs
        exact .quiet (fun _ => rfl) (sent_upd rfl) fun c us => rfl
      · split at hs
        · cases hs
          exact .quiet (wr_upd (by rw [takeTcp, setTcp, hi]; rfl)) (sent_upd rfl) fun c us => rfl
        · cases hs
          exact .quiet (fun _ => rfl) (fun _ => rfl) fun c us => rfl
      · cases hs
    · cases hs
  | recvUdp t e c tcp =>
    simp only [step, recvUdp] at hs
    split at hs
    · rename_i hg
      simp only [Bool.and_eq_true, decide_eq_true_eq] at hg
      have hi := idle_of hg.1.1
      repeat' split at hs
      all_goals first | (cases hs; done) | skip
      all_goals cases hs
      · exact .quiet (fun _ => rfl) (fun _ => rfl) fun _ _ => rfl
      · exact .quiet (wr_upd (by rw [takeUdp, setUdp, hi]; rfl)) (fun _ => rfl) fun _ _ => rfl
      · exact .quiet (fun _ => rfl) (fun _ => rfl) fun _ _ => rfl
    · cases hs
  | write t n =>
    simp only [step, write] at hs
    split at hs
    · rename_i c rest here ht
      split at hs
      · rename_i hg
        split at hs
        · cases hs
          subst n
          refine .last rfl rfl (by rw [ht]; rfl) (fun t' => wr_upd' t') fun d => ?_
          by_cases e : d = c
          · subst e; simp [giveTcp, leave, setTcp, Heap.upd]
          · simp [giveTcp, leave, setTcp, Heap.upd, e]
        · cases hs
          refine .some rfl rfl (by rw [ht]; rfl) (by omega) (fun t' => wr_upd' t') fun d => ?_
          by_cases e : d = c
          · subst e; simp [setTcp, Heap.upd]
          · simp [setTcp, Heap.upd, e]
      · cases hs
    · cases hs
  | read t n =>
    simp only [step, read] at hs
    split at hs
    · rename_i c rest x es ht
      repeat' split at hs
      all_goals first | (cases hs; done) | skip
      all_goals cases hs
      · refine .quiet (wr_upd (by show _ = wr (st.thr t); rw [ht]; rfl)) (fun d => ?_) fun _ _ => rfl
        by_cases e : d = c
        · subst e; simp [giveTcp, leave, setTcp, Heap.upd]
        · simp [giveTcp, leave, setTcp, Heap.upd, e]
      · exact .quiet (wr_upd (by show _ = wr (st.thr t); rw [ht]; rfl)) (sent_upd rfl) fun _ _ => rfl
    · cases hs
  | take t =>
    simp only [step, take] at hs
    repeat' split at hs
    all_goals first | (cases hs; done) | skip
    rename_i ht _ _ _
    all_goals (cases hs; exact .quiet (wr_upd (by show _ = wr (st.thr t); rw [ht]; rfl)) (fun _ => rfl) fun _ _ => rfl)
  | writeErr t =>
    simp only [step, writeErr] at hs
    split at hs
    · rename_i ht
      obtain ⟨h2, hd, h3⟩ := map_some' hs
      cases h3; exact .fail rfl rfl (by rw [ht]; rfl) (fun t' => wr_upd' t') fun _ => rfl
    · cases hs
  | readErr t =>
    simp only [step, readErr] at hs
    split at hs
    · rename_i ht
      obtain ⟨h2, hd, h3⟩ := map_some' hs
      cases h3; exact .quiet (wr_upd (by show _ = wr (st.thr t); rw [ht]; rfl)) (fun _ => rfl) fun _ _ => rfl
    · cases hs
  | takeErr t =>
    simp only [step, takeErr] at hs
    split at hs
    · rename_i ht
      obtain ⟨h2, hd, h3⟩ := map_some' hs
      cases h3; exact .quiet (wr_upd (by show _ = wr (st.thr t); rw [ht]; rfl)) (fun _ => rfl) fun _ _ => rfl
    · cases hs
  | readEnd t =>
    simp only [step, readEnd, readErr] at hs
    split at hs
    · rename_i ht
      split at hs
      · obtain ⟨h2, hd, h3⟩ := map_some' hs
        cases h3; exact .quiet (wr_upd (by show _ = wr (st.thr t); rw [ht]; rfl)) (fun _ => rfl) fun _ _ => rfl
      · cases hs
    · cases hs
  | closeTcp t e c tcp =>
    simp only [step, closeTcp] at hs
    split at hs
    · rename_i hg
      simp only [Bool.and_eq_true, decide_eq_true_eq] at hg
      have hi := idle_of hg.1.1
      split at hs
      · cases hs
        exact .quiet (wr_upd (by show _ = wr (st.thr t); rw [hi]; rfl)) (sent_upd rfl)
          fun _ _ => rfl
      · obtain ⟨h2, hd, h3⟩ := map_some' hs
        cases h3; exact .quiet (fun _ => rfl) (sent_upd rfl) fun _ _ => rfl
      · cases hs
    · cases hs
  | closeWait t b =>
    simp only [step, closeWait] at hs
    split at hs
    · rename_i c tcp e ht
      have hw : wr (.idle : Call P) = wr (st.thr t) := by rw [ht]; rfl
      split at hs
      · split at hs
        · cases hs
        · rename_i hd
          split at hs
          · obtain ⟨s2, hsh, h3⟩ := map_some' hs
            cases h3
            exact .quiet (wr_upd hw) (sent_upd (shutdown_sent hsh)) fun _ _ => rfl
          · cases hs; exact .quiet (wr_upd hw) (fun _ => rfl) fun _ _ => rfl
      · obtain ⟨h2, hd, h3⟩ := map_some' hs
        cases h3; exact .quiet (wr_upd hw) (fun _ => rfl) fun _ _ => rfl
      · cases hs
    · cases hs
  | cancelTcp t e c b =>
    simp only [step, cancelTcp] at hs
    split at hs
    · split at hs
      · cases hs
      · obtain ⟨s2, hsh, h3⟩ := map_some' hs
        cases h3
        refine .quiet (fun _ => rfl) (fun d => ?_) fun _ _ => rfl
        by_cases e : d = c
        · subst e; simp [takeTcp, setTcp, Heap.upd, shutdown_sent hsh]
        · simp [takeTcp, setTcp, Heap.upd, e]
    · cases hs
  | cancelUdp t e c =>
    simp only [step, cancelUdp] at hs
    split at hs
    · obtain ⟨h2, hd, h3⟩ := map_some' hs
      cases h3; exact .quiet (fun _ => rfl) (fun _ => rfl) fun _ _ => rfl
    · cases hs
  | cloneTcp c =>
    simp only [step] at hs; split at hs <;> cases hs
    exact .quiet (fun _ => rfl) (sent_upd rfl) fun _ _ => rfl
  | dropTcp c =>
    simp only [step] at hs; split at hs <;> cases hs
    exact .quiet (fun _ => rfl) (sent_upd rfl) fun _ _ => rfl
  | cloneUdp c =>
    simp only [step] at hs; split at hs <;> cases hs
    exact .quiet (fun _ => rfl) (fun _ => rfl) fun _ _ => rfl
  | dropUdp c =>
    simp only [step] at hs; split at hs <;> cases hs
    exact .quiet (fun _ => rfl) (fun _ => rfl) fun _ _ => rfl
  | arrive c bs =>
    simp only [step] at hs; split at hs <;> cases hs
    exact .quiet (fun _ => rfl) (sent_upd rfl) fun _ _ => rfl
  | finish c =>
    simp only [step] at hs; split at hs <;> cases hs
    exact .quiet (fun _ => rfl) (sent_upd rfl) fun _ _ => rfl
  | reset c =>
    simp only [step] at hs; split at hs <;> cases hs
    exact .quiet (fun _ => rfl) (sent_upd rfl) fun _ _ => rfl
  | deliver u d =>
    simp only [step] at hs; split at hs <;> cases hs
    exact .quiet (fun _ => rfl) (fun _ => rfl) fun _ _ => rfl

/-- A sending call and the bytes it has written. -/
def SendRel (st : St P) (c : Nat) (u : Use) (b : List UInt8) : Prop :=
  u.given.length = size ∧
  match u.result with
  | none => ∃ rest, wr (st.thr u.thread) = some (c, rest) ∧ b ++ rest = u.given
  | some none => b <+: u.given
  | some (some _) => b = u.given

theorem SendRel.other {st st' : St P} {c t : Nat} {u : Use} {b : List UInt8} (h : SendRel st c u b)
    (hw : ∀ t', t' ≠ t → wr (st'.thr t') = wr (st.thr t')) (hu : u.thread ≠ t ∨ u.result ≠ none) : SendRel st' c u b := by
  refine ⟨h.1, ?_⟩
  have h2 := h.2
  split at h2
  · rename_i hr
    rcases hu with hu | hu
    · simpa only [hw _ hu] using h2
    · exact absurd hr hu
  · exact h2
  · exact h2

def SendInv (st : St P) (c : Nat) (us : List Use) : Prop :=
  ∃ l, Shared (SendRel st c) (fun t => ∃ rest, wr (st.thr t) = some (c, rest)) us (st.tcp c).sent l

theorem sendInv_step {st st' : St P} {c : Nat} {us : List Use} {a : Act P} {r : Ret P} (h : SendInv st c us)
    (hc : SendCase st st' a r) : SendInv st' c (sendUse c us (a, r)) := by
  obtain ⟨l, h⟩ := h
  cases hc with
  | quiet hw hsent huse =>
    rw [huse]
    refine ⟨l, ?_⟩
    rw [hsent]
    refine h.quiet (fun u b hr => ?_) fun t => by rw [hw]
    exact ⟨hr.1, by simpa only [hw] using hr.2⟩
  | @start t e x data c' ha hr hi hlen hw hsent =>
    subst ha hr
    have hi' : wr (st.thr t) = none := by rw [hi]; rfl
    simp only [sendUse]
    by_cases e : c' = c
    · subst e
      rw [if_pos rfl]
      refine ⟨l, ?_⟩
      rw [hsent]
      refine h.start (fun ⟨rest, hr⟩ => by rw [hi'] at hr; cases hr) (fun u b hr hne => ?_) ⟨hlen, data, by rw [hw, if_pos rfl], rfl⟩ fun t' => ?_
      · refine hr.other (t := t) (fun t' ht => by rw [hw, if_neg ht]) ?_
        by_cases hn : u.result = none
        · exact Or.inl (hne hn)
        · exact Or.inr hn
      · rw [hw]
        by_cases e : t' = t
        · subst e; simp
        · simp [e]
    · rw [if_neg e]
      refine ⟨l, ?_⟩
      rw [hsent]
      refine h.quiet (fun u b hr => ?_) fun t' => ?_
      · by_cases hu : u.thread = t
        · refine hr.other (t := t) (fun t' ht => by rw [hw, if_neg ht]) (Or.inr fun hn => ?_)
          have h2 := hr.2
          rw [hn] at h2
          obtain ⟨rest, h3, _⟩ := h2
          rw [hu, hi'] at h3; cases h3
        · exact hr.other (t := t) (fun t' ht => by rw [hw, if_neg ht]) (Or.inl hu)
      · rw [hw]
        by_cases e' : t' = t
        · subst e'; simp [hi', e]
        · simp [e']
  | @some t n c' rest ha hr hwr hn hw hsent =>
    subst ha hr
    simp only [sendUse]
    by_cases e : c' = c
    · subst e
      obtain ⟨l', h'⟩ := h.move (R' := SendRel st' c') (rest.take n) (t := t) ⟨rest, hwr⟩
        (fun u b hr hu => hr.other (fun t' ht => by rw [hw, if_neg ht]) hu) (fun u b hr hu hn => by
          refine ⟨hr.1, ?_⟩
          have h2 := hr.2
          rw [hn] at h2 ⊢
          obtain ⟨rest', h3, h4⟩ := h2
          rw [hu, hwr] at h3
          cases h3
          refine ⟨rest.drop n, by rw [hu, hw, if_pos rfl], ?_⟩
          rw [List.append_assoc, List.take_append_drop]; exact h4)
      refine ⟨l', ?_⟩
      rw [hsent, if_pos rfl]
      refine h'.quiet (fun _ _ hr => hr) fun t' => ?_
      rw [hw]
      by_cases e' : t' = t
      · subst e'; simp [hwr]
      · simp [e']
    · refine ⟨l, ?_⟩
      rw [hsent, if_neg (Ne.symm e)]
      refine h.quiet (fun u b hr => ?_) fun t' => ?_
      · by_cases hu : u.thread = t
        · refine hr.other (t := t) (fun t' ht => by rw [hw, if_neg ht]) (Or.inr fun hn => ?_)
          have h2 := hr.2
          rw [hn] at h2
          obtain ⟨rest', h3, _⟩ := h2
          rw [hu, hwr] at h3; cases h3; exact e rfl
        · exact hr.other (t := t) (fun t' ht => by rw [hw, if_neg ht]) (Or.inl hu)
      · rw [hw]
        by_cases e' : t' = t
        · subst e'; simp [hwr, e]
        · simp [e']
  | @last t n c' rest here ha hr hwr hw hsent =>
    subst ha hr
    simp only [sendUse]
    by_cases e : c' = c
    · subst e
      obtain ⟨l', h'⟩ := h.move (R' := fun u b => u.given.length = size ∧ match u.result with
          | none => if u.thread = t then b = u.given else ∃ rest, wr (st.thr u.thread) = .some (c', rest) ∧ b ++ rest = u.given
          | .some none => b <+: u.given
          | .some (.some _) => b = u.given) rest (t := t) ⟨rest, hwr⟩
        (fun u b hr hu => by
          refine ⟨hr.1, ?_⟩
          have h2 := hr.2
          split at h2
          · rename_i hn
            rcases hu with hu | hu
            · simp only [if_neg hu]; exact h2
            · exact absurd hn hu
          · exact h2
          · exact h2)
        (fun u b hr hu hn => by
          refine ⟨hr.1, ?_⟩
          have h2 := hr.2
          rw [hn] at h2 ⊢
          obtain ⟨rest', h3, h4⟩ := h2
          rw [hu, hwr] at h3
          cases h3
          simp only [if_pos hu]; exact h4)
      refine ⟨l', ?_⟩
      rw [hsent, if_pos rfl]
      refine h'.ret (t := t) (fun u b hr hu => ?_) (fun u b hr hu hn => ?_) fun t' => ?_
      · refine ⟨hr.1, ?_⟩
        have h2 := hr.2
        split at h2
        · rename_i hn
          rcases hu with hu | hu
          · simp only [if_neg hu] at h2; simpa only [hw, if_neg hu] using h2
          · exact absurd hn hu
        · exact h2
        · exact h2
      · have h2 := hr.2
        rw [hn] at h2
        simp only [if_pos hu] at h2
        exact ⟨hr.1, h2⟩
      · rw [hw]
        by_cases e' : t' = t
        · subst e'; simp
        · simp [e']
    · have hno : ∀ u ∈ us, u.result = none → u.thread ≠ t := by
        intro u hu hn ht
        obtain ⟨rest', h3⟩ := h.open_act u hu hn
        rw [ht, hwr] at h3; cases h3; exact e rfl
      have hsame : returns t (.some []) us = us := by
        unfold returns
        conv => rhs; rw [← List.map_id us]
        apply List.map_congr_left
        intro u hu
        by_cases hn : u.result = none
        · simp [hno u hu hn]
        · simp [hn]
      rw [hsame]
      refine ⟨l, ?_⟩
      rw [hsent, if_neg (Ne.symm e)]
      refine h.quiet (fun u b hr => ?_) fun t' => ?_
      · by_cases hu : u.thread = t
        · refine hr.other (t := t) (fun t' ht => by rw [hw, if_neg ht]) (Or.inr fun hn => ?_)
          have h2 := hr.2
          rw [hn] at h2
          obtain ⟨rest', h3, _⟩ := h2
          rw [hu, hwr] at h3; cases h3; exact e rfl
        · exact hr.other (t := t) (fun t' ht => by rw [hw, if_neg ht]) (Or.inl hu)
      · rw [hw]
        by_cases e' : t' = t
        · subst e'; simp [hwr, e]
        · simp [e']
  | @fail t c' rest ha hr hwr hw hsent =>
    subst ha hr
    simp only [sendUse]
    by_cases e : c' = c
    · subst e
      refine ⟨l, ?_⟩
      rw [hsent]
      refine h.ret (t := t) (fun u b hr hu => hr.other (fun t' ht => by rw [hw, if_neg ht]) hu) (fun u b hr hu hn => ?_) fun t' => ?_
      · have h2 := hr.2
        rw [hn] at h2
        obtain ⟨rest', h3, h4⟩ := h2
        exact ⟨hr.1, ⟨rest', h4⟩⟩
      · rw [hw]
        by_cases e' : t' = t
        · subst e'; simp
        · simp [e']
    · have hno : ∀ u ∈ us, u.result = none → u.thread ≠ t := by
        intro u hu hn ht
        obtain ⟨rest', h3⟩ := h.open_act u hu hn
        rw [ht, hwr] at h3; cases h3; exact e rfl
      have hsame : returns t none us = us := by
        unfold returns
        conv => rhs; rw [← List.map_id us]
        apply List.map_congr_left
        intro u hu
        by_cases hn : u.result = none
        · simp [hno u hu hn]
        · simp [hn]
      rw [hsame]
      refine ⟨l, ?_⟩
      rw [hsent]
      refine h.quiet (fun u b hr => ?_) fun t' => ?_
      · by_cases hu : u.thread = t
        · refine hr.other (t := t) (fun t' ht => by rw [hw, if_neg ht]) (Or.inr fun hn => ?_)
          have h2 := hr.2
          rw [hn] at h2
          obtain ⟨rest', h3, _⟩ := h2
          rw [hu, hwr] at h3; cases h3; exact e rfl
        · exact hr.other (t := t) (fun t' ht => by rw [hw, if_neg ht]) (Or.inl hu)
      · rw [hw]
        by_cases e' : t' = t
        · subst e'; simp [hwr, e]
        · simp [e']

theorem sendsOn_snoc {c : Nat} {run : List (Act P × Ret P)} {l : Act P × Ret P} :
    sendsOn c (run ++ [l]) = sendUse c (sendsOn c run) l := by
  unfold sendsOn; rw [List.foldl_append]; rfl

theorem run_sendInv {run : List (Act P × Ret P)} {st : St P} (h : Run G run st) (c : Nat) :
    SendInv st c (sendsOn c run) := by
  induction h with
  | init =>
    exact ⟨[], Shared.nil fun t ⟨rest, hr⟩ => by cases hr⟩
  | snoc hr hs ih =>
    rw [sendsOn_snoc]
    exact sendInv_step ih (send_cases (run_fresh hr) hs)

end Verif.Transport
