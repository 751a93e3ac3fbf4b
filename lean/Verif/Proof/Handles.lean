import Verif.Spec.Handles
import Verif.Proof.TransportSend
/-!
# Handles of sockets: the count is right
-/
namespace Verif.Transport
open Verif.Types Verif.Spec
open Verif.Heap (Val Entry EP Env Sig Reach)

variable {P : Type} [DecidableEq P] {G : Env P}

/-- The socket has been created. -/
def Created (st : St P) : Sock → Prop
  | .tcp c => c < st.ntcp
  | .udp u => u < st.nudp

structure Counted (st : St P) (L : Ledger) : Prop where
  begun : ∀ t s, (st.thr t).sock = some s → L.begun t = some s
  count : ∀ s, ∃ busy : List Nat, busy.Nodup ∧ (∀ t, t ∈ busy ↔ (st.thr t).sock = some s) ∧ handles st s + busy.length + L.gone s = L.made s
  fresh : ∀ s, L.made s ≠ 0 → Created st s

/-- A handle of `s` inside the call? -/
def ind (k : Call P) (s : Sock) : Nat := if k.sock = some s then 1 else 0

theorem Counted.move {st st' : St P} {L L' : Ledger} (I : Counted st L) (t : Nat) (ht : ∀ t', t' ≠ t → st'.thr t' = st.thr t')
    (hb : ∀ t', t' ≠ t → L'.begun t' = L.begun t') (hb' : ∀ s, (st'.thr t).sock = some s → L'.begun t = some s)
    (he : ∀ s, handles st' s + ind (st'.thr t) s + L'.gone s + L.made s = handles st s + ind (st.thr t) s + L.gone s + L'.made s)
    (hf : ∀ s, L'.made s ≠ 0 → Created st' s) : Counted st' L' := by
  refine ⟨fun t' s hs => ?_, fun s => ?_, hf⟩
  · by_cases e : t' = t
    · subst e; exact hb' s hs
    · rw [hb t' e]; rw [ht t' e] at hs; exact I.begun t' s hs
  · obtain ⟨busy, h1, h2, h3⟩ := I.count s
    have h4 := he s
    have hmem : ∀ t', t' ≠ t → ((st'.thr t').sock = some s ↔ t' ∈ busy) := fun t' e => by rw [ht t' e, h2]
    unfold ind at h4
    by_cases a : (st.thr t).sock = some s <;> by_cases b : (st'.thr t).sock = some s
    · refine ⟨busy, h1, fun t' => ?_, ?_⟩
      · by_cases e : t' = t
        · subst e; exact iff_of_true ((h2 _).2 a) b
        · exact (hmem t' e).symm
      · rw [if_pos a, if_pos b] at h4; omega
    · have hin := (h2 t).2 a
      refine ⟨busy.erase t, h1.erase t, fun t' => ?_, ?_⟩
      · by_cases e : t' = t
        · subst e; exact iff_of_false (fun h => (List.Nodup.mem_erase_iff h1).1 h |>.1 rfl) b
        · rw [hmem t' e, List.Nodup.mem_erase_iff h1]; exact ⟨fun h => h.2, fun h => ⟨e, h⟩⟩
      · rw [if_pos a, if_neg b] at h4
        have := List.length_erase_of_mem hin
        have := List.length_pos_of_mem hin
        omega
    · have hin : t ∉ busy := fun h => a ((h2 t).1 h)
      refine ⟨t :: busy, List.nodup_cons.2 ⟨hin, h1⟩, fun t' => ?_, ?_⟩
      · by_cases e : t' = t
        · subst e; exact iff_of_true (.head _) b
        · rw [hmem t' e, List.mem_cons]; exact ⟨fun h => h.resolve_left e, .inr⟩
      · rw [if_neg a, if_pos b] at h4
        simp only [List.length_cons]; omega
    · refine ⟨busy, h1, fun t' => ?_, ?_⟩
      · by_cases e : t' = t
        · subst e; exact iff_of_false (fun h => a ((h2 _).1 h)) b
        · exact (hmem t' e).symm
      · rw [if_neg a, if_neg b] at h4; omega

/-- Only bytes, heaps and numbers change. -/
theorem Counted.same {st st' : St P} {L : Ledger} (I : Counted st L) (ht : st'.thr = st.thr) (hh : ∀ s, handles st' s = handles st s)
    (hf : ∀ s, Created st s → Created st' s) : Counted st' L :=
  I.move 0 (fun _ _ => by rw [ht]) (fun _ _ => rfl) (fun s hs => I.begun 0 s (by rw [← ht]; exact hs)) (fun s => by rw [ht, hh]) fun s hs => hf s (I.fresh s hs)

/-- A socket that exists gives one more handle, or loses one. -/
theorem Counted.make {st st' : St P} {L : Ledger} (I : Counted st L) (ht : st'.thr = st.thr) (s : Sock) (n : Nat)
    (hh : ∀ x, handles st' x = if x = s then handles st x + n else handles st x) (hf : ∀ x, Created st x → Created st' x) (hs : Created st' s) : Counted st' (L.make s n) := by
  refine I.move 0 (fun _ _ => by rw [ht]) (fun _ _ => rfl) (fun s hs => I.begun 0 s (by rw [← ht]; exact hs)) (fun x => ?_) fun x hx => ?_
  · rw [ht, hh]
    simp only [Ledger.make]
    split <;> omega
  · simp only [Ledger.make] at hx
    split at hx
    · rename_i e; rw [e]; exact hs
    · exact hf x (I.fresh x hx)

theorem Counted.lose {st st' : St P} {L : Ledger} (I : Counted st L) (ht : st'.thr = st.thr) (s : Sock) (hpos : 0 < handles st s)
    (hh : ∀ x, handles st' x = if x = s then handles st x - 1 else handles st x) (hf : ∀ x, Created st x → Created st' x) : Counted st' (L.lose s) := by
  refine I.move 0 (fun _ _ => by rw [ht]) (fun _ _ => rfl) (fun s hs => I.begun 0 s (by rw [← ht]; exact hs)) (fun x => ?_) fun x hx => hf x (I.fresh x hx)
  rw [ht, hh]
  simp only [Ledger.lose]
  split
  · rename_i e; subst e; omega
  · omega

theorem Counted.begin {st st' : St P} {L : Ledger} (I : Counted st L) {t : Nat} (s : Sock) (hi : st.thr t = .idle) (hpos : 0 < handles st s)
    {k : Call P} (hk : k.sock = some s) (ht : st'.thr = Heap.upd st.thr t k)
    (hh : ∀ x, handles st' x = if x = s then handles st x - 1 else handles st x) (hf : ∀ x, Created st x → Created st' x) : Counted st' (L.call t s (.waits : Ret P)) := by
  refine I.move t (fun t' e => by rw [ht, upd_ne e]) (fun t' e => by simp [Ledger.call, e]) (fun x hx => ?_) (fun x => ?_) fun x hx => hf x (I.fresh x hx)
  · rw [ht, upd_same, hk] at hx
    simpa [Ledger.call] using hx
  · rw [ht, upd_same, hh, hi]
    unfold ind
    rw [hk]
    simp only [Ledger.call, Call.sock, Option.some.injEq]
    by_cases e : x = s
    · subst e; simp; omega
    · simp [e, Ne.symm e]

theorem Counted.more {st st' : St P} {L : Ledger} (I : Counted st L) {t : Nat} {k : Call P} (hk : k.sock = (st.thr t).sock) (ht : st'.thr = Heap.upd st.thr t k)
    (hh : ∀ x, handles st' x = handles st x) (hf : ∀ x, Created st x → Created st' x) : Counted st' L := by
  refine I.move t (fun t' e => by rw [ht, upd_ne e]) (fun _ _ => rfl) (fun x hx => ?_) (fun x => ?_) fun x hx => hf x (I.fresh x hx)
  · rw [ht, upd_same, hk] at hx; exact I.begun t x hx
  · rw [ht, upd_same, hh]; unfold ind; rw [hk]

theorem Counted.back {st st' : St P} {L : Ledger} (I : Counted st L) {t : Nat} {s : Sock} (hk : (st.thr t).sock = some s) (ht : st'.thr = Heap.upd st.thr t .idle)
    (hh : ∀ x, handles st' x = if x = s then handles st x + 1 else handles st x) (hf : ∀ x, Created st x → Created st' x) : Counted st' L := by
  refine I.move t (fun t' e => by rw [ht, upd_ne e]) (fun _ _ => rfl) (fun x hx => ?_) (fun x => ?_) fun x hx => hf x (I.fresh x hx)
  · rw [ht, upd_same] at hx; cases hx
  · rw [ht, upd_same, hh]; unfold ind; rw [hk]
    simp only [Call.sock, Option.some.injEq]
    by_cases e : x = s
    · subst e; simp
    · simp [e, Ne.symm e]

theorem Counted.ends {st st' : St P} {L : Ledger} (I : Counted st L) {t : Nat} {s : Sock} {r : Ret P} (hr : r.keeps = true) (hk : (st.thr t).sock = some s)
    (ht : st'.thr = Heap.upd st.thr t .idle) (hh : ∀ x, handles st' x = handles st x) (hf : ∀ x, Created st x → Created st' x) : Counted st' (L.goes t r) := by
  have e1 : L.goes t r = L.lose s := by unfold Ledger.goes; rw [if_pos hr, I.begun t s hk]
  rw [e1]
  refine I.move t (fun t' e => by rw [ht, upd_ne e]) (fun _ _ => rfl) (fun x hx => ?_) (fun x => ?_) fun x hx => hf x (I.fresh x hx)
  · rw [ht, upd_same] at hx; cases hx
  · rw [ht, upd_same, hh]; unfold ind; rw [hk]
    simp only [Call.sock, Option.some.injEq, Ledger.lose]
    by_cases e : x = s
    · subst e; simp; omega
    · simp [e, Ne.symm e]

omit [DecidableEq P] in
/-- A socket not created yet has no handles. -/
theorem Counted.none {st : St P} {L : Ledger} (I : Counted st L) {s : Sock} (h : ¬ Created st s) : handles st s = 0 := by
  obtain ⟨busy, -, -, h3⟩ := I.count s
  have : L.made s = 0 := Classical.not_not.1 fun e => h (I.fresh s e)
  omega

/-- What the handles are after a change of the model's tables. -/
macro "hnd" c:term : tactic =>
  `(tactic| (rintro (d | d) <;> by_cases e' : d = $c <;>
    simp_all [handles, enter, leave, takeTcp, giveTcp, takeUdp, giveUdp, setTcp, setUdp, Heap.upd, noStream, noDgram]))

theorem counted_step {st st' : St P} {L : Ledger} {a : Act P} {r : Ret P} (I : Counted st L) (hs : step G st a = some (st', r)) : Counted st' (L.note (a, r)) := by
  cases a with
  | api op =>
    simp only [step] at hs
    split at hs
    · obtain ⟨⟨h1, o⟩, h2, h3⟩ := map_some' hs
      cases h3; exact I.same (by rfl) (fun _ => rfl) fun s h => h
    · cases hs
  | forkTcp s g =>
    simp only [step] at hs
    have up : ∀ (st' : St P), st'.ntcp = st.ntcp + 1 → st'.nudp = st.nudp → ∀ s, Created st s → Created st' s := by
      rintro st' h1 h2 (c | u) h
      · unfold Created at h ⊢; simp only at h ⊢; omega
      · unfold Created at h ⊢; simp only at h ⊢; omega
    cases g with
    | connect => cases hs; exact I
    | clone => cases hs; exact I.same (by rfl) (fun s => by cases s <;> rfl) (up _ rfl rfl)
    | spawn =>
      simp only [forkTcp] at hs
      repeat' split at hs
      all_goals first | (cases hs; done) | skip
      obtain ⟨h2, hd, h3⟩ := map_some' hs
      cases h3
      exact I.same (by rfl) (fun s => by cases s <;> rfl) (up _ rfl rfl)
    | done =>
      simp only [forkTcp] at hs
      repeat' split at hs
      all_goals first | (cases hs; done) | skip
      cases hs
      have h0 := I.none (s := .tcp st.ntcp) (Nat.lt_irrefl _)
      simp only [handles] at h0
      exact I.make (by rfl) (.tcp st.ntcp) 2 (by hnd st.ntcp) (up _ rfl rfl) (Nat.lt_succ_self _)
  | forkUdp s g =>
    simp only [step] at hs
    have up : ∀ (st' : St P), st'.ntcp = st.ntcp → st'.nudp = st.nudp + 1 → ∀ s, Created st s → Created st' s := by
      rintro st' h1 h2 (c | u) h
      · unfold Created at h ⊢; simp only at h ⊢; omega
      · unfold Created at h ⊢; simp only at h ⊢; omega
    cases g with
    | connect => cases hs; exact I
    | clone => cases hs; exact I.same (by rfl) (fun s => by cases s <;> rfl) (up _ rfl rfl)
    | spawn =>
      simp only [forkUdp] at hs
      repeat' split at hs
      all_goals first | (cases hs; done) | skip
      obtain ⟨h2, hd, h3⟩ := map_some' hs
      cases h3
      exact I.same (by rfl) (fun s => by cases s <;> rfl) (up _ rfl rfl)
    | done =>
      simp only [forkUdp] at hs
      repeat' split at hs
      all_goals first | (cases hs; done) | skip
      cases hs
      have h0 := I.none (s := .udp st.nudp) (Nat.lt_irrefl _)
      simp only [handles] at h0
      exact I.make (by rfl) (.udp st.nudp) 2 (by hnd st.nudp) (up _ rfl rfl) (Nat.lt_succ_self _)
  | cloneTcp c =>
    simp only [step] at hs
    split at hs
    · rename_i h
      cases hs
      have hc : Created st (.tcp c) := Classical.not_not.1 fun e => by have := I.none e; simp only [handles] at this; omega
      exact I.make (by rfl) (.tcp c) 1 (by hnd c) (fun s h => by cases s <;> exact h) hc
    · cases hs
  | dropTcp c =>
    simp only [step] at hs
    split at hs
    · rename_i h
      cases hs
      exact I.lose (by rfl) (.tcp c) h (by hnd c) (fun s h => by cases s <;> exact h)
    · cases hs
  | cloneUdp c =>
    simp only [step] at hs
    split at hs
    · rename_i h
      cases hs
      have hc : Created st (.udp c) := Classical.not_not.1 fun e => by have := I.none e; simp only [handles] at this; omega
      exact I.make (by rfl) (.udp c) 1 (by hnd c) (fun s h => by cases s <;> exact h) hc
    · cases hs
  | dropUdp c =>
    simp only [step] at hs
    split at hs
    · rename_i h
      cases hs
      exact I.lose (by rfl) (.udp c) h (by hnd c) (fun s h => by cases s <;> exact h)
    · cases hs
  | sendTcp t e x data c tcp =>
    simp only [step, sendTcp] at hs
    split at hs
    · rename_i hg
      simp only [Bool.and_eq_true, decide_eq_true_eq] at hg
      repeat' split at hs
      all_goals first | (cases hs; done) | skip
      all_goals cases hs
      · exact I.lose (by rfl) (.tcp c) hg.1.2 (by hnd c) (fun s h => by cases s <;> exact h)
      · exact I.begin (.tcp c) (idle_of hg.1.1.1) hg.1.2 (k := .writing c data _) rfl (by rfl) (by hnd c) (fun s h => by cases s <;> exact h)
      · exact I.same (by rfl) (fun s => by cases s <;> rfl) (fun s h => by cases s <;> exact h)
    · cases hs
  | recvTcp t e c tcp =>
    simp only [step, recvTcp] at hs
    split at hs
    · rename_i hg
      simp only [Bool.and_eq_true, decide_eq_true_eq] at hg
      repeat' split at hs
      all_goals first | (cases hs; done) | skip
      all_goals cases hs
      · exact I.lose (by rfl) (.tcp c) hg.1.2 (by hnd c) (fun s h => by cases s <;> exact h)
      · exact I.begin (.tcp c) (idle_of hg.1.1) hg.1.2 (k := .reading c [] _ _) rfl (by rfl) (by hnd c) (fun s h => by cases s <;> exact h)
      · exact I.same (by rfl) (fun s => by cases s <;> rfl) (fun s h => by cases s <;> exact h)
    · cases hs
  | recvUdp t e c tcp =>
    simp only [step, recvUdp] at hs
    split at hs
    · rename_i hg
      simp only [Bool.and_eq_true, decide_eq_true_eq] at hg
      repeat' split at hs
      all_goals first | (cases hs; done) | skip
      all_goals cases hs
      · exact I.lose (by rfl) (.udp c) hg.1.2 (by hnd c) (fun s h => by cases s <;> exact h)
      · exact I.begin (.udp c) (idle_of hg.1.1) hg.1.2 (k := .taking c _ _) rfl (by rfl) (by hnd c) (fun s h => by cases s <;> exact h)
      · exact I.same (by rfl) (fun s => by cases s <;> rfl) (fun s h => by cases s <;> exact h)
    · cases hs
  | sendUdp t e x data u udp ok =>
    simp only [step, sendUdp] at hs
    split at hs
    · rename_i hg
      simp only [Bool.and_eq_true, decide_eq_true_eq] at hg
      repeat' split at hs
      all_goals first | (cases hs; done) | skip
      · cases hs; exact I.lose (by rfl) (.udp u) hg.1.2 (by hnd u) (fun s h => by cases s <;> exact h)
      · cases hs; exact I.same (by rfl) (by hnd u) (fun s h => by cases s <;> exact h)
      · obtain ⟨h2, hd, h3⟩ := map_some' hs
        cases h3; exact I.lose (by rfl) (.udp u) hg.1.2 (by hnd u) (fun s h => by cases s <;> exact h)
      · cases hs; exact I.same (by rfl) (fun s => by cases s <;> rfl) (fun s h => by cases s <;> exact h)
    · cases hs
  | closeTcp t e c tcp =>
    simp only [step, closeTcp] at hs
    split at hs
    · rename_i hg
      simp only [Bool.and_eq_true, decide_eq_true_eq] at hg
      repeat' split at hs
      all_goals first | (cases hs; done) | skip
      · cases hs; exact I.begin (.tcp c) (idle_of hg.1.1) hg.1.2 (k := .closing c _ _) rfl (by rfl) (by hnd c) (fun s h => by cases s <;> exact h)
      · obtain ⟨h2, hd, h3⟩ := map_some' hs
        cases h3; exact I.lose (by rfl) (.tcp c) hg.1.2 (by hnd c) (fun s h => by cases s <;> exact h)
    · cases hs
  | cancelTcp t e c b =>
    simp only [step, cancelTcp] at hs
    split at hs
    · rename_i hg
      simp only [Bool.and_eq_true, decide_eq_true_eq] at hg
      split at hs
      · cases hs
      · obtain ⟨s', hd, h3⟩ := map_some' hs
        have hfr : s'.free = (st.tcp c).free := by
          unfold shutdown at hd
          split at hd
          · cases hd; rfl
          · split at hd <;> cases hd; rfl
        cases h3
        cases b
        all_goals exact I.lose (by rfl) (.tcp c) hg.1.2 (by hnd c) (fun s h => by cases s <;> exact h)
    · cases hs
  | cancelUdp t e u =>
    simp only [step, cancelUdp] at hs
    split at hs
    · rename_i hg
      simp only [Bool.and_eq_true, decide_eq_true_eq] at hg
      obtain ⟨s', hd, h3⟩ := map_some' hs
      cases h3
      exact I.lose (by rfl) (.udp u) hg.1.2 (by hnd u) (fun s h => by cases s <;> exact h)
    · cases hs
  | write t n =>
    simp only [step, write] at hs
    split at hs
    · rename_i c rest here ht
      repeat' split at hs
      all_goals first | (cases hs; done) | skip
      all_goals cases hs
      · exact I.back (t := t) (s := .tcp c) (by rw [ht]; rfl) (by rfl) (by hnd c) (fun s h => by cases s <;> exact h)
      · exact I.more (t := t) (k := .writing c (rest.drop n) here) (by rw [ht]; rfl) (by rfl) (by hnd c) (fun s h => by cases s <;> exact h)
    · cases hs
  | read t n =>
    simp only [step, read] at hs
    split at hs
    · rename_i c buf x es ht
      repeat' split at hs
      all_goals first | (cases hs; done) | skip
      all_goals cases hs
      · exact I.back (t := t) (s := .tcp c) (by rw [ht]; rfl) (by rfl) (by hnd c) (fun s h => by cases s <;> exact h)
      · exact I.more (t := t) (k := .reading c (buf ++ ((st.tcp c).arrived.drop (st.tcp c).taken).take n) x es) (by rw [ht]; rfl) (by rfl) (by hnd c) (fun s h => by cases s <;> exact h)
    · cases hs
  | take t =>
    simp only [step, take] at hs
    split at hs
    · rename_i u x es ht
      split at hs
      · cases hs
      · cases hs
        exact I.back (t := t) (s := .udp u) (by rw [ht]; rfl) (by rfl) (by hnd u) (fun s h => by cases s <;> exact h)
    · cases hs
  | writeErr t =>
    simp only [step, writeErr] at hs
    split at hs
    · rename_i c rest here ht
      obtain ⟨s', hd, h3⟩ := map_some' hs
      cases h3
      exact I.ends (t := t) (s := .tcp c) (r := .err) rfl (by rw [ht]; rfl) (by rfl) (fun s => by cases s <;> rfl) (fun s h => by cases s <;> exact h)
    · cases hs
  | readErr t =>
    simp only [step, readErr] at hs
    split at hs
    · rename_i c buf x es ht
      obtain ⟨s', hd, h3⟩ := map_some' hs
      cases h3
      exact I.ends (t := t) (s := .tcp c) (r := .err) rfl (by rw [ht]; rfl) (by rfl) (fun s => by cases s <;> rfl) (fun s h => by cases s <;> exact h)
    · cases hs
  | readEnd t =>
    simp only [step, readEnd] at hs
    split at hs
    · rename_i c buf x es ht
      split at hs
      · simp only [readErr, ht] at hs
        obtain ⟨s', hd, h3⟩ := map_some' hs
        cases h3
        exact I.ends (t := t) (s := .tcp c) (r := .err) rfl (by rw [ht]; rfl) (by rfl) (fun s => by cases s <;> rfl) (fun s h => by cases s <;> exact h)
      · cases hs
    · cases hs
  | takeErr t =>
    simp only [step, takeErr] at hs
    split at hs
    · rename_i u x es ht
      obtain ⟨s', hd, h3⟩ := map_some' hs
      cases h3
      exact I.ends (t := t) (s := .udp u) (r := .err) rfl (by rw [ht]; rfl) (by rfl) (fun s => by cases s <;> rfl) (fun s h => by cases s <;> exact h)
    · cases hs
  | closeWait t b =>
    simp only [step, closeWait] at hs
    split at hs
    · rename_i c tcp e ht
      split at hs
      · split at hs
        · cases hs
        · split at hs
          · obtain ⟨s', hd, h3⟩ := map_some' hs
            have hfr : s'.free = (st.tcp c).free := by
              unfold shutdown at hd
              split at hd
              · cases hd; rfl
              · split at hd <;> cases hd; rfl
            cases h3
            exact I.ends (t := t) (s := .tcp c) (r := .ok) rfl (by rw [ht]; rfl) (by rfl) (by hnd c) (fun s h => by cases s <;> exact h)
          · cases hs
            exact I.ends (t := t) (s := .tcp c) (r := .ok) rfl (by rw [ht]; rfl) (by rfl) (fun s => by cases s <;> rfl) (fun s h => by cases s <;> exact h)
      · obtain ⟨s', hd, h3⟩ := map_some' hs
        cases h3
        exact I.ends (t := t) (s := .tcp c) (r := .err) rfl (by rw [ht]; rfl) (by rfl) (fun s => by cases s <;> rfl) (fun s h => by cases s <;> exact h)
      · cases hs
    · cases hs
  | arrive c bs =>
    simp only [step] at hs
    split at hs
    · cases hs; exact I.same (by rfl) (by hnd c) (fun s h => by cases s <;> exact h)
    · cases hs
  | finish c =>
    simp only [step] at hs
    split at hs
    · cases hs; exact I.same (by rfl) (by hnd c) (fun s h => by cases s <;> exact h)
    · cases hs
  | reset c =>
    simp only [step] at hs
    split at hs
    · cases hs; exact I.same (by rfl) (by hnd c) (fun s h => by cases s <;> exact h)
    · cases hs
  | deliver u d =>
    simp only [step] at hs
    split at hs
    · cases hs; exact I.same (by rfl) (by hnd u) (fun s h => by cases s <;> exact h)
    · cases hs

theorem counted {run : List (Act P × Ret P)} {st : St P} (h : Run G run st) : Counted st (ledger run) := by
  induction h with
  | init =>
    refine ⟨fun t s h => (nomatch h), fun s => ⟨[], .nil, fun t => ⟨fun h => (nomatch h), fun h => (nomatch h)⟩, ?_⟩, fun s h => absurd rfl h⟩
    cases s <;> rfl
  | snoc h hs ih =>
    unfold ledger at ih ⊢
    rw [List.foldl_append]
    exact counted_step ih hs

end Verif.Transport
