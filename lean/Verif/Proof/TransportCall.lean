import Verif.Proof.TransportOwn
/-!
# What the calls in progress are doing
-/
namespace Verif.Transport
open Verif.Types Verif.Spec
open Verif.Heap (Val Entry EP Env Sig Reach Ev Out Op)

variable {P : Type} [DecidableEq P] {G : Env P}

/-- A call that writes has bytes left; one that reads has room; one that closes has an `End`. -/
def CallOk : Call P → Prop
  | .writing _ rest _ => rest ≠ []
  | .reading _ buf _ _ => buf.length < size
  | .closing _ _ s => s.ty = .fin ∧ ∃ a b, s.ep.node = .fin a b
  | _ => True

omit [DecidableEq P] in
theorem callOk_upd {thr : Nat → Call P} {t : Nat} {k : Call P} (h : ∀ t, CallOk (thr t)) (hk : CallOk k) : ∀ t', CallOk (Heap.upd thr t k t') := by
  intro t'
  by_cases e : t' = t
  · subst e; rw [upd_same]; exact hk
  · rw [upd_ne e]; exact h t'

theorem callOk_step {st st' : St P} {a : Act P} {r : Ret P} (h : ∀ t, CallOk (st.thr t)) (hs : step G st a = some (st', r)) :
    ∀ t, CallOk (st'.thr t) := by
  cases a with
  | write t n =>
    simp only [step, write] at hs
    split at hs
    · rename_i c rest here ht
      split at hs
      · rename_i hn
        split at hs
        · cases hs; exact callOk_upd h trivial
        · rename_i hne
          cases hs
          refine callOk_upd h ?_
          simp only [CallOk, ne_eq, List.drop_eq_nil_iff]
          omega
      · cases hs
    · cases hs
  | read t n =>
    simp only [step, read] at hs
    split at hs
    · rename_i c buf x es ht
      split at hs
      · rename_i hn
        split at hs
        · cases hs; exact callOk_upd h trivial
        · rename_i hne
          cases hs
          refine callOk_upd h ?_
          simp only [CallOk]
          have := hn.2.1
          have hl := hne
          rw [List.length_append, List.length_take] at hl ⊢
          have hb := h t
          rw [ht] at hb
          simp only [CallOk] at hb
          omega
      · cases hs
    · cases hs
  | sendTcp t e x data c tcp =>
    simp only [step, sendTcp] at hs
    split at hs
    · rename_i hc
      repeat' split at hs
      all_goals first | (cases hs; done) | cases hs
      · exact h
      · refine callOk_upd h ?_
        simp only [Bool.and_eq_true, beq_iff_eq] at hc
        have hl := hc.1.1.2
        simp only [CallOk]
        intro h0
        rw [h0] at hl
        exact absurd hl (by decide)
      · exact h
    · cases hs
  | recvTcp t e c tcp =>
    simp only [step, recvTcp] at hs
    repeat' split at hs
    all_goals first | (cases hs; done) | cases hs
    · exact h
    · exact callOk_upd h (by simp only [CallOk]; decide)
    · exact h
  | api op =>
    simp only [step] at hs
    split at hs
    · obtain ⟨_, _, he⟩ := map_some' hs; cases he; exact h
    · cases hs
  | forkTcp s g =>
    simp only [step] at hs
    cases g <;> simp only [forkTcp] at hs
    · cases hs; exact h
    · cases hs; exact h
    · repeat' split at hs
      all_goals first | (cases hs; done) | skip
      obtain ⟨_, _, he⟩ := map_some' hs; cases he; exact h
    · repeat' split at hs
      all_goals first | (cases hs; done) | skip
      cases hs; exact h
  | forkUdp s g =>
    simp only [step] at hs
    cases g <;> simp only [forkUdp] at hs
    · cases hs; exact h
    · cases hs; exact h
    · repeat' split at hs
      all_goals first | (cases hs; done) | skip
      obtain ⟨_, _, he⟩ := map_some' hs; cases he; exact h
    · repeat' split at hs
      all_goals first | (cases hs; done) | skip
      cases hs; exact h
  | cloneTcp c => simp only [step] at hs; split at hs <;> cases hs; exact h
  | dropTcp c => simp only [step] at hs; split at hs <;> cases hs; exact h
  | cloneUdp c => simp only [step] at hs; split at hs <;> cases hs; exact h
  | dropUdp c => simp only [step] at hs; split at hs <;> cases hs; exact h
  | arrive c bs => simp only [step] at hs; split at hs <;> cases hs; exact h
  | finish c => simp only [step] at hs; split at hs <;> cases hs; exact h
  | reset c => simp only [step] at hs; split at hs <;> cases hs; exact h
  | deliver c bs => simp only [step] at hs; split at hs <;> cases hs; exact h
  | writeErr t =>
    simp only [step, writeErr] at hs
    split at hs
    · obtain ⟨_, _, he⟩ := map_some' hs; cases he; exact callOk_upd h trivial
    · cases hs
  | readErr t =>
    simp only [step, readErr] at hs
    split at hs
    · obtain ⟨_, _, he⟩ := map_some' hs; cases he; exact callOk_upd h trivial
    · cases hs
  | readEnd t =>
    simp only [step, readEnd, readErr] at hs
    repeat' split at hs
    all_goals first | (cases hs; done) | skip
    all_goals obtain ⟨_, _, he⟩ := map_some' hs; cases he; exact callOk_upd h trivial
  | takeErr t =>
    simp only [step, takeErr] at hs
    split at hs
    · obtain ⟨_, _, he⟩ := map_some' hs; cases he; exact callOk_upd h trivial
    · cases hs
  | closeTcp t e c tcp =>
    simp only [step, closeTcp] at hs
    repeat' split at hs
    all_goals first | (cases hs; done) | skip
    · rename_i h1 hst
      cases hs
      refine callOk_upd h ?_
      simp only [Heap.step, Heap.sigSendStep] at hst
      split at hst
      · rename_i a b hty hn; exact ⟨hty, a, b, hn⟩
      · cases hst
    · obtain ⟨_, _, he⟩ := map_some' hs; cases he; exact h
  | closeWait t b =>
    simp only [step, closeWait] at hs
    repeat' split at hs
    all_goals first | (cases hs; done) | skip
    · obtain ⟨_, _, he⟩ := map_some' hs; cases he; exact callOk_upd h trivial
    · cases hs; exact callOk_upd h trivial
    · obtain ⟨_, _, he⟩ := map_some' hs; cases he; exact callOk_upd h trivial
  | cancelTcp t e c b =>
    simp only [step, cancelTcp] at hs
    split at hs
    · split at hs
      · cases hs
      · obtain ⟨_, _, he⟩ := map_some' hs; cases he; exact h
    · cases hs
  | sendUdp t e x data u udp ok =>
    simp only [step, sendUdp] at hs
    repeat' split at hs
    all_goals first | (cases hs; done) | skip
    all_goals first | (cases hs; exact h) | (obtain ⟨_, _, he⟩ := map_some' hs; cases he; exact h)
  | recvUdp t e u udp =>
    simp only [step, recvUdp] at hs
    repeat' split at hs
    all_goals first | (cases hs; done) | cases hs
    · exact h
    · exact callOk_upd h trivial
    · exact h
  | take t =>
    simp only [step, take] at hs
    repeat' split at hs
    all_goals first | (cases hs; done) | cases hs
    exact callOk_upd h trivial
  | cancelUdp t e u =>
    simp only [step, cancelUdp] at hs
    split at hs
    · obtain ⟨_, _, he⟩ := map_some' hs; cases he; exact h
    · cases hs

theorem run_callOk {run : List (Act P × Ret P)} {st : St P} (h : Run G run st) : ∀ t, CallOk (st.thr t) := by
  induction h with
  | init => intro _; trivial
  | snoc _ hs ih => exact callOk_step ih hs

/-- `shutdown` has been called on the connection, or it has been reset. -/
def closed (s : Stream) : Prop := s.shut = true ∨ s.broken = true

/-- The steps that touch a connection: what they leave as it is. -/
theorem stream_step {st st' : St P} {a : Act P} {r : Ret P} (hs : step G st a = some (st', r)) {c : Nat} (hc : c < st.ntcp) :
    st.ntcp ≤ st'.ntcp ∧ (closed (st.tcp c) → closed (st'.tcp c)) ∧
    (closed (st.tcp c) → (st'.tcp c).sent = (st.tcp c).sent) := by
  have keep : ∀ {f : Nat → Stream} {c' : Nat} {s : Stream}, (closed (f c') → closed s) → (f c').sent = s.sent →
      (closed (f c) → closed (Heap.upd f c' s c)) ∧ (closed (f c) → (Heap.upd f c' s c).sent = (f c).sent) := by
    intro f c' s h1 h2
    by_cases e : c = c'
    · subst e; rw [upd_same, ← h2]; exact ⟨h1, fun _ => rfl⟩
    · rw [upd_ne e]; exact ⟨fun h => h, fun _ => rfl⟩
  have fresh : ∀ {f : Nat → Stream} {s : Stream}, (closed (f c) → closed (Heap.upd f st.ntcp s c)) ∧
      (closed (f c) → (Heap.upd f st.ntcp s c).sent = (f c).sent) := by
    intro f s
    rw [upd_ne (by omega)]; exact ⟨fun h => h, fun _ => rfl⟩
  have shutd : ∀ {f : Nat → Stream} {c' : Nat} {s : Stream} {ok : Bool}, shutdown (f c') ok = some s →
      (closed (f c) → closed (Heap.upd f c' s c)) ∧ (closed (f c) → (Heap.upd f c' s c).sent = (f c).sent) := by
    intro f c' s ok hsd
    unfold shutdown at hsd
    split at hsd
    · cases hsd
      by_cases e : c = c'
      · subst e; rw [upd_same]; exact ⟨fun _ => Or.inl rfl, fun _ => rfl⟩
      · rw [upd_ne e]; exact ⟨fun h => h, fun _ => rfl⟩
    · split at hsd <;> cases hsd
      exact keep (fun h => h) rfl
  have id : st.ntcp ≤ st.ntcp ∧ (closed (st.tcp c) → closed (st.tcp c)) ∧ (closed (st.tcp c) → (st.tcp c).sent = (st.tcp c).sent) :=
    ⟨Nat.le_refl _, fun h => h, fun _ => rfl⟩
  cases a with
  | write t n =>
    simp only [step, write] at hs
    split at hs
    · rename_i c' rest here ht
      split at hs
      · rename_i hn
        have hsent : ∀ s : Stream, (closed (st.tcp c) → closed (Heap.upd st.tcp c' s c)) ∧
            (closed (st.tcp c) → (Heap.upd st.tcp c' s c).sent = (st.tcp c).sent) := by
          intro s
          by_cases e : c = c'
          · subst e
            rw [upd_same]
            have hno : ¬ closed (st.tcp c) := fun h => by
              rcases h with h | h <;> rw [h] at hn
              · exact absurd hn.2.2.1 (by simp)
              · exact absurd hn.2.2.2 (by simp)
            exact ⟨fun h => absurd h hno, fun h => absurd h hno⟩
          · rw [upd_ne e]; exact ⟨fun h => h, fun _ => rfl⟩
        split at hs
        · cases hs
          have h1 := hsent { st.tcp c' with sent := (st.tcp c').sent ++ rest.take n }
          have h2 := keep (f := Heap.upd st.tcp c' { st.tcp c' with sent := (st.tcp c').sent ++ rest.take n }) (c' := c')
            (s := { Heap.upd st.tcp c' { st.tcp c' with sent := (st.tcp c').sent ++ rest.take n } c' with
              free := (Heap.upd st.tcp c' { st.tcp c' with sent := (st.tcp c').sent ++ rest.take n } c').free + 1 }) (fun h => h) rfl
          exact ⟨Nat.le_refl _, fun h => h2.1 (h1.1 h), fun h => (h2.2 (h1.1 h)).trans (h1.2 h)⟩
        · cases hs
          exact ⟨Nat.le_refl _, hsent _⟩
      · cases hs
    · cases hs
  | read t n =>
    simp only [step, read] at hs
    split at hs
    · rename_i c' buf x es ht
      split at hs
      · split at hs
        · cases hs
          have h1 := keep (f := st.tcp) (c' := c') (s := { st.tcp c' with taken := (st.tcp c').taken + n }) (fun h => h) rfl
          have h2 := keep (f := Heap.upd st.tcp c' { st.tcp c' with taken := (st.tcp c').taken + n }) (c' := c')
            (s := { Heap.upd st.tcp c' { st.tcp c' with taken := (st.tcp c').taken + n } c' with
              free := (Heap.upd st.tcp c' { st.tcp c' with taken := (st.tcp c').taken + n } c').free + 1 }) (fun h => h) rfl
          exact ⟨Nat.le_refl _, fun h => h2.1 (h1.1 h), fun h => (h2.2 (h1.1 h)).trans (h1.2 h)⟩
        · cases hs
          exact ⟨Nat.le_refl _, keep (fun h => h) rfl⟩
      · cases hs
    · cases hs
  | sendTcp t e x data c' tcp =>
    simp only [step, sendTcp] at hs
    repeat' split at hs
    all_goals first | (cases hs; done) | cases hs
    · exact ⟨Nat.le_refl _, keep (fun h => h) rfl⟩
    · exact ⟨Nat.le_refl _, keep (fun h => h) rfl⟩
    · exact id
  | recvTcp t e c' tcp =>
    simp only [step, recvTcp] at hs
    repeat' split at hs
    all_goals first | (cases hs; done) | cases hs
    · exact ⟨Nat.le_refl _, keep (fun h => h) rfl⟩
    · exact ⟨Nat.le_refl _, keep (fun h => h) rfl⟩
    · exact id
  | api op =>
    simp only [step] at hs
    split at hs
    · obtain ⟨_, _, he⟩ := map_some' hs; cases he; exact id
    · cases hs
  | forkTcp s g =>
    simp only [step] at hs
    cases g <;> simp only [forkTcp] at hs
    · cases hs; exact id
    · cases hs; exact ⟨Nat.le_succ _, id.2⟩
    · repeat' split at hs
      all_goals first | (cases hs; done) | skip
      obtain ⟨_, _, he⟩ := map_some' hs; cases he; exact ⟨Nat.le_succ _, id.2⟩
    · repeat' split at hs
      all_goals first | (cases hs; done) | skip
      cases hs; exact ⟨Nat.le_succ _, fresh⟩
  | forkUdp s g =>
    simp only [step] at hs
    cases g <;> simp only [forkUdp] at hs
    · cases hs; exact id
    · cases hs; exact id
    · repeat' split at hs
      all_goals first | (cases hs; done) | skip
      obtain ⟨_, _, he⟩ := map_some' hs; cases he; exact id
    · repeat' split at hs
      all_goals first | (cases hs; done) | skip
      cases hs; exact id
  | cloneTcp c => simp only [step] at hs; split at hs <;> cases hs; exact ⟨Nat.le_refl _, keep (fun h => h) rfl⟩
  | dropTcp c => simp only [step] at hs; split at hs <;> cases hs; exact ⟨Nat.le_refl _, keep (fun h => h) rfl⟩
  | cloneUdp c => simp only [step] at hs; split at hs <;> cases hs; exact id
  | dropUdp c => simp only [step] at hs; split at hs <;> cases hs; exact id
  | arrive c bs => simp only [step] at hs; split at hs <;> cases hs; exact ⟨Nat.le_refl _, keep (fun h => h) rfl⟩
  | finish c => simp only [step] at hs; split at hs <;> cases hs; exact ⟨Nat.le_refl _, keep (fun h => h) rfl⟩
  | reset c => simp only [step] at hs; split at hs <;> cases hs; exact ⟨Nat.le_refl _, keep (fun _ => Or.inr rfl) rfl⟩
  | deliver c bs => simp only [step] at hs; split at hs <;> cases hs; exact id
  | writeErr t =>
    simp only [step, writeErr] at hs
    split at hs
    · obtain ⟨_, _, he⟩ := map_some' hs; cases he; exact id
    · cases hs
  | readErr t =>
    simp only [step, readErr] at hs
    split at hs
    · obtain ⟨_, _, he⟩ := map_some' hs; cases he; exact id
    · cases hs
  | readEnd t =>
    simp only [step, readEnd, readErr] at hs
    repeat' split at hs
    all_goals first | (cases hs; done) | skip
    all_goals obtain ⟨_, _, he⟩ := map_some' hs; cases he; exact id
  | takeErr t =>
    simp only [step, takeErr] at hs
    split at hs
    · obtain ⟨_, _, he⟩ := map_some' hs; cases he; exact id
    · cases hs
  | closeTcp t e c tcp =>
    simp only [step, closeTcp] at hs
    repeat' split at hs
    all_goals first | (cases hs; done) | skip
    · cases hs; exact ⟨Nat.le_refl _, keep (fun h => h) rfl⟩
    · obtain ⟨_, _, he⟩ := map_some' hs; cases he; exact ⟨Nat.le_refl _, keep (fun h => h) rfl⟩
  | closeWait t b =>
    simp only [step, closeWait] at hs
    repeat' split at hs
    all_goals first | (cases hs; done) | skip
    · obtain ⟨s', hsd, he⟩ := map_some' hs; cases he; exact ⟨Nat.le_refl _, shutd hsd⟩
    · cases hs; exact id
    · obtain ⟨_, _, he⟩ := map_some' hs; cases he; exact id
  | cancelTcp t e c' b =>
    simp only [step, cancelTcp] at hs
    split at hs
    · split at hs
      · cases hs
      · obtain ⟨s', hsd, he⟩ := map_some' hs
        cases he
        have h1 := shutd (f := st.tcp) hsd
        have h2 := keep (f := Heap.upd st.tcp c' s') (c' := c')
          (s := { Heap.upd st.tcp c' s' c' with free := (Heap.upd st.tcp c' s' c').free - 1 }) (fun h => h) rfl
        exact ⟨Nat.le_refl _, fun h => h2.1 (h1.1 h), fun h => (h2.2 (h1.1 h)).trans (h1.2 h)⟩
    · cases hs
  | sendUdp t e x data u udp ok =>
    simp only [step, sendUdp] at hs
    repeat' split at hs
    all_goals first | (cases hs; done) | skip
    all_goals first | (cases hs; exact id) | (obtain ⟨_, _, he⟩ := map_some' hs; cases he; exact id)
  | recvUdp t e u udp =>
    simp only [step, recvUdp] at hs
    repeat' split at hs
    all_goals first | (cases hs; done) | cases hs
    all_goals exact id
  | take t =>
    simp only [step, take] at hs
    repeat' split at hs
    all_goals first | (cases hs; done) | cases hs
    exact id
  | cancelUdp t e u =>
    simp only [step, cancelUdp] at hs
    split at hs
    · obtain ⟨_, _, he⟩ := map_some' hs; cases he; exact id
    · cases hs

theorem run_det {run : List (Act P × Ret P)} {st : St P} (h : Run G run st) : ∀ {st' : St P}, Run G run st' → st' = st := by
  induction h with
  | init =>
    intro st' h'
    generalize hr : ([] : List (Act P × Ret P)) = run at h'
    cases h' with
    | init => rfl
    | snoc _ _ => exact absurd (congrArg List.length hr) (by simp)
  | @snoc ls st a r st1 _ hs ih =>
    intro st' h'
    generalize hr : ls ++ [(a, r)] = run at h'
    cases h' with
    | init => exact absurd (congrArg List.length hr) (by simp)
    | @snoc ls2 st2 a2 r2 _ h2 hs2 =>
      have hl := List.append_inj' hr rfl
      obtain ⟨rfl, h3⟩ := hl
      cases h3
      cases ih h2
      rw [hs] at hs2
      cases hs2
      rfl

/-- A property that steps preserve. -/
theorem run_more {run : List (Act P × Ret P)} {st : St P} (h : Run G run st) {Q : List (Act P × Ret P) → St P → Prop}
    (h0 : Q run st) (hstep : ∀ run' s a r s', run <+: run' → Run G run' s → step G s a = some (s', r) → Q run' s → Q (run' ++ [(a, r)]) s') :
    ∀ {more : List (Act P × Ret P)} {st' : St P}, Run G (run ++ more) st' → Q (run ++ more) st' := by
  intro more
  induction hn : more.length generalizing more with
  | zero =>
    intro st' h'
    have : more = [] := List.length_eq_zero_iff.mp hn
    subst this
    rw [List.append_nil] at h' ⊢
    cases run_det h h'
    exact h0
  | succ n ih =>
    intro st' h'
    have hne : more ≠ [] := by intro e; rw [e] at hn; cases hn
    obtain ⟨m, x, rfl⟩ : ∃ m x, more = m ++ [x] := ⟨more.dropLast, more.getLast hne, (List.dropLast_concat_getLast hne).symm⟩
    rw [← List.append_assoc] at h' ⊢
    generalize hr : (run ++ m) ++ [x] = full at h' ⊢
    cases h' with
    | init => exact absurd (congrArg List.length hr) (by simp)
    | @snoc ls s a r _ h1 hs =>
      obtain ⟨rfl, h3⟩ := List.append_inj' hr rfl
      have hlen : m.length = n := by simpa using hn
      exact hstep _ _ _ _ _ (List.prefix_append ..) h1 hs (ih hlen h1)

end Verif.Transport
