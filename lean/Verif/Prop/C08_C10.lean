import Verif.Proof.CloseMore
/-!
# C08, C09, C10, C33, C39: closing

Model: `Model/Close.lean`; vocabulary: `Spec/Closing.lean`.  `Reaches Y canc ls s`: the schedule `ls` leads
from fresh endpoints to `s`, the threads in `canc` dropping their endpoints instead of closing.  `Stuck`: no thread can
take a step.  Since the length of schedules is bounded, every schedule can only be continued to a stuck
state: what holds in all stuck states holds at the end of every complete schedule.
-/
namespace Verif.Prop
open Verif.Close

/-- Nobody cancels. -/
abbrev nobody : Nat → Prop := fun _ => False

/-- Schedules of a system are of bounded length. -/
def Bounded (Y : Sys) (canc : Nat → Prop) : Prop := ∃ B, ∀ ls s, Reaches Y canc ls s → ls.length ≤ B

theorem bounded (Y : Sys) (canc : Nat → Prop) : Bounded Y canc :=
  ⟨_, fun _ _ h => Nat.le_trans (Nat.le_add_right _ _) (run_bounded h)⟩

/-- A run, given as a list of labels. -/
def play (Y : Sys) (s : S) : List Label → Option S
  | [] => some s
  | l :: ls => (step Y s l).bind (fun s' => play Y s' ls)

theorem run_append {Y s ls s1 ls' s2} (h : Run Y s ls s1) (h' : play Y s1 ls' = some s2) :
    Run Y s (ls ++ ls') s2 := by
  induction ls' generalizing s1 ls with
  | nil => simp only [play] at h'; cases h'; simpa using h
  | cons l ls' ih =>
    simp only [play] at h'
    cases hs : step Y s1 l with
    | none => rw [hs] at h'; cases h'
    | some s' =>
      rw [hs] at h'
      have := ih (.snoc h hs) h'
      simpa using this

theorem play_run {Y ls s} (h : play Y .init ls = some s) : Run Y .init ls s := by
  simpa using run_append (.nil _) h

/-- C09.  Any number of roles, each using any of the library's close functions: schedules are of bounded length,
no close call ever fails, when nothing can move any more all calls have returned `Ok`, and nobody
has returned `Ok` before every partner has called close. -/
theorem C09_close_terminates (n : Nat) (code : Nat → List Act)
    (hcode : ∀ i, 1 ≤ i → i ≤ n → IsCloseFn n i (code i)) :
    Bounded (meshSys n code) nobody ∧
    ∀ ls s, Reaches (meshSys n code) nobody ls s →
      (∀ i r, 1 ≤ i → i ≤ n → Returned s i r → r = .ok) ∧
      (Stuck (meshSys n code) nobody s → ∀ i, 1 ≤ i → i ≤ n → Returned s i .ok) ∧
      (∀ i j, 1 ≤ i → i ≤ n → 1 ≤ j → j ≤ n → Returned s i .ok → Called s j) := by
  have w := wf_closeFns hcode
  refine ⟨bounded _ _, ?_⟩
  intro ls s h
  have nf : ∀ i r, 1 ≤ i → i ≤ n → Returned s i r → r = .ok := by
    intro i r h1 h2 hr
    exact no_fail w h (fun _ _ => id) (mem_roles.2 ⟨h1, h2⟩) hr
  refine ⟨nf, ?_, ?_⟩
  · intro hst i h1 h2
    obtain ⟨r, hr⟩ := all_return w h hst (mem_roles.2 ⟨h1, h2⟩) id
    have := nf i r h1 h2 hr
    subst this; exact hr
  · intro i j h1 h2 h3 h4 hr
    by_cases hij : i = j
    · subst hij; obtain ⟨q, hq⟩ := hr; exact .inr ⟨_, _, hq⟩
    · have hp := meshPeer_to ⟨h1, h2⟩ ⟨h3, h4⟩ hij
      have := ok_partners w h (x := (i, Spec.slotOf i j)) (mem_roles.2 ⟨h1, h2⟩)
        (mem_slots.2 ⟨rfl, hp.1.2.2⟩) hr
      have e : (meshSys n code).owner ((meshSys n code).peer (i, Spec.slotOf i j)) = j := hp.2
      rw [e] at this; exact this

/-- The complete schedule in which the three roles close, role 3 last to start. -/
def demoClose : List Label :=
  [.call 1, .act 1, .act 1, .call 2, .act 2, .act 2, .act 2, .act 1, .call 3, .act 3, .act 3, .act 3, .act 3,
   .act 3, .dropRx (3, 1), .dropTx (3, 1), .dropTx (3, 2), .dropRx (3, 2), .act 1, .act 1, .act 2, .act 2]

/-- A state in which all three roles have returned is reachable, using three different close functions. -/
example : ∃ s, Reaches (meshSys 3 (fun i => if i = 1 then closeMpst3 1 else if i = 2 then closeMpstMulti 3 2
      else closeMpstCheckCancel 3 i)) nobody demoClose s ∧
    Returned s 1 .ok ∧ Returned s 2 .ok ∧ Returned s 3 .ok := by
  refine ⟨_, ⟨play_run rfl, ?_⟩, ⟨[], rfl⟩, ⟨[], rfl⟩, ⟨[], rfl⟩⟩
  intro l hl
  simp only [demoClose, List.mem_cons, List.not_mem_nil, or_false] at hl
  rcases hl with rfl | rfl | rfl | rfl | rfl | rfl | rfl | rfl | rfl | rfl | rfl | rfl | rfl | rfl | rfl | rfl | rfl |
    rfl | rfl | rfl | rfl | rfl <;> simp [Plays, meshSys, nobody, slots]

example : ∀ i, 1 ≤ i → i ≤ 3 → IsCloseFn 3 i (if i = 1 then closeMpst3 1 else if i = 2 then closeMpstMulti 3 2
    else closeMpstCheckCancel 3 i) := by
  intro i h1 h2
  have : i = 1 ∨ i = 2 ∨ i = 3 := by omega
  rcases this with rfl | rfl | rfl <;> simp [IsCloseFn]

/-- C10.  Whatever non-empty set of roles cancels, and whichever close functions the others use: schedules are of
bounded length, no close call ever returns `Ok`, and when nothing can move any more every
role that did not cancel has returned from its close call, with a failure. -/
theorem C10_close_fails (n : Nat) (code : Nat → List Act) (canc : Nat → Prop) (u : Nat)
    (hcode : ∀ i, 1 ≤ i → i ≤ n → IsCloseFn n i (code i)) (hu : 1 ≤ u ∧ u ≤ n) (hc : canc u) :
    Bounded (meshSys n code) canc ∧
    ∀ ls s, Reaches (meshSys n code) canc ls s →
      (∀ i, 1 ≤ i → i ≤ n → ¬ Returned s i .ok) ∧
      (Stuck (meshSys n code) canc s → ∀ i, 1 ≤ i → i ≤ n → ¬ canc i → ∃ r, r ≠ .ok ∧ Returned s i r) := by
  have w := wf_closeFns hcode
  refine ⟨bounded _ _, ?_⟩
  intro ls s h
  have no : ∀ i, 1 ≤ i → i ≤ n → ¬ Returned s i .ok := by
    intro i h1 h2 hr
    by_cases hiu : i = u
    · subst hiu
      obtain ⟨q, hq⟩ := hr
      exact (reaches_roles h i).2 (.inr ⟨_, _, hq⟩) hc
    · have hp := meshPeer_to ⟨h1, h2⟩ hu hiu
      refine not_ok w h (x := (i, Spec.slotOf i u)) (mem_roles.2 ⟨h1, h2⟩) (mem_slots.2 ⟨rfl, hp.1.2.2⟩) ?_ hr
      have e : (meshSys n code).owner ((meshSys n code).peer (i, Spec.slotOf i u)) = u := hp.2
      rw [e]; exact hc
  refine ⟨no, ?_⟩
  intro hst i h1 h2 hci
  obtain ⟨r, hr⟩ := all_return w h hst (mem_roles.2 ⟨h1, h2⟩) hci
  refine ⟨r, ?_, hr⟩
  rintro rfl; exact no i h1 h2 hr

/-- The failure is an `Err`, not a panic, for every role whose close function is not
`close_mpst_check_cancel!`. -/
theorem C10_close_errs (n : Nat) (code : Nat → List Act) (canc : Nat → Prop) (ls : List Label) (s : S)
    (h : Reaches (meshSys n code) canc ls s) (i : Nat)
    (hcode : code i = genClose n i ∨ code i = closeMpstMulti n i ∨ code i = closeMpstCancel n i) :
    ¬ Returned s i .panic := by
  rintro ⟨q, hq⟩
  obtain ⟨m, x, r, rfl, hs, h3⟩ := (run_pinv h.1).pan i q hq
  rcases h3 with h3 | ⟨y, g, _, _, hm⟩
  · subst h3
    have hm : Act.recv .checkCancel x ∈ code i := hs.subset List.mem_cons_self
    rcases hcode with e | e | e <;> rw [e] at hm <;> simp [genClose, closeMpstMulti, closeMpstCancel, closeAll] at hm
  · exact absurd (h.2 _ hm) id

/-- Role 2 of 3 drops its mesh while role 1 is already waiting: 1 and 3 return errors. -/
example : ∃ s, Reaches (meshSys 3 (genClose 3)) (fun t => t = 2)
      [.call 1, .act 1, .act 1, .quit 2, .call 3, .dropTx (2, 1), .act 1, .dropRx (2, 2), .act 3, .act 3] s ∧
    Returned s 1 .err ∧ Returned s 3 .err := by
  refine ⟨_, ⟨play_run rfl, ?_⟩, ⟨_, rfl⟩, ⟨_, rfl⟩⟩
  intro l hl
  simp only [List.mem_cons, List.not_mem_nil, or_false] at hl
  rcases hl with rfl | rfl | rfl | rfl | rfl | rfl | rfl | rfl | rfl | rfl <;> simp [Plays, meshSys, slots]

/-! ## Signals sent before closing -/

/-- Each thread still running its closing code receives only on its own endpoints. -/
def OwnRecvs (s : S) : Prop := ∀ t rest, s.pc t = .run rest → ∀ m y, Act.recv m y ∈ rest → y.1 = t

theorem ownRecvs_step {n : Nat} {code : Nat → List Act} (hcode : ∀ i, IsCloseFn n i (code i)) {s s' : S} {l : Label}
    (h : OwnRecvs s) (hs : step (meshSys n code) s l = some s') : OwnRecvs s' := by
  have key : ∀ (t : Nat) (p : PC) (buf tx rx), (∀ rest, p = .run rest → ∀ m y, Act.recv m y ∈ rest → y.1 = t) →
      OwnRecvs ⟨upd s.pc t p, buf, tx, rx⟩ := by
    intro t p buf tx rx hp u rest hu m y hm
    simp only [upd] at hu
    split at hu
    · rename_i e; subst e; exact hp rest hu m y hm
    · exact h u rest hu m y hm
  cases l with
  | call t =>
    simp only [step] at hs; split at hs <;> cases hs
    refine key _ _ _ _ _ ?_
    intro rest hr m y hm
    injection hr with hr
    subst hr
    obtain ⟨sm, rm, e⟩ := closeFn_form (hcode t)
    have hm' : Act.recv m y ∈ code t := hm
    rw [e] at hm'
    simp only [closeAll, List.mem_append, List.mem_map, reduceCtorEq, and_false, exists_false, false_or] at hm'
    obtain ⟨a, ha, hb⟩ := hm'
    injection hb with _ hb; subst hb
    exact (mem_slots.1 ha).1
  | quit t => simp only [step] at hs; split at hs <;> cases hs; exact key _ _ _ _ _ (by intro r hr; cases hr)
  | emit x g => simp only [step] at hs; split at hs <;> cases hs; exact h
  | dropTx x => simp only [step] at hs; split at hs <;> cases hs; exact h
  | dropRx x => simp only [step] at hs; split at hs <;> cases hs; exact h
  | act t =>
    simp only [step, exec] at hs
    split at hs
    · cases hs; exact key _ _ _ _ _ (by intro r hr; cases hr)
    · rename_i m x rest hp
      have tail : ∀ m y, Act.recv m y ∈ rest → y.1 = t := fun m y hm => h t _ hp m y (List.mem_cons_of_mem _ hm)
      split at hs
      · split at hs <;> cases hs
        · exact key _ _ _ _ _ (by intro r hr; cases hr)
        · exact key _ _ _ _ _ (by intro r hr; injection hr with hr; subst hr; exact tail)
      · split at hs <;> cases hs
        exact key _ _ _ _ _ (by intro r hr; injection hr with hr; subst hr; exact tail)
    · rename_i m x rest hp
      have tail : ∀ m y, Act.recv m y ∈ rest → y.1 = t := fun m y hm => h t _ hp m y (List.mem_cons_of_mem _ hm)
      split at hs
      · cases hs
        refine key _ _ _ _ _ ?_
        intro r hr
        split at hr
        · injection hr with hr; subst hr; exact tail
        · cases hr
      · split at hs <;> cases hs
        exact key _ _ _ _ _ (by intro r hr; cases hr)
    · cases hs

/-- Role `x.1` has not returned `Ok`, and unless it has already ended, the refused signal `g` is waiting on `x` and still
to be received. -/
def Pending (code : Nat → List Act) (x : E) (g : Sig) (s : S) : Prop :=
  (s.pc x.1 = .idle ∧ s.buf x = some g) ∨
  (∃ rest, s.pc x.1 = .run rest ∧ s.buf x = some g ∧ rest <:+ code x.1 ∧ ∃ m, Act.recv m x ∈ rest) ∨
  ((s.pc x.1).stopped = true ∧ ¬ Returned s x.1 .ok)

theorem pending_step {n : Nat} {code : Nat → List Act} {x : E} {g : Sig} {s s' : S} {l : Label}
    (hrecv : ∃ m, Act.recv m x ∈ code x.1) (hrej : ∀ m, Act.recv m x ∈ code x.1 → accepts m g = false)
    (ho : OwnRecvs s) (h : Pending code x g s) (hs : step (meshSys n code) s l = some s') : Pending code x g s' := by
  cases l with
  | call t =>
    simp only [step] at hs; split at hs <;> cases hs
    rename_i ht
    by_cases e : t = x.1
    · subst e
      rcases h with ⟨_, hb⟩ | ⟨r, hr, _⟩ | ⟨h1, _⟩
      · exact .inr (.inl ⟨code x.1, by simp [upd, meshSys], hb, List.suffix_refl _, hrecv⟩)
      · rw [ht] at hr; cases hr
      · rw [ht] at h1; cases h1
    · simpa [Pending, upd, Ne.symm e, Returned] using h
  | quit t =>
    simp only [step] at hs; split at hs <;> cases hs
    by_cases e : t = x.1
    · subst e; exact .inr (.inr ⟨by simp [upd, PC.stopped], by simp [Returned, upd]⟩)
    · simpa [Pending, upd, Ne.symm e, Returned] using h
  | emit y k =>
    simp only [step] at hs; split at hs <;> cases hs
    rename_i hc
    by_cases e : x = (meshSys n code).peer y
    · rcases h with ⟨_, hb⟩ | ⟨r, _, hb, _⟩ | h1
      · rw [e, hc.2.2] at hb; cases hb
      · rw [e, hc.2.2] at hb; cases hb
      · exact .inr (.inr h1)
    · simpa [Pending, upd, e, Returned] using h
  | dropTx y => simp only [step] at hs; split at hs <;> cases hs; exact h
  | dropRx y =>
    simp only [step] at hs; split at hs <;> cases hs
    rename_i hc
    by_cases e : x = y
    · subst e
      have hst : (s.pc x.1).stopped = true := hc.1
      rcases h with ⟨h1, _⟩ | ⟨r, h1, _⟩ | h1
      · rw [h1] at hst; cases hst
      · rw [h1] at hst; cases hst
      · exact .inr (.inr h1)
    · simpa [Pending, upd, e, Returned] using h
  | act t =>
    by_cases e : t = x.1
    · subst e
      rcases h with ⟨h1, _⟩ | ⟨rest, h1, hb, hsuf, m0, hm0⟩ | ⟨h1, _⟩
      · simp [step, exec, h1] at hs
      · cases rest with
        | nil => cases hm0
        | cons a rest =>
          have hsuf' : rest <:+ code x.1 := (List.suffix_cons _ _).trans hsuf
          have stop : ∀ r q buf, r ≠ .ok → Pending code x g ⟨upd s.pc x.1 (.fin r q), buf, s.tx, s.rx⟩ := by
            intro r q buf hr
            refine .inr (.inr ⟨by simp [upd, PC.stopped], ?_⟩)
            rintro ⟨q', hq⟩; simp [upd] at hq; exact hr hq.1
          cases a with
          | send m y =>
            have hm1 : Act.recv m0 x ∈ rest := by simpa using hm0
            simp only [step, exec, h1] at hs
            split at hs
            · cases m <;> cases hs
              · exact stop _ _ _ (by simp)
              · exact .inr (.inl ⟨rest, by simp [upd], hb, hsuf', _, hm1⟩)
            · split at hs <;> cases hs
              rename_i hn
              refine .inr (.inl ⟨rest, by simp [upd], ?_, hsuf', _, hm1⟩)
              simp only [upd]
              split
              · rename_i e; rw [← e, hb] at hn; cases hn
              · exact hb
          | recv m y =>
            simp only [step, exec, h1] at hs
            by_cases e : y = x
            · subst e
              have := hrej m (hsuf.subset List.mem_cons_self)
              simp only [hb, this] at hs
              cases hs
              exact stop _ _ _ (by simp)
            · have hm1 : Act.recv m0 x ∈ rest := by
                rcases List.mem_cons.1 hm0 with h | h
                · injection h with _ h; exact absurd h.symm e
                · exact h
              split at hs
              · cases hs
                split
                · exact .inr (.inl ⟨rest, by simp [upd], by simp [upd, Ne.symm e, hb], hsuf', _, hm1⟩)
                · exact stop _ _ _ (by simp)
              · split at hs <;> cases hs
                exact stop _ _ _ (by cases m <;> simp [onDisconnect])
      · exfalso
        simp only [step, exec] at hs
        split at hs <;> rename_i hp <;> (try rw [hp] at h1; cases h1)
        cases hs
    · have same : s'.pc x.1 = s.pc x.1 := by
        simp only [step, exec] at hs
        split at hs
        · cases hs; simp [upd, Ne.symm e]
        · split at hs
          · split at hs <;> cases hs <;> simp [upd, Ne.symm e]
          · split at hs <;> cases hs; simp [upd, Ne.symm e]
        · split at hs
          · cases hs; simp [upd, Ne.symm e]
          · split at hs <;> cases hs; simp [upd, Ne.symm e]
        · cases hs
      have buf : s.buf x = some g → s'.buf x = some g := by
        intro hb
        simp only [step, exec] at hs
        split at hs
        · cases hs; exact hb
        · split at hs
          · split at hs <;> cases hs <;> exact hb
          · split at hs <;> cases hs
            rename_i hn
            simp only [upd]
            split
            · rename_i e; rw [← e, hb] at hn; cases hn
            · exact hb
        · rename_i m y rest hp
          have hy := ho t _ hp m y List.mem_cons_self
          have hne : x ≠ y := by rintro rfl; exact e hy.symm
          split at hs
          · cases hs; simp [upd, hne, hb]
          · split at hs <;> cases hs; exact hb
        · cases hs
      simp only [Pending, same, Returned]
      rcases h with ⟨h1, h2⟩ | ⟨r, h1, h2, h3⟩ | h1
      · exact .inl ⟨h1, buf h2⟩
      · exact .inr (.inl ⟨r, h1, buf h2, h3⟩)
      · exact .inr (.inr h1)

/-- C10, explicit cancellation.  Every role runs a close function of the library and may send any signals before.  If
role `i` has a signal other than `Stop` waiting on one of its sessions when it calls `close` (a method or function that
checks what it receives), or a `Cancel` when it calls `close_mpst_check_cancel!`, then its call never returns `Ok`, whatever
happens. -/
theorem C10_cancel_noticed (n : Nat) (code : Nat → List Act) (hcode : ∀ i, IsCloseFn n i (code i)) (i k : Nat)
    (hk : 1 ≤ k ∧ k < n) (g : Sig)
    (hg : (code i = genClose n i ∧ g ≠ .stop) ∨ (code i = closeMpstCheckCancel n i ∧ g = .cancel))
    (ls : List Label) (s : S) (h : Run (meshSys n code) .init ls s) (hi : s.pc i = .idle) (hb : s.buf (i, k) = some g)
    (ls' : List Label) (s' : S) (h' : Run (meshSys n code) s ls' s') : ¬ Returned s' i .ok := by
  have own : OwnRecvs s := by
    clear hi hb h'
    generalize hs0 : S.init = s0 at h
    induction h with
    | nil => subst hs0; intro t rest ht; cases ht
    | snoc _ hl ih => exact ownRecvs_step hcode ih hl
  have hx : (i, k) ∈ slots n i := mem_slots.2 ⟨rfl, by simp; omega⟩
  have hrecv : ∃ m, Act.recv m (i, k) ∈ code i := by
    rcases hg with ⟨e, _⟩ | ⟨e, _⟩ <;> rw [e]
    · exact ⟨.stopOnly, List.mem_append_right _ (List.mem_map.2 ⟨_, hx, rfl⟩)⟩
    · exact ⟨.checkCancel, List.mem_append_right _ (List.mem_map.2 ⟨_, hx, rfl⟩)⟩
  have hrej : ∀ m, Act.recv m (i, k) ∈ code i → accepts m g = false := by
    intro m hm
    rcases hg with ⟨e, h1⟩ | ⟨e, h1⟩ <;> rw [e] at hm <;>
      simp only [genClose, closeMpstCheckCancel, closeAll, List.mem_append, List.mem_map, reduceCtorEq, and_false, exists_false,
        false_or, Act.recv.injEq] at hm <;> obtain ⟨_, _, rfl, _⟩ := hm
    · cases g <;> simp [accepts] at h1 ⊢
    · subst h1; rfl
  have pend : OwnRecvs s' ∧ Pending code (i, k) g s' := by
    clear h
    induction h' with
    | nil => exact ⟨own, .inl ⟨hi, hb⟩⟩
    | snoc _ hl ih =>
      obtain ⟨h1, h2⟩ := ih
      exact ⟨ownRecvs_step hcode h1 hl, pending_step hrecv hrej h1 h2 hl⟩
  rintro ⟨q, hq⟩
  rcases pend.2 with ⟨h1, _⟩ | ⟨r, h1, _⟩ | ⟨_, h1⟩
  · rw [hq] at h1; cases h1
  · rw [hq] at h1; cases h1
  · exact h1 ⟨q, hq⟩

/-- The hypotheses are met: role 2 of 3 sends `Cancel` to role 1 (on its `session1`), which then closes and panics. -/
example : ∃ s s', Run (meshSys 3 (closeMpstCheckCancel 3)) .init [.emit (2, 1) .cancel] s ∧ s.pc 1 = .idle ∧
    s.buf (1, 1) = some .cancel ∧
    Run (meshSys 3 (closeMpstCheckCancel 3)) s [.call 1, .act 1, .act 1, .act 1] s' ∧ Returned s' 1 .panic :=
  ⟨_, _, play_run rfl, rfl, rfl, by simpa using run_append (.nil _) (ls' := [.call 1, .act 1, .act 1, .act 1]) rfl,
    ⟨_, rfl⟩⟩

/-- Role `i` has not returned `Ok`, and unless it has already ended, it still has to send to a partner that is gone. -/
def Unsent (x : E) (y : E) (i : Nat) (s : S) : Prop :=
  s.rx y = false ∧
  (s.pc i = .idle ∨ (∃ rest, s.pc i = .run rest ∧ Act.send .strict x ∈ rest) ∨
    ((s.pc i).stopped = true ∧ ¬ Returned s i .ok))

theorem unsent_step {n : Nat} {code : Nat → List Act} {x : E} {i : Nat} {s s' : S} {l : Label}
    (hsend : Act.send .strict x ∈ code i)
    (h : Unsent x (meshPeer x) i s) (hs : step (meshSys n code) s l = some s') : Unsent x (meshPeer x) i s' := by
  obtain ⟨hrx, h⟩ := h
  cases l with
  | call t =>
    simp only [step] at hs; split at hs <;> cases hs
    rename_i ht
    refine ⟨hrx, ?_⟩
    by_cases e : t = i
    · subst e
      exact .inr (.inl ⟨code t, by simp [upd, meshSys], hsend⟩)
    · simpa [upd, Ne.symm e, Returned] using h
  | quit t =>
    simp only [step] at hs; split at hs <;> cases hs
    refine ⟨hrx, ?_⟩
    by_cases e : t = i
    · subst e; exact .inr (.inr ⟨by simp [upd, PC.stopped], by simp [Returned, upd]⟩)
    · simpa [upd, Ne.symm e, Returned] using h
  | emit y k => simp only [step] at hs; split at hs <;> cases hs; exact ⟨hrx, h⟩
  | dropTx y => simp only [step] at hs; split at hs <;> cases hs; exact ⟨hrx, h⟩
  | dropRx y =>
    simp only [step] at hs; split at hs <;> cases hs
    refine ⟨?_, h⟩
    simp only [upd]
    split
    · rfl
    · exact hrx
  | act t =>
    by_cases e : t = i
    · subst e
      have stop : ∀ r q buf, r ≠ .ok → Unsent x (meshPeer x) t ⟨upd s.pc t (.fin r q), buf, s.tx, s.rx⟩ := by
        intro r q buf hr
        refine ⟨hrx, .inr (.inr ⟨by simp [upd, PC.stopped], ?_⟩)⟩
        rintro ⟨q', hq⟩; simp [upd] at hq; exact hr hq.1
      rcases h with h1 | ⟨rest, h1, hm⟩ | ⟨h1, _⟩
      · simp [step, exec, h1] at hs
      · cases rest with
        | nil => cases hm
        | cons a rest =>
          have go : ∀ buf, Act.send .strict x ∈ rest → Unsent x (meshPeer x) t ⟨upd s.pc t (.run rest), buf, s.tx, s.rx⟩ :=
            fun buf hm => ⟨hrx, .inr (.inl ⟨rest, by simp [upd], hm⟩)⟩
          cases a with
          | send m y =>
            simp only [step, exec, h1] at hs
            rcases List.mem_cons.1 hm with he | hm'
            · injection he with e1 e2
              subst e1; subst e2
              rw [if_pos (show s.rx ((meshSys n code).peer x) = false from hrx)] at hs
              cases hs
              exact stop _ _ _ (by simp)
            · split at hs
              · cases m <;> cases hs
                · exact stop _ _ _ (by simp)
                · exact go _ hm'
              · split at hs <;> cases hs
                exact go _ hm'
          | recv m y =>
            have hm : Act.send .strict x ∈ rest := by simpa using hm
            simp only [step, exec, h1] at hs
            split at hs
            · cases hs
              split
              · exact go _ hm
              · exact stop _ _ _ (by simp)
            · split at hs <;> cases hs
              exact stop _ _ _ (by cases m <;> simp [onDisconnect])
      · exfalso
        simp only [step, exec] at hs
        split at hs <;> rename_i hp <;> (try rw [hp] at h1; cases h1)
        cases hs
    · have same : s'.pc i = s.pc i ∧ s'.rx = s.rx := by
        simp only [step, exec] at hs
        split at hs
        · cases hs; simp [upd, Ne.symm e]
        · split at hs
          · split at hs <;> cases hs <;> simp [upd, Ne.symm e]
          · split at hs <;> cases hs; simp [upd, Ne.symm e]
        · split at hs
          · cases hs; simp [upd, Ne.symm e]
          · split at hs <;> cases hs; simp [upd, Ne.symm e]
        · cases hs
      exact ⟨by rw [same.2]; exact hrx, by simpa only [same.1, Returned] using h⟩

/-- C10, a partner that is gone.  If a role calls the generated method `close`, `close_mpst_cancel!` or `close_mpst` when
one of its partners has already dropped its receiver, then the call never returns `Ok`, even if that partner had
sent its signal before.  (`close_mpst!` and `close_mpst_check_cancel!` overlook it: `C10_gone_overlooked`.) -/
theorem C10_gone_noticed (n : Nat) (code : Nat → List Act) (i k : Nat) (hk : 1 ≤ k ∧ k < n)
    (hc : code i = genClose n i ∨ code i = closeMpstCancel n i ∨ (n = 3 ∧ code i = closeMpst3 i) ∨
      (n = 2 ∧ code i = binaryClose (i, 1)))
    (ls : List Label) (s : S) (_h : Run (meshSys n code) .init ls s) (hi : s.pc i = .idle)
    (hb : s.rx (meshPeer (i, k)) = false)
    (ls' : List Label) (s' : S) (h' : Run (meshSys n code) s ls' s') : ¬ Returned s' i .ok := by
  have hx : (i, k) ∈ slots n i := mem_slots.2 ⟨rfl, by simp; omega⟩
  have hsend : Act.send .strict (i, k) ∈ code i := by
    rcases hc with e | e | ⟨hn, e⟩ | ⟨hn, e⟩ <;> rw [e]
    · exact List.mem_append_left _ (List.mem_map.2 ⟨_, hx, rfl⟩)
    · exact List.mem_append_left _ (List.mem_map.2 ⟨_, hx, rfl⟩)
    · have : k = 1 ∨ k = 2 := by omega
      rcases this with rfl | rfl <;> simp [closeMpst3]
    · have : k = 1 := by omega
      subst this; simp [binaryClose]
  have hu : Unsent (i, k) (meshPeer (i, k)) i s' := by
    clear _h
    induction h' with
    | nil => exact ⟨hb, .inl hi⟩
    | snoc _ hl ih => exact unsent_step hsend ih hl
  rintro ⟨q, hq⟩
  rcases hu.2 with h1 | ⟨r, h1, _⟩ | ⟨_, h1⟩
  · rw [hq] at h1; cases h1
  · rw [hq] at h1; cases h1
  · exact h1 ⟨q, hq⟩

/-- The hypotheses are met: role 2 of 2 sends `Cancel` and is dropped, then role 1 calls `close_mpst_cancel!`. -/
example : ∃ s s', Run (meshSys 2 (closeMpstCancel 2)) .init [.emit (2, 1) .cancel, .quit 2, .dropRx (2, 1)] s ∧
    s.pc 1 = .idle ∧ s.rx (meshPeer (1, 1)) = false ∧
    Run (meshSys 2 (closeMpstCancel 2)) s [.call 1, .act 1] s' ∧ Returned s' 1 .err :=
  ⟨_, _, play_run rfl, rfl, rfl, by simpa using run_append (.nil _) (ls' := [.call 1, .act 1]) rfl, ⟨_, rfl⟩⟩

/-- C10, limit: `close_mpst!` ignores that it cannot send.  Role 2 of 2 sends `Cancel` and is dropped; role 1, which
calls `close_mpst!` later, returns `Ok`. -/
theorem C10_gone_overlooked : ∃ ls s, Run (meshSys 2 (closeMpstMulti 2)) .init
      ([.emit (2, 1) .cancel, .quit 2, .dropRx (2, 1)] ++ ls) s ∧ Returned s 1 .ok :=
  ⟨[.call 1, .act 1, .act 1, .act 1], _, play_run rfl, ⟨_, rfl⟩⟩

/-- C10, limit: `close_mpst!` and `close_mpst_cancel!` discard what they receive.  Role 2 of 2 sends `Cancel` and drops
its mesh, role 1 closes and returns `Ok`. -/
theorem C10_cancel_swallowed : ∃ ls s, Run (meshSys 2 (closeMpstCancel 2)) .init ls s ∧ .emit (2, 1) .cancel ∈ ls ∧
    s.pc 2 = .gone ∧ Returned s 1 .ok :=
  ⟨[.emit (2, 1) .cancel, .quit 2, .call 1, .act 1, .act 1, .act 1], _, play_run rfl, by simp, rfl, ⟨_, rfl⟩⟩

/-! ## C08 -/

/-- Two parties connected by an `End` pair, both using binary `close`. -/
def binarySys : Sys := meshSys 2 (fun i => binaryClose (i, 1))

theorem binary_fns : ∀ i, 1 ≤ i → i ≤ 2 → IsCloseFn 2 i (binaryClose (i, 1)) :=
  fun _ _ _ => .inr (.inl ⟨rfl, rfl⟩)

/-- C08, first part: if both ends call close, both calls return `Ok` under every schedule. -/
theorem C08_both_ok : Bounded binarySys nobody ∧ ∀ ls s, Reaches binarySys nobody ls s →
    (∀ i r, i = 1 ∨ i = 2 → Returned s i r → r = .ok) ∧
    (Stuck binarySys nobody s → Returned s 1 .ok ∧ Returned s 2 .ok) := by
  obtain ⟨hb, h⟩ := C09_close_terminates 2 _ binary_fns
  refine ⟨hb, fun ls s hr => ?_⟩
  obtain ⟨h1, h2, -⟩ := h ls s hr
  exact ⟨fun i r hi => h1 i r (by omega) (by omega), fun hst => ⟨h2 hst 1 (by omega) (by omega), h2 hst 2 (by omega) (by omega)⟩⟩

/-- C08, second part: whoever cancels, `close` returns `Err` iff the partner dropped its `End` instead of closing,
and the call does return. -/
theorem C08_err_iff (canc : Nat → Prop) (i j : Nat) (hij : (i = 1 ∧ j = 2) ∨ (i = 2 ∧ j = 1)) :
    Bounded binarySys canc ∧ ∀ ls s, Reaches binarySys canc ls s →
      (Returned s i .err → s.pc j = .gone) ∧
      (Returned s i .ok → Called s j) ∧
      (Stuck binarySys canc s → ¬ canc i →
        (Returned s i .err ↔ canc j) ∧ (Returned s i .ok ↔ ¬ canc j)) := by
  have w : WF binarySys := wf_closeFns binary_fns
  refine ⟨bounded _ _, fun ls s h => ?_⟩
  have hi : 1 ≤ i ∧ i ≤ 2 := by omega
  have hj : 1 ≤ j ∧ j ≤ 2 := by omega
  have inv := reaches_inv w h
  have himem : i ∈ binarySys.ths := mem_roles.2 hi
  have hp := meshPeer_to hi hj (by omega)
  have e : binarySys.owner (binarySys.peer (i, Spec.slotOf i j)) = j := hp.2
  have hxm : (i, Spec.slotOf i j) ∈ binarySys.eps i := mem_slots.2 ⟨rfl, hp.1.2.2⟩
  have p1 : Returned s i .err → s.pc j = .gone := by
    rintro ⟨q, hq⟩
    obtain ⟨u, hu, hg⟩ := inv.fail i himem _ _ hq (by simp)
    have hu' := mem_roles.1 hu
    have : u ≠ i := by rintro rfl; rw [hq] at hg; cases hg
    have : u = j := by omega
    rw [← this]; exact hg
  have p2 : Returned s i .ok → Called s j := by
    intro hr
    have := ok_partners w h himem hxm hr
    rw [e] at this; exact this
  refine ⟨p1, p2, ?_⟩
  intro hst hci
  obtain ⟨r, hr⟩ := all_return w h hst himem hci
  have nop : ¬ Returned s i .panic := C10_close_errs 2 _ canc ls s h i (.inl rfl)
  have uniq : ∀ r r', Returned s i r → Returned s i r' → r = r' := by
    rintro r r' ⟨q, h1⟩ ⟨q', h2⟩; rw [h1] at h2; injection h2
  constructor
  · constructor
    · intro h'; exact (reaches_roles h j).1 (p1 h')
    · intro hc
      cases r with
      | ok => exact absurd hc ((reaches_roles h j).2 (p2 hr))
      | err => exact hr
      | panic => exact absurd hr nop
  · constructor
    · intro h'; exact (reaches_roles h j).2 (p2 h')
    · intro hc
      cases r with
      | ok => exact hr
      | err => exact absurd ((reaches_roles h j).1 (p1 hr)) hc
      | panic => exact absurd hr nop

/-- C08, third part: in any run, even with parties sending arbitrary signals, `close` panics only if the
partner sent something other than `Stop`. -/
theorem C08_panic (ls : List Label) (s : S) (h : Run binarySys .init ls s) (i j : Nat)
    (hij : (i = 1 ∧ j = 2) ∨ (i = 2 ∧ j = 1)) (hp : Returned s i .panic) :
    ∃ g, g ≠ .stop ∧ .emit (j, 1) g ∈ ls := by
  obtain ⟨q, hq⟩ := hp
  obtain ⟨m, x, r, rfl, hs, h3⟩ := (run_pinv h).pan i q hq
  have hm : Act.recv m x ∈ binaryClose (i, 1) := hs.subset List.mem_cons_self
  simp [binaryClose] at hm
  obtain ⟨rfl, rfl⟩ := hm
  rcases h3 with h3 | ⟨⟨a, b⟩, g, hy, hg, hem⟩
  · cases h3
  · refine ⟨g, hg, ?_⟩
    have : a = j ∧ b = 1 := by
      simp only [binarySys, meshSys, meshPeer, Spec.partner, Spec.slotOf, Prod.mk.injEq] at hy
      obtain ⟨h1, h2⟩ := hy
      by_cases hba : b < a
      · rw [if_pos hba] at h1 h2
        split at h2 <;> omega
      · rw [if_neg hba] at h1 h2
        split at h2 <;> omega
    obtain ⟨rfl, rfl⟩ := this
    exact hem

/-- Party 1 closes after party 2 has dropped its end: error. -/
example : ∃ s, Reaches binarySys (fun t => t = 2) [.quit 2, .dropRx (2, 1), .call 1, .act 1, .dropTx (2, 1)] s ∧
    Returned s 1 .err := by
  refine ⟨_, ⟨play_run rfl, ?_⟩, ⟨_, rfl⟩⟩
  intro l hl
  simp only [List.mem_cons, List.not_mem_nil, or_false] at hl
  rcases hl with rfl | rfl | rfl | rfl | rfl <;> simp [Plays, binarySys, meshSys, slots]

/-- The panic case is reachable: party 2 sends `Cancel`, party 1 closes. -/
example : ∃ s, Run binarySys .init [.emit (2, 1) .cancel, .call 1, .act 1, .act 1] s ∧ Returned s 1 .panic :=
  ⟨_, play_run rfl, ⟨_, rfl⟩⟩

/-! ## C33 -/

theorem solo_form (n : Nat) (c : List Act) (hc : c = closeInterleaved n ∨ (n = 3 ∧ c = closeInterleaved3)) :
    ∃ sm rm, c = closeAll sm rm ((List.range' 1 n).flatMap (slots n)) := by
  rcases hc with rfl | ⟨rfl, rfl⟩
  · exact ⟨_, _, rfl⟩
  · exact ⟨.strict, .stopOnly, rfl⟩

/-- C33.  One thread holding all meshes of a protocol of `n` roles calls `close_mpst_interleaved`: it is never blocked,
it never fails, and it returns `Ok` after finitely many steps. -/
theorem C33_interleaved_close (n : Nat) (c : List Act)
    (hc : c = closeInterleaved n ∨ (n = 3 ∧ c = closeInterleaved3)) :
    Bounded (soloSys n c) nobody ∧
    ∀ ls s, Reaches (soloSys n c) nobody ls s →
      (∀ rest, s.pc 0 = .run rest → (step (soloSys n c) s (.act 0)).isSome) ∧
      (∀ r, Returned s 0 r → r = .ok) ∧
      (Stuck (soloSys n c) nobody s → Returned s 0 .ok) := by
  obtain ⟨sm, rm, hform⟩ := solo_form n c hc
  have w := wf_solo n sm rm c hform
  refine ⟨bounded _ _, fun ls s h => ?_⟩
  have i := reaches_inv w h
  have h0 : 0 ∈ (soloSys n c).ths := by simp [soloSys]
  have nf : ∀ r, Returned s 0 r → r = .ok := fun r hr => no_fail w h (fun _ _ => id) h0 hr
  refine ⟨?_, nf, ?_⟩
  · intro rest hp
    cases hx : step (soloSys n c) s (.act 0) with
    | some _ => rfl
    | none =>
      exfalso
      have hx' : exec (soloSys n c) 0 s = none := hx
      cases rest with
      | nil => simp [exec, hp] at hx'
      | cons a rest =>
        cases a with
        | send m x =>
          obtain ⟨s', hs'⟩ := send_enabled w i h0 hp
          rw [hx'] at hs'; cases hs'
        | recv m x =>
          obtain ⟨hH, hl, -⟩ := recv_blocked w i h0 hp hx'
          obtain ⟨r, hr1, hr2⟩ := w.rank
          have ho : (soloSys n c).owner ((soloSys n c).peer x) = 0 := rfl
          have hlt : left (soloSys n c) s 0 = (true, x) :: rest.map Act.id := by unfold left; rw [hp]; rfl
          rw [ho, hlt] at hl
          have hsuf := i.suf 0 h0
          rw [hlt] at hsuf
          have hpw := (hr2 0 h0).sublist hsuf.sublist
          rcases List.mem_cons.1 hl with h | h
          · injection h with h _; cases h
          · have h1 := (List.pairwise_cons.1 hpw).1 _ h
            have h2 := hr1 _ hH.1 x hH.2
            simp only [key, h2, if_true] at h1
            simp at h1
            omega
  · intro hst
    obtain ⟨r, hr⟩ := all_return w h hst h0 id
    have := nf r hr
    subst this; exact hr

/-- The single thread of a two-role protocol closes both meshes. -/
example : ∃ s, Reaches (soloSys 2 (closeInterleaved 2)) nobody
    [.call 0, .act 0, .act 0, .act 0, .act 0, .act 0] s ∧ Returned s 0 .ok := by
  refine ⟨_, ⟨play_run rfl, ?_⟩, ⟨_, rfl⟩⟩
  intro l hl
  simp only [List.mem_cons, List.not_mem_nil, or_false] at hl
  rcases hl with rfl | rfl | rfl | rfl | rfl | rfl <;> simp [Plays, soloSys, nobody]

/-! ## C39 -/

/-- C39.  Two meshes that share one thread (`fork_interleaved_mpst`): the shared thread closes its
two meshes one after the other, in either order; all other roles close theirs.  Schedules are of bounded length, no
close call fails and when nothing can move any more every thread has returned `Ok`. -/
theorem C39_two_meshes (n1 n2 idx1 idx2 : Nat) (hi1 : 1 ≤ idx1 ∧ idx1 ≤ n1) (hi2 : 1 ≤ idx2 ∧ idx2 ≤ n2)
    (code : Nat → List Act)
    (hA : ∀ t, 1 ≤ t → t ≤ n1 → t ≠ idx1 → IsCloseFn n1 t (code t))
    (hB : ∀ t, n1 < t → t ≤ n1 + n2 → t ≠ n1 + idx2 → IsCloseFn n2 t (code t))
    (h0 : ∃ c1 c2, IsCloseFn n1 idx1 c1 ∧ IsCloseFn n2 (n1 + idx2) c2 ∧ (code 0 = c1 ++ c2 ∨ code 0 = c2 ++ c1)) :
    Bounded (twoSys n1 n2 idx1 idx2 code) nobody ∧
    ∀ ls s, Reaches (twoSys n1 n2 idx1 idx2 code) nobody ls s →
      (∀ t r, t ∈ (twoSys n1 n2 idx1 idx2 code).ths → Returned s t r → r = .ok) ∧
      (Stuck (twoSys n1 n2 idx1 idx2 code) nobody s → ∀ t ∈ (twoSys n1 n2 idx1 idx2 code).ths, Returned s t .ok) := by
  have w : WF (twoSys n1 n2 idx1 idx2 code) := by
    refine wf_two hi1 hi2 code (fun t h1 h2 h3 => closeFn_form (hA t (by omega) h3 h2))
      (fun t h1 h2 h3 => closeFn_form (hB t h1 h2 h3)) ?_
    obtain ⟨c1, c2, h1, h2, h3⟩ := h0
    obtain ⟨sm, rm, e1⟩ := closeFn_form h1
    obtain ⟨sm', rm', e2⟩ := closeFn_form h2
    subst e1; subst e2
    rcases h3 with h3 | h3
    · exact .inl ⟨_, _, _, _, h3⟩
    · exact .inr ⟨_, _, _, _, h3⟩
  refine ⟨bounded _ _, fun ls s h => ?_⟩
  have nf : ∀ t r, t ∈ (twoSys n1 n2 idx1 idx2 code).ths → Returned s t r → r = .ok :=
    fun t r ht hr => no_fail w h (fun _ _ => id) ht hr
  refine ⟨nf, fun hst t ht => ?_⟩
  obtain ⟨r, hr⟩ := all_return w h hst ht id
  have := nf t r ht hr
  subst this; exact hr

/-- Meshes of 2 and 3 roles, sharing the thread of role 1 of the first and role 2 of the second. -/
example : ∃ code : Nat → List Act,
    (∀ t, 1 ≤ t → t ≤ 2 → t ≠ 1 → IsCloseFn 2 t (code t)) ∧
    (∀ t, 2 < t → t ≤ 2 + 3 → t ≠ 2 + 2 → IsCloseFn 3 t (code t)) ∧
    (∃ c1 c2, IsCloseFn 2 1 c1 ∧ IsCloseFn 3 (2 + 2) c2 ∧ (code 0 = c1 ++ c2 ∨ code 0 = c2 ++ c1)) :=
  ⟨fun t => if t = 0 then genClose 2 1 ++ genClose 3 4 else if t ≤ 2 then genClose 2 t else genClose 3 t,
    by intro t h1 h2 h3; have : t = 2 := by omega
       subst this; simp [IsCloseFn],
    by intro t h1 h2 h3
       have h : t ≠ 0 ∧ ¬ t ≤ 2 := by omega
       simp [IsCloseFn, h],
    _, _, .inl (by simp), .inl (by simp), .inl rfl⟩

/-- Two binary sessions between the same two threads, closed in opposite orders: thread 1 holds `(1,1)` and
`(3,1)`, thread 2 holds `(2,1)` and `(4,1)`. -/
def crossedSys : Sys where
  ths := [1, 2]
  eps := fun t => [(t, 1), (t + 2, 1)]
  owner := fun x => if x.1 = 1 ∨ x.1 = 3 then 1 else 2
  peer := fun x => if x.1 = 1 then (2, 1) else if x.1 = 2 then (1, 1) else if x.1 = 3 then (4, 1) else (3, 1)
  code := fun t => if t = 1 then binaryClose (1, 1) ++ binaryClose (3, 1) else binaryClose (4, 1) ++ binaryClose (2, 1)

/-- C39, limit: with two shared threads that close two sessions in opposite orders the claim is false; both
wait forever, inside `close`. -/
theorem C39_crossed_deadlock : ∃ ls s, Reaches crossedSys nobody ls s ∧ Stuck crossedSys nobody s ∧
    (∀ t ∈ crossedSys.ths, ∃ rest, s.pc t = .run rest) := by
  refine ⟨[.call 1, .call 2, .act 1, .act 2], _, ⟨play_run rfl, ?_⟩, ?_, ?_⟩
  · intro l hl
    simp only [List.mem_cons, List.not_mem_nil, or_false] at hl
    rcases hl with rfl | rfl | rfl | rfl <;> simp [Plays, crossedSys, nobody]
  · intro l hl
    cases l with
    | call t =>
      have ht : t = 1 ∨ t = 2 := by simpa [Plays, crossedSys, nobody] using hl
      rcases ht with rfl | rfl <;> rfl
    | quit t => exact absurd hl.2 id
    | emit x g => exact absurd hl id
    | act t =>
      have ht : t = 1 ∨ t = 2 := by simpa [Plays, crossedSys] using hl
      rcases ht with rfl | rfl <;> rfl
    | dropTx x =>
      obtain ⟨t, ht, hx⟩ := hl
      have ht : t = 1 ∨ t = 2 := by simpa [crossedSys] using ht
      rcases ht with rfl | rfl <;> (simp [crossedSys] at hx; rcases hx with rfl | rfl <;> rfl)
    | dropRx x =>
      obtain ⟨t, ht, hx⟩ := hl
      have ht : t = 1 ∨ t = 2 := by simpa [crossedSys] using ht
      rcases ht with rfl | rfl <;> (simp [crossedSys] at hx; rcases hx with rfl | rfl <;> rfl)
  · intro t ht
    have ht : t = 1 ∨ t = 2 := by simpa [crossedSys] using ht
    rcases ht with rfl | rfl
    · exact ⟨_, rfl⟩
    · exact ⟨_, rfl⟩

end Verif.Prop
