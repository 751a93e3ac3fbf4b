import Verif.Proof.BroadcastRun
/-!
# C31, C32: broadcast cancellation

Model: `Model/Broadcast.lean`; vocabulary: `Spec/Broadcast.lean`.  `Run P .init ls s`: the schedule `ls` leads from
the fork to `s`.  `Stuck`: nothing can happen any more.  Since the length of schedules is bounded
(`C31_bounded`), what holds in all stuck states holds at the end of every complete schedule.
-/
namespace Verif.Prop
open Verif.Broadcast

/-- Whatever the participants do, schedules are of bounded length, not counting the checks that find nothing. -/
theorem C31_bounded (P : Proto) (w : P.Wf) : ∃ B, ∀ ls s, Run P .init ls s → effective ls ≤ B :=
  ⟨_, fun _ _ h => Nat.le_trans (Nat.le_add_right _ _) (run_bounded w h)⟩

/-- C31, cancellation.  For any number of roles, any sequence of choices and any schedule in which a participant
has raised a cancellation (and nobody has dropped its session silently): no participant ever closes
successfully, the broadcaster does not end successfully, and when nothing can happen any more, the broadcaster
and every participant have stopped. -/
theorem C31_cancel (P : Proto) (w : P.Wf) (ls : List Label) (s : S) (h : Run P .init ls s) (hq : NoQuit ls) (r : Nat)
    (hr : .raise r ∈ ls) :
    (∀ p, P.Part p → s.pc p ≠ .ok) ∧ s.b ≠ .ok ∧
    (Stuck P s → s.b = .down ∧ ∀ p, P.Part p → s.pc p = .down) := by
  have hi := inv_run w h
  have hb := run_beh w h
  have hr' := raised_of_mem h hr
  obtain ⟨h1, h2⟩ := nobody_ok w hi hb hr'
  exact ⟨h1, h2, stuck_raised w hi hb (run_cause w h hq) hr'⟩

/-- C31, no cancellation.  If nobody raises a cancellation or drops its session, then nobody ever stops
prematurely, and when nothing can happen any more, all participants have closed and the broadcaster has
returned. -/
theorem C31_quiet (P : Proto) (w : P.Wf) (ls : List Label) (s : S) (h : Run P .init ls s) (hq : NoCancel ls) :
    (∀ p, P.Part p → s.pc p ≠ .down) ∧ s.b ≠ .down ∧
    (Stuck P s → s.b = .ok ∧ ∀ p, P.Part p → s.pc p = .ok) := by
  have hi := inv_run w h
  have hb := run_beh w h
  have hc := run_cause w h (fun p => (hq p).1)
  have hn : ∀ p, s.raised p = false := by
    intro p
    cases hp : s.raised p with
    | false => rfl
    | true => exact absurd (raised_run h hp) (hq p).2
  have hcalm : s.b.calm = true := by
    cases hbb : s.b.calm with
    | true => rfl
    | false => obtain ⟨p, hp⟩ := hb.boom hbb; rw [hn] at hp; cases hp
  refine ⟨?_, ?_, stuck_quiet w hi hb hc hn⟩
  · intro p hp hd
    obtain ⟨r, h1, _⟩ := hc hcalm p hp hd
    rw [hn] at h1; cases h1
  · intro hd; rw [hd] at hcalm; simp [BPC.calm] at hcalm

/-- C31, forwarding.  Once the broadcaster has stopped, it has sent `Cancel` on each of its sessions: it is waiting
there, or the participant is closing, has ended, or has left this `End` behind in a later choice. -/
theorem C31_forwarded (P : Proto) (w : P.Wf) (ls : List Label) (s : S) (h : Run P .init ls s) (hd : s.b = .down)
    (k g p : Nat) (hk : 1 ≤ k ∧ k < P.n) (hs : s.slot k = (g, p)) :
    s.toP (g, p) = some .cancel ∨ s.pc p = .ok ∨ s.pc p = .down ∨ (∃ rest, s.pc p = .closing rest) ∨ g < s.gen p := by
  have := (run_beh w h).told 0 k hk.1 hk.2 (.inl hd)
  rw [hs] at this
  rcases this with h1 | h1 | h1
  · exact .inl h1
  · cases hpc : s.pc p <;> rw [hpc] at h1 <;> simp [PC.early] at h1 ⊢
  · exact .inr (.inr (.inr (.inr h1)))

/-- C31, checking.  Full statement: once the broadcaster has stopped, every participant that checks for
cancellation stops.  Proved when the participant's present `End` has reached the broadcaster, i.e. no choice is
under way; `C31_check_misses` shows that it fails otherwise. -/
theorem C31_check_partial (P : Proto) (w : P.Wf) (ls : List Label) (s : S) (h : Run P .init ls s) (hd : s.b = .down)
    (p : Nat) (hp : P.Part p) (ha : s.pc p = .active) (k : Nat) (hk : 1 ≤ k ∧ k < P.n) (hs : s.slot k = (s.gen p, p)) :
    (∃ s', Step P s (.check p) s') ∧ (∀ s', Step P s (.check p) s' → s'.pc p = .down) ∧ ∀ s', ¬ Step P s (.pass p) s' := by
  have hc : s.toP (s.gen p, p) = some .cancel := by
    rcases C31_forwarded P w ls s h hd k _ p hk hs with h1 | h1 | h1 | ⟨_, h1⟩ | h1
    · exact h1
    · rw [ha] at h1; cases h1
    · rw [ha] at h1; cases h1
    · rw [ha] at h1; cases h1
    · omega
  refine ⟨⟨_, .check hp.1 hp.2 ha hc⟩, ?_, ?_⟩
  · intro s' hs'; cases hs'; simp [upd]
  · intro s' hs'; cases hs'; rename_i h4; exact h4 hc

/-- C32, handing out.  In a choice by role `e` among `n` roles, every role but the broadcaster and the chooser is
sent exactly one message, and the fresh `End`s sent and the one the chooser offers are, each exactly once, those of
all participants. -/
theorem C32_handed_once (n e : Nat) (he : 2 ≤ e ∧ e ≤ n) :
    ∃ l z, handOut n e = some (l, z) ∧
      (l.map Prod.fst).Nodup ∧ (∀ q, q ∈ l.map Prod.fst ↔ (2 ≤ q ∧ q ≤ n) ∧ q ≠ e) ∧
      (l.map Prod.snd ++ [z]).Nodup ∧ (∀ j, j ∈ l.map Prod.snd ++ [z] ↔ 2 ≤ j ∧ j ≤ n) := by
  have h := handOut_eq (n := n) (e := e) (by omega)
  have hf := handOut_facts he h
  refine ⟨_, _, h, hf.2.2.1, ?_, ?_, ?_⟩
  · intro q
    constructor
    · intro hq
      obtain ⟨⟨q', j⟩, hm, rfl⟩ := List.mem_map.1 hq
      have := hf.1 _ _ hm
      exact ⟨this.1, this.2.1⟩
    · rintro ⟨h1, h2⟩
      exact List.mem_map.2 ⟨_, hf.2.1 q h1.1 h1.2 h2, rfl⟩
  · rw [List.map_map, List.nodup_append]
    refine ⟨?_, by simp, ?_⟩
    · rw [List.Nodup, List.pairwise_map]
      refine List.Pairwise.imp_of_mem ?_ (List.nodup_range' (s := 2) (n := n - 2))
      intro a b ha hb hab hc
      simp only [List.mem_range'_1] at ha hb
      simp only [Function.comp_apply] at hc
      omega
    · intro a ha b hb
      simp only [List.mem_map, List.mem_range'_1, Function.comp_apply] at ha
      simp only [List.mem_singleton] at hb
      obtain ⟨i, hi, rfl⟩ := ha
      omega
  · intro j
    rw [List.map_map]
    simp only [List.mem_append, List.mem_map, List.mem_range'_1, Function.comp_apply, List.mem_singleton]
    constructor
    · rintro (⟨i, hi, rfl⟩ | rfl) <;> omega
    · intro hj
      by_cases e2 : j = 2
      · exact .inr e2
      · exact .inl ⟨n + 2 - j, by omega, by omega⟩

/-- C32, reconnection.  In any run, when all participants have completed the same number `g` of choices and the
broadcaster has read the `Offer`s, the broadcaster holds, for every participant, exactly one session
connected to the `End` this participant is using. -/
theorem C32_reconnected (P : Proto) (w : P.Wf) (ls : List Label) (s : S) (h : Run P .init ls s) (g : Nat)
    (hg : ∀ p, P.Part p → s.gen p = g)
    (hread : ∀ k, 1 ≤ k → k < P.n → ∀ c, s.toB (s.slot k) ≠ some (.offer c)) :
    ∀ p, P.Part p → ∃ k, (1 ≤ k ∧ k < P.n) ∧ s.slot k = (g, p) ∧
      ∀ k', 1 ≤ k' → k' < P.n → s.slot k' = (g, p) → k' = k := by
  intro p hp
  have hi := inv_run w h
  have hgt : g ≤ P.total := by rw [← hg p hp]; exact hi.gen_le p
  have hdep : ∀ k, 1 ≤ k → k < P.n → (s.slot k).1 = g := by
    intro k h1 h2
    have hq := via_range w (hi.dep k h1 h2) ⟨h1, h2⟩
    rcases Nat.lt_trichotomy (s.slot k).1 g with hlt | heq | hlt
    · exfalso
      have := hi.pend k _ h1 h2 (Nat.le_refl _) (by rw [hg _ hq]; exact hlt)
      rw [← slot_eq hi ⟨h1, h2⟩] at this
      exact hread k h1 h2 _ this
    · exact heq
    · have := hi.past k g h1 h2 hlt
      rw [hg _ (via_range w hgt ⟨h1, h2⟩)] at this; omega
  obtain ⟨k, hk, e⟩ := via_surj w hgt hp
  have hs : s.slot k = (g, p) := by
    rw [slot_eq hi hk, hdep k hk.1 hk.2, e]
  refine ⟨k, hk, hs, ?_⟩
  intro k' h1 h2 h3
  exact slot_inj w hi ⟨h1, h2⟩ hk (h3.trans hs.symm)

/-! ## Concrete runs -/

/-- A broadcaster and two participants; participant 3 makes one choice. -/
def demoP : Proto := ⟨3, 1, fun _ => 3⟩

theorem demoP_wf : demoP.Wf := ⟨by decide, fun _ _ => ⟨by show 2 ≤ 3; omega, by show 3 ≤ 3; omega⟩⟩

/-- The schedule of a complete run of `demoP` without cancellation. -/
def demoQuiet : List Label :=
  [.choose 3, .hand 3, .keep 3, .offer 3, .take 2, .offer 2, .poll 1, .poll 2, .close 2, .close 3, .act 2, .act 2,
   .act 3, .act 3, .poll 1, .reply, .poll 2, .reply, .act 2, .act 2, .act 2, .act 3, .act 3, .act 3, .finish]

/-- The hypotheses of `C31_quiet` are met by a run that makes a choice and ends with everybody closed. -/
example : ∃ s, Run demoP .init demoQuiet s ∧ NoCancel demoQuiet ∧ s.b = .ok ∧ s.pc 2 = .ok ∧ s.pc 3 = .ok := by
  have r0 := Run.snoc (Run.nil (P := demoP) S.init) (.choose (p := 3) (by decide) (by decide) rfl (by decide) rfl rfl)
  have r1 := Run.snoc (r0) (.hand (p := 3) (by decide) (by decide) rfl)
  have r2 := Run.snoc (r1) (.keep (p := 3) (by decide) (by decide) rfl)
  have r3 := Run.snoc (r2) (.offer (p := 3) (by decide) (by decide) rfl (Held.slot (k := 2) (by decide) (by decide) rfl) rfl)
  have r4 := Run.snoc (r3) (.take (p := 2) (by decide) (by decide) rfl (by decide) rfl)
  have r5 := Run.snoc (r4) (.offer (p := 2) (by decide) (by decide) rfl (Held.slot (k := 1) (by decide) (by decide) rfl) rfl)
  have r6 := Run.snoc (r5) (.pollOffer (k := 1) (by decide) (by decide) rfl rfl)
  have r7 := Run.snoc (r6) (.pollOffer (k := 2) (by decide) (by decide) rfl rfl)
  have r8 := Run.snoc (r7) (.close (p := 2) (by decide) (by decide) rfl rfl)
  have r9 := Run.snoc (r8) (.close (p := 3) (by decide) (by decide) rfl rfl)
  have r10 := Run.snoc (r9) (.actSendB (p := 2) (by decide) (by decide) rfl rfl)
  have r11 := Run.snoc (r10) (.actSend (p := 2) (by decide) (by decide) rfl (by decide))
  have r12 := Run.snoc (r11) (.actSendB (p := 3) (by decide) (by decide) rfl rfl)
  have r13 := Run.snoc (r12) (.actSend (p := 3) (by decide) (by decide) rfl (by decide))
  have r14 := Run.snoc (r13) (.pollStop (k := 1) (by decide) (by decide) rfl rfl)
  have r15 := Run.snoc (r14) (.reply rfl rfl)
  have r16 := Run.snoc (r15) (.pollStop (k := 2) (by decide) (by decide) rfl rfl)
  have r17 := Run.snoc (r16) (.reply rfl rfl)
  have r18 := Run.snoc (r17) (.actRecvB (p := 2) (by decide) (by decide) rfl rfl)
  have r19 := Run.snoc (r18) (.actRecv (p := 2) (by decide) (by decide) rfl (by decide) rfl)
  have r20 := Run.snoc (r19) (.actEnd (p := 2) (by decide) (by decide) rfl)
  have r21 := Run.snoc (r20) (.actRecvB (p := 3) (by decide) (by decide) rfl rfl)
  have r22 := Run.snoc (r21) (.actRecv (p := 3) (by decide) (by decide) rfl (by decide) rfl)
  have r23 := Run.snoc (r22) (.actEnd (p := 3) (by decide) (by decide) rfl)
  have r24 := Run.snoc (r23) (.finish rfl fun k h1 h2 => by
    have h2 : k < 3 := h2
    have : k = 1 ∨ k = 2 := by omega
    rcases this with rfl | rfl <;> rfl)
  exact ⟨_, r24, by simp [NoCancel, demoQuiet], rfl, rfl, rfl⟩

/-- The hypotheses of `C32_reconnected` are met after the choice; slot 1 is now connected to participant 3, slot 2
to participant 2. -/
example : ∃ s, Run demoP .init (demoQuiet.take 8) s ∧ s.gen 2 = 1 ∧ s.gen 3 = 1 ∧ s.slot 1 = (1, 3) ∧
    s.slot 2 = (1, 2) ∧ s.toB (1, 3) = none ∧ s.toB (1, 2) = none := by
  have r0 := Run.snoc (Run.nil (P := demoP) S.init) (.choose (p := 3) (by decide) (by decide) rfl (by decide) rfl rfl)
  have r1 := Run.snoc (r0) (.hand (p := 3) (by decide) (by decide) rfl)
  have r2 := Run.snoc (r1) (.keep (p := 3) (by decide) (by decide) rfl)
  have r3 := Run.snoc (r2) (.offer (p := 3) (by decide) (by decide) rfl (Held.slot (k := 2) (by decide) (by decide) rfl) rfl)
  have r4 := Run.snoc (r3) (.take (p := 2) (by decide) (by decide) rfl (by decide) rfl)
  have r5 := Run.snoc (r4) (.offer (p := 2) (by decide) (by decide) rfl (Held.slot (k := 1) (by decide) (by decide) rfl) rfl)
  have r6 := Run.snoc (r5) (.pollOffer (k := 1) (by decide) (by decide) rfl rfl)
  have r7 := Run.snoc (r6) (.pollOffer (k := 2) (by decide) (by decide) rfl rfl)
  exact ⟨_, r7, rfl, rfl, rfl, rfl, rfl, rfl⟩

/-- The hypotheses of `C31_check_partial` are met: participant 2 raises a cancellation, the broadcaster forwards it,
participant 3 can still check. -/
example : ∃ ls s, Run demoP .init ls s ∧ NoQuit ls ∧ .raise 2 ∈ ls ∧ s.b = .down ∧ s.pc 3 = .active ∧
    s.slot 2 = (s.gen 3, 3) := by
  have r0 := Run.snoc (Run.nil (P := demoP) S.init) (.raise (p := 2) (by decide) (by decide) rfl rfl)
  have r1 := Run.snoc (r0) (.pollCancel (k := 1) (by decide) (by decide) rfl rfl)
  have r2 := Run.snoc (r1) (.bcast rfl (by decide) rfl)
  have r3 := Run.snoc (r2) (.bcast rfl (by decide) rfl)
  have r4 := Run.snoc (r3) (.bcastEnd rfl (by decide))
  exact ⟨_, _, r4, by simp [NoQuit], by simp, rfl, rfl, rfl⟩

/-- The schedule of a run in which a check misses a forwarded cancellation. -/
def demoMiss : List Label :=
  [.choose 3, .hand 3, .keep 3, .offer 3, .poll 2, .raise 2, .poll 1, .bcast, .bcast, .bcast]

/-- Why `C31_check_partial` is partial.  Participant 3 makes a choice and goes on; the broadcaster's side of its new
`End` is still on its way through participant 2 when 2 raises a cancellation.  The broadcaster has
forwarded it everywhere and stopped, but participant 3 checks and goes on. -/
theorem C31_check_misses : ∃ s, Run demoP .init demoMiss s ∧ .raise 2 ∈ demoMiss ∧ s.b = .down ∧ s.pc 3 = .active ∧
    Step demoP s (.pass 3) s ∧ ∀ s', ¬ Step demoP s (.check 3) s' := by
  have r0 := Run.snoc (Run.nil (P := demoP) S.init) (.choose (p := 3) (by decide) (by decide) rfl (by decide) rfl rfl)
  have r1 := Run.snoc (r0) (.hand (p := 3) (by decide) (by decide) rfl)
  have r2 := Run.snoc (r1) (.keep (p := 3) (by decide) (by decide) rfl)
  have r3 := Run.snoc (r2) (.offer (p := 3) (by decide) (by decide) rfl (Held.slot (k := 2) (by decide) (by decide) rfl) rfl)
  have r4 := Run.snoc (r3) (.pollOffer (k := 2) (by decide) (by decide) rfl rfl)
  have r5 := Run.snoc (r4) (.raise (p := 2) (by decide) (by decide) rfl rfl)
  have r6 := Run.snoc (r5) (.pollCancel (k := 1) (by decide) (by decide) rfl rfl)
  have r7 := Run.snoc (r6) (.bcast rfl (by decide) rfl)
  have r8 := Run.snoc (r7) (.bcast rfl (by decide) rfl)
  have r9 := Run.snoc (r8) (.bcastEnd rfl (by decide))
  refine ⟨_, r9, by simp [demoMiss], rfl, rfl, .pass (by decide) (by decide) rfl (by decide), ?_⟩
  intro s' hs'
  cases hs'
  rename_i h
  exact absurd h (by decide)

/-- A broadcaster and two participants, no choice. -/
def demoQ : Proto := ⟨3, 0, fun _ => 3⟩

theorem demoQ_wf : demoQ.Wf := ⟨by decide, fun _ h => absurd h (Nat.not_lt_zero _)⟩

/-- The schedule of a run in which participant 2 drops its session silently. -/
def demoHang : List Label := [.quit 2, .close 3, .act 3, .act 3, .poll 2, .reply, .act 3, .act 3]

/-- Why `C31_cancel` excludes silent drops (a panic, or an error returned with `?`): participant 2 drops its session,
participant 3 stops when closing, and the broadcaster, which ignores disconnected sessions, is left polling
forever. -/
theorem C31_drop_hangs : ∃ s, Run demoQ .init demoHang s ∧ s.b = .poll ∧ s.pc 2 = .down ∧ s.pc 3 = .down ∧ Stuck demoQ s := by
  have r0 := Run.snoc (Run.nil (P := demoQ) S.init) (.quit (p := 2) (by decide) (by decide) rfl)
  have r1 := Run.snoc (r0) (.close (p := 3) (by decide) (by decide) rfl rfl)
  have r2 := Run.snoc (r1) (.actSendB (p := 3) (by decide) (by decide) rfl rfl)
  have r3 := Run.snoc (r2) (.actSend (p := 3) (by decide) (by decide) rfl (by decide))
  have r4 := Run.snoc (r3) (.pollStop (k := 2) (by decide) (by decide) rfl rfl)
  have r5 := Run.snoc (r4) (.reply rfl rfl)
  have r6 := Run.snoc (r5) (.actRecvB (p := 3) (by decide) (by decide) rfl rfl)
  have r7 := Run.snoc (r6) (.actRecvFail (p := 3) (by decide) (by decide) rfl (by decide) rfl rfl)
  refine ⟨_, r7, rfl, rfl, rfl, ?_⟩
  intro l s' hs'
  exfalso
  have two : ∀ p, 2 ≤ p → p ≤ demoQ.n → p = 2 ∨ p = 3 := by
    intro p h1 h2; have h2 : p ≤ 3 := h2; omega
  have one : ∀ k, 1 ≤ k → k < demoQ.n → k = 1 ∨ k = 2 := by
    intro p h1 h2; have h2 : p < 3 := h2; omega
  cases hs'
  case reply hb _ => cases hb
  case bcast hb _ _ => cases hb
  case bcastEnd hb _ => cases hb
  case finish _ hf => have := hf 1 (by decide) (by decide); cases this
  case pollCancel h1 h2 _ h => rcases one _ h1 h2 with rfl | rfl <;> cases h
  case pollStop h1 h2 _ h => rcases one _ h1 h2 with rfl | rfl <;> cases h
  case pollOffer h1 h2 _ h => rcases one _ h1 h2 with rfl | rfl <;> cases h
  case choose h1 h2 hc _ _ _ => rcases two _ h1 h2 with rfl | rfl <;> cases hc
  case hand h1 h2 hc => rcases two _ h1 h2 with rfl | rfl <;> cases hc
  case handFail h1 h2 hc _ => rcases two _ h1 h2 with rfl | rfl <;> cases hc
  case keep h1 h2 hc => rcases two _ h1 h2 with rfl | rfl <;> cases hc
  case take h1 h2 hc _ _ => rcases two _ h1 h2 with rfl | rfl <;> cases hc
  case offer h1 h2 hc _ _ => rcases two _ h1 h2 with rfl | rfl <;> cases hc
  case offerFail h1 h2 hc _ => rcases two _ h1 h2 with rfl | rfl <;> cases hc
  case check h1 h2 hc _ => rcases two _ h1 h2 with rfl | rfl <;> cases hc
  case pass h1 h2 hc _ => rcases two _ h1 h2 with rfl | rfl <;> cases hc
  case crash h1 h2 hc _ _ _ _ => rcases two _ h1 h2 with rfl | rfl <;> cases hc
  case raise h1 h2 hc _ => rcases two _ h1 h2 with rfl | rfl <;> cases hc
  case quit h1 h2 hc => rcases two _ h1 h2 with rfl | rfl <;> cases hc
  case close h1 h2 hc _ => rcases two _ h1 h2 with rfl | rfl <;> cases hc
  case actSendB h1 h2 hc _ => rcases two _ h1 h2 with rfl | rfl <;> cases hc
  case actSend h1 h2 hc _ => rcases two _ h1 h2 with rfl | rfl <;> cases hc
  case actRecvB h1 h2 hc _ => rcases two _ h1 h2 with rfl | rfl <;> cases hc
  case actRecvBFail h1 h2 hc _ _ => rcases two _ h1 h2 with rfl | rfl <;> cases hc
  case actRecv h1 h2 hc _ _ => rcases two _ h1 h2 with rfl | rfl <;> cases hc
  case actRecvFail h1 h2 hc _ _ _ => rcases two _ h1 h2 with rfl | rfl <;> cases hc
  case actEnd h1 h2 hc => rcases two _ h1 h2 with rfl | rfl <;> cases hc

end Verif.Prop
