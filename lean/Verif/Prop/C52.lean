import Verif.Proof.TimedRun

/-!
# C52: whole runs of timed protocols

Any number of roles, any sequence of messages and choices, any clocks and resets.
-/
namespace Verif.Prop
open Verif.Types Verif.Timed Verif.Spec Verif.TimedRun

/-- C52, success.  If the steps of a run fit a schedule and all the roles keep it, then every operation of every role
returns `Ok`: each role reaches each step, its clocks having been reset when the schedule says, and each message is
sent in the slot of its sender and received in the slot of its receiver.
Missing from the full property: windows with a lower bound and no upper bound (`C52_lower_only_stops`), unbounded
windows with a clock to reset (`C40_unbounded_no_reset`), and slots that begin in the second that follows an exclusive
lower bound (`C52_exclusive_start_stops`). -/
theorem C52_on_schedule_partial (S : Schedule) (E : Env) (evs : Nat → Event) (cl0 : Nat → Clocks)
    (gone : Nat → Nat → Nat → Prop) (N : Nat)
    (hT : Transport E evs cl0 gone) (hF : FitsSchedule S evs cl0 N) (hO : OnTime S E evs cl0 N) :
    (∀ m r, m ≤ N → ∃ cl, clocksAt E evs cl0 r m = some cl ∧
      ∀ x c0, cl0 r x = some c0 → ∃ c, cl x = some c ∧
        (S.since evs r x m).1 ≤ c ∧ c ≤ (S.since evs r x m).2) ∧
    (∀ m p q w, m < N → (p, q, w) ∈ messages (evs m) → ∃ ts tr,
      movedAt E evs cl0 p m q = some ts ∧ (S.slot p m).1 ≤ ts ∧ ts ≤ (S.slot p m).2 ∧
      movedAt E evs cl0 q m p = some tr ∧ (S.slot q m).1 ≤ tr ∧ tr ≤ (S.slot q m).2 ∧ ts ≤ tr) := by
  have inv := all_reach hT.toDelivers hF hO
  refine ⟨fun m r hm => inv m hm r, ?_⟩
  intro m p q w hm he
  obtain ⟨ts, h1, h2, h3⟩ := moved_sender hT.toDelivers hF hO hm he (inv m (by omega))
  obtain ⟨cl, hc, hp⟩ := inv m (by omega) q
  obtain ⟨-, tr, -, h4, h5, h6, -⟩ := receiver_part hT.toDelivers hF hO hm he (inv m (by omega)) hp
  obtain ⟨j, d, hx⟩ := run_xfer h4
  obtain ⟨ts', h7, h8⟩ := hT.only m p q w j d tr he hx
  rw [h1] at h7
  cases h7
  refine ⟨ts, tr, h1, h2, h3, ?_, h5, h6, h8⟩
  unfold movedAt
  simp only [hc, op_receiver (hF m hm).1 he cl, List.lookup_cons_self, Option.join_some]
  exact h4

/-- Schedules can be kept.  If the steps of a protocol fit a schedule, then for all instants in its slots, the one of the
receiver of a message not before the one of its sender, there is a run in which each role performs its part of each step at
the instant given, and in which the channels behave as assumed. -/
theorem C52_schedule_kept (S : Schedule) (evs : Nat → Event) (cl0 : Nat → Clocks) (N : Nat)
    (hF : FitsSchedule S evs cl0 N) (hend : ∀ m, N ≤ m → messages (evs m) = [])
    (h0 : ∀ r x c, cl0 r x = some c → (S.origin r x).1 ≤ c ∧ c ≤ (S.origin r x).2)
    (at' : Nat → Nat → Nat) (hin : ∀ r m, (S.slot r m).1 ≤ at' r m ∧ at' r m ≤ (S.slot r m).2)
    (hord : ∀ m p q w, (p, q, w) ∈ messages (evs m) → at' p m ≤ at' q m) :
    ∃ E gone, Transport E evs cl0 gone ∧ OnTime S E evs cl0 N ∧ ∀ r m n, ReadAt E r m n → n = at' r m := by
  let E : Env := { world := fun r m _ => still (at' r m), fin := fun r m _ => at' r m }
  have hO : OnTime S E evs cl0 N := by
    refine ⟨h0, ?_, ?_, ?_⟩
    · intro m p q w k _ _ _; exact hin p m
    · intro m p q w k _ _ _; exact hin q m
    · intro m p to k _ _; exact hin p m
  have hD : Delivers E evs cl0 fun _ _ _ => False := by
    refine ⟨?_, ?_, ?_⟩
    · intro m p q w _ d _; exact ⟨_, rfl⟩
    · intro m p q w s _ h; exact h.elim
    · intro m p q w ts _ _ d _; exact ⟨_, rfl⟩
  refine ⟨E, fun _ _ _ => False, ⟨hD, ?_⟩, hO, ?_⟩
  · intro m p q w k d t he hx
    have ht : t = at' q m := by cases hx; rfl
    have hm : m < N := by
      refine Nat.lt_of_not_le fun hn => ?_
      rw [hend m hn] at he
      cases he
    have inv := all_reach hD hF hO
    obtain ⟨cl, hc, -⟩ := inv (m + 1) (by omega) p
    obtain ⟨cl1, h1, h2, -⟩ := clocksAt_succ hc
    obtain ⟨h3, h4⟩ := op_sender (hF m hm).1 he cl1 h2
    obtain ⟨ts, h5⟩ := C19_ok_moved _ _ _ _ h3
    obtain ⟨j, d', h6⟩ := run_xfer h5
    have : ts = at' p m := by cases h6; rfl
    refine ⟨ts, ?_, by rw [this, ht]; exact hord m p q w he⟩
    unfold movedAt
    simp only [h1]
    rw [h4, h5]
  · rintro r m n (⟨o, k, rfl⟩ | ⟨k, rfl⟩) <;> rfl

/-- C52, agreement.  A role that completes a step has received the messages of the step meant for it: they had been
sent, and before. -/
theorem C52_received_sent (E : Env) (evs : Nat → Event) (cl0 : Nat → Clocks) (gone : Nat → Nat → Nat → Prop)
    (hT : Transport E evs cl0 gone) (m p q : Nat) (w : Window) (cl : Clocks) (hwf : WellFormed (evs m))
    (he : (p, q, w) ∈ messages (evs m)) (h : clocksAt E evs cl0 q (m + 1) = some cl) :
    ∃ ts tr, movedAt E evs cl0 p m q = some ts ∧ movedAt E evs cl0 q m p = some tr ∧ ts ≤ tr := by
  obtain ⟨cq, hc, h1, -⟩ := clocksAt_succ h
  rw [op_receiver hwf he cq] at h1
  obtain ⟨tr, h2⟩ := C19_ok_moved _ _ _ _ h1
  obtain ⟨j, d, hx⟩ := run_xfer h2
  obtain ⟨ts, h3, h4⟩ := hT.only m p q w j d tr he hx
  refine ⟨ts, tr, h3, ?_, h4⟩
  unfold movedAt
  simp only [hc, op_receiver hwf he cq, List.lookup_cons_self, Option.join_some]
  exact h2

/-- C52, cascade.  If a message is not sent, because its sender failed before or in this step, then its receiver
completes neither this step nor any later one. -/
theorem C52_unsent_stops (E : Env) (evs : Nat → Event) (cl0 : Nat → Clocks) (gone : Nat → Nat → Nat → Prop)
    (hT : Transport E evs cl0 gone) (m p q : Nat) (w : Window) (hwf : WellFormed (evs m))
    (he : (p, q, w) ∈ messages (evs m)) (h : movedAt E evs cl0 p m q = none) (m' : Nat) (hm : m < m') :
    clocksAt E evs cl0 q m' = none := by
  induction hm with
  | refl =>
    cases hc : clocksAt E evs cl0 q (m + 1) with
    | none => rfl
    | some cl =>
      obtain ⟨ts, tr, h1, -⟩ := C52_received_sent E evs cl0 gone hT m p q w cl hwf he hc
      rw [h] at h1
      cases h1
  | step _ ih => simp only [Nat.succ_eq_add_one, clocksAt, ih]

/-- A role that failed takes part in no later step: it sends nothing. -/
theorem C52_failed_silent (E : Env) (evs : Nat → Event) (cl0 : Nat → Clocks) (r m m' o : Nat) (hm : m ≤ m')
    (h : clocksAt E evs cl0 r m = none) : movedAt E evs cl0 r m' o = none := by
  have : clocksAt E evs cl0 r m' = none := by
    induction hm with
    | refl => exact h
    | step _ ih => simp only [Nat.succ_eq_add_one, clocksAt, ih]
  unfold movedAt
  rw [this]

/-- Every clock of a role was set at its creation or at a step that makes the role reset it. -/
theorem C52_clock_set (E : Env) (evs : Nat → Event) (cl0 : Nat → Clocks) (r : Nat) (x : Char) (c : Nat) (m : Nat)
    (hwf : ∀ j, j < m → WellFormed (evs j)) (cl : Clocks)
    (h : clocksAt E evs cl0 r m = some cl) (hc : cl x = some c) : SetBefore E evs cl0 r x m c := by
  induction m generalizing cl with
  | zero => cases h; exact Or.inl hc
  | succ m ih =>
    obtain ⟨cl1, h1, h2, h3⟩ := clocksAt_succ h
    subst h3
    rcases op_clock x (hwf m (by omega)) h2 with h4 | ⟨h4, n, h5, h6⟩
    · rw [h4] at hc
      rcases ih (fun j hj => hwf j (by omega)) cl1 h1 hc with h | ⟨m', h5, h6⟩
      · exact Or.inl h
      · exact Or.inr ⟨m', by omega, h6⟩
    · rw [h6] at hc
      cases hc
      exact Or.inr ⟨m, by omega, h4, h5⟩

/-- C52, time.  A role that completes a step has transferred each of its messages of this step, and did so in the window
of the message, measured from an instant at which the clock of the window had been set.  `d` bounds the delay between
computing the time left and starting to wait.
Missing from the full property: with an exclusive upper bound the transfer may happen exactly at the bound
(`C19_exclusive_stop_reached`), and the clock may be older than the last step that should have reset it
(`C40_race`). -/
theorem C52_window_partial (E : Env) (evs : Nat → Event) (cl0 : Nat → Clocks) (d : Nat)
    (hd : ∀ r m o k, (E.world r m o).start k ≤ (E.world r m o).now k + d) (m p q : Nat) (w : Window)
    (hwf : ∀ j, j ≤ m → WellFormed (evs j)) (he : (p, q, w) ∈ messages (evs m)) (r o : Nat)
    (hr : r = p ∧ o = q ∨ r = q ∧ o = p) (cl : Clocks) (h : clocksAt E evs cl0 r (m + 1) = some cl) :
    ∃ t, movedAt E evs cl0 r m o = some t ∧
      (Unbounded w ∨ ∃ c, SetBefore E evs cl0 r w.clock m c ∧ AfterStart w (t - c) ∧
        (0 ≤ w.stop → ((t - c : Nat) : Int) ≤ w.stop * 1000000000 + d)) := by
  obtain ⟨cl1, h1, h2, -⟩ := clocksAt_succ h
  have hset : ∀ c, cl1 w.clock = some c → SetBefore E evs cl0 r w.clock m c :=
    fun c hc => C52_clock_set E evs cl0 r w.clock c m (fun j hj => hwf j (by omega)) cl1 h1 hc
  have fin : ∀ fn, (run fn (E.world r m o) w cl1).res = .ok →
      movedAt E evs cl0 r m o = (run fn (E.world r m o) w cl1).moved →
      ∃ t, movedAt E evs cl0 r m o = some t ∧
      (Unbounded w ∨ ∃ c, SetBefore E evs cl0 r w.clock m c ∧ AfterStart w (t - c) ∧
        (0 ≤ w.stop → ((t - c : Nat) : Int) ≤ w.stop * 1000000000 + d)) := by
    intro fn ho hm
    obtain ⟨t, ht⟩ := C19_ok_moved _ _ _ _ ho
    refine ⟨t, by rw [hm, ht], ?_⟩
    rcases C19_window_partial fn (E.world r m o) w cl1 t d (hd r m o) ht with hu | ⟨c, hc, -, h3, h4⟩
    · exact Or.inl hu
    · exact Or.inr ⟨c, hset c hc, h3, h4⟩
  rcases hr with ⟨rfl, rfl⟩ | ⟨rfl, rfl⟩
  · obtain ⟨h3, h4⟩ := op_sender (hwf m (Nat.le_refl _)) he cl1 h2
    refine fin _ h3 ?_
    unfold movedAt
    simp only [h1]
    exact h4
  · have h3 := op_receiver (E := E) (m := m) (hwf m (Nat.le_refl _)) he cl1
    rw [h3] at h2
    refine fin .recv h2 ?_
    unfold movedAt
    simp only [h1, h3, List.lookup_cons_self, Option.join_some]

/-- The property fails for windows with a lower bound and no upper bound: neither the sender nor the receiver of a
message with such a window ever completes the step, whatever the schedule. -/
theorem C52_lower_only_stops (E : Env) (evs : Nat → Event) (cl0 : Nat → Clocks) (m p q : Nat) (w : Window)
    (hev : evs m = .msg p q w) (h1 : 0 ≤ w.start) (h2 : w.stop < 0) :
    clocksAt E evs cl0 p (m + 1) = none ∧ clocksAt E evs cl0 q (m + 1) = none := by
  have key : ∀ r, r = p ∨ r = q → clocksAt E evs cl0 r (m + 1) = none := by
    intro r hr
    cases hc : clocksAt E evs cl0 r (m + 1) with
    | none => rfl
    | some cl =>
      obtain ⟨cl1, -, h3, -⟩ := clocksAt_succ hc
      rw [hev] at h3
      simp only [op] at h3
      split at h3
      · have := C19_lower_only_rejected .send (E.world r m q) w cl1 (by simp) h1 h2
        simp only at h3
        rw [this.1] at h3
        cases h3
      · rename_i hne
        rw [if_pos (hr.resolve_left hne)] at h3
        have := C19_lower_only_rejected .recv (E.world r m p) w cl1 (by simp) h1 h2
        simp only at h3
        rw [this.1] at h3
        cases h3
  exact ⟨key p (Or.inl rfl), key q (Or.inr rfl)⟩

/-- The property fails for exclusive lower bounds: a sender whose slot lies inside the window, but in the second that
follows the bound, does not complete the step. -/
theorem C52_exclusive_start_stops (E : Env) (evs : Nat → Event) (cl0 : Nat → Clocks) (m p q : Nat) (w : Window)
    (hev : evs m = .msg p q w) (h0 : 0 ≤ w.start) (hi : w.inclStart = false) (cl : Clocks) (c : Nat)
    (hcl : clocksAt E evs cl0 p m = some cl) (hc : cl w.clock = some c)
    (hin : ∀ k, ((E.world p m q).now k - c : Nat) < w.start * 1000000000 + 1000000000) :
    clocksAt E evs cl0 p (m + 1) = none := by
  cases hs : clocksAt E evs cl0 p (m + 1) with
  | none => rfl
  | some cl' =>
    obtain ⟨cl1, h1, h2, -⟩ := clocksAt_succ hs
    rw [hcl] at h1
    cases h1
    rw [hev] at h2
    simp only [op, if_true] at h2
    exact absurd h2 (C19_exclusive_start_rejected .send (E.world p m q) w cl c h0 hi hc hin).1

end Verif.Prop
