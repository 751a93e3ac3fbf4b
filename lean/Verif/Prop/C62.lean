import Verif.Proof.NuscrSchedule
import Verif.Prop.C52

/-!
# C62: accepted timed protocols can be carried out

From the acceptance of a choice-free protocol by the generator to the calls of the timed operations, with the windows
written in the generated types.
-/
namespace Verif.Prop
open Verif.Nuscr Verif.NuscrSpec Verif.Types Verif.Timed Verif.TimedRun Verif.Spec

/-- C62, schedule.  An accepted protocol on one clock, in which two roles that exchange a message have reset their clocks
together, and whose windows are `2 * d` wide, has a schedule: the clocks are created during the first `d` nanoseconds, each
role has a slot of `d` nanoseconds for each message, in the order of its messages, and whenever in these slots the roles
make their calls, the clocks are in the windows.
Missing from the full property: several clocks (`C62_clocks_stuck`) and roles that do not reset together
(`C62_resets_stuck`), for which it fails. -/
theorem C62_schedule_partial (title : Text → Text) (name : Text) (roles : List Text) (msgs : List Msg) (x : Char) (d : Nat)
    (ha : Accepted title name roles msgs) (hx : OneClock x msgs) (ht : Together msgs)
    (hw : ∀ m ∈ msgs, Wide (2 * d) m) (hs : ∀ m ∈ msgs, value m.rightBound < 18446744073709551616)
    (cl0 : Nat → Clocks) (hc : ∀ r ∈ roles, ∃ c, cl0 (roles.idxOf r) x = some c) :
    ∃ S : Schedule, FitsSchedule S (steps title roles msgs) cl0 msgs.length ∧ InOrder S (steps title roles msgs) ∧
      (∀ r i, (S.slot r i).2 = (S.slot r i).1 + d) ∧ ∀ r y, S.origin r y = (0, d) := by
  have hv := ((accepted_iff title name roles msgs).1 ha).1
  have hge : ∀ i, d ≤ due msgs d i := by
    intro i
    cases hm : msgs[i]? with
    | none => unfold due; rw [hm]; simp only; omega
    | some m =>
      have := (wide_last (hw m (List.mem_of_getElem? hm))).2
      have := base_ge (d := d) hw m.sender i
      rw [due_some hm]
      omega
  refine ⟨latest msgs d, latest_fits hv hx ht hw hs cl0 hc, ?_, ?_, fun _ _ => rfl⟩
  · intro i j p q w p' q' w' r hij h h' hr hr'
    obtain ⟨m, hm, rfl, rfl, -⟩ := mem_steps h
    obtain ⟨m', hm', rfl, rfl, -⟩ := mem_steps h'
    have hvm := hv m (List.mem_of_getElem? hm)
    have hle : due msgs d i ≤ due msgs d j := by
      have key : ∀ a b, a ∈ roles → Involved a m → Involved b m' → roles.idxOf a = roles.idxOf b →
          due msgs d i ≤ due msgs d j := by
        intro a b har hia hib e
        rw [← idx_inj har e] at hib
        exact due_mono ha hx ht hw a hij hm hm' hia hib
      rcases hr with h1 | h1 <;> rcases hr' with h2 | h2
      · exact key _ _ hvm.1 (.inl rfl) (.inl rfl) (h1.symm.trans h2)
      · exact key _ _ hvm.1 (.inl rfl) (.inr rfl) (h1.symm.trans h2)
      · exact key _ _ hvm.2.1 (.inr rfl) (.inl rfl) (h1.symm.trans h2)
      · exact key _ _ hvm.2.1 (.inr rfl) (.inr rfl) (h1.symm.trans h2)
    simp only [latest]
    omega
  · intro r i
    have := hge i
    simp only [latest]
    omega

/-- In time: what a role reads at a step is not before what it reads at earlier steps in which it takes part. -/
def Ordered (E : Env) (evs : Nat → Event) : Prop :=
  ∀ i j p q w p' q' w' r n n', i < j → (p, q, w) ∈ messages (evs i) → (p', q', w') ∈ messages (evs j) → (r = p ∨ r = q) →
    (r = p' ∨ r = q') → ReadAt E r i n → ReadAt E r j n' → n ≤ n'

/-- C62, run.  Such a protocol can be carried out: if the clocks are created during the first `d` nanoseconds, there is a
run, in time, in which all messages are sent and received and all roles complete all their steps; and the schedule of
`C62_schedule_partial` makes this so whenever it is kept. -/
theorem C62_carried_out_partial (title : Text → Text) (name : Text) (roles : List Text) (msgs : List Msg) (x : Char)
    (d : Nat) (ha : Accepted title name roles msgs) (hx : OneClock x msgs) (ht : Together msgs)
    (hw : ∀ m ∈ msgs, Wide (2 * d) m) (hs : ∀ m ∈ msgs, value m.rightBound < 18446744073709551616)
    (cl0 : Nat → Clocks) (hc : ∀ r ∈ roles, ∃ c, cl0 (roles.idxOf r) x = some c)
    (h0 : ∀ r y c, cl0 r y = some c → c ≤ d) :
    ∃ E gone, Transport E (steps title roles msgs) cl0 gone ∧ Ordered E (steps title roles msgs) ∧
      (∀ r, clocksAt E (steps title roles msgs) cl0 r msgs.length ≠ none) ∧
      ∀ i m, msgs[i]? = some m → ∃ ts tr,
        movedAt E (steps title roles msgs) cl0 (roles.idxOf m.sender) i (roles.idxOf m.receiver) = some ts ∧
        movedAt E (steps title roles msgs) cl0 (roles.idxOf m.receiver) i (roles.idxOf m.sender) = some tr ∧ ts ≤ tr := by
  obtain ⟨S, hF, hI, hwd, hor⟩ := C62_schedule_partial title name roles msgs x d ha hx ht hw hs cl0 hc
  obtain ⟨E, gone, hT, hO, hr⟩ := C52_schedule_kept S (steps title roles msgs) cl0 msgs.length hF
    (by
      intro i hi
      unfold steps
      rw [List.getElem?_eq_none hi]
      rfl)
    (by
      intro r y c h
      rw [hor]
      exact ⟨Nat.zero_le _, h0 r y c h⟩)
    (fun r i => (S.slot r i).2) (fun r i => ⟨by rw [hwd]; omega, Nat.le_refl _⟩)
    (by
      intro i p q w h
      obtain ⟨m, hm, -⟩ := mem_steps h
      exact ((hF i (List.getElem?_eq_some_iff.1 hm).1).2 p q w h).2.1)
  obtain ⟨h1, h2⟩ := C52_on_schedule_partial S E _ cl0 gone msgs.length hT hF hO
  refine ⟨E, gone, hT, ?_, ?_, ?_⟩
  · intro i j p q w p' q' w' r n n' hij h h' hr1 hr2 hn hn'
    rw [hr r i n hn, hr r j n' hn']
    exact (hI i j p q w p' q' w' r hij h h' hr1 hr2).2
  · intro r
    obtain ⟨cl, h, -⟩ := h1 msgs.length r (Nat.le_refl _)
    rw [h]
    simp
  · intro i m hm
    obtain ⟨ts, tr, k1, -, -, k2, -, -, k3⟩ := h2 i (roles.idxOf m.sender) (roles.idxOf m.receiver)
      (Params.window (written title m)) (List.getElem?_eq_some_iff.1 hm).1 (by
        unfold steps
        rw [hm]
        simp [messages])
    exact ⟨ts, tr, k1, k2, k3⟩

namespace C62

def rolesABC : List Text := [['A'], ['B'], ['C']]

/-- A message. -/
def msg (p q : Char) (clock : Char) (l r : Char) (reset : Option Text) : Msg :=
  ⟨[p], [q], ['M'], [clock], [l], .opening, [r], .closing, reset, []⟩

/-- `A` sends to `B` between 5 and 6 on the clock `a`, then `B` to `C` between 0 and 1 on the clock `b`. -/
def clocks : List Msg := [msg 'A' 'B' 'a' '5' '6' none, msg 'B' 'C' 'b' '0' '1' none]

/-- Everybody uses the clock at first; then `B` resets with `A`, and `C` with `A` five seconds later. -/
def resets : List Msg :=
  [msg 'B' 'C' 'a' '0' '1' none, msg 'A' 'B' 'a' '0' '1' (some ['a']), msg 'C' 'A' 'a' '5' '6' (some ['a']),
    msg 'C' 'B' 'a' '0' '1' none]

end C62

/-- A message is transferred between two readings of the call. -/
theorem moved_read {E : Env} {evs : Nat → Event} {cl0 : Nat → Clocks} {r i o p q t : Nat} {w : Window}
    (he : evs i = .msg p q w) (hr : r = p ∧ o = q ∨ r = q ∧ o = p) (hpq : p ≠ q)
    (h : movedAt E evs cl0 r i o = some t) :
    ∃ k, (E.world r i o).now k ≤ t ∧ t ≤ (E.world r i o).now (k + 1) := by
  unfold movedAt at h
  split at h
  · cases h
  · rename_i cl _
    have : ∃ fn, (run fn (E.world r i o) w cl).moved = some t := by
      rw [he] at h
      rcases hr with ⟨rfl, rfl⟩ | ⟨rfl, rfl⟩
      · exact ⟨.send, by simpa [op] using h⟩
      · exact ⟨.recv, by simpa [op, Ne.symm hpq] using h⟩
    obtain ⟨fn, h⟩ := this
    obtain ⟨j, d, hx⟩ := run_xfer h
    have h1 := (E.world r i o).xfer_le j d t hx
    have h2 := (E.world r i o).now_le j
    exact ⟨j, by omega, h1.2⟩

/-- The property fails with two clocks.  The generator accepts the protocol `C62.clocks`, although, if the clocks are
created within the first second and a call starts to wait within a second after having computed the time left, no run that is
in time completes it: `B` never reaches its end. -/
theorem C62_clocks_stuck : Accepted id ['P'] C62.rolesABC C62.clocks ∧
    ∀ (E : Env) (cl0 : Nat → Clocks),
      (∀ r y c, cl0 r y = some c → c ≤ 1000000000) →
      (∀ r m o k, (E.world r m o).start k ≤ (E.world r m o).now k + 1000000000) →
      Ordered E (steps id C62.rolesABC C62.clocks) →
      clocksAt E (steps id C62.rolesABC C62.clocks) cl0 1 2 = none := by
  refine ⟨(accepted?_iff _ _).1 (by decide), ?_⟩
  intro E cl0 h0 hd ho
  cases hcl : clocksAt E (steps id C62.rolesABC C62.clocks) cl0 1 2 with
  | none => rfl
  | some cl =>
    exfalso
    have e0 : steps id C62.rolesABC C62.clocks 0 = .msg 0 1 ⟨'a', 5, true, 6, true, ' '⟩ := rfl
    have e1 : steps id C62.rolesABC C62.clocks 1 = .msg 1 2 ⟨'b', 0, true, 1, true, ' '⟩ := rfl
    have m0 : (0, 1, ⟨'a', 5, true, 6, true, ' '⟩) ∈ messages (steps id C62.rolesABC C62.clocks 0) := by
      rw [e0]; simp [messages]
    have m1 : (1, 2, ⟨'b', 0, true, 1, true, ' '⟩) ∈ messages (steps id C62.rolesABC C62.clocks 1) := by
      rw [e1]; simp [messages]
    have hwf : ∀ j, j ≤ 1 → WellFormed (steps id C62.rolesABC C62.clocks j) := by
      intro j hj
      have : j = 0 ∨ j = 1 := by omega
      rcases this with rfl | rfl
      · rw [e0]; refine ⟨?_, by decide⟩; intro p q w h; simp [messages] at h; omega
      · rw [e1]; refine ⟨?_, by decide⟩; intro p q w h; simp [messages] at h; omega
    obtain ⟨cl1, hc1, -⟩ := clocksAt_succ hcl
    obtain ⟨t0, k0, w0⟩ := C52_window_partial E _ cl0 1000000000 hd 0 0 1 _ (fun j hj => hwf j (by omega)) m0 1 0
      (.inr ⟨rfl, rfl⟩) cl1 hc1
    obtain ⟨t1, k1, w1⟩ := C52_window_partial E _ cl0 1000000000 hd 1 1 2 _ hwf m1 1 2 (.inl ⟨rfl, rfl⟩) cl hcl
    obtain ⟨j0, -, b0⟩ := moved_read e0 (.inr ⟨rfl, rfl⟩) (by decide) k0
    obtain ⟨j1, b1, -⟩ := moved_read e1 (.inl ⟨rfl, rfl⟩) (by decide) k1
    have b2 := ho 0 1 0 1 _ 1 2 _ 1 _ _ (by decide) m0 m1 (.inr rfl) (.inl rfl) (.inl ⟨0, j0 + 1, rfl⟩)
      (.inl ⟨2, j1, rfl⟩)
    have q0 : 5000000000 ≤ t0 := by
      rcases w0 with h | ⟨c, -, h, -⟩
      · exact absurd h.1 (by decide)
      · have := h (by decide)
        simp only [if_true] at this
        omega
    have q1 : t1 ≤ 3000000000 := by
      rcases w1 with h | ⟨c, hs, -, h⟩
      · exact absurd h.1 (by decide)
      · have h2 := h (by decide)
        have h3 : c ≤ 1000000000 := by
          rcases hs with h | ⟨m', h3, h4, -⟩
          · exact h0 _ _ _ h
          · obtain rfl : m' = 0 := by omega
            rw [e0] at h4
            exact absurd h4 (by decide)
        simp only at h2
        omega
    omega

/-- The property fails on one clock when roles do not reset together.  The generator accepts the protocol `C62.resets`,
although no schedule, with clocks created within the first second and slots in order, fits it: `C` can only send its last
message five seconds after the beginning, when `B`, who has reset its clock, no longer waits. -/
theorem C62_resets_stuck : Accepted id ['P'] C62.rolesABC C62.resets ∧
    ∀ (S : Schedule) (cl0 : Nat → Clocks),
      (∀ r y, (S.origin r y).1 ≤ (S.origin r y).2 ∧ (S.origin r y).2 ≤ 1000000000) →
      (∀ r i, (S.slot r i).1 ≤ (S.slot r i).2) → InOrder S (steps id C62.rolesABC C62.resets) →
      ¬ FitsSchedule S (steps id C62.rolesABC C62.resets) cl0 4 := by
  refine ⟨(accepted?_iff _ _).1 (by decide), ?_⟩
  intro S cl0 h0 hne ho hF
  have e0 : steps id C62.rolesABC C62.resets 0 = .msg 1 2 ⟨'a', 0, true, 1, true, ' '⟩ := rfl
  have e1 : steps id C62.rolesABC C62.resets 1 = .msg 0 1 ⟨'a', 0, true, 1, true, 'a'⟩ := rfl
  have e2 : steps id C62.rolesABC C62.resets 2 = .msg 2 0 ⟨'a', 5, true, 6, true, 'a'⟩ := rfl
  have e3 : steps id C62.rolesABC C62.resets 3 = .msg 2 1 ⟨'a', 0, true, 1, true, ' '⟩ := rfl
  have m1 : (0, 1, ⟨'a', 0, true, 1, true, 'a'⟩) ∈ messages (steps id C62.rolesABC C62.resets 1) := by
    rw [e1]; simp [messages]
  have m2 : (2, 0, ⟨'a', 5, true, 6, true, 'a'⟩) ∈ messages (steps id C62.rolesABC C62.resets 2) := by
    rw [e2]; simp [messages]
  have m3 : (2, 1, ⟨'a', 0, true, 1, true, ' '⟩) ∈ messages (steps id C62.rolesABC C62.resets 3) := by
    rw [e3]; simp [messages]
  have n1 := (hF 1 (by decide)).2 _ _ _ m1
  have n2 := (hF 2 (by decide)).2 _ _ _ m2
  have n3 := (hF 3 (by decide)).2 _ _ _ m3
  have s1 : S.since (steps id C62.rolesABC C62.resets) 1 'a' 1 = S.origin 1 'a' := by
    simp only [Schedule.since, e0]; rfl
  have s2 : S.since (steps id C62.rolesABC C62.resets) 2 'a' 2 = S.origin 2 'a' := by
    simp only [Schedule.since, e0, e1]; rfl
  have s3 : S.since (steps id C62.rolesABC C62.resets) 1 'a' 3 = S.slot 1 1 := by
    simp only [Schedule.since, e1, e2]; rfl
  have v1 := (n1.2.2.2.values ((S.slot 1 1).2 - (S.origin 1 'a').1) (by
    simp only [s1]; have := h0 1 'a'; have := hne 1 1; omega) (by simp only [s1]; exact Nat.le_refl _)).1.2 (by decide)
  have v2 := (n2.2.2.1.values ((S.slot 2 2).2 - (S.origin 2 'a').1) (by
    simp only [s2]; have := h0 2 'a'; have := hne 2 2; omega) (by simp only [s2]; exact Nat.le_refl _)).1.1 (by decide)
  have v3 := (n3.2.2.2.values ((S.slot 1 3).2 - (S.slot 1 1).1) (by
    simp only [s3]; have := hne 1 1; have := hne 1 3; omega) (by simp only [s3]; exact Nat.le_refl _)).1.2 (by decide)
  simp only [if_true] at v1 v2 v3
  have := (ho 2 3 _ _ _ _ _ _ 2 (by decide) m2 m3 (.inl rfl) (.inl rfl)).2
  have := n3.2.1
  have := h0 1 'a'
  have := hne 1 1
  omega

/-! The hypotheses are met: a protocol of three roles, with a window open on the left and a reset. -/

namespace C62

/-- `A` sends to `B` and `B` to `C`, then `A` to `C`; `C` and `A` reset, and then exchange a message again. -/
def plain : List Msg :=
  [⟨['A'], ['B'], ['M'], ['a'], ['1'], .opening, ['3'], .closing, none, []⟩,
    ⟨['B'], ['C'], ['M'], ['a'], ['2'], .closing, ['4'], .closing, none, []⟩,
    ⟨['A'], ['C'], ['M'], ['a'], ['2'], .opening, ['6'], .opening, some ['a'], []⟩,
    ⟨['C'], ['A'], ['M'], ['a'], ['0'], .opening, ['9'], .closing, none, []⟩]

theorem plain_accepted : Accepted id ['P'] rolesABC plain := (accepted?_iff _ _).1 (by decide)

theorem plain_clock : OneClock 'a' plain := ⟨by decide, by decide⟩

theorem plain_together : Together plain := by
  intro i m h
  match i with
  | 0 => cases h; decide
  | 1 => cases h; decide
  | 2 => cases h; decide
  | 3 => cases h; decide
  | i + 4 => simp [plain] at h

/-- Half a second for each call. -/
theorem plain_wide : ∀ m ∈ plain, Wide (2 * 500000000) m := by
  intro m h
  simp only [plain, List.mem_cons, List.not_mem_nil, or_false] at h
  rcases h with rfl | rfl | rfl | rfl
  · exact ⟨2, 3, ⟨by decide, by decide⟩, ⟨by decide, by decide⟩, by decide⟩
  · exact ⟨3, 4, ⟨by decide, by decide⟩, ⟨by decide, by decide⟩, by decide⟩
  · exact ⟨4, 5, ⟨by decide, by decide⟩, ⟨by decide, by decide⟩, by decide⟩
  · exact ⟨8, 9, ⟨by decide, by decide⟩, ⟨by decide, by decide⟩, by decide⟩

/-- The protocol can be carried out, the clocks being created at the instant 7. -/
example : ∃ E gone, Transport E (steps id rolesABC plain) (fun _ y => if y = 'a' then some 7 else none) gone ∧
    Ordered E (steps id rolesABC plain) := by
  obtain ⟨E, gone, h1, h2, -⟩ := C62_carried_out_partial id ['P'] rolesABC plain 'a' 500000000 plain_accepted plain_clock
    plain_together plain_wide (by decide) (fun _ y => if y = 'a' then some 7 else none)
    (fun _ _ => ⟨7, if_pos rfl⟩) (by
      intro r y c h
      split at h
      · cases h; decide
      · cases h)
  exact ⟨E, gone, h1, h2⟩

/-- The last message is exchanged 13 seconds and a half after the beginning. -/
example : due plain 500000000 3 = 13500000000 := by decide

end C62

end Verif.Prop
