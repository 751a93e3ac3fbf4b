import Verif.Proof.Timed
import Verif.Prop.C05_C38
/-!
# C19, C20, C21, C40, C41: timed operations
-/
namespace Verif.Prop
open Verif.Types Verif.Timed Verif.Spec

/-! ## C19 -/

/-- C19, soundness.  If a message was transferred (in particular if the call returned `Ok`), then unless the
window has no bound, the clock exists, its value was inside the interval when the call checked it, and at the
instant of the transfer it still respects the lower bound and is at most the upper bound, up to the delay `d`
between computing the remaining time and starting to wait.
Missing from the full property: with an exclusive upper bound the transfer itself may happen exactly at the
bound (`C19_exclusive_stop_reached`). -/
theorem C19_window_partial (fn : Fn) (W : World) (w : Window) (cl : Clocks) (t d : Nat)
    (hd : ∀ k, W.start k ≤ W.now k + d) (h : (run fn W w cl).moved = some t) :
    Unbounded w ∨ ∃ c, cl w.clock = some c ∧ (∃ j, W.now j ≤ t ∧ Inside w (W.now j - c)) ∧
      AfterStart w (t - c) ∧ (0 ≤ w.stop → ((t - c : Nat) : Int) ≤ w.stop * 1000000000 + d) := by
  rcases run_cases fn W w cl with hq | ⟨t', h1, h2, -⟩ | ⟨t', c, k', h1, -, hc, ⟨j, k, hjk, a1, a2, a3, a4⟩, -⟩
  · rw [hq.1] at h; cases h
  · exact Or.inl h2
  · rw [h] at h1
    cases h1
    refine Or.inr ⟨c, hc, ⟨j, ?_, a3⟩, ?_, ?_⟩
    · exact Nat.le_trans (W.mono (Nat.le_of_lt hjk)) (Nat.le_trans (W.now_le k) a1)
    · have h1 := W.mono (Nat.le_of_lt hjk)
      have h2 := W.now_le k
      intro h0
      have := a3.1 h0
      cases hi : w.inclStart <;> simp only [hi, if_true, Bool.false_eq_true, if_false] at this ⊢ <;> omega
    · intro h0
      obtain ⟨h1, h2⟩ := a4 h0
      have := hd k
      have := W.now_le k
      omega

/-- C19.  `Ok` means a message was transferred. -/
theorem C19_ok_moved (fn : Fn) (W : World) (w : Window) (cl : Clocks) (h : (run fn W w cl).res = .ok) :
    ∃ t, (run fn W w cl).moved = some t := by
  rcases run_cases fn W w cl with hq | ⟨t', h1, -⟩ | ⟨t', c, k', h1, -⟩
  · exact absurd h hq.2.1
  · exact ⟨t', h1⟩
  · exact ⟨t', h1⟩

/-- A window the functions can handle: the bounds fit `u64`, there is a bound, and an upper bound is present unless
the function is `send_without_reset`. -/
def Handled (fn : Fn) (w : Window) : Prop :=
  w.start < 18446744073709551616 ∧ w.stop < 18446744073709551616 ∧ ¬ Unbounded w ∧
    (0 ≤ w.stop ∨ fn = .sendNoReset)

theorem toU64_of {x : Int} (h0 : 0 ≤ x) (h1 : x < 18446744073709551616) : toU64 x = some x.toNat :=
  if_pos ⟨h0, h1⟩

theorem guarded_ok {fn : Fn} {W : World} {reset : Char} {cl : Clocks} {c : Nat} {cond : Nat → Check}
    {e : Option Int} {n r : Nat} (hn : r = if fn ≠ .sendNoReset ∧ reset = ' ' then 2 * n else n)
    (hcond : ∀ j, j + n ≤ r → cond j = .pass (j + n))
    (he : ∀ x, e = some x → 0 ≤ x ∧ x < 18446744073709551616 ∧ (W.now r - c : Nat) ≤ x * 1000000000)
    (hx : ∃ t, W.xfer r (e.map fun x => x.toNat * 1000000000 - (W.now r - c)) = some t)
    (hr : reset = ' ' ∨ fn = .sendNoReset ∨ ∃ c, cl reset = some c) :
    (guarded fn W reset cl c cond e).res = .ok ∧
    ∃ t, (guarded fn W reset cl c cond e).moved = some t ∧ W.start r ≤ t ∧ t ≤ W.now (r + 1) ∧
      (guarded fn W reset cl c cond e).clocks =
        if fn ≠ .sendNoReset ∧ reset ≠ ' ' then (fun x => if x = reset then some (W.now (r + 1)) else cl x)
        else cl := by
  have tr : ∀ b, (b = true → ∃ c, cl reset = some c) →
      (transfer fn W reset cl c b r e).res = .ok ∧
      ∃ t, (transfer fn W reset cl c b r e).moved = some t ∧ W.start r ≤ t ∧ t ≤ W.now (r + 1) ∧
        (transfer fn W reset cl c b r e).clocks =
          if b = true then (fun x => if x = reset then some (W.now (r + 1)) else cl x) else cl := by
    intro b hb
    have fin : ∀ d, (∃ t, W.xfer r d = some t) → (finish fn W reset cl b (r + 1) (W.xfer r d)).res = .ok ∧
        ∃ t, (finish fn W reset cl b (r + 1) (W.xfer r d)).moved = some t ∧ W.start r ≤ t ∧ t ≤ W.now (r + 1) ∧
        (finish fn W reset cl b (r + 1) (W.xfer r d)).clocks =
          if b = true then (fun x => if x = reset then some (W.now (r + 1)) else cl x) else cl := by
      rintro d ⟨t, ht⟩
      obtain ⟨hge, hle⟩ := W.xfer_le _ _ _ ht
      rw [ht]
      cases b with
      | false => exact ⟨rfl, t, rfl, hge, hle, rfl⟩
      | true =>
        obtain ⟨c', hc'⟩ := hb rfl
        simp only [finish, hc', if_true]
        exact ⟨trivial, t, rfl, hge, hle, trivial⟩
    cases e with
    | none => simp only [transfer]; exact fin _ hx
    | some x =>
      obtain ⟨h1, h2, h3⟩ := he x rfl
      simp only [transfer, toU64_of h1 h2]
      rw [if_neg]
      · exact fin _ hx
      · simp only [nsec, elapsed]
        omega
  unfold guarded
  simp only
  by_cases hfn : fn = .sendNoReset
  · rw [if_neg (by simp [hfn])] at hn
    subst hn
    have hc0 := hcond 0 (by omega)
    rw [Nat.zero_add] at hc0
    rw [if_pos hfn, hc0]
    obtain ⟨h1, t, h2, h3, h4, h5⟩ := tr false (by simp)
    refine ⟨h1, t, h2, h3, h4, ?_⟩
    rw [if_neg (by simp [hfn])]
    simpa using h5
  · by_cases hre : reset = ' '
    · rw [if_pos ⟨hfn, hre⟩] at hn
      have hc0 := hcond 0 (by omega)
      have hc1 := hcond n (by omega)
      rw [Nat.zero_add] at hc0
      have e2 : n + n = r := by omega
      rw [e2] at hc1
      rw [if_neg hfn, hc0]
      simp only [hre, ne_eq, not_true, if_false, hc1]
      subst hre
      obtain ⟨h1, t, h2, h3, h4, h5⟩ := tr false (by simp)
      refine ⟨h1, t, h2, h3, h4, ?_⟩
      simpa using h5
    · rw [if_neg (by simp [hre])] at hn
      subst hn
      have hc0 := hcond 0 (by omega)
      rw [Nat.zero_add] at hc0
      rw [if_neg hfn, hc0]
      simp only [ne_eq, hre, not_false_eq_true, if_true, hfn, true_and]
      have hb : ∃ c, cl reset = some c := by
        rcases hr with h | h | h
        · exact absurd h hre
        · exact absurd h hfn
        · exact h
      obtain ⟨h1, t, h2, h3, h4, h5⟩ := tr true (fun _ => hb)
      exact ⟨h1, t, h2, h3, h4, by simpa using h5⟩

theorem run_ok {fn : Fn} {W : World} {w : Window} {cl : Clocks} {c : Nat} (hw : Handled fn w)
    (hc : cl w.clock = some c) (hin : ∀ k, k ≤ readings fn w → Accepted w (W.now k - c))
    (hx : ∃ t, W.xfer (readings fn w) (timeLeft w (W.now (readings fn w) - c)) = some t)
    (hr : w.reset = ' ' ∨ fn = .sendNoReset ∨ ∃ c, cl w.reset = some c) :
    (run fn W w cl).res = .ok ∧
    ∃ t, (run fn W w cl).moved = some t ∧ W.start (readings fn w) ≤ t ∧ t ≤ W.now (readings fn w + 1) ∧
      (run fn W w cl).clocks =
        if fn ≠ .sendNoReset ∧ w.reset ≠ ' ' then
          (fun x => if x = w.reset then some (W.now (readings fn w + 1)) else cl x)
        else cl := by
  obtain ⟨hb1, hb2, hu, hup⟩ := hw
  have loI : 0 ≤ w.start → w.inclStart = true → ∀ j, j ≤ readings fn w →
      fromIncl W c w.start j = .pass (j + 1) := by
    intro h0 hi j hj
    have := (hin j hj).1.1 h0
    rw [if_pos hi] at this
    simp only [fromIncl, toU64_of h0 hb1]
    rw [if_pos]
    simp only [secs, elapsed, nsec]
    omega
  have loE : 0 ≤ w.start → w.inclStart = false → ∀ j, j ≤ readings fn w →
      fromExcl W c w.start j = .pass (j + 1) := by
    intro h0 hi j hj
    have := (hin j hj).2 h0 hi
    simp only [fromExcl, toU64_of h0 hb1]
    rw [if_pos]
    simp only [secs, elapsed, nsec]
    omega
  have upI : 0 ≤ w.stop → w.inclStop = true → ∀ j, j ≤ readings fn w →
      toIncl W c w.stop j = .pass (j + 1) := by
    intro h0 hi j hj
    have := (hin j hj).1.2 h0
    rw [if_pos hi] at this
    simp only [toIncl, toU64_of h0 hb2]
    rw [if_pos]
    simp only [secs, elapsed, nsec]
    omega
  have upE : 0 ≤ w.stop → w.inclStop = false → ∀ j, j ≤ readings fn w →
      toExcl W c w.stop j = .pass (j + 1) := by
    intro h0 hi j hj
    have := (hin j hj).1.2 h0
    rw [if_neg (by simp [hi])] at this
    simp only [toExcl, toU64_of h0 hb2]
    rw [if_pos]
    simp only [secs, elapsed, nsec]
    omega
  have stop : 0 ≤ w.stop → ∀ x, some w.stop = some x → 0 ≤ x ∧ x < 18446744073709551616 ∧
      (W.now (readings fn w) - c : Nat) ≤ x * 1000000000 := by
    intro h0 x hxx
    cases hxx
    refine ⟨h0, hb2, ?_⟩
    have := (hin _ (Nat.le_refl _)).1.2 h0
    split at this <;> omega
  have hxs : 0 ≤ w.stop → ∃ t, W.xfer (readings fn w)
      ((some w.stop).map fun x => x.toNat * 1000000000 - (W.now (readings fn w) - c)) = some t := by
    intro h0
    simp only [timeLeft, if_pos h0] at hx
    exact hx
  have ord : 0 ≤ w.stop → w.start ≤ w.stop := by
    intro h0
    by_cases hs : w.start < 0
    · omega
    · have h1 := (hin 0 (by omega)).1.1 (by omega)
      have h2 := (hin 0 (by omega)).1.2 h0
      split at h1 <;> split at h2 <;> omega
  have hn : readings fn w = if fn ≠ .sendNoReset ∧ w.reset = ' ' then 2 * bounds w else bounds w := rfl
  unfold run
  rw [if_neg]
  · by_cases hs : w.start < 0
    · rw [if_pos hs]
      have h0 : 0 ≤ w.stop := by
        have : ¬ w.stop < 0 := fun h => hu ⟨hs, h⟩
        omega
      have hb : bounds w = 1 := by simp only [bounds, if_pos h0]; rw [if_neg (by omega)]
      rw [hb] at hn
      rw [if_pos h0]
      cases hi : w.inclStop with
      | true =>
        simp only [if_true, hc]
        exact guarded_ok hn (fun j hj => upI h0 hi j (by omega)) (stop h0) (hxs h0) hr
      | false =>
        simp only [hc, Bool.false_eq_true, if_false]
        exact guarded_ok hn (fun j hj => upE h0 hi j (by omega)) (stop h0) (hxs h0) hr
    · rw [if_neg hs]
      have hs' : 0 ≤ w.start := by omega
      by_cases he : w.stop < 0
      · have hb : bounds w = 1 := by simp only [bounds, if_pos hs']; rw [if_neg (by omega)]
        rw [hb] at hn
        rw [if_pos he]
        have hx' : ∃ t, W.xfer (readings fn w)
            ((none : Option Int).map fun x => x.toNat * 1000000000 - (W.now (readings fn w) - c)) = some t := by
          have h0 : ¬ 0 ≤ w.stop := by omega
          simp only [timeLeft, if_neg h0] at hx
          exact hx
        cases hi1 : w.inclStart with
        | true =>
          simp only [if_true, hc]
          exact guarded_ok hn (fun j hj => loI hs' hi1 j (by omega)) (by simp) hx' hr
        | false =>
          simp only [hc, Bool.false_eq_true, if_false]
          exact guarded_ok hn (fun j hj => loE hs' hi1 j (by omega)) (by simp) hx' hr
      · have h0 : 0 ≤ w.stop := by omega
        have hb : bounds w = 2 := by simp only [bounds, if_pos hs', if_pos h0]
        rw [hb] at hn
        rw [if_neg he, if_neg (by have := ord (by omega); omega)]
        simp only [hc]
        cases hi1 : w.inclStart <;> cases hi : w.inclStop <;> simp only
        · refine guarded_ok hn (fun j hj => ?_) (stop h0) (hxs h0) hr
          simp only [both, loE hs' hi1 j (by omega), upE h0 hi (j + 1) (by omega)]
        · refine guarded_ok hn (fun j hj => ?_) (stop h0) (hxs h0) hr
          simp only [both, loE hs' hi1 j (by omega), upI h0 hi (j + 1) (by omega)]
        · refine guarded_ok hn (fun j hj => ?_) (stop h0) (hxs h0) hr
          simp only [both, loI hs' hi1 j (by omega), upE h0 hi (j + 1) (by omega)]
        · refine guarded_ok hn (fun j hj => ?_) (stop h0) (hxs h0) hr
          simp only [both, loI hs' hi1 j (by omega), upI h0 hi (j + 1) (by omega)]
  · rintro ⟨h1, h2⟩
    rcases hup with h | h
    · have := ord h; omega
    · exact h1 h

/-- C19, completeness.  A call with a `Handled` window whose clock is inside the interval at all the (at most
five) readings it makes before it waits (for an exclusive lower bound: inside by a second, `Accepted`) is not
rejected: if the channel transfers the message in the time left in the window and the clock to reset exists, the
call returns `Ok`.
Missing from the full property: clocks less than a second above an exclusive lower bound
(`C19_exclusive_start_rejected`), and windows without upper bound for `send` and `recv`
(`C19_lower_only_rejected`). -/
theorem C19_not_rejected_partial (fn : Fn) (W : World) (w : Window) (cl : Clocks) (c : Nat)
    (hw : Handled fn w) (hc : cl w.clock = some c)
    (hin : ∀ k, k ≤ readings fn w → Accepted w (W.now k - c))
    (hx : ∃ t, W.xfer (readings fn w) (timeLeft w (W.now (readings fn w) - c)) = some t)
    (hr : w.reset = ' ' ∨ fn = .sendNoReset ∨ ∃ c, cl w.reset = some c) :
    (run fn W w cl).res = .ok ∧ ∃ t, (run fn W w cl).moved = some t := by
  obtain ⟨h1, t, h2, -⟩ := run_ok hw hc hin hx hr
  exact ⟨h1, t, h2⟩

/-- C19 fails for `send` and `recv` on windows with a lower bound and no upper bound: they always panic,
whatever the clocks, because the first check compares the lower bound with the negative upper bound. -/
theorem C19_lower_only_rejected (fn : Fn) (W : World) (w : Window) (cl : Clocks) (hfn : fn ≠ .sendNoReset)
    (h1 : 0 ≤ w.start) (h2 : w.stop < 0) :
    (run fn W w cl).res = .panic ∧ (run fn W w cl).moved = none := by
  unfold run
  rw [if_pos ⟨hfn, by omega⟩]
  exact ⟨rfl, rfl⟩

theorem guarded_never {fn : Fn} {W : World} {reset : Char} {cl : Clocks} {c : Nat} {cond : Nat → Check}
    {e : Option Int} (h : ∀ j k, cond j ≠ .pass k) :
    (guarded fn W reset cl c cond e).res ≠ .ok ∧ (guarded fn W reset cl c cond e).moved = none := by
  rcases guarded_cases (fn := fn) (W := W) (reset := reset) (cl := cl) (c := c) (cond := cond) (e := e)
    with hq | ⟨t, j, k, hp, -⟩
  · exact ⟨hq.2.1, hq.1⟩
  · exact absurd hp (h j k)

/-- C19 fails for exclusive lower bounds: a clock strictly above the bound by less than a second is inside the
interval, but the call is rejected, because whole seconds are compared. -/
theorem C19_exclusive_start_rejected (fn : Fn) (W : World) (w : Window) (cl : Clocks) (c : Nat)
    (h0 : 0 ≤ w.start) (hi : w.inclStart = false) (hc : cl w.clock = some c)
    (hin : ∀ k, (W.now k - c : Nat) < w.start * 1000000000 + 1000000000) :
    (run fn W w cl).res ≠ .ok ∧ (run fn W w cl).moved = none := by
  have never : ∀ j k, fromExcl W c w.start j ≠ .pass k := by
    intro j k hp
    have := (fromExcl_pass hp).2
    have := hin j
    omega
  unfold run
  split
  · exact ⟨by simp, rfl⟩
  split
  · omega
  split
  · rw [if_neg (by simp [hi])]
    simp only [hc]
    exact guarded_never never
  · split
    · exact ⟨by simp, rfl⟩
    · simp only [hc, hi]
      have nb : ∀ g j k, both (fromExcl W c w.start) g j ≠ .pass k := by
        intro g j k hp
        obtain ⟨i, hp, -⟩ := both_pass hp
        exact never j i hp
      cases w.inclStop <;> exact guarded_never (nb _)

/-- Readings of a call that waits until the instant `u` for its message: `at_` says when each reading is made. -/
def slowWorld (u : Nat) : World where
  now k := if k ≤ 1 then 0 else u
  start k := if k ≤ 1 then 0 else u
  xfer k d := match d with
    | none => some (if k ≤ 1 then (if k = 1 then u else 0) else u)
    | some x => if k = 1 ∧ u ≤ x then some u else none
  now_le k := Nat.le_refl _
  start_le k := by split <;> split <;> omega
  xfer_le k d t h := by
    cases d with
    | none => cases h; constructor <;> (repeat' split) <;> omega
    | some x =>
      simp only at h
      split at h
      · rename_i hk; cases h; simp [hk.1]
      · cases h
  xfer_timeout k x t h := by
    simp only at h
    split at h
    · rename_i hk; cases h; simp [hk.1, hk.2]
    · cases h

/-- The clock map `{'a': 0}`. -/
def clockA : Clocks := fun x => if x = 'a' then some 0 else none

/-- C19 fails for exclusive upper bounds: a `recv` with window `< 10` returns `Ok` with a message transferred when
the clock is exactly 10 s. -/
theorem C19_exclusive_stop_reached :
    (run .recv (slowWorld 10000000000) ⟨'a', -1, false, 10, false, 'a'⟩ clockA).res = .ok ∧
    (run .recv (slowWorld 10000000000) ⟨'a', -1, false, 10, false, 'a'⟩ clockA).moved = some 10000000000 ∧
    ¬ Inside ⟨'a', -1, false, 10, false, 'a'⟩ (10000000000 - 0) := by
  refine ⟨by decide, by decide, ?_⟩
  intro h
  have := h.2 (by decide)
  simp at this

/-- A call at instant `u` that meets a ready channel. -/
def readyWorld (u : Nat) : World where
  now _ := u
  start _ := u
  xfer _ _ := some u
  now_le _ := Nat.le_refl _
  start_le _ := Nat.le_refl _
  xfer_le _ _ _ h := by cases h; exact ⟨Nat.le_refl _, Nat.le_refl _⟩
  xfer_timeout _ _ _ h := by cases h; omega

/-- The hypotheses of `C19_window_partial` are met by calls that succeed, for all three functions. -/
example : ∀ fn, (run fn (readyWorld 5500000000) ⟨'a', 5, true, 10, false, 'a'⟩ clockA).moved = some 5500000000 := by
  intro fn; cases fn <;> decide

/-- The hypotheses of `C19_not_rejected_partial` are met. -/
example : Handled .recv ⟨'a', 5, true, 10, false, 'a'⟩ ∧ clockA 'a' = some 0 ∧
    (∀ k, k ≤ readings .recv ⟨'a', 5, true, 10, false, 'a'⟩ →
      Accepted ⟨'a', 5, true, 10, false, 'a'⟩ ((readyWorld 5500000000).now k - 0)) ∧
    ∃ t, (readyWorld 5500000000).xfer (readings .recv ⟨'a', 5, true, 10, false, 'a'⟩)
      (timeLeft ⟨'a', 5, true, 10, false, 'a'⟩ 5500000000) = some t := by
  refine ⟨⟨by decide, by decide, fun h => absurd h.1 (by decide), by decide⟩, rfl, ?_, ⟨_, rfl⟩⟩
  intro k _
  exact ⟨⟨fun _ => by simp [readyWorld], fun _ => by simp [readyWorld]⟩, fun _ h => by cases h⟩

/-- They are met as well by a `recv` that waits nine seconds for its message, and by an exclusive lower bound. -/
example : (∀ k, k ≤ readings .recv ⟨'a', -1, false, 10, false, 'a'⟩ →
      Accepted ⟨'a', -1, false, 10, false, 'a'⟩ ((slowWorld 9000000000).now k - 0)) ∧
    (slowWorld 9000000000).xfer (readings .recv ⟨'a', -1, false, 10, false, 'a'⟩)
      (timeLeft ⟨'a', -1, false, 10, false, 'a'⟩ 0) = some 9000000000 ∧
    Accepted ⟨'a', 5, false, 10, false, 'a'⟩ ((readyWorld 6500000000).now 0 - 0) := by
  refine ⟨?_, by decide, ⟨fun _ => by simp [readyWorld], fun _ => by simp [readyWorld]⟩,
    fun _ _ => by simp [readyWorld]⟩
  intro k hk
  have hk' : k ≤ 1 := hk
  exact ⟨⟨fun h => absurd h (by decide), fun _ => by simp [slowWorld, hk']⟩, fun h => absurd h (by decide)⟩

/-- `C19_exclusive_start_rejected` rejects a call inside its interval. -/
example : Inside ⟨'a', 5, false, 10, true, ' '⟩ ((readyWorld 5500000000).now 0 - 0) ∧
    (run .send (readyWorld 5500000000) ⟨'a', 5, false, 10, true, ' '⟩ clockA).res = .panic := by
  refine ⟨⟨fun _ => by simp [readyWorld], fun _ => by simp [readyWorld]⟩, by decide⟩

/-! ## C20 -/

/-- C20.  No clock other than the one named by the reset parameter changes, whatever the outcome. -/
theorem C20_other_clocks (fn : Fn) (W : World) (w : Window) (cl : Clocks) (x : Char) (h : x ≠ w.reset) :
    (run fn W w cl).clocks x = cl x := by
  rcases run_cases fn W w cl with hq | ⟨t', h1, -, -, h2⟩ | ⟨t', c, k', h1, -, -, -, -, -, he⟩
  · rw [hq.2.2]
  · rw [h2]
  · rcases he with ⟨-, he⟩ | ⟨-, -, -, -, he⟩ | ⟨-, -, -, -, he⟩
    · rw [he]
    · rw [he]
    · rw [he]; exact if_neg h

/-- C20.  If any clock changed, the call returned `Ok`, the message was transferred, the operation has a reset
parameter and is not `send_without_reset`, and the named clock was set to an instant of the call not before the
transfer. -/
theorem C20_only_on_success (fn : Fn) (W : World) (w : Window) (cl : Clocks)
    (h : (run fn W w cl).clocks ≠ cl) :
    (run fn W w cl).res = .ok ∧ w.reset ≠ ' ' ∧ fn ≠ .sendNoReset ∧
    ∃ t k, (run fn W w cl).moved = some t ∧ t ≤ W.now k ∧ (run fn W w cl).clocks w.reset = some (W.now k) := by
  rcases run_cases fn W w cl with hq | ⟨t', h1, -, -, h2⟩ | ⟨t', c, k', h1, -, -, -, -, h3, he⟩
  · exact absurd hq.2.2 h
  · exact absurd h2 h
  · rcases he with ⟨-, he⟩ | ⟨-, -, -, -, he⟩ | ⟨a1, a2, -, a4, he⟩
    · exact absurd he h
    · exact absurd he h
    · exact ⟨a4, a2, a1, t', k' + 1, h1, h3, by rw [he]; exact if_pos rfl⟩

/-- C20.  An operation without reset parameter changes no clock. -/
theorem C20_no_reset (fn : Fn) (W : World) (w : Window) (cl : Clocks) (h : w.reset = ' ' ∨ fn = .sendNoReset) :
    (run fn W w cl).clocks = cl := by
  refine Classical.byContradiction fun hne => ?_
  obtain ⟨-, h1, h2, -⟩ := C20_only_on_success fn W w cl hne
  rcases h with h | h
  · exact h1 h
  · exact h2 h

/-- The hypothesis of `C20_only_on_success` is met. -/
example : (run .send (readyWorld 5500000000) ⟨'a', 5, true, 10, false, 'a'⟩ clockA).clocks ≠ clockA := by
  intro h
  exact absurd (congrFun h 'a') (by decide)

/-! ## C40 -/

/-- C40, partial.  A successful call with a `Handled` window and a reset parameter, whose clock is inside the
interval (`Accepted`) at all the readings it makes, resets the clock named by its reset parameter to an instant not before
the transfer.
Missing from the full property: unbounded windows (`C40_unbounded_no_reset`) and calls made while the clock
crosses the lower bound (`C40_race`). -/
theorem C40_reset_done_partial (fn : Fn) (W : World) (w : Window) (cl : Clocks) (c : Nat)
    (hfn : fn ≠ .sendNoReset) (hre : w.reset ≠ ' ')
    (hw : Handled fn w) (hc : cl w.clock = some c)
    (hin : ∀ k, k ≤ readings fn w → Accepted w (W.now k - c))
    (hx : ∃ t, W.xfer (readings fn w) (timeLeft w (W.now (readings fn w) - c)) = some t)
    (hr : ∃ c, cl w.reset = some c) :
    ∃ t k, (run fn W w cl).moved = some t ∧ t ≤ W.now k ∧ (run fn W w cl).clocks w.reset = some (W.now k) := by
  obtain ⟨-, t, h2, -, h3, h4⟩ := run_ok hw hc hin hx (Or.inr (Or.inr hr))
  exact ⟨t, _, h2, h3, by rw [h4, if_pos ⟨hfn, hre⟩]; exact if_pos rfl⟩

/-- C40 fails for unbounded windows: they never reset a clock. -/
theorem C40_unbounded_no_reset (fn : Fn) (W : World) (w : Window) (cl : Clocks) (h : Unbounded w) :
    (run fn W w cl).clocks = cl := by
  rcases run_cases fn W w cl with hq | ⟨t', h1, -, -, h2⟩ | ⟨t', c, k', h1, hu, -⟩
  · exact hq.2.2
  · exact h2
  · exact absurd h hu

/-- Readings of a call during which the time goes from `u` to `u + 1` between the first two readings. -/
def crossWorld (u : Nat) : World where
  now k := if k = 0 then u else u + 1
  start k := if k = 0 then u else u + 1
  xfer k _ := if k = 0 then none else some (u + 1)
  now_le k := Nat.le_refl _
  start_le k := by split <;> split <;> omega
  xfer_le k d t h := by
    by_cases hk : k = 0
    · rw [if_pos hk] at h; cases h
    · rw [if_neg hk] at h; cases h; constructor <;> split <;> omega
  xfer_timeout k x t h := by
    by_cases hk : k = 0
    · rw [if_pos hk] at h; cases h
    · rw [if_neg hk] at h; cases h; rw [if_neg hk]; omega

/-- C40 fails when the clock crosses the lower bound during the call: the condition of the branch that resets is
read just before the bound, the condition of the branch that does not just after it, so a `recv` with window
`[1, 10]` and reset parameter `a` returns `Ok` without resetting `a`. -/
theorem C40_race :
    (run .recv (crossWorld 999999999) ⟨'a', 1, true, 10, true, 'a'⟩ clockA).res = .ok ∧
    (run .recv (crossWorld 999999999) ⟨'a', 1, true, 10, true, 'a'⟩ clockA).moved = some 1000000000 ∧
    (run .recv (crossWorld 999999999) ⟨'a', 1, true, 10, true, 'a'⟩ clockA).clocks 'a' = clockA 'a' := by
  decide

/-- C40 fails when the clock to reset is not in the map: the call panics although the message was transferred. -/
theorem C40_missing_clock :
    (run .send (readyWorld 5500000000) ⟨'a', 5, true, 10, true, 'b'⟩ clockA).res = .panic ∧
    (run .send (readyWorld 5500000000) ⟨'a', 5, true, 10, true, 'b'⟩ clockA).moved = some 5500000000 := by
  decide

/-! ## C41 -/

theorem noReset_clocks (W : World) (w : Window) (cl : Clocks) : (run .sendNoReset W w cl).clocks = cl :=
  C20_no_reset _ W w cl (Or.inr rfl)

/-- The clocks named by the reset parameters of the sends of a choice. -/
def resetsOf (steps : List (World × Window)) : List Char :=
  (steps.map fun p => p.2.reset).filter (· ≠ ' ')

theorem chooseSends_ok {cl : Clocks} : ∀ {steps : List (World × Window)},
    (∀ p ∈ steps, (run .sendNoReset p.1 p.2 cl).res = .ok) →
    chooseSends steps cl =
      (.ok, cl, steps.map (fun p => (run .sendNoReset p.1 p.2 cl).moved), resetsOf steps)
  | [], _ => rfl
  | (W, w) :: rest, h => by
    have h1 := h _ List.mem_cons_self
    have h2 := noReset_clocks W w cl
    have ih := chooseSends_ok (cl := cl) (steps := rest) fun p hp => h p (List.mem_cons_of_mem _ hp)
    unfold chooseSends
    simp only at h1
    rcases hr : run .sendNoReset W w cl with ⟨r, c', m⟩
    rw [hr] at h1 h2
    simp only at h1 h2
    subst h1 h2
    simp only [ih, List.map_cons, hr, Prod.mk.injEq, true_and, resetsOf]
    by_cases hw : w.reset = ' '
    · simp [hw]
    · simp [hw]

/-- C41, failure.  If the sends before `p` succeed and the send `p` does not, the choice ends with the outcome of
`p`, no send after `p` is attempted, and no clock is changed. -/
theorem C41_failed_choice (pre post : List (World × Window)) (p : World × Window) (now : Nat → Nat) (cl : Clocks)
    (hpre : ∀ q ∈ pre, (run .sendNoReset q.1 q.2 cl).res = .ok) (hp : (run .sendNoReset p.1 p.2 cl).res ≠ .ok) :
    choose (pre ++ p :: post) now cl =
      ((run .sendNoReset p.1 p.2 cl).res, cl,
        (pre ++ [p]).map fun q => (run .sendNoReset q.1 q.2 cl).moved) := by
  have key : ∃ rs, chooseSends (pre ++ p :: post) cl = ((run .sendNoReset p.1 p.2 cl).res, cl,
        (pre ++ [p]).map (fun q => (run .sendNoReset q.1 q.2 cl).moved), rs) := by
    clear now
    induction pre with
    | nil =>
      obtain ⟨W, w⟩ := p
      have h2 := noReset_clocks W w cl
      simp only [List.nil_append, chooseSends]
      simp only at hp
      rcases hr : run .sendNoReset W w cl with ⟨r, c', m⟩
      rw [hr] at h2 hp
      simp only at h2 hp
      subst h2
      cases r with
      | ok => exact absurd rfl hp
      | err => exact ⟨if w.reset ≠ ' ' then [w.reset] else [], by simp [hr]⟩
      | panic => exact ⟨if w.reset ≠ ' ' then [w.reset] else [], by simp [hr]⟩
    | cons q pre ih =>
      obtain ⟨rs, ih⟩ := ih fun q hq => hpre q (List.mem_cons_of_mem _ hq)
      have h1 := hpre _ List.mem_cons_self
      obtain ⟨W, w⟩ := q
      have h2 := noReset_clocks W w cl
      simp only at h1
      simp only [List.cons_append, chooseSends]
      rcases hr : run .sendNoReset W w cl with ⟨r, c', m⟩
      rw [hr] at h1 h2
      simp only at h1 h2
      subst h1 h2
      exact ⟨_, by simp only [ih, List.map_cons, hr]; rfl⟩
  obtain ⟨rs, key⟩ := key
  unfold choose
  rw [key]
  cases hr : (run .sendNoReset p.1 p.2 cl).res with
  | ok => exact absurd hr hp
  | err => rfl
  | panic => rfl

theorem resetAll_ok {now : Nat → Nat} : ∀ {rs : List Char} {k : Nat} {cl : Clocks},
    (∀ r ∈ rs, ∃ c, cl r = some c) →
    (resetAll now rs k cl).1 = .ok ∧
    (∀ x, x ∉ rs → (resetAll now rs k cl).2 x = cl x) ∧
    (∀ x ∈ rs, ∃ j, k ≤ j ∧ (resetAll now rs k cl).2 x = some (now j))
  | [], _, _, _ => ⟨rfl, fun _ _ => rfl, fun _ h => by cases h⟩
  | r :: rs, k, cl, h => by
    obtain ⟨c, hc⟩ := h r List.mem_cons_self
    unfold resetAll
    simp only [hc]
    obtain ⟨h1, h2, h3⟩ := resetAll_ok (now := now) (rs := rs) (k := k + 1)
      (cl := fun x => if x = r then some (now k) else cl x) (by
        intro r' hr'
        by_cases he : r' = r
        · exact ⟨now k, if_pos he⟩
        · obtain ⟨c', hc'⟩ := h r' (List.mem_cons_of_mem _ hr')
          exact ⟨c', by simp only [if_neg he, hc']⟩)
    refine ⟨h1, ?_, ?_⟩
    · intro x hx
      rw [List.mem_cons, not_or] at hx
      rw [h2 x hx.2]
      exact if_neg hx.1
    · intro x hx
      by_cases hr : x ∈ rs
      · obtain ⟨j, hj, hj'⟩ := h3 x hr
        exact ⟨j, by omega, hj'⟩
      · have : x = r := (List.mem_cons.1 hx).resolve_right hr
        exact ⟨k, Nat.le_refl _, by rw [h2 x hr]; exact if_pos this⟩

/-- C41, success.  If every send of the choice succeeds and the clocks to reset exist, then the choice succeeds, each
clock named by a reset parameter of some send is set to an instant read after the last send, and every other
clock is unchanged. -/
theorem C41_choice_resets (steps : List (World × Window)) (now : Nat → Nat) (cl : Clocks)
    (hok : ∀ p ∈ steps, (run .sendNoReset p.1 p.2 cl).res = .ok)
    (hex : ∀ p ∈ steps, p.2.reset ≠ ' ' → ∃ c, cl p.2.reset = some c) :
    (choose steps now cl).1 = .ok ∧
    (choose steps now cl).2.2 = steps.map (fun p => (run .sendNoReset p.1 p.2 cl).moved) ∧
    (∀ p ∈ steps, p.2.reset ≠ ' ' → ∃ k, (choose steps now cl).2.1 p.2.reset = some (now k)) ∧
    (∀ x, (∀ p ∈ steps, p.2.reset ≠ ' ' → p.2.reset ≠ x) → (choose steps now cl).2.1 x = cl x) := by
  have mem : ∀ x, x ∈ resetsOf steps ↔ ∃ p ∈ steps, p.2.reset ≠ ' ' ∧ p.2.reset = x := by
    intro x
    simp only [resetsOf, List.mem_filter, List.mem_map, decide_eq_true_eq]
    constructor
    · rintro ⟨⟨p, h1, h2⟩, h3⟩
      exact ⟨p, h1, by rw [h2]; exact h3, h2⟩
    · rintro ⟨p, h1, h2, h3⟩
      exact ⟨⟨p, h1, h3⟩, by rw [← h3]; exact h2⟩
  obtain ⟨h1, h2, h3⟩ := resetAll_ok (now := now) (rs := resetsOf steps) (k := 0) (cl := cl) (by
    intro r hr
    obtain ⟨p, hp, h1, h2⟩ := (mem r).1 hr
    rw [← h2]; exact hex p hp h1)
  unfold choose
  rw [chooseSends_ok hok]
  refine ⟨h1, rfl, ?_, ?_⟩
  · intro p hp hr
    obtain ⟨j, -, hj⟩ := h3 p.2.reset ((mem _).2 ⟨p, hp, hr, rfl⟩)
    exact ⟨j, hj⟩
  · intro x hx
    refine h2 x fun hm => ?_
    obtain ⟨p, hp, h1, h2⟩ := (mem x).1 hm
    exact hx p hp h1 h2

/-- The hypotheses of `C41_choice_resets` are met by a choice with two sends, one of which resets. -/
example : ∀ p ∈ [(readyWorld 5500000000, (⟨'a', 5, true, 10, false, 'a'⟩ : Window)),
      (readyWorld 5500000000, ⟨'a', -1, false, 10, true, ' '⟩)],
    (run .sendNoReset p.1 p.2 clockA).res = .ok := by
  intro p hp
  simp only [List.mem_cons, List.not_mem_nil, or_false] at hp
  rcases hp with rfl | rfl <;> decide

/-- The hypothesis of `C41_failed_choice` is met: the second send is out of its window. -/
example : (run .sendNoReset (readyWorld 5500000000) ⟨'a', 5, true, 10, false, 'a'⟩ clockA).res = .ok ∧
    (run .sendNoReset (readyWorld 5500000000) ⟨'a', 7, true, 10, false, 'a'⟩ clockA).res ≠ .ok := by
  decide

/-! ## C21 -/

/-- The time windows of the successive steps of a session type (`none`: an untimed step). -/
def windowsOf {P : Type} : STy P → List (Option Window)
  | .send w _ s => w :: windowsOf s
  | .recv w _ s => w :: windowsOf s
  | .fin => []

theorem windowsOf_dual {P : Type} (s : STy P) : windowsOf s.dual = windowsOf s := by
  induction s with
  | send w t s ih => simp only [STy.dual, windowsOf, ih]
  | recv w t s ih => simp only [STy.dual, windowsOf, ih]
  | fin => rfl

open Verif.Heap in
theorem windowsOf_dropK {P : Type} (s : STy P) (n : Nat) : windowsOf (dropK n s) = (windowsOf s).drop n := by
  induction n with
  | zero => rfl
  | succ n ih =>
    have h : ∀ s : STy P, windowsOf (STy.cont s) = (windowsOf s).drop 1 := by
      intro s; cases s <;> rfl
    rw [dropK, h, ih, List.drop_drop]

open Verif.Heap in
/-- C21.  Wherever the two endpoints of a session are, and whatever happened before, the windows of the steps that
both still have to make are the same, one for one: dropping from each side the steps already made by the other
one gives the same list of windows. -/
theorem C21_same_windows {P : Type} [DecidableEq P] {G : Env P} {st : St P} (h : Reach G st) {e1 e2 : Entry P}
    (h1 : Prin G st e1) (h2 : Prin G st e2) (hs : e1.ep.sid = e2.ep.sid) (hb : e1.ep.side = (!e2.ep.side)) :
    (windowsOf e1.ty).drop (pending st.trace e1.ep.sid e1.ep.side).length =
      (windowsOf e2.ty).drop (pending st.trace e2.ep.sid e2.ep.side).length := by
  have := congrArg windowsOf (C06_dual h h1 h2 hs hb)
  rw [windowsOf_dual, windowsOf_dropK, windowsOf_dropK] at this
  exact this

open Verif.Heap in
/-- C21.  When a message sent with a timed send is next to be received, the receiver enforces the very window the
sender enforced: before the send both types start with the same window. -/
theorem C21_step {P : Type} [DecidableEq P] {G : Env P} {st : St P} (h : Reach G st) {e1 e2 : Entry P}
    (h1 : Prin G st e1) (h2 : Prin G st e2) (hs : e1.ep.sid = e2.ep.sid) (hb : e1.ep.side = (!e2.ep.side))
    (p1 : pending st.trace e1.ep.sid e1.ep.side = []) (p2 : pending st.trace e2.ep.sid e2.ep.side = [])
    {w : Option Window} {t : P} {k : STy P} (hty : e1.ty = .send w t k) : e2.ty = .recv w t k.dual := by
  have := (C06_connected h h1 h2 hs hb p1 p2).2
  rw [hty] at this
  cases hk : e2.ty with
  | fin => rw [hk] at this; simp [STy.dual] at this
  | send w' t' s' => rw [hk] at this; simp [STy.dual] at this
  | recv w' t' s' =>
    rw [hk] at this
    simp only [STy.dual, STy.send.injEq] at this
    obtain ⟨rfl, rfl, rfl⟩ := this
    congr
    have : ∀ s : STy P, s = s.dual.dual := by
      intro s
      induction s with
      | send w t s ih => simp only [STy.dual, ← ih]
      | recv w t s ih => simp only [STy.dual, ← ih]
      | fin => rfl
    exact this _

/-- C21.  Both endpoints created by `new()` hold the parameters of their type at run time, whichever side is
created first. -/
theorem C21_new_fields (w : Window) : newSend w = (w, w) ∧ newRecv w = (w, w) := ⟨rfl, rfl⟩

/-- C21.  Both sides print the same constraint; printing fails exactly for unbounded windows. -/
theorem C21_constraint (w : Window) :
    constraintSend w = constraintRecv w ∧ (constraintSend w = none ↔ Unbounded w) := by
  refine ⟨rfl, ?_⟩
  unfold constraintSend Unbounded
  split
  · split
    · split <;> simp <;> omega
    · simp; omega
  · split
    · split <;> simp <;> omega
    · cases w.inclStart <;> cases w.inclStop <;> simp <;> omega

/-- The truth value of a printed constraint for a clock value in seconds. -/
def holds (v : Int) : List Tok → Prop
  | [.clk _, .le, .num b] => v ≤ b
  | [.clk _, .lt, .num b] => v < b
  | [.num a, .le, .clk _] => a ≤ v
  | [.num a, .lt, .clk _] => a < v
  | [.num a, .le, .clk _, .le, .num b] => a ≤ v ∧ v ≤ b
  | [.num a, .le, .clk _, .lt, .num b] => a ≤ v ∧ v < b
  | [.num a, .lt, .clk _, .le, .num b] => a < v ∧ v ≤ b
  | [.num a, .lt, .clk _, .lt, .num b] => a < v ∧ v < b
  | _ => False

/-- C21.  The printed constraint says what the window says, on whole seconds. -/
theorem C21_constraint_means (w : Window) (ts : List Tok) (h : constraintSend w = some ts) (v : Nat) :
    holds v ts ↔ Inside w (v * 1000000000) := by
  unfold constraintSend at h
  unfold Inside AfterStart BeforeStop
  split at h
  · split at h
    · split at h <;> rename_i hi <;> cases h <;> simp only [holds, hi] <;> simp <;> omega
    · cases h
  · split at h
    · split at h <;> rename_i hi <;> cases h <;> simp only [holds, hi] <;> simp <;> omega
    · cases h1 : w.inclStart <;> cases h2 : w.inclStop <;> simp only [h1, h2] at h <;> cases h <;>
        simp only [holds] <;> simp <;> omega

open Verif.Heap in
/-- The hypotheses of `C21_step` are met by a timed session. -/
example : ∃ st, Reach demoEnv st ∧
    Prin demoEnv st ⟨⟨.snd 0, 0, true⟩, .send (some ⟨'a', 1, true, 2, false, ' '⟩) 0 .fin⟩ ∧
    Prin demoEnv st ⟨⟨.rcv 0, 0, false⟩, .recv (some ⟨'a', 1, true, 2, false, ' '⟩) 0 .fin⟩ ∧
    pending st.trace 0 true = [] ∧ pending st.trace 0 false = [] :=
  ⟨_, runOps_reach (ops := [.new (.send (some ⟨'a', 1, true, 2, false, ' '⟩) 0 .fin)]) rfl,
    Or.inl (by simp [alloc, init]), Or.inl (by simp [alloc, init, STy.dual]), rfl, rfl⟩

end Verif.Prop
