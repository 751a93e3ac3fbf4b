import Verif.Spec.Clocks

/-! # Lemmas on the timed operations -/
namespace Verif.Timed
open Verif.Types Verif.Spec

theorem World.step (W : World) (k : Nat) : W.now k ≤ W.now (k + 1) := Nat.le_trans (W.now_le k) (W.start_le k)

theorem World.mono (W : World) {j k : Nat} (h : j ≤ k) : W.now j ≤ W.now k := by
  induction h with
  | refl => exact Nat.le_refl _
  | step _ ih => exact Nat.le_trans ih (W.step _)

theorem toU64_some {x : Int} {n : Nat} (h : toU64 x = some n) : x = (n : Int) := by
  unfold toU64 at h
  split at h
  · cases h; omega
  · cases h

/-- The call did nothing. -/
def Quiet (o : Out) (cl : Clocks) : Prop := o.moved = none ∧ o.res ≠ .ok ∧ o.clocks = cl

/-- What a call that transferred a message did to the clocks. -/
def Effect (fn : Fn) (W : World) (reset : Char) (cl : Clocks) (k : Nat) (o : Out) : Prop :=
  (o.res = .ok ∧ o.clocks = cl) ∨
  (fn ≠ .sendNoReset ∧ reset ≠ ' ' ∧ cl reset = none ∧ o.res = .panic ∧ o.clocks = cl) ∨
  (fn ≠ .sendNoReset ∧ reset ≠ ' ' ∧ (∃ c, cl reset = some c) ∧ o.res = .ok ∧
    o.clocks = fun x => if x = reset then some (W.now (k + 1)) else cl x)

theorem finish_cases {fn : Fn} {W : World} {reset : Char} {cl : Clocks} {b : Bool} {k : Nat} {r : Option Nat}
    (hb : b = true → fn ≠ .sendNoReset ∧ reset ≠ ' ') :
    Quiet (finish fn W reset cl b (k + 1) r) cl ∨
    ∃ t, r = some t ∧ (finish fn W reset cl b (k + 1) r).moved = some t ∧
      Effect fn W reset cl k (finish fn W reset cl b (k + 1) r) := by
  cases r with
  | none =>
    refine Or.inl ⟨rfl, ?_, rfl⟩
    simp only [finish]; split <;> simp
  | some t =>
    refine Or.inr ⟨t, rfl, ?_⟩
    cases b with
    | false => exact ⟨rfl, Or.inl ⟨rfl, rfl⟩⟩
    | true =>
      obtain ⟨h1, h2⟩ := hb rfl
      cases hc : cl reset with
      | none =>
        simp only [finish, hc, if_true]
        exact ⟨trivial, Or.inr (Or.inl ⟨h1, h2, hc, rfl, rfl⟩)⟩
      | some c =>
        simp only [finish, hc, if_true]
        exact ⟨trivial, Or.inr (Or.inr ⟨h1, h2, ⟨c, hc⟩, rfl, rfl⟩)⟩

/-- What is known of a transfer entered after reading `k` with clock `c` and upper bound `e`. -/
def Timely (W : World) (c k : Nat) (e : Option Int) (t : Nat) : Prop :=
  W.start k ≤ t ∧ t ≤ W.now (k + 1) ∧
    ∀ x, e = some x → (W.now k - c : Nat) ≤ x * 1000000000 ∧
      (t : Int) ≤ W.start k + (x * 1000000000 - (W.now k - c : Nat))

theorem transfer_cases {fn : Fn} {W : World} {reset : Char} {cl : Clocks} {c : Nat} {b : Bool} {k : Nat}
    {e : Option Int} (hb : b = true → fn ≠ .sendNoReset ∧ reset ≠ ' ') :
    Quiet (transfer fn W reset cl c b k e) cl ∨
    ∃ t, (transfer fn W reset cl c b k e).moved = some t ∧ Timely W c k e t ∧
      Effect fn W reset cl k (transfer fn W reset cl c b k e) := by
  cases e with
  | none =>
    simp only [transfer]
    rcases finish_cases (W := W) (cl := cl) (k := k) (r := W.xfer k none) hb with h | ⟨t, h1, h2, h3⟩
    · exact Or.inl h
    · refine Or.inr ⟨t, h2, ⟨(W.xfer_le _ _ _ h1).1, (W.xfer_le _ _ _ h1).2, ?_⟩, h3⟩
      intro x hx; cases hx
  | some e =>
    simp only [transfer]
    split
    · exact Or.inl ⟨rfl, by simp, rfl⟩
    · rename_i n hn
      split
      · exact Or.inl ⟨rfl, by simp, rfl⟩
      · rename_i hlt
        rcases finish_cases (W := W) (cl := cl) (k := k)
          (r := W.xfer k (some (n * nsec - elapsed W c k))) hb with h | ⟨t, h1, h2, h3⟩
        · exact Or.inl h
        · refine Or.inr ⟨t, h2, ⟨(W.xfer_le _ _ _ h1).1, (W.xfer_le _ _ _ h1).2, ?_⟩, h3⟩
          intro x hx
          cases hx
          have hto := W.xfer_timeout _ _ _ h1
          have he := toU64_some hn
          simp only [elapsed, nsec] at hlt hto
          subst he
          constructor <;> omega

theorem guarded_cases {fn : Fn} {W : World} {reset : Char} {cl : Clocks} {c : Nat} {cond : Nat → Check}
    {e : Option Int} :
    Quiet (guarded fn W reset cl c cond e) cl ∨
    ∃ t j k, cond j = .pass k ∧ (guarded fn W reset cl c cond e).moved = some t ∧ Timely W c k e t ∧
      Effect fn W reset cl k (guarded fn W reset cl c cond e) := by
  have plain : ∀ j, Quiet (match cond j with
      | .bad => ⟨.err, cl, none⟩
      | .fail _ => ⟨.panic, cl, none⟩
      | .pass k' => transfer fn W reset cl c false k' e : Out) cl ∨
      ∃ t j' k, cond j' = .pass k ∧ (match cond j with
      | .bad => ⟨.err, cl, none⟩
      | .fail _ => ⟨.panic, cl, none⟩
      | .pass k' => transfer fn W reset cl c false k' e : Out).moved = some t ∧ Timely W c k e t ∧
      Effect fn W reset cl k (match cond j with
      | .bad => ⟨.err, cl, none⟩
      | .fail _ => ⟨.panic, cl, none⟩
      | .pass k' => transfer fn W reset cl c false k' e : Out) := by
    intro j
    cases hj : cond j with
    | bad => exact Or.inl ⟨rfl, by simp, rfl⟩
    | fail k => exact Or.inl ⟨rfl, by simp, rfl⟩
    | pass k =>
      rcases transfer_cases (fn := fn) (W := W) (reset := reset) (cl := cl) (c := c) (b := false) (k := k)
        (e := e) (by simp) with h | ⟨t, h1, h2, h3⟩
      · exact Or.inl h
      · exact Or.inr ⟨t, j, k, hj, h1, h2, h3⟩
  unfold guarded
  simp only
  split
  · exact plain 0
  · rename_i hfn
    cases h0 : cond 0 with
    | bad => exact Or.inl ⟨rfl, by simp, rfl⟩
    | fail k => exact plain k
    | pass k =>
      simp only
      split
      · rename_i hr
        rcases transfer_cases (fn := fn) (W := W) (reset := reset) (cl := cl) (c := c) (b := true) (k := k)
          (e := e) (fun _ => ⟨hfn, hr⟩) with h | ⟨t, h1, h2, h3⟩
        · exact Or.inl h
        · exact Or.inr ⟨t, 0, k, h0, h1, h2, h3⟩
      · exact plain k

theorem fromIncl_pass {W : World} {c : Nat} {b : Int} {j k : Nat} (h : fromIncl W c b j = .pass k) :
    k = j + 1 ∧ b * 1000000000 ≤ (W.now j - c : Nat) := by
  unfold fromIncl at h
  split at h
  · cases h
  · rename_i n hn
    have := toU64_some hn
    split at h
    · rename_i hcmp
      simp only [secs, elapsed, nsec] at hcmp
      cases h; subst this; omega
    · cases h

theorem fromExcl_pass {W : World} {c : Nat} {b : Int} {j k : Nat} (h : fromExcl W c b j = .pass k) :
    k = j + 1 ∧ b * 1000000000 + 1000000000 ≤ (W.now j - c : Nat) := by
  unfold fromExcl at h
  split at h
  · cases h
  · rename_i n hn
    have := toU64_some hn
    split at h
    · rename_i hcmp
      simp only [secs, elapsed, nsec] at hcmp
      cases h; subst this; omega
    · cases h

theorem toIncl_pass {W : World} {c : Nat} {b : Int} {j k : Nat} (h : toIncl W c b j = .pass k) :
    k = j + 1 ∧ (W.now j - c : Nat) < b * 1000000000 + 1000000000 := by
  unfold toIncl at h
  split at h
  · cases h
  · rename_i n hn
    have := toU64_some hn
    split at h
    · rename_i hcmp
      simp only [secs, elapsed, nsec] at hcmp
      cases h; subst this; omega
    · cases h

theorem toExcl_pass {W : World} {c : Nat} {b : Int} {j k : Nat} (h : toExcl W c b j = .pass k) :
    k = j + 1 ∧ (W.now j - c : Nat) < b * 1000000000 := by
  unfold toExcl at h
  split at h
  · cases h
  · rename_i n hn
    have := toU64_some hn
    split at h
    · rename_i hcmp
      simp only [secs, elapsed, nsec] at hcmp
      cases h; subst this; omega
    · cases h

theorem both_pass {f g : Nat → Check} {j k : Nat} (h : both f g j = .pass k) :
    ∃ i, f j = .pass i ∧ g i = .pass k := by
  unfold both at h
  split at h
  · rename_i i hi; exact ⟨i, hi, h⟩
  · cases h
  · cases h

/-- What is known after a successful call that had some bound. -/
def Windowed (W : World) (w : Window) (c t : Nat) : Prop :=
  ∃ j k, j < k ∧ W.start k ≤ t ∧ t ≤ W.now (k + 1) ∧ Inside w (W.now j - c) ∧
    (0 ≤ w.stop → (W.now k - c : Nat) ≤ w.stop * 1000000000 ∧
      (t : Int) ≤ W.start k + (w.stop * 1000000000 - (W.now k - c : Nat)))

/-- The shape of every call: it did nothing, it used an unbounded window, or it checked the window. -/
theorem run_cases (fn : Fn) (W : World) (w : Window) (cl : Clocks) :
    Quiet (run fn W w cl) cl ∨
    (∃ t, (run fn W w cl).moved = some t ∧ Unbounded w ∧ (run fn W w cl).res = .ok ∧
      (run fn W w cl).clocks = cl) ∨
    (∃ t c k, (run fn W w cl).moved = some t ∧ ¬ Unbounded w ∧ cl w.clock = some c ∧ Windowed W w c t ∧
      W.start k ≤ t ∧ t ≤ W.now (k + 1) ∧ Effect fn W w.reset cl k (run fn W w cl)) := by
  have quiet : ∀ r, r ≠ Res.ok → Quiet (⟨r, cl, none⟩ : Out) cl := fun r hr => ⟨rfl, hr, rfl⟩
  have fin : ∀ (c : Nat) (cond : Nat → Check) (e : Option Int), ¬ Unbounded w → cl w.clock = some c →
      (e = none → w.stop < 0) → (∀ x, e = some x → x = w.stop) →
      (∀ j k, cond j = .pass k → ∀ m, (∀ x, e = some x → (W.now k - c : Nat) ≤ x * 1000000000) →
        m = k → ∃ i, i < k ∧ Inside w (W.now i - c)) →
      Quiet (guarded fn W w.reset cl c cond e) cl ∨
      (∃ t, (guarded fn W w.reset cl c cond e).moved = some t ∧ Unbounded w ∧
        (guarded fn W w.reset cl c cond e).res = .ok ∧ (guarded fn W w.reset cl c cond e).clocks = cl) ∨
      (∃ t c' k, (guarded fn W w.reset cl c cond e).moved = some t ∧ ¬ Unbounded w ∧ cl w.clock = some c' ∧
        Windowed W w c' t ∧ W.start k ≤ t ∧ t ≤ W.now (k + 1) ∧
        Effect fn W w.reset cl k (guarded fn W w.reset cl c cond e)) := by
    intro c cond e hu hc he1 he2 hin
    rcases guarded_cases (fn := fn) (W := W) (reset := w.reset) (cl := cl) (c := c) (cond := cond) (e := e)
      with h | ⟨t, j, k, h1, h2, ⟨h3, h4, h5⟩, h6⟩
    · exact Or.inl h
    · refine Or.inr (Or.inr ⟨t, c, k, h2, hu, hc, ?_, h3, h4, h6⟩)
      obtain ⟨i, hi, hi'⟩ := hin j k h1 k (fun x hx => (h5 x hx).1) rfl
      refine ⟨i, k, hi, h3, h4, hi', ?_⟩
      intro hs
      cases e with
      | none => have := he1 rfl; omega
      | some x =>
        have := he2 x rfl
        subst this
        exact h5 _ rfl
  unfold run
  split
  · exact Or.inl (quiet _ (by simp))
  split
  · rename_i hs
    split
    · rename_i he
      have hu : ¬ Unbounded w := fun h => by have := h.2; omega
      split
      · rename_i hie
        cases hc : cl w.clock with
        | none => exact Or.inl (quiet _ (by simp))
        | some c =>
          have := fin c (toIncl W c w.stop) (some w.stop) hu hc (by simp) (by simp) ?_
          · rw [hc] at this; exact this
          · intro j k hp m hk _
            obtain ⟨h1, _⟩ := toIncl_pass hp
            refine ⟨j, by omega, fun h => by omega, fun _ => ?_⟩
            rw [if_pos hie]
            have := hk _ rfl
            have := W.mono (show j ≤ k by omega)
            omega
      · rename_i hie
        cases hc : cl w.clock with
        | none => exact Or.inl (quiet _ (by simp))
        | some c =>
          have := fin c (toExcl W c w.stop) (some w.stop) hu hc (by simp) (by simp) ?_
          · rw [hc] at this; exact this
          · intro j k hp m hk _
            obtain ⟨h1, h2⟩ := toExcl_pass hp
            refine ⟨j, by omega, fun h => by omega, fun _ => ?_⟩
            rw [if_neg hie]
            exact h2
    · split
      · cases hx : W.xfer 0 none with
        | none => exact Or.inl (quiet _ (by simp))
        | some t => exact Or.inr (Or.inl ⟨t, rfl, ⟨hs, by omega⟩, rfl, rfl⟩)
      · exact Or.inl (quiet _ (by simp))
  · rename_i hs
    have hu : ¬ Unbounded w := fun h => by have := h.1; omega
    split
    · rename_i he
      split
      · rename_i hie
        cases hc : cl w.clock with
        | none => exact Or.inl (quiet _ (by simp))
        | some c =>
          have := fin c (fromIncl W c w.start) none hu hc (fun _ => he) (by simp) ?_
          · rw [hc] at this; exact this
          · intro j k hp m hk _
            obtain ⟨h1, h2⟩ := fromIncl_pass hp
            refine ⟨j, by omega, fun h => ?_, fun _ => by omega⟩
            rw [if_pos hie]; exact h2
      · rename_i hie
        cases hc : cl w.clock with
        | none => exact Or.inl (quiet _ (by simp))
        | some c =>
          have := fin c (fromExcl W c w.start) none hu hc (fun _ => he) (by simp) ?_
          · rw [hc] at this; exact this
          · intro j k hp m hk _
            obtain ⟨h1, h2⟩ := fromExcl_pass hp
            refine ⟨j, by omega, fun h => ?_, fun _ => by omega⟩
            rw [if_neg hie]; omega
    · split
      · exact Or.inl (quiet _ (by simp))
      · cases hc : cl w.clock with
        | none => exact Or.inl (quiet _ (by simp))
        | some c =>
          have fin' := fun cond => fin c cond (some w.stop) hu hc (by simp) (by simp)
          simp only [hc] at fin'
          cases hi1 : w.inclStart <;> cases hi2 : w.inclStop <;> simp only <;> refine fin' _ ?_ <;>
            intro j k hp m hk _ <;> obtain ⟨i, hp1, hp2⟩ := both_pass hp <;>
            have hk := hk _ rfl <;> refine ⟨i, ?_, ?_⟩
          all_goals
            first
              | have a := fromIncl_pass hp1
              | have a := fromExcl_pass hp1
          all_goals
            first
              | have b := toIncl_pass hp2
              | have b := toExcl_pass hp2
          all_goals
            have := W.mono (show j ≤ i by omega)
            have := W.mono (show i ≤ k by omega)
          all_goals
            first
              | omega
              | (refine ⟨fun _ => ?_, fun _ => ?_⟩ <;> simp only [hi1, hi2, if_true, Bool.false_eq_true, if_false] <;> omega)

end Verif.Timed
