import Verif.Spec.NuscrSchedule
import Mathlib.Order.Basic
import Mathlib.Data.Nat.Init
import Verif.Prop.C28_C30

/-! # The schedule of an accepted protocol on one clock: everything as late as possible -/
namespace Verif.NuscrSpec
open Verif.Nuscr Verif.Types Verif.Timed Verif.TimedRun Verif.Spec Verif.Prop

/-- The last whole second of the window. -/
def lastIn (m : Msg) : Nat := value m.rightBound - (if m.rightBracket = .closing then 0 else 1)

theorem wide_last {d : Nat} {m : Msg} (h : Wide d m) :
    Fits m (lastIn m) ∧ (if m.leftBracket = .opening then value m.leftBound else value m.leftBound + 1) * 1000000000 + d ≤
      lastIn m * 1000000000 := by
  obtain ⟨t, t', ⟨h1, h2⟩, ⟨h3, h4⟩, h5⟩ := h
  unfold Fits lastIn
  split at h1 <;> split at h2 <;> simp only [*, if_true, if_false, reduceCtorEq] at h3 h4 ⊢ <;>
    refine ⟨⟨?_, ?_⟩, ?_⟩ <;> omega

theorem fits_le {m : Msg} {t : Int} (h : Fits m t) : t ≤ lastIn m := by
  obtain ⟨h1, h2⟩ := h
  unfold lastIn
  split at h1 <;> split at h2 <;> simp only [*, if_true, if_false, reduceCtorEq] at h1 h2 ⊢ <;> omega

/-- The instant at which, following the schedule, `p` has set its clock before message `i`, and at which message number `i`
is exchanged. -/
def base (msgs : List Msg) (d : Nat) : Nat → Text → Nat
  | 0, _ => d
  | i + 1, p =>
    match msgs[i]? with
    | some m =>
      if (m.sender = p ∨ m.receiver = p) ∧ m.reset ≠ none then base msgs d i m.sender + lastIn m * 1000000000 - d
      else base msgs d i p
    | none => base msgs d i p

def due (msgs : List Msg) (d i : Nat) : Nat :=
  match msgs[i]? with
  | some m => base msgs d i m.sender + lastIn m * 1000000000 - d
  | none => 2 * d

theorem due_some {msgs : List Msg} {d i : Nat} {m : Msg} (h : msgs[i]? = some m) :
    due msgs d i = base msgs d i m.sender + lastIn m * 1000000000 - d := by
  unfold due; rw [h]

theorem base_reset (msgs : List Msg) (d : Nat) (p : Text) : ∀ i,
    base msgs d i p = match lastReset msgs p i with
      | none => d
      | some j => due msgs d j
  | 0 => rfl
  | i + 1 => by
    have ih := base_reset msgs d p i
    unfold base lastReset
    cases h : msgs[i]? with
    | none => exact ih
    | some m =>
      simp only
      split
      · simp only [due_some h]
      · exact ih

section
variable {title : Text → Text} {name : Text} {roles : List Text} {msgs : List Msg} {x : Char} {d : Nat}
variable (ha : Prop.Accepted title name roles msgs) (hx : OneClock x msgs) (ht : Together msgs)
  (hw : ∀ m ∈ msgs, Wide (2 * d) m)
include ha hx ht hw

omit ha hx ht in
theorem base_ge (p : Text) : ∀ i, d ≤ base msgs d i p
  | 0 => Nat.le_refl _
  | i + 1 => by
    unfold base
    split
    · rename_i m hm
      have := (wide_last (hw m (List.mem_of_getElem? hm))).2
      have := base_ge m.sender i
      split
      · omega
      · exact base_ge p i
    · exact base_ge p i

omit ha hx hw in
/-- The clocks of the two roles were set at one instant. -/
theorem base_both {i : Nat} {m : Msg} (hm : msgs[i]? = some m) :
    base msgs d i m.receiver = base msgs d i m.sender := by
  rw [base_reset, base_reset, ht i m hm]

omit ht in
/-- Without a reset in between, the windows of a role end later and later. -/
theorem last_mono (p : Text) : ∀ (j i : Nat) (m m' : Msg), i < j → msgs[i]? = some m → msgs[j]? = some m' →
    Involved p m → Involved p m' →
    (∀ k a, i ≤ k → k < j → msgs[k]? = some a → Involved p a → a.reset = none) → lastIn m ≤ lastIn m' := by
  intro j
  induction j using Nat.strongRecOn with
  | _ j ih =>
    intro i m m' hij hm hm' hi hi' hno
    -- the message of `p` just before
    obtain ⟨k, a, hik, hkj, hka, hpa, hmid⟩ : ∃ k a, i ≤ k ∧ k < j ∧ msgs[k]? = some a ∧ Involved p a ∧
        ∀ l b, k < l → l < j → msgs[l]? = some b → ¬ Involved p b := by
      clear ih hm'
      induction j, hij using Nat.le_induction with
      | base => exact ⟨i, m, Nat.le_refl _, Nat.lt_succ_self _, hm, hi, fun l b h1 h2 => by omega⟩
      | succ n hn ihn =>
        obtain ⟨k, a, h1, h2, h3, h4, h5⟩ := ihn fun k a q1 q2 => hno k a q1 (by omega)
        by_cases hb : ∃ b, msgs[n]? = some b ∧ Involved p b
        · obtain ⟨b, hb, hpb⟩ := hb
          exact ⟨n, b, by omega, Nat.lt_succ_self _, hb, hpb, fun l b h1 h2 => by omega⟩
        · refine ⟨k, a, h1, by omega, h3, h4, ?_⟩
          intro l b q1 q2 q3 q4
          by_cases hl : l = n
          · subst hl; exact hb ⟨b, q3, q4⟩
          · exact h5 l b q1 (by omega) q3 q4
    have hle : lastIn m ≤ lastIn a := by
      by_cases hk : k = i
      · subst hk; rw [hm] at hka; cases hka; exact Nat.le_refl _
      · exact ih k hkj i m a (by omega) hm hka hi hpa fun l b q1 q2 => hno l b q1 (by omega)
    have hma := List.mem_of_getElem? hka
    have hmm := List.mem_of_getElem? hm'
    have hcons : Consecutive msgs p [x] a m' := by
      obtain ⟨hk, hka'⟩ := List.getElem?_eq_some_iff.1 hka
      obtain ⟨hj, hm''⟩ := List.getElem?_eq_some_iff.1 hm'
      refine ⟨msgs.take k, (msgs.drop (k + 1)).take (j - (k + 1)), msgs.drop (j + 1), ?_, hpa, (hx.2 a hma).1, hi',
        (hx.2 m' hmm).1, ?_⟩
      · have e1 : msgs = msgs.take k ++ a :: msgs.drop (k + 1) := by
          rw [← hka', ← List.drop_eq_getElem_cons hk, List.take_append_drop]
        have e2 : msgs.drop (k + 1) = (msgs.drop (k + 1)).take (j - (k + 1)) ++ m' :: msgs.drop (j + 1) := by
          have e3 : msgs.drop j = m' :: msgs.drop (j + 1) := by rw [← hm'', ← List.drop_eq_getElem_cons hj]
          have e4 : (msgs.drop (k + 1)).drop (j - (k + 1)) = msgs.drop j := by
            rw [List.drop_drop]; congr 1; omega
          rw [← e3, ← e4, List.take_append_drop]
        rw [List.append_assoc, List.cons_append, ← e2]
        exact e1
      · intro b hb ⟨hpb, _⟩
        obtain ⟨l, hl⟩ := List.mem_iff_getElem?.1 hb
        rw [List.getElem?_take] at hl
        split at hl
        · rw [List.getElem?_drop] at hl
          exact hmid (k + 1 + l) b (by omega) (by omega) hl hpb
        · cases hl
    have hfol := C43_feasible title name roles msgs ha p [x] a m' hcons (by simpa using hx.1)
      (by rw [hno k a hik hkj hka hpa]; simp) ⟨_, (wide_last (hw m' hmm)).1⟩
    obtain ⟨t', h1, h2⟩ := hfol _ (wide_last (hw a hma)).1
    have := fits_le h2
    omega

/-- The messages of a role are exchanged in order, as the clock was set after the first of them or not at all since. -/
theorem due_mono (p : Text) {j i : Nat} {m m' : Msg} (hij : i < j) (hm : msgs[i]? = some m) (hm' : msgs[j]? = some m')
    (hi : Involved p m) (hi' : Involved p m') : due msgs d i ≤ due msgs d j := by
  have own : ∀ {k a}, msgs[k]? = some a → Involved p a → due msgs d k = base msgs d k p + lastIn a * 1000000000 - d := by
    intro k a hk hpa
    rw [due_some hk]
    rcases hpa with h | h
    · rw [h]
    · rw [← base_both ht hk, h]
  have main : ∀ {j i m m'}, i < j → msgs[i]? = some m → msgs[j]? = some m' → Involved p m → Involved p m' →
      ((due msgs d i ≤ base msgs d j p) ∨
        (base msgs d j p = base msgs d i p ∧
          ∀ k a, i ≤ k → k < j → msgs[k]? = some a → Involved p a → a.reset = none)) →
      due msgs d i ≤ due msgs d j := by
    intro j i m m' hij hm hm' hi hi' h
    have := (wide_last (hw m' (List.mem_of_getElem? hm'))).2
    have := base_ge (d := d) hw p j
    rw [own hm' hi']
    rcases h with h | ⟨h, hno⟩
    · omega
    · have := last_mono ha hx hw p j i m m' hij hm hm' hi hi' hno
      rw [own hm hi]
      omega
  have key : ∀ j i m, i < j → msgs[i]? = some m → Involved p m →
      (due msgs d i ≤ base msgs d j p) ∨
        (base msgs d j p = base msgs d i p ∧
          ∀ k a, i ≤ k → k < j → msgs[k]? = some a → Involved p a → a.reset = none) := by
    intro j
    induction j with
    | zero => intro i m h; omega
    | succ n ih =>
      intro i m hij hm hi
      by_cases hr : ∃ a, msgs[n]? = some a ∧ Involved p a ∧ a.reset ≠ none
      · obtain ⟨a, hna, hpa, hra⟩ := hr
        have e : base msgs d (n + 1) p = due msgs d n := by
          rw [due_some hna]
          simp only [base, hna]
          rw [if_pos ⟨hpa, hra⟩]
        left
        rw [e]
        by_cases h : i = n
        · subst h; exact Nat.le_refl _
        · exact main (by omega) hm hna hi hpa (ih i m (by omega) hm hi)
      · have e : base msgs d (n + 1) p = base msgs d n p := by
          simp only [base]
          split
          · rename_i a hna
            rw [if_neg fun h => hr ⟨a, hna, h.1, h.2⟩]
          · rfl
        have hn : ∀ a, msgs[n]? = some a → Involved p a → a.reset = none := by
          intro a h1 h2
          cases h3 : a.reset with
          | none => rfl
          | some y => exact absurd ⟨a, h1, h2, by simp [h3]⟩ hr
        rw [e]
        by_cases h : i = n
        · subst h
          refine Or.inr ⟨rfl, fun k a q1 q2 => ?_⟩
          obtain rfl : k = i := by omega
          exact hn a
        · refine (ih i m (by omega) hm hi).imp id fun ⟨h1, h2⟩ => ⟨h1, fun k a q1 q2 => ?_⟩
          by_cases hk : k = n
          · subst hk; exact hn a
          · exact h2 k a q1 (by omega)
  exact main hij hm hm' hi hi' (key j i m hij hm hi)

end

/-- Everything as late as possible. -/
def latest (msgs : List Msg) (d : Nat) : Schedule where
  slot _ i := (due msgs d i - d, due msgs d i)
  origin _ _ := (0, d)

theorem early_enough {x y d b v : Nat} (h : x + 2 * d ≤ y) (hb : d ≤ b) (h1 : b + y - d - d - b ≤ v) : x ≤ v := by
  omega

theorem mem_steps {title : Text → Text} {roles : List Text} {msgs : List Msg} {i p q : Nat} {w : Window}
    (h : (p, q, w) ∈ messages (steps title roles msgs i)) :
    ∃ m, msgs[i]? = some m ∧ p = roles.idxOf m.sender ∧ q = roles.idxOf m.receiver ∧
      w = Params.window (written title m) := by
  unfold steps at h
  cases hm : msgs[i]? with
  | none => rw [hm] at h; simp [messages] at h
  | some m =>
    rw [hm] at h
    simp only [messages, List.mem_singleton, Prod.mk.injEq] at h
    exact ⟨m, rfl, h.1, h.2.1, h.2.2⟩

theorem idx_inj {roles : List Text} {a b : Text} (ha : a ∈ roles) (h : roles.idxOf a = roles.idxOf b) : a = b :=
  (List.idxOf_inj ha).1 h

section
variable {title : Text → Text} {roles : List Text} {msgs : List Msg} {x : Char} {d : Nat}
variable (hv : ∀ m ∈ msgs, Valid roles m) (hx : OneClock x msgs) (ht : Together msgs)

include hv hx in
theorem resets_steps {i : Nat} {p : Text} :
    resets (steps title roles msgs i) (roles.idxOf p) x = true ↔
      ∃ m, msgs[i]? = some m ∧ (m.sender = p ∨ m.receiver = p) ∧ m.reset ≠ none := by
  unfold resets steps
  cases hm : msgs[i]? with
  | none => simp [messages]
  | some m =>
    have hvm := hv m (List.mem_of_getElem? hm)
    have hxm := hx.2 m (List.mem_of_getElem? hm)
    have e1 : (roles.idxOf m.sender = roles.idxOf p) ↔ m.sender = p := ⟨idx_inj hvm.1, fun h => by rw [h]⟩
    have e2 : (roles.idxOf m.receiver = roles.idxOf p) ↔ m.receiver = p := ⟨idx_inj hvm.2.1, fun h => by rw [h]⟩
    have e3 : ((Params.window (written title m)).reset = x) ↔ m.reset ≠ none := by
      rcases hxm.2 with h | h <;>
        simp [Params.window, written, h]
      exact fun e => hx.1 e.symm
    simp only [messages, List.any_cons, List.any_nil, Bool.or_false, Bool.and_eq_true, bne_iff_ne, ne_eq, Bool.or_eq_true,
      beq_iff_eq, e1, e2, e3, hx.1, not_false_eq_true, true_and, Option.some.injEq, exists_eq_left']

include hv hx in
theorem since_latest (p : Text) : ∀ i,
    (latest msgs d).since (steps title roles msgs) (roles.idxOf p) x i = (base msgs d i p - d, base msgs d i p)
  | 0 => by simp [Schedule.since, latest, base]
  | i + 1 => by
    have ih := since_latest p i
    simp only [Schedule.since]
    by_cases h : ∃ m, msgs[i]? = some m ∧ (m.sender = p ∨ m.receiver = p) ∧ m.reset ≠ none
    · rw [if_pos ((resets_steps hv hx).2 h)]
      obtain ⟨m, hm, h1⟩ := h
      simp only [latest, base, hm, if_pos h1, due_some hm]
    · rw [if_neg fun e => h ((resets_steps hv hx).1 e), ih]
      have : base msgs d (i + 1) p = base msgs d i p := by
        simp only [base]
        split
        · rename_i m hm
          rw [if_neg fun h' => h ⟨m, hm, h'⟩]
        · rfl
      rw [this]

include hv hx ht in
theorem latest_fits (hw : ∀ m ∈ msgs, Wide (2 * d) m) (hs : ∀ m ∈ msgs, value m.rightBound < 18446744073709551616)
    (cl0 : Nat → Clocks) (hc : ∀ r ∈ roles, ∃ c, cl0 (roles.idxOf r) x = some c) :
    FitsSchedule (latest msgs d) (steps title roles msgs) cl0 msgs.length := by
  intro i _
  refine ⟨⟨?_, ?_⟩, ?_⟩
  · intro p q w h
    obtain ⟨m, hm, rfl, rfl, -⟩ := mem_steps h
    have hvm := hv m (List.mem_of_getElem? hm)
    exact fun e => hvm.2.2 (idx_inj hvm.1 e)
  · unfold steps
    split <;> simp [messages]
  · intro p q w h
    obtain ⟨m, hm, rfl, rfl, rfl⟩ := mem_steps h
    have hmem := List.mem_of_getElem? hm
    have hvm := hv m hmem
    have hxm := hx.2 m hmem
    obtain ⟨hf, hroom⟩ := wide_last (hw m hmem)
    have hsm := hs m hmem
    have hle : value m.leftBound ≤ value m.rightBound := by
      obtain ⟨h1, h2⟩ := hf
      split at h1 <;> split at h2 <;> omega
    have hclock : (Params.window (written title m)).clock = x := by
      simp [Params.window, written, hxm.1]
    have part : ∀ r, Involved r m → r ∈ roles →
        Spec.Fits (latest msgs d) (steps title roles msgs) cl0 (roles.idxOf r) i (Params.window (written title m)) := by
      intro r hr hrm
      have hb : base msgs d i r = base msgs d i m.sender := by
        rcases hr with h | h
        · rw [h]
        · rw [← h, base_both ht hm]
      have hge := base_ge (d := d) hw r i
      have hdue := due_some (d := d) hm
      rw [← hb] at hdue
      have hup : lastIn m * 1000000000 ≤ value m.rightBound * 1000000000 :=
        Nat.mul_le_mul_right _ (Nat.sub_le _ _)
      have hsince := since_latest (title := title) (d := d) hv hx r i
      refine ⟨?_, ?_, ?_, ?_⟩
      · rw [hclock, hsince]
        simp only [latest]
        omega
      · rw [hclock, hsince]
        intro v h1 h2
        simp only [latest] at h1 h2
        rw [hdue] at h1 h2
        have v1 := early_enough hroom hge h1
        have v2 : v ≤ lastIn m * 1000000000 := by omega
        refine ⟨⟨?_, ?_⟩, ?_⟩
        · intro _
          simp only [Params.window, written, decide_eq_true_eq]
          split <;> rename_i h
          · rw [if_pos h] at v1; omega
          · rw [if_neg h] at v1; omega
        · intro _
          obtain ⟨-, h3⟩ := hf
          simp only [Params.window, written, decide_eq_true_eq]
          split <;> rename_i h
          · omega
          · rw [if_neg h] at h3; omega
        · intro _ h
          simp only [Params.window, written, decide_eq_false_iff_not] at h ⊢
          rw [if_neg h] at v1
          omega
      · right
        rw [hclock]
        exact hc r hrm
      · rcases hxm.2 with h | h
        · left; simp [Params.window, written, h]
        · right
          have : (Params.window (written title m)).reset = x := by
            simp [Params.window, written, h]
          rw [this]
          exact hc r hrm
    refine ⟨Or.inr ⟨?_, ?_, ?_⟩, Nat.le_refl _, part _ (Or.inl rfl) hvm.1, part _ (Or.inr rfl) hvm.2.1⟩ <;>
      simp only [Params.window, written] <;> omega

end

end Verif.NuscrSpec
