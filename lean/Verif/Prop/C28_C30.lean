import Mathlib.Data.List.Induction
import Verif.Prop.C29
import Verif.Prop.C36

/-!
# C28: windows of timed messages.  C30, C43: consecutive windows on one clock
-/
namespace Verif.Prop
open Verif.Nuscr Verif.NuscrSpec

/-! The order of texts and the order of numbers. -/

/-- All characters are ASCII digits. -/
def Digits (t : Text) : Prop := ∀ c ∈ t, 48 ≤ c.toNat ∧ c.toNat ≤ 57

/-- The number of a numeral filled up with zeros on the right to `k` digits. -/
def scaled (k : Nat) (t : Text) : Nat := value t * 10 ^ (k - t.length)

theorem scaled_cons (k : Nat) (c : Char) (cs : Text) (h : cs.length ≤ k) :
    scaled (k + 1) (c :: cs) = (c.toNat - 48) * 10 ^ k + scaled k cs := by
  unfold scaled
  simp only [value, List.length_cons]
  rw [show k + 1 - (cs.length + 1) = k - cs.length by omega, Nat.add_mul, Nat.mul_assoc, ← Nat.pow_add,
    show cs.length + (k - cs.length) = k by omega]

theorem scaled_lt : ∀ (t : Text) (k : Nat), Digits t → t.length ≤ k → scaled k t < 10 ^ k
  | [], k, _, _ => by simp [scaled, value, Nat.pow_pos]
  | c :: cs, 0, _, h => by simp at h
  | c :: cs, k + 1, hd, h => by
    have hl : cs.length ≤ k := by simpa using h
    rw [scaled_cons k c cs hl]
    have := scaled_lt cs k (fun x hx => hd x (by simp [hx])) hl
    have hc := hd c (by simp)
    have : (c.toNat - 48) * 10 ^ k ≤ 9 * 10 ^ k := Nat.mul_le_mul_right _ (by omega)
    rw [Nat.pow_succ]
    omega

/-- The order of texts on numerals: the order of the numbers after filling up with zeros on the right, and the shorter
one first if these agree. -/
theorem strLe_scaled : ∀ (l r : Text) (k : Nat), Digits l → Digits r → l.length ≤ k → r.length ≤ k →
    (Check.strLe l r = true ↔ scaled k l < scaled k r ∨ (scaled k l = scaled k r ∧ l.length ≤ r.length))
  | [], r, k, _, _, _, _ => by
    have : Check.strLe [] r = true := by cases r <;> rfl
    simp only [this, true_iff, List.length_nil, Nat.zero_le, and_true]
    have : scaled k [] = 0 := by simp [scaled, value]
    omega
  | c :: cs, [], k, _, _, _, _ => by
    have e : Check.strLe (c :: cs) [] = false := rfl
    have : scaled k [] = 0 := by simp [scaled, value]
    rw [e, this]
    simp
  | c :: cs, d :: ds, 0, _, _, h, _ => by simp at h
  | c :: cs, d :: ds, k + 1, h1, h2, h3, h4 => by
    have l1 : cs.length ≤ k := by simpa using h3
    have l2 : ds.length ≤ k := by simpa using h4
    rw [scaled_cons k c cs l1, scaled_cons k d ds l2]
    have b1 := scaled_lt cs k (fun x hx => h1 x (by simp [hx])) l1
    have b2 := scaled_lt ds k (fun x hx => h2 x (by simp [hx])) l2
    have hc := h1 c (by simp)
    have hd := h2 d (by simp)
    have ih := strLe_scaled cs ds k (fun x hx => h1 x (by simp [hx])) (fun x hx => h2 x (by simp [hx])) l1 l2
    unfold Check.strLe
    by_cases c1 : c.toNat < d.toNat
    · rw [if_pos c1]
      have : (c.toNat - 48 + 1) * 10 ^ k ≤ (d.toNat - 48) * 10 ^ k := Nat.mul_le_mul_right _ (by omega)
      rw [Nat.add_mul] at this
      simp only [true_iff]
      left
      omega
    · rw [if_neg c1]
      by_cases c2 : c.toNat = d.toNat
      · rw [if_pos c2, ih, c2]
        simp only [List.length_cons]
        constructor
        · rintro (h | ⟨h, h'⟩)
          · left; omega
          · right; exact ⟨by omega, by omega⟩
        · rintro (h | ⟨h, h'⟩)
          · left; omega
          · right; exact ⟨by omega, by omega⟩
      · rw [if_neg c2]
        have : (d.toNat - 48 + 1) * 10 ^ k ≤ (c.toNat - 48) * 10 ^ k := Nat.mul_le_mul_right _ (by omega)
        rw [Nat.add_mul] at this
        constructor
        · intro h; cases h
        · intro h; exfalso; omega

/-- On numerals of one length the two orders agree. -/
theorem strLe_value (l r : Text) (h1 : Digits l) (h2 : Digits r) (h : l.length = r.length) :
    Check.strLe l r = true ↔ value l ≤ value r := by
  rw [strLe_scaled l r l.length h1 h2 (by omega) (by omega)]
  unfold scaled
  rw [h, Nat.sub_self, Nat.pow_zero]
  omega

/-! The table of bounds. -/

theorem checkRole_other {r p : Text} {m : Msg} {bs b : Bounds} (h : checkRole r m bs = .ok b) (hp : p ≠ r) :
    b p = bs p := by
  unfold checkRole at h
  split at h
  · split at h
    · obtain ⟨e, _, h⟩ := bind_ok h
      split at h
      · cases h
      · split at h <;> cases h <;> simp [upd, hp]
    · cases h; simp [upd, hp]
  · cases h; simp [upd, hp]

/-- The bound recorded for a role and a clock. -/
def boundAt (bs : Bounds) (p c : Text) : Option (Text × Bool) := (bs p).bind fun f => f c

theorem checkRole_clock {r c : Text} {m : Msg} {bs b : Bounds} (h : checkRole r m bs = .ok b) (hc : c ≠ m.clock) :
    boundAt b r c = boundAt bs r c := by
  unfold checkRole at h
  unfold boundAt
  split at h
  · rename_i clocks hb
    split at h
    · obtain ⟨e, _, h⟩ := bind_ok h
      split at h
      · cases h
      · split at h <;> cases h <;> simp [upd, hc, hb]
    · cases h; simp [upd, hc, hb]
  · rename_i hb
    cases h; simp [upd, hc, hb]

theorem checkRole_same {r : Text} {m : Msg} {bs b : Bounds} (h : checkRole r m bs = .ok b) :
    (∀ p, boundAt bs r m.clock = some p → tooEarly m p = .ok false) ∧
    (boundAt b r m.clock = some m.bound ∨ (m.resetText = m.clock ∧ boundAt bs r m.clock ≠ none)) := by
  unfold checkRole at h
  unfold boundAt
  split at h
  · rename_i clocks hb
    split at h
    · rename_i p hp
      obtain ⟨e, he, h⟩ := bind_ok h
      cases e with
      | true => simp at h
      | false =>
        rw [hb]
        simp only [Option.bind_some, hp, Option.some.injEq]
        refine ⟨fun q hq => hq ▸ he, ?_⟩
        simp only [Bool.false_eq_true, if_false] at h
        split at h
        · cases h; left; simp [upd]
        · rename_i hr; right; exact ⟨by simpa using hr, by simp⟩
    · rename_i hp
      cases h
      rw [hb]
      simp [hp, upd]
  · rename_i hb
    cases h
    rw [hb]
    simp [upd]

theorem previous_ok {m : Msg} {bs b : Bounds} (h : previousMessage m bs = .ok b) :
    Check.strLe m.leftBound m.rightBound = true ∧
    ∃ b1, checkRole m.sender m bs = .ok b1 ∧ checkRole m.receiver m b1 = .ok b := by
  refine ⟨previous_interval h, ?_⟩
  unfold previousMessage at h
  split at h
  · cases h
  · obtain ⟨b1, h1, h2⟩ := bind_ok h
    exact ⟨b1, h1, h2⟩

/-- A message leaves the bound of a role not involved, or of another clock, as it is. -/
theorem previous_other {m : Msg} {bs b : Bounds} {p c : Text} (h : previousMessage m bs = .ok b)
    (hn : ¬ (Involved p m ∧ m.clock = c)) : boundAt b p c = boundAt bs p c := by
  obtain ⟨_, b1, h1, h2⟩ := previous_ok h
  have step : ∀ {r : Text} {x y : Bounds}, (r = m.sender ∨ r = m.receiver) → checkRole r m x = .ok y →
      boundAt y p c = boundAt x p c := by
    intro r x y hr hxy
    by_cases hp : p = r
    · subst hp
      refine checkRole_clock hxy (fun e => hn ⟨?_, e.symm⟩)
      rcases hr with e | e
      · exact .inl e.symm
      · exact .inr e.symm
    · unfold boundAt; rw [checkRole_other hxy hp]
  rw [step (.inr rfl) h2, step (.inl rfl) h1]

/-- A message of a role on a clock is compared with the bound recorded, and its own bound is recorded, unless it resets
the clock and a bound was recorded before. -/
theorem previous_involved {m : Msg} {bs b : Bounds} {p : Text} (h : previousMessage m bs = .ok b)
    (hne : m.sender ≠ m.receiver) (hp : Involved p m) :
    (∀ q, boundAt bs p m.clock = some q → tooEarly m q = .ok false) ∧
    (boundAt b p m.clock = some m.bound ∨ (m.resetText = m.clock ∧ boundAt bs p m.clock ≠ none)) := by
  obtain ⟨_, b1, h1, h2⟩ := previous_ok h
  rcases hp with rfl | rfl
  · obtain ⟨k1, k2⟩ := checkRole_same h1
    refine ⟨k1, ?_⟩
    rwa [show boundAt b m.sender m.clock = boundAt b1 m.sender m.clock by
      unfold boundAt; rw [checkRole_other h2 hne]]
  · obtain ⟨k1, k2⟩ := checkRole_same h2
    have e : boundAt b1 m.receiver m.clock = boundAt bs m.receiver m.clock := by
      unfold boundAt; rw [checkRole_other h1 (Ne.symm hne)]
    rw [e] at k1 k2
    exact ⟨k1, k2⟩

/-- The checks of a list of messages. -/
def runBounds (bs : Bounds) (msgs : List Msg) : Except Fault Bounds := msgs.foldlM (fun bs m => previousMessage m bs) bs

theorem runBounds_cons {bs b : Bounds} {m : Msg} {msgs : List Msg} (h : runBounds bs (m :: msgs) = .ok b) :
    ∃ b1, previousMessage m bs = .ok b1 ∧ runBounds b1 msgs = .ok b := by
  unfold runBounds at h
  rw [List.foldlM_cons] at h
  exact bind_ok h

theorem runBounds_append : ∀ (a c : List Msg) (bs b : Bounds), runBounds bs (a ++ c) = .ok b →
    ∃ b1, runBounds bs a = .ok b1 ∧ runBounds b1 c = .ok b
  | [], c, bs, b, h => ⟨bs, rfl, h⟩
  | m :: a, c, bs, b, h => by
    obtain ⟨b1, h1, h2⟩ := runBounds_cons h
    obtain ⟨b2, h3, h4⟩ := runBounds_append a c b1 b h2
    refine ⟨b2, ?_, h4⟩
    unfold runBounds
    rw [List.foldlM_cons, h1]
    exact h3

theorem runBounds_other (p c : Text) : ∀ (msgs : List Msg) (bs b : Bounds),
    (∀ m ∈ msgs, ¬ (Involved p m ∧ m.clock = c)) → runBounds bs msgs = .ok b → boundAt b p c = boundAt bs p c
  | [], bs, b, _, h => by cases h; rfl
  | m :: msgs, bs, b, hn, h => by
    obtain ⟨b1, h1, h2⟩ := runBounds_cons h
    rw [runBounds_other p c msgs b1 b (fun x hx => hn x (by simp [hx])) h2, previous_other h1 (hn m (by simp))]

/-! Parsing. -/

theorem foldlM_value : ∀ (t : Text) (a n : Nat),
    t.foldlM (fun acc c => (digit c).map fun d => 10 * acc + d) a = some n →
    n = a * 10 ^ t.length + value t ∧ Digits t
  | [], a, n, h => by
    simp at h
    subst h
    refine ⟨by simp [value], fun c hc => by cases hc⟩
  | c :: t, a, n, h => by
    rw [List.foldlM_cons] at h
    unfold digit at h
    split at h
    · rename_i hc
      simp only [Option.map_some, bind, Option.bind] at h
      obtain ⟨e, hd⟩ := foldlM_value t _ n h
      refine ⟨?_, ?_⟩
      · rw [e]
        simp only [value, List.length_cons, Nat.pow_succ]
        rw [Nat.add_mul, Nat.mul_comm 10 a, Nat.mul_assoc, Nat.mul_comm 10]
        omega
      · intro x hx
        rcases List.mem_cons.mp hx with e | e
        · subst e; exact hc
        · exact hd x e
    · simp at h

theorem foldlM_digits : ∀ (t : Text) (a : Nat), Digits t →
    t.foldlM (fun acc c => (digit c).map fun d => 10 * acc + d) a = some (a * 10 ^ t.length + value t)
  | [], a, _ => by simp [value]
  | c :: t, a, h => by
    rw [List.foldlM_cons]
    have hc := h c (by simp)
    have hdig : digit c = some (c.toNat - 48) := by unfold digit; rw [if_pos hc]
    rw [hdig]
    simp only [Option.map_some, bind, Option.bind]
    rw [foldlM_digits t _ fun x hx => h x (by simp [hx])]
    simp only [value, List.length_cons, Nat.pow_succ]
    rw [Nat.add_mul, Nat.mul_comm 10 a, Nat.mul_assoc, Nat.mul_comm 10, Nat.add_assoc]

theorem parse_value {t : Text} {n : Nat} (h : parseI32 t = .ok n) : n = value t := by
  unfold parseI32 at h
  split at h
  · rename_i k hk
    split at h
    · cases h
    · cases h
      have := (foldlM_value t 0 n hk).1
      omega
  · cases h

theorem parse_ok {t : Text} (h : Numeral t) (hv : value t ≤ 2147483647) : parseI32 t = .ok (value t) := by
  unfold parseI32
  rw [foldlM_digits t 0 h.2]
  simp only [Nat.zero_mul, Nat.zero_add]
  rw [if_neg]
  rintro (e | e)
  · exact h.1 e
  · omega

theorem add_value {a n : Nat} {b : Bool} (h : addFlag a b = .ok n) : n = a + b.toNat := by
  unfold addFlag at h
  split at h
  · cases h
  · cases h; rfl

/-- What the comparison with the recorded bound decides. -/
theorem early_false {m : Msg} {q : Text × Bool} (h : tooEarly m q = .ok false) :
    value q.1 + q.2.toNat ≤ value m.leftBound + (m.leftBracket == .opening).toNat ∨
    value q.1 + q.2.toNat ≤ value m.rightBound + (m.rightBracket == .closing).toNat := by
  unfold tooEarly at h
  obtain ⟨l, hl, h⟩ := bind_ok h
  obtain ⟨l', hl', h⟩ := bind_ok h
  obtain ⟨b, hb, h⟩ := bind_ok h
  obtain ⟨b', hb', h⟩ := bind_ok h
  have := parse_value hl
  have := add_value hl'
  have := parse_value hb
  have := add_value hb'
  split at h
  · obtain ⟨r, hr, h⟩ := bind_ok h
    obtain ⟨r', hr', h⟩ := bind_ok h
    have := parse_value hr
    have := add_value hr'
    simp only [Except.ok.injEq, decide_eq_false_iff_not] at h
    right
    omega
  · left
    omega

/-! C28. -/

/-- Accepted by the generator. -/
def Accepted (title : Text → Text) (name : Text) (roles : List Text) (msgs : List Msg) : Prop :=
  ∃ prog, generator title (protocol name roles msgs) = .ok prog

theorem accepted_iff (title : Text → Text) (name : Text) (roles : List Text) (msgs : List Msg) :
    Accepted title name roles msgs ↔ (∀ m ∈ msgs, Valid roles m) ∧ ∃ b, runBounds (fun _ => none) msgs = .ok b := by
  obtain ⟨h1, h2⟩ := generator_iff title name roles msgs
  constructor
  · rintro ⟨prog, h⟩
    obtain ⟨a, b, _⟩ := h1 prog h
    exact ⟨a, b⟩
  · rintro ⟨a, b⟩
    exact h2 a b

theorem runBounds_concat {bs b : Bounds} {msgs : List Msg} (m : Msg) (h : runBounds bs msgs = .ok b) :
    runBounds bs (msgs ++ [m]) = previousMessage m b := by
  unfold runBounds at *
  rw [List.foldlM_append, h]
  simp only [bind, Except.bind, List.foldlM_cons, List.foldlM_nil]
  cases previousMessage m b <;> rfl

theorem checkRole_fresh {r : Text} {m : Msg} {bs : Bounds} (h : boundAt bs r m.clock = none) :
    ∃ b, checkRole r m bs = .ok b := by
  unfold checkRole
  unfold boundAt at h
  split
  · rename_i clocks hb
    rw [hb] at h
    simp only [Option.bind_some] at h
    rw [h]
    exact ⟨_, rfl⟩
  · exact ⟨_, rfl⟩

/-- C28, as the code has it.  An accepted protocol stays accepted when a message is added, on a clock that its sender and
its receiver have not used yet, exactly when the left bound is not after the right bound *as texts*: with both filled
up with zeros on the right to the same number of digits, the left number is the smaller one, or they are equal and the
left bound has no more digits.  The brackets play no role. -/
theorem C28_as_text (title : Text → Text) (name : Text) (roles : List Text) (msgs : List Msg) (m : Msg) (k : Nat)
    (ha : Accepted title name roles msgs) (hv : Valid roles m)
    (hfresh : ∀ x ∈ msgs, (Involved m.sender x ∨ Involved m.receiver x) → x.clock ≠ m.clock)
    (hl : Numeral m.leftBound) (hr : Numeral m.rightBound)
    (kl : m.leftBound.length ≤ k) (kr : m.rightBound.length ≤ k) :
    Accepted title name roles (msgs ++ [m]) ↔
      value m.leftBound * 10 ^ (k - m.leftBound.length) < value m.rightBound * 10 ^ (k - m.rightBound.length) ∨
      (value m.leftBound * 10 ^ (k - m.leftBound.length) = value m.rightBound * 10 ^ (k - m.rightBound.length) ∧
        m.leftBound.length ≤ m.rightBound.length) := by
  refine Iff.trans ?_ (strLe_scaled m.leftBound m.rightBound k hl.2 hr.2 kl kr)
  rw [accepted_iff] at ha ⊢
  obtain ⟨a1, b, hb⟩ := ha
  rw [runBounds_concat m hb]
  have f : ∀ p, Involved p m → boundAt b p m.clock = none := by
    intro p hp
    rw [runBounds_other p m.clock msgs _ b ?_ hb]
    · rfl
    · intro x hx ⟨i, c⟩
      refine hfresh x hx ?_ c
      rcases hp with rfl | rfl
      · exact .inl i
      · exact .inr i
  constructor
  · rintro ⟨_, b', hb'⟩
    exact previous_interval hb'
  · intro hs
    refine ⟨?_, ?_⟩
    · intro x hx
      rcases List.mem_append.mp hx with e | e
      · exact a1 x e
      · rw [List.mem_singleton.mp e]; exact hv
    · unfold previousMessage
      rw [if_neg (by simp [hs])]
      obtain ⟨b1, h1⟩ := checkRole_fresh (f m.sender (.inl rfl))
      have : boundAt b1 m.receiver m.clock = none := by
        unfold boundAt
        rw [checkRole_other h1 (Ne.symm hv.2.2)]
        exact f m.receiver (.inr rfl)
      obtain ⟨b2, h2⟩ := checkRole_fresh this
      refine ⟨b2, ?_⟩
      rw [h1]
      exact h2

/-- C28, for bounds written with the same number of digits: added on fresh clocks, a message is accepted exactly when its
left bound is not after its right bound, whatever the brackets.  Missing: bounds of different lengths, for which the
claim is false (`C28_wrong`). -/
theorem C28_window_partial (title : Text → Text) (name : Text) (roles : List Text) (msgs : List Msg) (m : Msg)
    (ha : Accepted title name roles msgs) (hv : Valid roles m)
    (hfresh : ∀ x ∈ msgs, (Involved m.sender x ∨ Involved m.receiver x) → x.clock ≠ m.clock)
    (hl : Numeral m.leftBound) (hr : Numeral m.rightBound) (hlen : m.leftBound.length = m.rightBound.length) :
    Accepted title name roles (msgs ++ [m]) ↔ value m.leftBound ≤ value m.rightBound := by
  rw [C28_as_text title name roles msgs m m.leftBound.length ha hv hfresh hl hr (by omega) (by omega), hlen,
    Nat.sub_self, Nat.pow_zero]
  omega

/-- C28, anywhere in a protocol: no accepted protocol contains a message, with bounds of one length, whose left bound is
after its right bound. -/
theorem C28_never_partial (title : Text → Text) (name : Text) (roles : List Text) (msgs : List Msg)
    (ha : Accepted title name roles msgs) (m : Msg) (hm : m ∈ msgs) (hl : Numeral m.leftBound)
    (hr : Numeral m.rightBound) (hlen : m.leftBound.length = m.rightBound.length) :
    value m.leftBound ≤ value m.rightBound := by
  rw [accepted_iff] at ha
  obtain ⟨_, b, hb⟩ := ha
  obtain ⟨s, t, rfl⟩ := List.append_of_mem hm
  obtain ⟨b1, _, h2⟩ := runBounds_append s (m :: t) _ b hb
  obtain ⟨b2, h3, _⟩ := runBounds_cons h2
  exact (strLe_value _ _ hl.2 hr.2 hlen).mp (previous_interval h3)

/-- A message from `A` to `B` on the clock `a`. -/
def msgAB (l : Text) (lb : Bracket) (r : Text) (rb : Bracket) (reset : Option Text) : Msg :=
  ⟨['A'], ['B'], ['M'], ['a'], l, lb, r, rb, reset, []⟩

def rolesAB : List Text := [['A'], ['B']]

/-- Decide acceptance. -/
def accepted? (roles : List Text) (msgs : List Msg) : Bool :=
  msgs.all (fun m => decide (Valid roles m)) && (runBounds (fun _ => none) msgs).isOk

theorem accepted?_iff (roles : List Text) (msgs : List Msg) :
    accepted? roles msgs = true ↔ Accepted id ['P'] roles msgs := by
  rw [accepted_iff]
  unfold accepted?
  cases h : runBounds (fun _ => none) msgs with
  | error e => simp [Except.isOk, Except.toBool]
  | ok b => simp [Except.isOk, Except.toBool]

/-- The full property fails: `[9;10]` is rejected and `[10;9]` accepted, the bounds being compared as texts. -/
theorem C28_wrong :
    ¬ Accepted id ['P'] rolesAB [msgAB ['9'] .opening ['1', '0'] .closing none] ∧
    Accepted id ['P'] rolesAB [msgAB ['1', '0'] .opening ['9'] .closing none] := by
  rw [← accepted?_iff, ← accepted?_iff]
  decide

/-- The hypotheses are met: `[10;25]` is accepted, `[30;25]` is not. -/
example : Accepted id ['P'] rolesAB [msgAB ['1', '0'] .opening ['2', '5'] .closing none] ∧
    ¬ Accepted id ['P'] rolesAB [msgAB ['3', '0'] .opening ['2', '5'] .closing none] ∧ Accepted id ['P'] rolesAB [] := by
  rw [← accepted?_iff, ← accepted?_iff, ← accepted?_iff]
  decide
example : Numeral ['1', '0'] := ⟨by simp, by decide⟩

/-! C30. -/

/-- Wherever `m` still fits, `m'` can fit at that instant or later. -/
def Follows (m m' : Msg) : Prop := ∀ t, Fits m t → ∃ t', t ≤ t' ∧ Fits m' t'

/-- `m` and `m'` are consecutive messages of the role `p` on the clock `c` in the protocol. -/
def Consecutive (msgs : List Msg) (p c : Text) (m m' : Msg) : Prop :=
  ∃ pre mid post, msgs = pre ++ m :: mid ++ m' :: post ∧ Involved p m ∧ m.clock = c ∧ Involved p m' ∧ m'.clock = c ∧
    ∀ x ∈ mid, ¬ (Involved p x ∧ x.clock = c)

theorem follows_of_bounds {m m' : Msg} (hf : ∃ t, Fits m' t)
    (h : value m.rightBound + (m.rightBracket == .closing).toNat ≤
        value m'.leftBound + (m'.leftBracket == .opening).toNat ∨
      value m.rightBound + (m.rightBracket == .closing).toNat ≤
        value m'.rightBound + (m'.rightBracket == .closing).toNat) : Follows m m' := by
  obtain ⟨t0, h1, h2⟩ := hf
  intro t ⟨_, g2⟩
  refine ⟨max t t0, by omega, ?_, ?_⟩
  · cases hb : m'.leftBracket <;> simp only [hb, if_true, if_false, reduceCtorEq] at h1 ⊢ <;> omega
  · cases ha : m'.leftBracket <;> cases hb : m'.rightBracket <;> cases hc : m.rightBracket <;>
      simp only [ha, hb, hc, if_true, if_false, reduceCtorEq, beq_self_eq_true, Bool.toNat_true, Bool.toNat_false,
        show (Bracket.opening == Bracket.closing) = false from rfl,
        show (Bracket.closing == Bracket.opening) = false from rfl] at h h1 h2 g2 ⊢ <;> omega

/-- C43 (and one half of C30).  Accepted protocols are feasible on each clock.  In an accepted protocol, if `m` and `m'` are consecutive messages
of a role on a clock which `m` does not reset, and the window of `m'` is not empty, then at whatever instant of its
window `m` took place, an instant for `m'` is left.  (Clocks are words, so none is a single blank.) -/
theorem C43_feasible (title : Text → Text) (name : Text) (roles : List Text) (msgs : List Msg)
    (ha : Accepted title name roles msgs) (p c : Text) (m m' : Msg) (hc : Consecutive msgs p c m m')
    (hblank : c ≠ [' ']) (hreset : m.reset ≠ some c) (hf : ∃ t, Fits m' t) : Follows m m' := by
  rw [accepted_iff] at ha
  obtain ⟨hv, b, hb⟩ := ha
  obtain ⟨pre, mid, post, rfl, i1, c1, i2, c2, hmid⟩ := hc
  rw [List.append_assoc] at hb
  obtain ⟨b1, _, h2⟩ := runBounds_append pre _ _ b hb
  obtain ⟨b2, h3, h4⟩ := runBounds_cons h2
  obtain ⟨b3, h5, h6⟩ := runBounds_append mid _ _ b h4
  obtain ⟨b4, h7, _⟩ := runBounds_cons h6
  have e1 : boundAt b2 p c = some m.bound := by
    have hvm : Valid roles m := hv m (by simp)
    rcases (previous_involved h3 hvm.2.2 i1).2 with h | ⟨h, _⟩
    · rwa [c1] at h
    · exfalso
      unfold Msg.resetText at h
      cases hr : m.reset with
      | none => rw [hr] at h; exact hblank (c1 ▸ h.symm)
      | some x => rw [hr] at h; exact hreset (by rw [hr, ← c1, ← h]; rfl)
  have e2 : boundAt b3 p c = some m.bound := by rw [runBounds_other p c mid b2 b3 hmid h5, e1]
  have hvm' : Valid roles m' := hv m' (by simp)
  have := (previous_involved h7 hvm'.2.2 i2).1 m.bound (by rw [c2]; exact e2)
  exact follows_of_bounds hf (early_false this)

/-- The bound recorded is that of the last message of the role on the clock. -/
theorem runBounds_last (roles : List Text) (p c : Text) (q : Text × Bool) : ∀ (msgs : List Msg) (b : Bounds),
    (∀ m ∈ msgs, Valid roles m) → runBounds (fun _ => none) msgs = .ok b → boundAt b p c = some q →
    ∃ pre m mid, msgs = pre ++ m :: mid ∧ Involved p m ∧ m.clock = c ∧ (∀ x ∈ mid, ¬ (Involved p x ∧ x.clock = c)) ∧
      q = m.bound := by
  intro msgs
  induction msgs using List.reverseRecOn with
  | nil => intro b _ h hq; cases h; simp [boundAt] at hq
  | append_singleton l m ih =>
    intro b hv h hq
    obtain ⟨b1, h1, h2⟩ := runBounds_append l [m] _ b h
    obtain ⟨b2, h3, h4⟩ := runBounds_cons h2
    cases h4
    by_cases hi : Involved p m ∧ m.clock = c
    · obtain ⟨i, rfl⟩ := hi
      have hvm : Valid roles m := hv m (by simp)
      obtain ⟨b0, k1, k2⟩ := (previous_ok h3).2
      refine ⟨l, m, [], rfl, i, rfl, by simp, ?_⟩
      rcases (previous_involved h3 hvm.2.2 i).2 with e | ⟨e, _⟩
      · rw [e] at hq; exact (Option.some.inj hq).symm
      · -- the clock was reset: nothing is recorded, or the bound of the message itself
        have own : ∀ {x y : Bounds} {r : Text}, checkRole r m x = .ok y →
            boundAt y r m.clock = none ∨ boundAt y r m.clock = some m.bound := by
          intro x y r hxy
          unfold checkRole at hxy
          unfold boundAt
          split at hxy
          · split at hxy
            · obtain ⟨f, _, hxy⟩ := bind_ok hxy
              split at hxy
              · cases hxy
              · split at hxy <;> cases hxy <;> simp [upd]
            · cases hxy; simp [upd]
          · cases hxy; simp [upd]
        rcases i with rfl | rfl
        · have e' : boundAt b m.sender m.clock = boundAt b0 m.sender m.clock := by
            unfold boundAt; rw [checkRole_other k2 hvm.2.2]
          rw [e'] at hq
          rcases own k1 with f | f
          · rw [f] at hq; cases hq
          · rw [f] at hq; exact (Option.some.inj hq).symm
        · rcases own k2 with f | f
          · rw [f] at hq; cases hq
          · rw [f] at hq; exact (Option.some.inj hq).symm
    · rw [previous_other h3 hi] at hq
      obtain ⟨pre, m0, mid, e1, e2, e3, e4, e5⟩ := ih b1 (fun x hx => hv x (by simp [hx])) h1 hq
      refine ⟨pre, m0, mid ++ [m], by rw [e1]; simp, e2, e3, ?_, e5⟩
      intro x hx
      rcases List.mem_append.mp hx with e | e
      · exact e4 x e
      · rw [List.mem_singleton.mp e]; exact hi

/-- The bounds are numbers of an `i32`, written with the same number of digits, with an instant in between. -/
structure Proper (m : Msg) : Prop where
  left : Numeral m.leftBound
  right : Numeral m.rightBound
  len : m.leftBound.length = m.rightBound.length
  small : value m.rightBound < 2147483647
  inhabited : ∃ t, Fits m t

theorem proper_le {m : Msg} (h : Proper m) : value m.leftBound ≤ value m.rightBound := by
  obtain ⟨t, h1, h2⟩ := h.inhabited
  split at h1 <;> split at h2 <;> omega

theorem early_of_follows {m m' : Msg} (h : Proper m) (h' : Proper m') (hf : Follows m m') :
    tooEarly m' m.bound = .ok false := by
  have l1 := proper_le h
  have l2 := proper_le h'
  have s1 := h.small
  have s2 := h'.small
  have hr : value m.rightBound + (m.rightBracket == .closing).toNat ≤
      value m'.rightBound + (m'.rightBracket == .closing).toNat := by
    obtain ⟨t0, g1, g2⟩ := h.inhabited
    have : Fits m ((value m.rightBound : Int) + ((m.rightBracket == .closing).toNat : Int) - 1) := by
      refine ⟨?_, ?_⟩
      · cases ha : m.leftBracket <;> cases hb : m.rightBracket <;>
          simp only [ha, hb, if_true, if_false, reduceCtorEq, beq_self_eq_true, Bool.toNat_true, Bool.toNat_false,
            show (Bracket.opening == Bracket.closing) = false from rfl] at g1 g2 ⊢ <;> omega
      · cases hb : m.rightBracket <;>
          simp only [if_true, if_false, reduceCtorEq, beq_self_eq_true, Bool.toNat_true, Bool.toNat_false,
            show (Bracket.opening == Bracket.closing) = false from rfl] <;> omega
    obtain ⟨t', k1, _, k2⟩ := hf _ this
    cases hb : m'.rightBracket <;> simp only [hb, if_true, if_false, reduceCtorEq, beq_self_eq_true, Bool.toNat_true,
      Bool.toNat_false, show (Bracket.opening == Bracket.closing) = false from rfl] at k2 ⊢ <;> omega
  have add : ∀ (a : Nat) (b : Bool), a < 2147483647 → addFlag a b = .ok (a + b.toNat) := by
    intro a b h
    unfold addFlag
    rw [if_neg]
    cases b <;> simp <;> omega
  unfold tooEarly
  rw [parse_ok h'.left (by omega), parse_ok h'.right (by omega)]
  simp only [Msg.bound]
  rw [parse_ok h.right (by omega)]
  simp only [bind, Except.bind]
  rw [add _ _ (by omega), add _ _ (by omega), add _ _ (by omega)]
  simp only
  split
  · rw [Except.ok.injEq, decide_eq_false_iff_not]; omega
  · rfl

theorem checkRole_ok {r : Text} {m : Msg} {bs : Bounds}
    (h : ∀ q, boundAt bs r m.clock = some q → tooEarly m q = .ok false) : ∃ b, checkRole r m bs = .ok b := by
  cases hb : boundAt bs r m.clock with
  | none => exact checkRole_fresh hb
  | some q =>
    have e := h q hb
    unfold boundAt at hb
    unfold checkRole
    cases hc : bs r with
    | none => exact ⟨_, rfl⟩
    | some clocks =>
      rw [hc] at hb
      simp only [Option.bind_some] at hb
      simp only [hb, e, bind, Except.bind, Bool.false_eq_true, if_false]
      split <;> exact ⟨_, rfl⟩

/-- C30, exactly, for protocols without resets of the clock in use.  If no message resets the clock it uses, and all windows
are proper, the protocol is accepted exactly when, for consecutive messages of a role on a clock, an instant is left for
the second one at whatever instant of its window the first one took place.  Missing: resets, with which the code
rejects feasible protocols (`C30_reset_rejected`), and choices (`C30_choice_unchecked`). -/
theorem C30_exact_partial (title : Text → Text) (name : Text) (roles : List Text) (msgs : List Msg)
    (hv : ∀ m ∈ msgs, Valid roles m) (hp : ∀ m ∈ msgs, Proper m)
    (hr : ∀ m ∈ msgs, m.reset ≠ some m.clock ∧ m.clock ≠ [' ']) :
    Accepted title name roles msgs ↔ ∀ p c m m', Consecutive msgs p c m m' → Follows m m' := by
  constructor
  · intro ha p c m m' hc
    obtain ⟨pre, mid, post, e, i1, c1, i2, c2, hmid⟩ := hc
    have hm : m ∈ msgs := by rw [e]; simp
    have hm' : m' ∈ msgs := by rw [e]; simp
    exact C43_feasible title name roles msgs ha p c m m' ⟨pre, mid, post, e, i1, c1, i2, c2, hmid⟩
      (c1 ▸ (hr m hm).2) (c1 ▸ (hr m hm).1) (hp m' hm').inhabited
  · intro hc
    rw [accepted_iff]
    refine ⟨hv, ?_⟩
    induction msgs using List.reverseRecOn with
    | nil => exact ⟨_, rfl⟩
    | append_singleton l m' ih =>
      obtain ⟨b, hb⟩ := ih (fun x hx => hv x (by simp [hx])) (fun x hx => hp x (by simp [hx]))
        (fun x hx => hr x (by simp [hx])) (by
          rintro p c m m2 ⟨pre, mid, post, e, r⟩
          exact hc p c m m2 ⟨pre, mid, post ++ [m'], by rw [e]; simp, r⟩)
      rw [runBounds_concat m' hb]
      have hvm : Valid roles m' := hv m' (by simp)
      have hpm : Proper m' := hp m' (by simp)
      have key : ∀ p, Involved p m' → ∀ q, boundAt b p m'.clock = some q → tooEarly m' q = .ok false := by
        intro p hi q hq
        obtain ⟨pre, m, mid, e1, e2, e3, e4, e5⟩ := runBounds_last roles p m'.clock q l b
          (fun x hx => hv x (by simp [hx])) hb hq
        rw [e5]
        exact early_of_follows (hp m (by rw [e1]; simp)) hpm
          (hc p m'.clock m m' ⟨pre, mid, [], by rw [e1], e2, e3, hi, rfl, e4⟩)
      unfold previousMessage
      rw [if_neg (by simp [(strLe_value _ _ hpm.left.2 hpm.right.2 hpm.len).mpr (proper_le hpm)])]
      obtain ⟨b1, h1⟩ := checkRole_ok (key m'.sender (.inl rfl))
      obtain ⟨b2, h2⟩ := checkRole_ok (r := m'.receiver) (m := m') (bs := b1) (by
        intro q hq
        unfold boundAt at hq
        rw [checkRole_other h1 (Ne.symm hvm.2.2)] at hq
        exact key m'.receiver (.inr rfl) q hq)
      exact ⟨b2, by rw [h1]; exact h2⟩

/-- Resets are not honoured when a clock is used for the first time: `[5;6]` resetting the clock, then `[0;1]`, is
rejected although the clock starts again from zero. -/
theorem C30_reset_rejected :
    ¬ Accepted id ['P'] rolesAB
      [msgAB ['5'] .opening ['6'] .closing (some ['a']), msgAB ['0'] .opening ['1'] .closing none] ∧
    Accepted id ['P'] rolesAB
      [msgAB ['5'] .opening ['6'] .closing none, msgAB ['5'] .opening ['6'] .closing (some ['a']),
        msgAB ['0'] .opening ['1'] .closing none] := by
  rw [← accepted?_iff, ← accepted?_iff]
  decide

/-- Nothing is checked across the beginning of a choice: `[5;6]` and then, in a branch, `[0;1]` is accepted although no
instant is left for the second message. -/
theorem C30_choice_unchecked :
    accepts [headerLine, ⟨0, 0, false, .message (msgAB ['5'] .opening ['6'] .closing none)⟩,
      ⟨1, 0, false, .choice ['A']⟩, ⟨0, 0, false, .message (msgAB ['0'] .opening ['1'] .closing none)⟩,
      ⟨1, 1, false, .or⟩, ⟨0, 0, false, .message (msgAB ['0'] .opening ['1'] .closing none)⟩,
      closeLine, closeLine] = true ∧
    ¬ Follows (msgAB ['5'] .opening ['6'] .closing none) (msgAB ['0'] .opening ['1'] .closing none) := by
  refine ⟨by decide, ?_⟩
  intro h
  obtain ⟨t', h1, _, h2⟩ := h 6 ⟨by decide, by decide⟩
  simp [msgAB, value] at h2
  omega

/-- The hypotheses are met, and both outcomes occur. -/
example : Proper (msgAB ['0'] .opening ['5'] .closing none) :=
  ⟨⟨by decide, by decide⟩, ⟨by decide, by decide⟩, rfl, by decide, 3, by decide, by decide⟩
example : Accepted id ['P'] rolesAB
      [msgAB ['0'] .opening ['5'] .closing none, msgAB ['0'] .opening ['5'] .closing none] ∧
    ¬ Accepted id ['P'] rolesAB
      [msgAB ['0'] .opening ['5'] .closing none, msgAB ['0'] .opening ['5'] .opening none] := by
  rw [← accepted?_iff, ← accepted?_iff]
  decide
example : Consecutive [msgAB ['0'] .opening ['5'] .closing none, msgAB ['2'] .opening ['5'] .closing none]
    ['A'] ['a'] (msgAB ['0'] .opening ['5'] .closing none) (msgAB ['2'] .opening ['5'] .closing none) :=
  ⟨[], [], [], rfl, .inl rfl, rfl, .inl rfl, rfl, by simp⟩

end Verif.Prop
