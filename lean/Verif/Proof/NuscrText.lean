import Verif.Spec.NuscrText

/-!
# The matcher and the ways of writing a line
-/
namespace Verif.NuscrTextSpec
open Verif.Nuscr Verif.NuscrText

/-! The matcher finds a match exactly if there is one. -/

theorem iter_sound {L : Text → Prop} {step : Cont → Cont}
    (hs : ∀ k t c res, step k t c = some res → ∃ s t' c', t = s ++ t' ∧ L s ∧ k t' c' = some res) (k : Cont) :
    ∀ (n : Nat) (t : Text) (c : Caps) res, iter step k n t c = some res →
      ∃ (l : List Text) (t' : Text) (c' : Caps), t = l.flatten ++ t' ∧ (∀ u ∈ l, L u) ∧ k t' c' = some res
  | 0, t, c, res, h => ⟨[], t, c, rfl, by simp, h⟩
  | n + 1, t, c, res, h => by
    unfold iter at h
    split at h
    · rename_i r hr
      simp only [Option.some.injEq] at h
      subst h
      obtain ⟨s, t', c', rfl, h1, h2⟩ := hs _ _ _ _ hr
      split at h2
      · obtain ⟨l, t'', c'', rfl, h3, h4⟩ := iter_sound hs k n t' c' _ h2
        refine ⟨s :: l, t'', c'', by simp, ?_, h4⟩
        intro u hu
        rcases List.mem_cons.mp hu with rfl | hu
        · exact h1
        · exact h3 u hu
      · cases h2
    · exact ⟨[], t, c, rfl, by simp, h⟩

theorem run_sound (C : Classes) : ∀ (r : Rx) (k : Cont) (t : Text) (c : Caps) res, r.run C k t c = some res →
    ∃ s t' c', t = s ++ t' ∧ Describes C r s ∧ k t' c' = some res
  | .eps, k, t, c, res, h => ⟨[], t, c, rfl, rfl, h⟩
  | .cls x, k, t, c, res, h => by
    simp only [Rx.run] at h
    cases t with
    | nil => cases h
    | cons a t =>
      simp only at h
      split at h
      · rename_i hx; exact ⟨[a], t, c, rfl, ⟨a, rfl, hx⟩, h⟩
      · cases h
  | .seq a b, k, t, c, res, h => by
    simp only [Rx.run] at h
    obtain ⟨s, t', c', rfl, h1, h2⟩ := run_sound C a _ _ _ _ h
    obtain ⟨s', t'', c'', rfl, h3, h4⟩ := run_sound C b _ _ _ _ h2
    exact ⟨s ++ s', t'', c'', by simp, ⟨s, s', rfl, h1, h3⟩, h4⟩
  | .alt a b, k, t, c, res, h => by
    simp only [Rx.run] at h
    split at h
    · rename_i r hr
      simp only [Option.some.injEq] at h
      subst h
      obtain ⟨s, t', c', e, h1, h2⟩ := run_sound C a _ _ _ _ hr
      exact ⟨s, t', c', e, .inl h1, h2⟩
    · obtain ⟨s, t', c', e, h1, h2⟩ := run_sound C b _ _ _ _ h
      exact ⟨s, t', c', e, .inr h1, h2⟩
  | .star a, k, t, c, res, h => by
    simp only [Rx.run] at h
    obtain ⟨l, t', c', e, h1, h2⟩ := iter_sound (fun k t c res => run_sound C a k t c res) k _ _ _ _ h
    exact ⟨l.flatten, t', c', e, ⟨l, rfl, h1⟩, h2⟩
  | .cap g a, k, t, c, res, h => by
    simp only [Rx.run] at h
    obtain ⟨s, t', c', e, h1, h2⟩ := run_sound C a _ _ _ _ h
    exact ⟨s, t', _, e, h1, h2⟩

theorem iter_complete {L : Text → Prop} {step : Cont → Cont}
    (hs : ∀ k s t', L s → (∀ c, (k t' c).isSome) → ∀ c, (step k (s ++ t') c).isSome) (k : Cont) (t' : Text)
    (hk : ∀ c, (k t' c).isSome) : ∀ (l : List Text) (n : Nat), (∀ u ∈ l, L u) → l.flatten.length ≤ n →
      ∀ c, (iter step k n (l.flatten ++ t') c).isSome
  | [], n, _, _, c => by
    cases n with
    | zero => exact hk c
    | succ n =>
      unfold iter
      split
      · rfl
      · exact hk c
  | [] :: l, n, h, hn, c => by
    have := iter_complete hs k t' hk l n (fun u hu => h u (List.mem_cons_of_mem _ hu)) (by simpa using hn) c
    simpa using this
  | (a :: u) :: l, n, h, hn, c => by
    cases n with
    | zero => simp at hn
    | succ n =>
      unfold iter
      split
      · rfl
      · rename_i hno
        have := hs (fun x c' => if x.length < (((a :: u) :: l).flatten ++ t').length then iter step k n x c' else none)
          (a :: u) (l.flatten ++ t') (h _ (by simp)) ?_ c
        · rw [show (a :: u) ++ (l.flatten ++ t') = ((a :: u) :: l).flatten ++ t' by simp] at this
          rw [hno] at this
          cases this
        · intro c
          rw [if_pos (by simp; omega)]
          exact iter_complete hs k t' hk l n (fun u hu => h u (List.mem_cons_of_mem _ hu)) (by simp at hn ⊢; omega) c

theorem run_complete (C : Classes) : ∀ (r : Rx) (k : Cont) (s t' : Text), Describes C r s → (∀ c, (k t' c).isSome) →
    ∀ c, (r.run C k (s ++ t') c).isSome
  | .eps, k, s, t', h, hk, c => by
    simp only [Describes] at h
    subst h
    exact hk c
  | .cls x, k, s, t', h, hk, c => by
    obtain ⟨a, rfl, hx⟩ := h
    simp only [Rx.run, List.cons_append, List.nil_append, hx, if_true]
    exact hk c
  | .seq a b, k, s, t', h, hk, c => by
    obtain ⟨u, v, rfl, h1, h2⟩ := h
    simp only [Rx.run, List.append_assoc]
    exact run_complete C a _ u (v ++ t') h1 (fun c => run_complete C b k v t' h2 hk c) c
  | .alt a b, k, s, t', h, hk, c => by
    simp only [Rx.run]
    split
    · rfl
    · rename_i hno
      rcases h with h | h
      · have := run_complete C a k s t' h hk c
        rw [hno] at this
        cases this
      · exact run_complete C b k s t' h hk c
  | .star a, k, s, t', h, hk, c => by
    obtain ⟨l, rfl, h1⟩ := h
    simp only [Rx.run]
    exact iter_complete (L := Describes C a) (fun k s t' h hk c => run_complete C a k s t' h hk c) k t' hk l _ h1
      (by simp) c
  | .cap g a, k, s, t', h, hk, c => by
    simp only [Rx.run]
    exact run_complete C a (fun x c' => k x ((g, (s ++ t').take ((s ++ t').length - x.length)) :: c')) s t' h
      (fun c => hk _) c

theorem search_isSome (C : Classes) (r : Rx) : ∀ t : Text, (search C r t).isSome ↔
    ∃ a s b, t = a ++ s ++ b ∧ Describes C r s
  | [] => by
    constructor
    · intro h
      simp only [search] at h
      obtain ⟨x, hx⟩ := Option.isSome_iff_exists.mp h
      obtain ⟨s, t', _, e, h1, _⟩ := run_sound C r _ _ _ _ hx
      exact ⟨[], s, t', by simpa using e, h1⟩
    · rintro ⟨a, s, b, e, h⟩
      have e1 : s = [] := by
        have := congrArg List.length e
        simp only [List.length_nil, List.length_append] at this
        exact List.eq_nil_of_length_eq_zero (by omega)
      subst e1
      exact run_complete C r done [] [] h (fun _ => rfl) []
  | x :: t => by
    simp only [search]
    constructor
    · intro h
      split at h
      · rename_i y hy
        obtain ⟨s, t', _, e, h1, _⟩ := run_sound C r _ _ _ _ hy
        exact ⟨[], s, t', by simpa using e, h1⟩
      · obtain ⟨a, s, b, e, h1⟩ := (search_isSome C r t).mp h
        exact ⟨x :: a, s, b, by simp [e], h1⟩
    · rintro ⟨a, s, b, e, h⟩
      split
      · rfl
      · rename_i hno
        cases a with
        | nil =>
          have := run_complete C r done s b h (fun _ => rfl) []
          rw [show s ++ b = x :: t by simpa using e.symm, hno] at this
          cases this
        | cons y a =>
          simp only [List.cons_append, List.cons.injEq] at e
          exact (search_isSome C r t).mpr ⟨a, s, b, e.2, h⟩

theorem search_none (C : Classes) (r : Rx) (t : Text) : search C r t = none ↔
    ∀ a s b, t = a ++ s ++ b → ¬ Describes C r s := by
  rw [← Option.not_isSome_iff_eq_none, search_isSome]
  constructor
  · intro h a s b e hd; exact h ⟨a, s, b, e, hd⟩
  · rintro h ⟨a, s, b, e, hd⟩; exact h a s b e hd

/-! The first choices of the matcher. -/

/-- The text does not go on with a character of the class. -/
def Ends (p : Char → Bool) : Text → Prop
  | [] => True
  | a :: _ => p a = false

theorem iter_cls (C : Classes) (x : Cls) (k : Cont) (t : Text) (c : Caps) (res) (ht : Ends (x.has C) t)
    (hk : k t c = some res) : ∀ (w : Text) (n : Nat), (∀ a ∈ w, x.has C a = true) → w.length ≤ n →
      iter ((Rx.cls x).run C) k n (w ++ t) c = some res
  | [], n, _, _ => by
    cases n with
    | zero => exact hk
    | succ n =>
      unfold iter
      have : (Rx.cls x).run C (fun t' c' => if t'.length < ([] ++ t).length then iter ((Rx.cls x).run C) k n t' c' else none)
          ([] ++ t) c = none := by
        cases t with
        | nil => rfl
        | cons a t =>
          have ht : x.has C a = false := ht
          simp [Rx.run, ht]
      rw [this]
      exact hk
  | a :: w, n, h, hn => by
    cases n with
    | zero => simp at hn
    | succ n =>
      unfold iter
      have : (Rx.cls x).run C
          (fun t' c' => if t'.length < ((a :: w) ++ t).length then iter ((Rx.cls x).run C) k n t' c' else none)
          ((a :: w) ++ t) c = some res := by
        simp only [Rx.run, List.cons_append, h a (by simp), if_true, List.length_cons, Nat.lt_succ_self]
        exact iter_cls C x k t c res ht hk w n (fun b hb => h b (List.mem_cons_of_mem _ hb)) (by simpa using hn)
      rw [this]

section greedy
variable (C : Classes) (k : Cont) (t : Text) (c : Caps) (res : Text × Caps)

theorem run_lit (s : Text) (hk : k t c = some res) : (lit s).run C k (s ++ t) c = some res := by
  unfold lit
  induction s with
  | nil => exact hk
  | cons a s ih =>
    simp only [List.map_cons, seqs, Rx.run, List.cons_append, Cls.has, beq_self_eq_true, if_true]
    exact ih

theorem run_sp0 (n : Nat) (ht : Ends (· == ' ') t) (hk : k t c = some res) : sp0.run C k (blanks n ++ t) c = some res := by
  refine iter_cls C (.one ' ') k t c res ?_ hk (blanks n) _ ?_ (by simp)
  · cases t with
    | nil => trivial
    | cons a t => exact ht
  · intro a ha
    simp [blanks] at ha
    simp [Cls.has, ha.2]

theorem run_sp1 (n : Nat) (ht : Ends (· == ' ') t) (hk : k t c = some res) : sp1.run C k (gap n ++ t) c = some res := by
  unfold sp1 gap
  simp only [Rx.run, List.cons_append, Cls.has, beq_self_eq_true, if_true]
  exact run_sp0 C k t c res n ht hk

theorem run_word0 (w : Text) (hw : ∀ a ∈ w, C.word a = true) (ht : Ends C.word t) (hk : k t c = some res) :
    word0.run C k (w ++ t) c = some res := by
  refine iter_cls C .word k t c res ?_ hk w _ hw (by simp)
  cases t with
  | nil => trivial
  | cons a t => exact ht

theorem run_word1 (w : Text) (hw : IsWord C w) (ht : Ends C.word t) (hk : k t c = some res) :
    word1.run C k (w ++ t) c = some res := by
  obtain ⟨h1, h2⟩ := hw
  cases w with
  | nil => exact absurd rfl h1
  | cons a w =>
    unfold word1
    simp only [Rx.run, List.cons_append, Cls.has, h2 a (by simp), if_true]
    exact run_word0 C k t c res w (fun b hb => h2 b (List.mem_cons_of_mem _ hb)) ht hk

theorem run_num1 (w : Text) (hw : IsNumber C w) (ht : Ends C.digit t) (hk : k t c = some res) :
    num1.run C k (w ++ t) c = some res := by
  obtain ⟨h1, h2⟩ := hw
  cases w with
  | nil => exact absurd rfl h1
  | cons a w =>
    unfold num1
    simp only [Rx.run, List.cons_append, Cls.has, h2 a (by simp), if_true]
    refine iter_cls C .digit k t c res ?_ hk w _ (fun b hb => h2 b (List.mem_cons_of_mem _ hb)) (by simp)
    cases t with
    | nil => trivial
    | cons a t => exact ht

theorem run_bracket (b : Bracket) (hk : k t c = some res) : bracket.run C k (bracketText b ++ t) c = some res := by
  unfold bracket
  cases b with
  | opening => simp [Rx.run, bracketText, Cls.has, hk]
  | closing => simp [Rx.run, bracketText, Cls.has, hk]

theorem run_cap (g : Group) (r : Rx) (w : Text)
    (h : r.run C (fun t' c' => k t' ((g, (w ++ t).take ((w ++ t).length - t'.length)) :: c')) (w ++ t) c = some res) :
    (Rx.cap g r).run C k (w ++ t) c = some res := h

theorem run_cap_word (g : Group) (w : Text) (hw : IsWord C w) (ht : Ends C.word t)
    (hk : k t ((g, w) :: c) = some res) : (Rx.cap g word1).run C k (w ++ t) c = some res := by
  refine run_cap C k t c res g word1 w (run_word1 C _ t c res w hw ht ?_)
  simpa using hk

theorem run_cap_num (g : Group) (w : Text) (hw : IsNumber C w) (ht : Ends C.digit t)
    (hk : k t ((g, w) :: c) = some res) : (Rx.cap g num1).run C k (w ++ t) c = some res := by
  refine run_cap C k t c res g num1 w (run_num1 C _ t c res w hw ht ?_)
  simpa using hk

theorem run_cap_bracket (g : Group) (b : Bracket)
    (hk : k t ((g, bracketText b) :: c) = some res) : (Rx.cap g bracket).run C k (bracketText b ++ t) c = some res := by
  refine run_cap C k t c res g bracket (bracketText b) (run_bracket C _ t c res b ?_)
  simpa using hk

end greedy

theorem run_seqs (C : Classes) (r : Rx) (rs : List Rx) (k : Cont) :
    (seqs (r :: rs)).run C k = r.run C ((seqs rs).run C k) := rfl

theorem ends_blanks {p : Char → Bool} (hp : p ' ' = false) {t : Text} (ht : Ends p t) (n : Nat) : Ends p (blanks n ++ t) := by
  cases n with
  | zero => exact ht
  | succ n => exact hp

theorem ends_cons {p : Char → Bool} {a : Char} (h : p a = false) (s t : Text) : Ends p ((a :: s) ++ t) := h

theorem ends_word {C : Classes} (hC : Usual C) {w : Text} (hw : IsWord C w) (t : Text) : Ends (· == ' ') (w ++ t) := by
  obtain ⟨h1, h2⟩ := hw
  cases w with
  | nil => exact absurd rfl h1
  | cons a w =>
    show (a == ' ') = false
    simp only [beq_eq_false_iff_ne]
    rintro rfl
    have := h2 ' ' (by simp)
    rw [hC.word ' ' (by simp)] at this
    cases this

theorem ends_number {C : Classes} (hC : Usual C) {w : Text} (hw : IsNumber C w) (t : Text) : Ends (· == ' ') (w ++ t) := by
  obtain ⟨h1, h2⟩ := hw
  cases w with
  | nil => exact absurd rfl h1
  | cons a w =>
    show (a == ' ') = false
    simp only [beq_eq_false_iff_ne]
    rintro rfl
    have := h2 ' ' (by simp)
    rw [hC.digit ' ' (by simp)] at this
    cases this

theorem ends_bracket (b : Bracket) (t : Text) {p : Char → Bool} (h1 : p '[' = false) (h2 : p ']' = false) :
    Ends p (bracketText b ++ t) := by
  cases b with
  | opening => exact h1
  | closing => exact h2

/-- The message without its indentation. -/
def messageBody (g : Nat → Nat) (p r : Text) (m : Msg) : Text := List.flatten
  [m.message, ['('], p, [')'], gap (g 1), ['f', 'r', 'o', 'm'], gap (g 2), m.sender, gap (g 3),
    ['t', 'o'], gap (g 4), m.receiver, gap (g 5), ['w', 'i', 't', 'h', 'i', 'n'], gap (g 6), bracketText m.leftBracket,
    blanks (g 7), m.leftBound, blanks (g 8), [';'], blanks (g 9), m.rightBound, blanks (g 10), bracketText m.rightBracket,
    gap (g 11), ['u', 's', 'i', 'n', 'g'], gap (g 12), m.clock, gap (g 13), ['a', 'n', 'd'], gap (g 14),
    ['r', 'e', 's', 'e', 't', 't', 'i', 'n', 'g'], gap (g 15), ['('], r, [')'], blanks (g 16), [';'],
    blanks (g 17)]

theorem messageText_eq (g : Nat → Nat) (payload : Option Text) (m : Msg) :
    messageText g payload m = blanks (g 0) ++ messageBody g (payload.getD []) (m.reset.getD []) m := List.flatten_cons

/-- What the captures are when the payload and the reset add `fp` and `fr`. -/
def messageCaps (m : Msg) (fp fr : Caps → Caps) : Caps :=
  fr ((.clock, m.clock) :: (.rightBracket, bracketText m.rightBracket) :: (.rightBound, m.rightBound) ::
    (.leftBound, m.leftBound) :: (.leftBracket, bracketText m.leftBracket) :: (.receiver, m.receiver) ::
    (.sender, m.sender) :: fp [(.message, m.message)])

theorem run_message_body {C : Classes} (hC : Usual C) (g : Nat → Nat) (p r : Text) (m : Msg) (rp rr : Rx)
    (fp fr : Caps → Caps) (hm : IsWord C m.message) (hs : IsWord C m.sender) (hr : IsWord C m.receiver)
    (hl : IsNumber C m.leftBound) (hb : IsNumber C m.rightBound) (hc : IsWord C m.clock)
    (hp : ∀ k t c res, Ends C.word t → k t (fp c) = some res → rp.run C k (p ++ t) c = some res)
    (hrr : ∀ k t c res, Ends C.word t → k t (fr c) = some res → rr.run C k (r ++ t) c = some res) :
    (rxMsg rp rr).run C done (messageBody g p r m) [] = some (blanks (g 17), messageCaps m fp fr) := by
  have wb : C.word ' ' = false := hC.word ' ' (by simp)
  have db : C.digit ' ' = false := hC.digit ' ' (by simp)
  unfold messageBody rxMsg
  rw [run_seqs, List.flatten_cons]; refine run_cap_word C _ _ _ _ _ _ hm (hC.word '(' (by simp)) ?_
  rw [run_seqs, List.flatten_cons]; refine run_lit C _ _ _ _ _ ?_
  rw [run_seqs, List.flatten_cons]; refine hp _ _ _ _ (hC.word ')' (by simp)) ?_
  rw [run_seqs, List.flatten_cons]; refine run_lit C _ _ _ _ _ ?_
  rw [run_seqs, List.flatten_cons]; refine run_sp1 C _ _ _ _ _ rfl ?_
  rw [run_seqs, List.flatten_cons]; refine run_lit C _ _ _ _ _ ?_
  rw [run_seqs, List.flatten_cons]; refine run_sp1 C _ _ _ _ _ (ends_word hC hs _) ?_
  rw [run_seqs, List.flatten_cons]; refine run_cap_word C _ _ _ _ _ _ hs wb ?_
  rw [run_seqs, List.flatten_cons]; refine run_sp1 C _ _ _ _ _ rfl ?_
  rw [run_seqs, List.flatten_cons]; refine run_lit C _ _ _ _ _ ?_
  rw [run_seqs, List.flatten_cons]; refine run_sp1 C _ _ _ _ _ (ends_word hC hr _) ?_
  rw [run_seqs, List.flatten_cons]; refine run_cap_word C _ _ _ _ _ _ hr wb ?_
  rw [run_seqs, List.flatten_cons]; refine run_sp1 C _ _ _ _ _ rfl ?_
  rw [run_seqs, List.flatten_cons]; refine run_lit C _ _ _ _ _ ?_
  rw [run_seqs, List.flatten_cons]; refine run_sp1 C _ _ _ _ _ (ends_bracket _ _ rfl rfl) ?_
  rw [run_seqs, List.flatten_cons]; refine run_cap_bracket C _ _ _ _ _ _ ?_
  rw [run_seqs, List.flatten_cons]; refine run_sp0 C _ _ _ _ _ (ends_number hC hl _) ?_
  rw [run_seqs, List.flatten_cons]; refine run_cap_num C _ _ _ _ _ _ hl (ends_blanks db (ends_cons (hC.digit ';' (by simp)) _ _) _) ?_
  rw [run_seqs, List.flatten_cons]; refine run_sp0 C _ _ _ _ _ rfl ?_
  rw [run_seqs, List.flatten_cons]; refine run_lit C _ _ _ _ _ ?_
  rw [run_seqs, List.flatten_cons]; refine run_sp0 C _ _ _ _ _ (ends_number hC hb _) ?_
  rw [run_seqs, List.flatten_cons]; refine run_cap_num C _ _ _ _ _ _ hb (ends_blanks db (ends_bracket _ _ (hC.digit '[' (by simp))
    (hC.digit ']' (by simp))) _) ?_
  rw [run_seqs, List.flatten_cons]; refine run_sp0 C _ _ _ _ _ (ends_bracket _ _ rfl rfl) ?_
  rw [run_seqs, List.flatten_cons]; refine run_cap_bracket C _ _ _ _ _ _ ?_
  rw [run_seqs, List.flatten_cons]; refine run_sp1 C _ _ _ _ _ rfl ?_
  rw [run_seqs, List.flatten_cons]; refine run_lit C _ _ _ _ _ ?_
  rw [run_seqs, List.flatten_cons]; refine run_sp1 C _ _ _ _ _ (ends_word hC hc _) ?_
  rw [run_seqs, List.flatten_cons]; refine run_cap_word C _ _ _ _ _ _ hc wb ?_
  rw [run_seqs, List.flatten_cons]; refine run_sp1 C _ _ _ _ _ rfl ?_
  rw [run_seqs, List.flatten_cons]; refine run_lit C _ _ _ _ _ ?_
  rw [run_seqs, List.flatten_cons]; refine run_sp1 C _ _ _ _ _ rfl ?_
  rw [run_seqs, List.flatten_cons]; refine run_lit C _ _ _ _ _ ?_
  rw [run_seqs, List.flatten_cons]; refine run_sp1 C _ _ _ _ _ rfl ?_
  rw [run_seqs, List.flatten_cons]; refine run_lit C _ _ _ _ _ ?_
  rw [run_seqs, List.flatten_cons]; refine hrr _ _ _ _ (hC.word ')' (by simp)) ?_
  rw [run_seqs, List.flatten_cons]; refine run_lit C _ _ _ _ _ ?_
  rw [run_seqs, List.flatten_cons]; refine run_sp0 C _ _ _ _ _ rfl ?_
  rw [run_seqs, List.flatten_cons]; refine run_lit C _ _ _ _ _ ?_
  simp [messageCaps, done, seqs, Rx.run]

/-- Blanks before a match are skipped. -/
theorem search_blanks (C : Classes) (r : Rx) (h : ∀ t c, r.run C done (' ' :: t) c = none) (t : Text) (x)
    (ht : r.run C done t [] = some x) : ∀ n, search C r (blanks n ++ t) = some x
  | 0 => by
    cases t with
    | nil => exact ht
    | cons a t => simp only [blanks, List.replicate_zero, List.nil_append, search, ht]
  | n + 1 => by
    have e : blanks (n + 1) ++ t = ' ' :: (blanks n ++ t) := rfl
    rw [e]
    simp only [search, h]
    exact search_blanks C r h t x ht n

theorem msg_no_blank {C : Classes} (hC : Usual C) (rp rr : Rx) (t : Text) (c : Caps) :
    (rxMsg rp rr).run C done (' ' :: t) c = none := by
  unfold rxMsg
  rw [run_seqs]
  simp [Rx.run, word1, Cls.has, hC.word ' ' (by simp)]

end Verif.NuscrTextSpec
