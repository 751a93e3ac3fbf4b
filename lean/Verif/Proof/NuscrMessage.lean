import Verif.Proof.NuscrNoMatch

/-!
# Reading a message line
-/
namespace Verif.NuscrTextSpec
open Verif.Nuscr Verif.NuscrText

theorem blanks_no {c : Char} (h : c ≠ ' ') (n : Nat) : c ∉ blanks n := by
  unfold blanks
  simp [h]

theorem gap_no {c : Char} (h : c ≠ ' ') (n : Nat) : c ∉ gap n := by
  unfold gap
  simp [h, blanks_no h n]

theorem bracket_no {c : Char} (h1 : c ≠ '[') (h2 : c ≠ ']') (b : Bracket) : c ∉ bracketText b := by
  cases b <;> simp [bracketText, h1, h2]

theorem number_no {C : Classes} (hC : Usual C) {w : Text} (hw : IsNumber C w) {c : Char}
    (hc : c ∈ [' ', '(', ')', '[', ']', '{', '}', ';', ',', '/']) : c ∉ w := by
  intro h
  have := hw.2 c h
  rw [hC.digit c hc] at this
  cases this

theorem describes_append (C : Classes) : ∀ (l1 l2 : List Rx) (s : Text), Describes C (seqs (l1 ++ l2)) s ↔
    ∃ u v, s = u ++ v ∧ Describes C (seqs l1) u ∧ Describes C (seqs l2) v
  | [], l2, s => by
    constructor
    · intro h; exact ⟨[], s, rfl, rfl, h⟩
    · rintro ⟨u, v, rfl, h1, h2⟩
      have : u = [] := h1
      subst this; exact h2
  | r :: l1, l2, s => by
    rw [List.cons_append, describes_seqs]
    constructor
    · rintro ⟨u, v, rfl, h1, h2⟩
      obtain ⟨u', v', rfl, h3, h4⟩ := (describes_append C l1 l2 v).mp h2
      exact ⟨u ++ u', v', by simp, ⟨u, u', rfl, h1, h3⟩, h4⟩
    · rintro ⟨u, v, rfl, ⟨u1, u2, rfl, h1, h2⟩, h3⟩
      exact ⟨u1, u2 ++ v, by simp, h1, (describes_append C l1 l2 _).mpr ⟨u2, v, rfl, h2, h3⟩⟩

/-- The regular expression never consumes the character. -/
def avoids (C : Classes) (c : Char) : Rx → Bool
  | .eps => true
  | .cls x => !x.has C c
  | .seq a b => avoids C c a && avoids C c b
  | .alt a b => avoids C c a && avoids C c b
  | .star a => avoids C c a
  | .cap _ a => avoids C c a

theorem avoids_sound (C : Classes) (c : Char) : ∀ (r : Rx) (s : Text), avoids C c r = true → Describes C r s → c ∉ s
  | .eps, s, _, h => by have : s = [] := h; simp [this]
  | .cls x, s, ha, ⟨a, e, h⟩ => by
    subst e
    simp only [List.mem_singleton]
    rintro rfl
    simp [avoids, h] at ha
  | .seq a b, s, ha, ⟨u, v, e, h1, h2⟩ => by
    simp only [avoids, Bool.and_eq_true] at ha
    subst e
    simp [avoids_sound C c a u ha.1 h1, avoids_sound C c b v ha.2 h2]
  | .alt a b, s, ha, h => by
    simp only [avoids, Bool.and_eq_true] at ha
    rcases h with h | h
    · exact avoids_sound C c a s ha.1 h
    · exact avoids_sound C c b s ha.2 h
  | .star a, s, ha, ⟨l, e, h⟩ => by
    subst e
    intro hc
    obtain ⟨u, hu, hc⟩ := List.mem_flatten.mp hc
    exact avoids_sound C c a u ha (h u hu) hc
  | .cap _ a, s, ha, h => avoids_sound C c a s ha h

/-- What a message regular expression describes, around its two opening parentheses. -/
theorem msg_describes {C : Classes} (hC : Usual C) {rp rr : Rx} {s : Text} (h : Describes C (rxMsg rp rr) s) :
    ∃ w p mid r z, s = w ++ '(' :: (p ++ ')' :: (mid ++ '(' :: (r ++ ')' :: z))) ∧ IsWord C w ∧ Describes C rp p ∧
      '(' ∉ mid ∧ Describes C rr r := by
  have e : rxMsg rp rr = seqs ([.cap .message word1, lit ['('], rp, lit [')']] ++ ([sp1, lit ['f', 'r', 'o', 'm'], sp1,
      .cap .sender word1, sp1, lit ['t', 'o'], sp1, .cap .receiver word1, sp1, lit ['w', 'i', 't', 'h', 'i', 'n'], sp1,
      .cap .leftBracket bracket, sp0, .cap .leftBound num1, sp0, lit [';'], sp0, .cap .rightBound num1, sp0,
      .cap .rightBracket bracket, sp1, lit ['u', 's', 'i', 'n', 'g'], sp1, .cap .clock word1, sp1, lit ['a', 'n', 'd'], sp1,
      lit ['r', 'e', 's', 'e', 't', 't', 'i', 'n', 'g'], sp1] ++ [lit ['('], rr, lit [')'], sp0, lit [';']])) := rfl
  rw [e, describes_append] at h
  obtain ⟨u, v, rfl, h1, h⟩ := h
  rw [describes_append] at h
  obtain ⟨mid, v', rfl, h2, h3⟩ := h
  obtain ⟨w, u1, rfl, hw, u2, u3, rfl, hu2, p, u4, rfl, hp, u5, u6, rfl, hu5, hu6⟩ := h1
  obtain ⟨u7, v1, rfl, hu7, r, v2, rfl, hr, u8, z, rfl, hu8, _⟩ := h3
  rw [describes_lit] at hu2 hu5 hu7 hu8
  have hu6 : u6 = [] := hu6
  subst hu2 hu5 hu7 hu8 hu6
  refine ⟨w, p, mid, r, z, by simp only [List.append_assoc, List.cons_append, List.nil_append, List.append_nil],
    describes_word1 hw, hp, ?_, hr⟩
  refine avoids_sound C '(' _ mid ?_ h2
  have w1 := hC.word '(' (by simp)
  have w2 := hC.digit '(' (by simp)
  simp [seqs, lit, avoids, Cls.has, sp1, sp0, word1, word0, num1, bracket, w1, w2]

def midParts (g : Nat → Nat) (m : Msg) : List Text :=
  [gap (g 1), ['f', 'r', 'o', 'm'], gap (g 2), m.sender, gap (g 3),
    ['t', 'o'], gap (g 4), m.receiver, gap (g 5), ['w', 'i', 't', 'h', 'i', 'n'], gap (g 6), bracketText m.leftBracket,
    blanks (g 7), m.leftBound, blanks (g 8), [';'], blanks (g 9), m.rightBound, blanks (g 10), bracketText m.rightBracket,
    gap (g 11), ['u', 's', 'i', 'n', 'g'], gap (g 12), m.clock, gap (g 13), ['a', 'n', 'd'], gap (g 14),
    ['r', 'e', 's', 'e', 't', 't', 'i', 'n', 'g']]

/-- Between the two pairs of parentheses. -/
def midText (g : Nat → Nat) (m : Msg) : Text := (midParts g m).flatten ++ gap (g 15)

theorem messageText_split (g : Nat → Nat) (payload : Option Text) (m : Msg) :
    messageText g payload m = (blanks (g 0) ++ m.message) ++ '(' :: ((payload.getD [] ++ ')' :: midText g m) ++
      '(' :: (m.reset.getD [] ++ ')' :: (blanks (g 16) ++ (';' :: blanks (g 17))))) := by
  have e : messageText g payload m = List.flatten ([blanks (g 0), m.message, ['('], payload.getD [], [')']] ++
      (midParts g m ++ [gap (g 15), ['('], m.reset.getD [], [')'], blanks (g 16), [';'], blanks (g 17)])) := rfl
  rw [e, List.flatten_append, List.flatten_append]
  unfold midText
  generalize (midParts g m).flatten = x
  simp

theorem mid_no {C : Classes} (hC : Usual C) {g : Nat → Nat} {payload : Option Text} {m : Msg} (hm : Wellwritten C payload m)
    {c : Char} (hc : c ∈ ['(', '{', '}']) : c ∉ midText g m := by
  have h1 : c ∈ [' ', '(', ')', '[', ']', '{', '}', ';', ',', '/'] := by
    simp only [List.mem_cons, List.not_mem_nil, or_false] at hc
    rcases hc with rfl | rfl | rfl <;> simp
  have hne : c ≠ ' ' ∧ c ≠ '[' ∧ c ≠ ']' ∧ c ≠ ';' := by
    simp only [List.mem_cons, List.not_mem_nil, or_false] at hc
    rcases hc with rfl | rfl | rfl <;> decide
  obtain ⟨n1, n2, n3, n4⟩ := hne
  have lits : ∀ w ∈ [['f', 'r', 'o', 'm'], ['t', 'o'], ['w', 'i', 't', 'h', 'i', 'n'], ['u', 's', 'i', 'n', 'g'],
      ['a', 'n', 'd'], ['r', 'e', 's', 'e', 't', 't', 'i', 'n', 'g']], c ∉ w := by
    simp only [List.mem_cons, List.not_mem_nil, or_false] at hc
    rcases hc with rfl | rfl | rfl <;> decide
  unfold midText
  rw [List.mem_append, not_or]
  refine ⟨?_, gap_no n1 _⟩
  rw [List.mem_flatten]
  rintro ⟨u, hu, hcu⟩
  have all : ∀ u ∈ midParts g m, c ∉ u := by
    have s1 := word_no hC hm.sender h1
    have s2 := word_no hC hm.receiver h1
    have s3 := word_no hC hm.clock h1
    have s4 := number_no hC hm.leftBound h1
    have s5 := number_no hC hm.rightBound h1
    have l1 := lits _ (List.mem_cons_self ..)
    have l2 := lits ['t', 'o'] (by simp)
    have l3 := lits ['w', 'i', 't', 'h', 'i', 'n'] (by simp)
    have l4 := lits ['u', 's', 'i', 'n', 'g'] (by simp)
    have l5 := lits ['a', 'n', 'd'] (by simp)
    have l6 := lits ['r', 'e', 's', 'e', 't', 't', 'i', 'n', 'g'] (by simp)
    have l7 : c ∉ [';'] := by simp [n4]
    unfold midParts
    simp only [List.forall_mem_cons]
    exact ⟨gap_no n1 _, l1, gap_no n1 _, s1, gap_no n1 _, l2, gap_no n1 _, s2, gap_no n1 _, l3, gap_no n1 _, bracket_no n2 n3 _,
      blanks_no n1 _, s4, blanks_no n1 _, l7, blanks_no n1 _, s5, blanks_no n1 _, bracket_no n2 n3 _, gap_no n1 _, l4,
      gap_no n1 _, s3, gap_no n1 _, l5, gap_no n1 _, l6, by simp⟩
  exact all u hu hcu

/-- Where a character occurs in a text whose first part does not have it. -/
theorem first_occurrence {c : Char} : ∀ {H T A B : Text}, c ∉ H → A ++ c :: B = H ++ c :: T →
    (A = H ∧ B = T) ∨ ∃ A', A = H ++ c :: A' ∧ A' ++ c :: B = T
  | [], T, [], B, _, e => by simp at e; exact .inl ⟨rfl, e⟩
  | [], T, a :: A, B, _, e => by
    simp only [List.cons_append, List.nil_append, List.cons.injEq] at e
    exact .inr ⟨A, by simp [e.1], e.2⟩
  | x :: H, T, [], B, h, e => by
    simp only [List.cons_append, List.nil_append, List.cons.injEq] at e
    exact absurd (by simp [e.1]) h
  | x :: H, T, a :: A, B, h, e => by
    simp only [List.cons_append, List.cons.injEq] at e
    obtain ⟨rfl, e⟩ := e
    rcases first_occurrence (fun k => h (List.mem_cons_of_mem _ k)) e with ⟨h1, h2⟩ | ⟨A', h1, h2⟩
    · exact .inl ⟨by rw [h1], h2⟩
    · exact .inr ⟨A', by rw [h1]; rfl, h2⟩

theorem last_word {C : Classes} (hC : Usual C) {w : Text} (hw : IsWord C w) (a x : Text) (n : Nat) :
    a ++ w ≠ x ++ gap n := by
  intro e
  have e1 : gap n = blanks n ++ [' '] := by
    unfold gap blanks
    rw [← List.replicate_succ, List.replicate_succ']
  rw [e1, ← List.append_assoc] at e
  have : (a ++ w).getLast? = some ' ' := by rw [e]; simp
  rw [List.getLast?_append_of_ne_nil _ hw.1] at this
  have := List.mem_of_getLast? this
  exact word_no hC hw (c := ' ') (by simp) this

/-- A word followed by an opening parenthesis in a message line: only the name of the message. -/
theorem message_paren {C : Classes} (hC : Usual C) {g : Nat → Nat} {payload : Option Text} {m : Msg}
    (hm : Wellwritten C payload m) {a w b : Text} (hw : IsWord C w) (e : messageText g payload m = a ++ w ++ '(' :: b) :
    a ++ w = blanks (g 0) ++ m.message ∧ b = (payload.getD [] ++ ')' :: midText g m) ++
      '(' :: (m.reset.getD [] ++ ')' :: (blanks (g 16) ++ (';' :: blanks (g 17)))) := by
  rw [messageText_split] at e
  have nH : '(' ∉ blanks (g 0) ++ m.message := by
    simp [blanks_no (c := '(') (by decide), word_no hC hm.message (c := '(') (by simp)]
  have nP : '(' ∉ payload.getD [] := by
    cases hp : payload with
    | none => simp
    | some x => exact word_no hC (hm.payload x hp) (by simp)
  have nR : '(' ∉ m.reset.getD [] := by
    cases hp : m.reset with
    | none => simp
    | some x => exact word_no hC (hm.reset x hp) (by simp)
  have nT : '(' ∉ payload.getD [] ++ ')' :: midText g m := by
    simp [nP, mid_no hC hm (c := '(') (by simp)]
  have nE : '(' ∉ m.reset.getD [] ++ ')' :: (blanks (g 16) ++ (';' :: blanks (g 17))) := by
    simp [nR, blanks_no (c := '(') (by decide)]
  rcases first_occurrence nH e.symm with h | ⟨A', h1, h2⟩
  · exact h
  · exfalso
    rcases first_occurrence nT h2 with ⟨h3, _⟩ | ⟨A'', h3, h4⟩
    · subst h3
      refine last_word hC hw a ((blanks (g 0) ++ m.message) ++ '(' :: (payload.getD [] ++ ')' :: (midParts g m).flatten)) (g 15) ?_
      rw [h1]
      unfold midText
      simp
    · apply nE
      rw [← h4]; simp

theorem message_not_global {C : Classes} (hC : Usual C) {g : Nat → Nat} {payload : Option Text} {m : Msg}
    (hm : Wellwritten C payload m) : search C rxGlobal (messageText g payload m) = none := by
  rw [search_none]
  intro a s b e h
  unfold rxGlobal at h
  obtain ⟨u1, v1, rfl, h1, u2, v2, rfl, h2, u3, v3, rfl, h3, u4, v4, rfl, h4, u5, v5, rfl, h5, u6, v6, rfl, h6, u7, v7, rfl, h7,
    u8, v8, rfl, h8, _⟩ := h
  rw [describes_lit] at h1 h8
  obtain ⟨n, rfl⟩ := describes_sp1 h2
  have h7 := describes_word1 h7
  subst h1 h8
  have e' : messageText g payload m = ((a ++ ['t', 'i', 'm', 'e', 'd']) ++ (gap n ++ (u3 ++ (u4 ++ (u5 ++ u6))))) ++ u7 ++
      '(' :: (v8 ++ b) := by
    rw [e]; simp only [List.append_assoc, List.cons_append, List.nil_append]
  obtain ⟨h, _⟩ := message_paren hC hm h7 e'
  have t1 : tokens (blanks (g 0) ++ m.message) = [m.message] := by
    rw [tokens_blanks, tokens_word hm.message.1 (word_no hC hm.message (by simp))]
  rw [← h] at t1
  have e2 : (a ++ ['t', 'i', 'm', 'e', 'd'] ++ (gap n ++ (u3 ++ (u4 ++ (u5 ++ u6))))) ++ u7 =
      (a ++ ['t', 'i', 'm', 'e', 'd']) ++ (gap n ++ ((u3 ++ (u4 ++ (u5 ++ u6))) ++ u7)) := by
    simp only [List.append_assoc]
  rw [e2, tokens_gap] at t1
  obtain ⟨A, x, k1⟩ := tokens_last (w := ['t', 'i', 'm', 'e', 'd']) (by simp) (by decide) a
  obtain ⟨A', x', k2⟩ := tokens_last (w := u7) h7.1 (word_no hC h7 (by simp)) (u3 ++ (u4 ++ (u5 ++ u6)))
  rw [k1, k2] at t1
  have := congrArg List.length t1
  simp at this
  omega

/-- What a message regular expression that matches the line has found between the parentheses begins as in the line. -/
theorem message_match {C : Classes} (hC : Usual C) {g : Nat → Nat} {payload : Option Text} {m : Msg}
    (hm : Wellwritten C payload m) {rp rr : Rx} (hp : avoids C '(' rp = true) {a s b : Text}
    (e : messageText g payload m = a ++ s ++ b) (h : Describes C (rxMsg rp rr) s) :
    (∃ p, Describes C rp p ∧ ∃ x y, p ++ ')' :: x = payload.getD [] ++ ')' :: y) ∧
    (∃ r, Describes C rr r ∧ ∃ x y, r ++ ')' :: x = m.reset.getD [] ++ ')' :: y) := by
  obtain ⟨w, p, mid, r, z, rfl, hw, h1, h2, h3⟩ := msg_describes hC h
  have e' : messageText g payload m = a ++ w ++ '(' :: ((p ++ ')' :: mid) ++ '(' :: (r ++ ')' :: (z ++ b))) := by
    rw [e]; simp only [List.append_assoc, List.cons_append]
  obtain ⟨_, k⟩ := message_paren hC hm hw e'
  have nP : '(' ∉ payload.getD [] := by
    cases hp : payload with
    | none => simp
    | some x => exact word_no hC (hm.payload x hp) (by simp)
  have nT : '(' ∉ payload.getD [] ++ ')' :: midText g m := by
    simp [nP, mid_no hC hm (c := '(') (by simp)]
  have nA : '(' ∉ p ++ ')' :: mid := by
    simp [avoids_sound C '(' rp p hp h1, h2]
  rcases first_occurrence nT k with ⟨k1, k2⟩ | ⟨A', k1, _⟩
  · exact ⟨⟨p, h1, _, _, k1⟩, ⟨r, h3, _, _, k2⟩⟩
  · exact absurd (by rw [k1]; simp) nA

theorem word_not_nil {C : Classes} (hC : Usual C) {w x y : Text} (hw : IsWord C w) (e : w ++ ')' :: x = ')' :: y) : False := by
  cases w with
  | nil => exact hw.1 rfl
  | cons a w =>
    simp only [List.cons_append, List.cons.injEq] at e
    exact word_no hC hw (c := ')') (by simp) (by simp [e.1])

section negative
variable {C : Classes} (hC : Usual C) {g : Nat → Nat} {payload : Option Text} {m : Msg} (hm : Wellwritten C payload m)
include hC hm

theorem avoids_cap (x : Group) : avoids C '(' (.cap x word1) = true := by
  simp [avoids, word1, word0, Cls.has, hC.word '(' (by simp)]

/-- A line without payload is not matched by the expressions that want one. -/
theorem no_payload (h : payload = none) (rr : Rx) :
    search C (rxMsg (.cap .payload word1) rr) (messageText g payload m) = none := by
  rw [search_none]
  intro a s b e hd
  obtain ⟨⟨p, h1, x, y, k⟩, _⟩ := message_match hC hm (avoids_cap hC hm _) e hd
  subst h
  exact word_not_nil hC (describes_word1 h1) k

/-- A line with a payload is not matched by the expressions that want none. -/
theorem some_payload (v : Text) (h : payload = some v) (rr : Rx) :
    search C (rxMsg .eps rr) (messageText g payload m) = none := by
  rw [search_none]
  intro a s b e hd
  obtain ⟨⟨p, h1, x, y, k⟩, _⟩ := message_match hC hm (rp := .eps) rfl e hd
  have h1 : p = [] := h1
  subst h h1
  exact word_not_nil hC (hm.payload v rfl) k.symm

theorem no_reset (h : m.reset = none) (rp : Rx) (hp : avoids C '(' rp = true) :
    search C (rxMsg rp (.cap .reset word1)) (messageText g payload m) = none := by
  rw [search_none]
  intro a s b e hd
  obtain ⟨_, ⟨p, h1, x, y, k⟩⟩ := message_match hC hm hp e hd
  rw [h] at k
  exact word_not_nil hC (describes_word1 h1) k

/-- The expression fitting the line matches, from the name of the message. -/
theorem message_search (rp rr : Rx) (fp fr : Caps → Caps)
    (hp : ∀ k t c res, Ends C.word t → k t (fp c) = some res → rp.run C k (payload.getD [] ++ t) c = some res)
    (hrr : ∀ k t c res, Ends C.word t → k t (fr c) = some res → rr.run C k (m.reset.getD [] ++ t) c = some res) :
    search C (rxMsg rp rr) (messageText g payload m) = some (blanks (g 17), messageCaps m fp fr) := by
  rw [messageText_eq]
  exact search_blanks C _ (msg_no_blank hC rp rr) _ _
    (run_message_body hC g _ _ m rp rr fp fr hm.message hm.sender hm.receiver hm.leftBound hm.rightBound hm.clock hp hrr) _

theorem search_message :
    search C rxMessage (messageText g payload m) = some (blanks (g 17), messageCaps m id id) := by
  refine message_search hC hm word0 word0 id id ?_ ?_
  · intro k t c res ht hk
    refine run_word0 C k t c res _ ?_ ht hk
    cases hp : payload with
    | none => simp
    | some x => exact (hm.payload x hp).2
  · intro k t c res ht hk
    refine run_word0 C k t c res _ ?_ ht hk
    cases hp : m.reset with
    | none => simp
    | some x => exact (hm.reset x hp).2

theorem run_some (x : Group) (v : Text) (hv : IsWord C v) (k : Cont) (t c res) (ht : Ends C.word t)
    (hk : k t ((x, v) :: c) = some res) : (Rx.cap x word1).run C k ((some v).getD [] ++ t) c = some res :=
  run_cap_word C k t c res x v hv ht hk

theorem resetOf_message : resetOf C (messageText g payload m) = m.reset := by
  unfold resetOf rxPayloadReset rxReset
  cases hr : m.reset with
  | none => rw [no_reset hC hm hr _ (avoids_cap hC hm _), no_reset hC hm hr _ rfl]
  | some r =>
    have wr := hm.reset r hr
    cases hp : payload with
    | none =>
      subst hp
      rw [no_payload hC hm rfl, message_search hC hm .eps (.cap .reset word1) id (fun c => (.reset, r) :: c)
        (fun k t c res _ hk => hk) (fun k t c res ht hk => by rw [hr]; exact run_some hC hm _ r wr k t c res ht hk)]
      simp [messageCaps, Caps.get]
    | some v =>
      have wv := hm.payload v hp
      subst hp
      rw [message_search hC hm (.cap .payload word1) (.cap .reset word1) (fun c => (.payload, v) :: c) (fun c => (.reset, r) :: c)
        (fun k t c res ht hk => run_some hC hm _ v wv k t c res ht hk)
        (fun k t c res ht hk => by rw [hr]; exact run_some hC hm _ r wr k t c res ht hk)]
      simp [messageCaps, Caps.get]

theorem payloadOf_message : payloadOf C (messageText g payload m) = payload.getD [] := by
  unfold payloadOf isMatch rxPayloadReset rxReset rxPayload
  cases hp : payload with
  | none =>
    subst hp
    rw [no_payload hC hm rfl, no_payload hC hm rfl]
    simp
  | some v =>
    have wv := hm.payload v hp
    subst hp
    rw [some_payload hC hm v rfl]
    cases hr : m.reset with
    | none =>
      rw [no_reset hC hm hr _ (avoids_cap hC hm _), message_search hC hm (.cap .payload word1) .eps (fun c => (.payload, v) :: c) id
        (fun k t c res ht hk => run_some hC hm _ v wv k t c res ht hk) (fun k t c res _ hk => by rw [hr]; exact hk)]
      simp [messageCaps, Caps.get]
    | some r =>
      have wr := hm.reset r hr
      rw [message_search hC hm (.cap .payload word1) (.cap .reset word1) (fun c => (.payload, v) :: c) (fun c => (.reset, r) :: c)
        (fun k t c res ht hk => run_some hC hm _ v wv k t c res ht hk)
        (fun k t c res ht hk => by rw [hr]; exact run_some hC hm _ r wr k t c res ht hk)]
      simp [messageCaps, Caps.get]

theorem kindOf_message : kindOf C (messageText g payload m) = .message m := by
  unfold kindOf
  rw [message_not_global hC hm, search_message hC hm]
  simp only [Kind.message.injEq]
  unfold msgOf
  rw [resetOf_message hC hm, payloadOf_message hC hm, ← hm.agrees]
  cases m
  simp [messageCaps, Caps.get]
  constructor
  · rename_i b _ _ _ _; cases b <;> rfl
  · rename_i b _ _; cases b <;> rfl

theorem lineOf_message : lineOf C (messageText g payload m) = ⟨0, 0, false, .message m⟩ := by
  unfold lineOf
  rw [kindOf_message hC hm]
  have nb : ∀ c ∈ ['{', '}'], c ∉ messageText g payload m := by
    intro c hc
    have h1 : c ∈ [' ', '(', ')', '[', ']', '{', '}', ';', ',', '/'] := by
      simp only [List.mem_cons, List.not_mem_nil, or_false] at hc
      rcases hc with rfl | rfl <;> simp
    have h2 : c ∈ ['(', '{', '}'] := List.mem_cons_of_mem _ hc
    have h3 : c ≠ ' ' ∧ c ≠ '(' ∧ c ≠ ')' ∧ c ≠ ';' := by
      simp only [List.mem_cons, List.not_mem_nil, or_false] at hc
      rcases hc with rfl | rfl <;> decide
    have nP : c ∉ payload.getD [] := by
      cases hp : payload with
      | none => simp
      | some x => exact word_no hC (hm.payload x hp) h1
    have nR : c ∉ m.reset.getD [] := by
      cases hp : m.reset with
      | none => simp
      | some x => exact word_no hC (hm.reset x hp) h1
    rw [messageText_split]
    simp [nP, nR, mid_no hC hm h2, word_no hC hm.message h1, blanks_no h3.1, h3]
  rw [List.count_eq_zero.mpr (nb '{' (by simp)), List.count_eq_zero.mpr (nb '}' (by simp))]
  have : (messageText g payload m).isEmpty = false := by
    rw [messageText_split]; simp
  rw [this]

end negative

end Verif.NuscrTextSpec
