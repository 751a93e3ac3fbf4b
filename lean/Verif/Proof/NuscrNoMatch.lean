import Verif.Proof.NuscrText

/-!
# Where the regular expressions do not match
-/
namespace Verif.NuscrTextSpec
open Verif.Nuscr Verif.NuscrText

/-! What the parts of the regular expressions describe. -/

theorem describes_seqs (C : Classes) (r : Rx) (rs : List Rx) (s : Text) :
    Describes C (seqs (r :: rs)) s ↔ ∃ u v, s = u ++ v ∧ Describes C r u ∧ Describes C (seqs rs) v := Iff.rfl

theorem describes_lit (C : Classes) : ∀ (w s : Text), Describes C (lit w) s ↔ s = w
  | [], s => Iff.rfl
  | a :: w, s => by
    unfold lit
    rw [List.map_cons, describes_seqs]
    constructor
    · rintro ⟨u, v, rfl, ⟨b, rfl, hb⟩, h⟩
      have := (describes_lit C w v).mp h
      subst this
      simp only [Cls.has, beq_iff_eq] at hb
      rw [hb]; rfl
    · rintro rfl
      exact ⟨[a], w, rfl, ⟨a, rfl, by simp [Cls.has]⟩, (describes_lit C w w).mpr rfl⟩

theorem describes_star_cls {C : Classes} {x : Cls} {s : Text} (h : Describes C (.star (.cls x)) s) :
    ∀ a ∈ s, x.has C a = true := by
  obtain ⟨l, rfl, h⟩ := h
  intro a ha
  obtain ⟨u, hu, ha⟩ := List.mem_flatten.mp ha
  obtain ⟨b, rfl, hb⟩ := h u hu
  simp only [List.mem_singleton] at ha
  rw [ha]; exact hb

theorem describes_sp0 {C : Classes} {s : Text} (h : Describes C sp0 s) : ∃ n, s = blanks n := by
  have := describes_star_cls h
  refine ⟨s.length, ?_⟩
  unfold blanks
  rw [List.eq_replicate_iff]
  exact ⟨rfl, fun a ha => by simpa [Cls.has] using this a ha⟩

theorem describes_sp1 {C : Classes} {s : Text} (h : Describes C sp1 s) : ∃ n, s = gap n := by
  obtain ⟨u, v, rfl, ⟨a, rfl, ha⟩, h⟩ := h
  obtain ⟨n, rfl⟩ := describes_sp0 h
  simp only [Cls.has, beq_iff_eq] at ha
  subst ha
  exact ⟨n, rfl⟩

theorem describes_word0 {C : Classes} {s : Text} (h : Describes C word0 s) : ∀ a ∈ s, C.word a = true :=
  describes_star_cls h

theorem describes_word1 {C : Classes} {s : Text} (h : Describes C word1 s) : IsWord C s := by
  obtain ⟨u, v, rfl, ⟨a, rfl, ha⟩, h⟩ := h
  refine ⟨by simp, ?_⟩
  intro b hb
  rcases List.mem_append.mp hb with hb | hb
  · simp only [List.mem_singleton] at hb; rw [hb]; exact ha
  · exact describes_word0 h b hb

/-- A literal part occurs in the text. -/
theorem describes_mem {C : Classes} {w : Text} : ∀ {rs : List Rx} {s : Text}, Describes C (seqs rs) s → lit w ∈ rs → w <:+: s
  | r :: rs, s, h, hm => by
    obtain ⟨u, v, rfl, h1, h2⟩ := h
    rcases List.mem_cons.mp hm with e | e
    · rw [← e] at h1
      rw [(describes_lit C w u).mp h1]
      exact ⟨[], v, by simp⟩
    · obtain ⟨a, b, e⟩ := describes_mem h2 e
      exact ⟨u ++ a, b, by rw [← e]; simp⟩

theorem search_needs {C : Classes} {w : Text} {rs : List Rx} {t : Text} (hm : lit w ∈ rs) (hn : ¬ w <:+: t) :
    search C (seqs rs) t = none := by
  rw [search_none]
  rintro a s b rfl h
  obtain ⟨x, y, e⟩ := describes_mem h hm
  exact hn ⟨a ++ x, y ++ b, by rw [← e]; simp⟩

theorem not_infix_of_mem {w t : Text} {c : Char} (h1 : c ∈ w) (h2 : c ∉ t) : ¬ w <:+: t := by
  rintro ⟨a, b, rfl⟩
  exact h2 (by simp [h1])

/-- Without an opening parenthesis there is no header and no message. -/
theorem no_paren (C : Classes) {t : Text} (h : '(' ∉ t) :
    search C rxGlobal t = none ∧ ∀ rp rr, search C (rxMsg rp rr) t = none := by
  constructor
  · exact search_needs (w := ['(']) (by simp) (not_infix_of_mem (c := '(') (by simp) h)
  · intro rp rr
    exact search_needs (w := ['(']) (by simp) (not_infix_of_mem (c := '(') (by simp) h)

/-! Words separated by blanks. -/

def tokens : Text → List Text
  | [] => []
  | a :: t =>
    if a = ' ' then tokens t
    else
      match t with
      | [] => [[a]]
      | b :: _ =>
        if b = ' ' then [a] :: tokens t
        else
          match tokens t with
          | w :: ws => (a :: w) :: ws
          | [] => [[a]]

theorem tokens_blank (t : Text) : tokens (' ' :: t) = tokens t := by
  rw [tokens.eq_def]; simp

theorem tokens_blanks : ∀ (n : Nat) (t : Text), tokens (blanks n ++ t) = tokens t
  | 0, t => rfl
  | n + 1, t => by
    have e : blanks (n + 1) ++ t = ' ' :: (blanks n ++ t) := rfl
    rw [e, tokens_blank, tokens_blanks n]

theorem tokens_single {a : Char} (ha : a ≠ ' ') : tokens [a] = [[a]] := by
  simp [tokens, ha]

theorem tokens_cons_blank {a : Char} (ha : a ≠ ' ') (t : Text) : tokens (a :: ' ' :: t) = [a] :: tokens t := by
  rw [tokens.eq_def]
  simp [ha, tokens_blank]

theorem tokens_cons_cons {a b : Char} (ha : a ≠ ' ') (hb : b ≠ ' ') (t : Text) :
    ∃ w ws, tokens (b :: t) = w :: ws ∧ tokens (a :: b :: t) = (a :: w) :: ws := by
  have : ∃ w ws, tokens (b :: t) = w :: ws := by
    cases t with
    | nil => exact ⟨_, _, tokens_single hb⟩
    | cons c t =>
      rw [tokens.eq_def]
      simp only [hb, if_false]
      split
      · exact ⟨_, _, rfl⟩
      · split
        · exact ⟨_, _, rfl⟩
        · exact ⟨_, _, rfl⟩
  obtain ⟨w, ws, e⟩ := this
  refine ⟨w, ws, e, ?_⟩
  rw [tokens.eq_def]
  simp [ha, hb, e]

theorem tokens_append_blank : ∀ (a b : Text), tokens (a ++ ' ' :: b) = tokens a ++ tokens b
  | [], b => tokens_blank b
  | [x], b => by
    by_cases hx : x = ' '
    · subst hx
      simp only [List.cons_append, List.nil_append, tokens_blank]
      rfl
    · rw [List.cons_append, List.nil_append, tokens_cons_blank hx, tokens_single hx]; rfl
  | x :: y :: a, b => by
    have ih := tokens_append_blank (y :: a) b
    by_cases hx : x = ' '
    · subst hx
      rw [List.cons_append, tokens_blank, tokens_blank]
      exact ih
    · by_cases hy : y = ' '
      · subst hy
        rw [List.cons_append, List.cons_append, tokens_cons_blank hx, tokens_cons_blank hx]
        rw [List.cons_append, tokens_blank, tokens_blank] at ih
        rw [ih]; rfl
      · obtain ⟨w, ws, e1, e2⟩ := tokens_cons_cons hx hy a
        obtain ⟨w', ws', e1', e2'⟩ := tokens_cons_cons hx hy (a ++ ' ' :: b)
        simp only [List.cons_append] at ih ⊢
        rw [e2', e2]
        rw [e1', e1] at ih
        simp only [List.cons_append, List.cons.injEq] at ih ⊢
        exact ⟨⟨trivial, ih.1⟩, ih.2⟩

theorem tokens_gap (a : Text) (n : Nat) (b : Text) : tokens (a ++ (gap n ++ b)) = tokens a ++ tokens b := by
  have e : a ++ (gap n ++ b) = a ++ ' ' :: (blanks n ++ b) := rfl
  rw [e, tokens_append_blank, tokens_blanks]

theorem tokens_word : ∀ {w : Text}, w ≠ [] → ' ' ∉ w → tokens w = [w]
  | [a], _, h => tokens_single (by rintro rfl; exact h (by simp))
  | a :: b :: w, _, h => by
    have ha : a ≠ ' ' := by rintro rfl; exact h (by simp)
    have hb : b ≠ ' ' := by rintro rfl; exact h (by simp)
    obtain ⟨u, us, e1, e2⟩ := tokens_cons_cons ha hb w
    have := tokens_word (w := b :: w) (by simp) (fun k => h (List.mem_cons_of_mem _ k))
    rw [this] at e1
    simp only [List.cons.injEq] at e1
    rw [e2, ← e1.1, ← e1.2]

theorem tokens_end (n : Nat) (a : Text) : tokens (a ++ blanks n) = tokens a := by
  cases n with
  | zero => simp [blanks]
  | succ n =>
    have e : a ++ blanks (n + 1) = a ++ ' ' :: (blanks n ++ []) := by simp [blanks, List.replicate_succ]
    rw [e, tokens_append_blank, tokens_blanks]
    simp [tokens]

/-- The first token of a text that does not begin with a blank. -/
theorem tokens_first {a : Char} (ha : a ≠ ' ') : ∀ t : Text, ∃ w ws, tokens (a :: t) = (a :: w) :: ws
  | [] => ⟨[], [], tokens_single ha⟩
  | b :: t => by
    by_cases hb : b = ' '
    · subst hb; exact ⟨[], _, tokens_cons_blank ha t⟩
    · obtain ⟨w, ws, _, e⟩ := tokens_cons_cons ha hb t
      exact ⟨_, _, e⟩

/-- The last token of a text ending with `w`. -/
theorem tokens_last {w : Text} (hw : w ≠ []) (hb : ' ' ∉ w) : ∀ x : Text, ∃ A u, tokens (x ++ w) = A ++ [u ++ w]
  | [] => ⟨[], [], by simp [tokens_word hw hb]⟩
  | a :: x => by
    obtain ⟨A, u, e⟩ := tokens_last hw hb x
    by_cases ha : a = ' '
    · subst ha
      exact ⟨A, u, by rw [List.cons_append, tokens_blank, e]⟩
    · cases h : x ++ w with
      | nil => simp at h; exact absurd h.2 hw
      | cons b t =>
        rw [List.cons_append, h]
        rw [h] at e
        by_cases hb' : b = ' '
        · subst hb'
          refine ⟨[a] :: A, u, ?_⟩
          rw [tokens_cons_blank ha]
          rw [tokens_blank] at e
          rw [e]; rfl
        · obtain ⟨v, vs, e1, e2⟩ := tokens_cons_cons ha hb' t
          rw [e2]
          rw [e1] at e
          cases A with
          | nil =>
            simp only [List.nil_append, List.cons.injEq] at e
            exact ⟨[], a :: u, by simp [e.1, e.2]⟩
          | cons x A =>
            simp only [List.cons_append, List.cons.injEq] at e
            exact ⟨(a :: x) :: A, u, by simp [e.1, e.2]⟩

theorem word_no {C : Classes} (hC : Usual C) {w : Text} (hw : IsWord C w) {c : Char}
    (hc : c ∈ [' ', '(', ')', '[', ']', '{', '}', ';', ',', '/']) : c ∉ w := by
  intro h
  have := hw.2 c h
  rw [hC.word c hc] at this
  cases this

/-- `choice( +)at( +)\w+` in a text: the word `at` is neither the first nor the last token. -/
theorem choice_tokens {C : Classes} (hC : Usual C) {t : Text} (h : search C rxChoice t ≠ none) :
    ∃ X Y c w, tokens t = X ++ [['a', 't']] ++ ((c :: w) :: Y) ∧ X ≠ [] ∧ C.word c = true := by
  have h0 := h
  clear h
  rw [ne_eq, search_none] at h0
  have h : ∃ a s b, t = a ++ s ++ b ∧ Describes C rxChoice s := by
    by_contra hno
    exact h0 fun a s b e hd => hno ⟨a, s, b, e, hd⟩
  clear h0
  obtain ⟨a, s, b, rfl, h⟩ := h
  unfold rxChoice at h
  obtain ⟨u1, v1, rfl, h1, h⟩ := h
  obtain ⟨u2, v2, rfl, h2, h⟩ := h
  obtain ⟨u3, v3, rfl, h3, h⟩ := h
  obtain ⟨u4, v4, rfl, h4, h⟩ := h
  obtain ⟨u5, v5, rfl, h5, h⟩ := h
  rw [describes_lit] at h1 h3
  obtain ⟨n, rfl⟩ := describes_sp1 h2
  obtain ⟨k, rfl⟩ := describes_sp1 h4
  have h5 := describes_word1 h5
  subst h1 h3
  cases u5 with
  | nil => exact absurd rfl h5.1
  | cons c w =>
    have hc : c ≠ ' ' := by
      rintro rfl
      exact word_no hC h5 (c := ' ') (by simp) (by simp)
    have e : a ++ (['c', 'h', 'o', 'i', 'c', 'e'] ++ (gap n ++ (['a', 't'] ++ (gap k ++ (c :: w ++ v5))))) ++ b =
        (a ++ ['c', 'h', 'o', 'i', 'c', 'e']) ++ (gap n ++ (['a', 't'] ++ (gap k ++ (c :: (w ++ (v5 ++ b)))))) := by
      simp only [List.append_assoc, List.cons_append]
    rw [e, tokens_gap, tokens_gap]
    obtain ⟨A, x, e1⟩ := tokens_last (w := ['c', 'h', 'o', 'i', 'c', 'e']) (by simp) (by decide) a
    obtain ⟨y, Y, e2⟩ := tokens_first hc (w ++ (v5 ++ b))
    rw [e1, e2, tokens_word (w := ['a', 't']) (by simp) (by decide)]
    exact ⟨A ++ [x ++ ['c', 'h', 'o', 'i', 'c', 'e']], Y, c, y, by simp only [List.append_assoc], by simp, h5.2 c (by simp)⟩

/-- `rec( +)\w+` in a text: a token ends with `rec`, and the next one begins with a character of a word. -/
theorem rec_tokens {C : Classes} (hC : Usual C) {t : Text} (h : search C rxRec t ≠ none) :
    ∃ X Y u c w, tokens t = X ++ [u ++ ['r', 'e', 'c']] ++ ((c :: w) :: Y) ∧ C.word c = true := by
  have h0 := h
  clear h
  rw [ne_eq, search_none] at h0
  have h : ∃ a s b, t = a ++ s ++ b ∧ Describes C rxRec s := by
    by_contra hno
    exact h0 fun a s b e hd => hno ⟨a, s, b, e, hd⟩
  clear h0
  obtain ⟨a, s, b, rfl, h⟩ := h
  unfold rxRec at h
  obtain ⟨u1, v1, rfl, h1, h⟩ := h
  obtain ⟨u2, v2, rfl, h2, h⟩ := h
  obtain ⟨u5, v5, rfl, h5, h⟩ := h
  rw [describes_lit] at h1
  obtain ⟨n, rfl⟩ := describes_sp1 h2
  have h5 := describes_word1 h5
  subst h1
  cases u5 with
  | nil => exact absurd rfl h5.1
  | cons c w =>
    have hc : c ≠ ' ' := by
      rintro rfl
      exact word_no hC h5 (c := ' ') (by simp) (by simp)
    have e : a ++ (['r', 'e', 'c'] ++ (gap n ++ (c :: w ++ v5))) ++ b =
        (a ++ ['r', 'e', 'c']) ++ (gap n ++ (c :: (w ++ (v5 ++ b)))) := by
      simp only [List.append_assoc, List.cons_append]
    rw [e, tokens_gap]
    obtain ⟨A, x, e1⟩ := tokens_last (w := ['r', 'e', 'c']) (by simp) (by decide) a
    obtain ⟨y, Y, e2⟩ := tokens_first hc (w ++ (v5 ++ b))
    rw [e1, e2]
    exact ⟨A, Y, x, c, y, rfl, h5.2 c (by simp)⟩

end Verif.NuscrTextSpec
