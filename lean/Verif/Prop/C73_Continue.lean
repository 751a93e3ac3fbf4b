import Verif.Prop.C73_Runs

/-!
# C73: `continue` with any time window
-/
namespace Verif.Prop
open Verif.Nuscr Verif.NuscrSpec Verif.NuscrText Verif.NuscrTextSpec Verif.NuscrLayout

/-! The fixed parts. -/

def sContinue : Text := ['c', 'o', 'n', 't', 'i', 'n', 'u', 'e', ' ']
def sWithin : Text := [' ', 'w', 'i', 't', 'h', 'i', 'n', ' ']
def sUsing : Text := [']', ' ', 'u', 's', 'i', 'n', 'g', ' ']
def sResetting : Text := [' ', 'a', 'n', 'd', ' ', 'r', 'e', 's', 'e', 't', 't', 'i', 'n', 'g', ' ', '(']

/-- `continue L within [a;b] using c and resetting (r);`; without reset `r` is empty. -/
def windowText (L a b c r : Text) : Text := List.flatten
  [sContinue, L, sWithin, ['['], a, [';'], b, sUsing, c, sResetting, r, [')', ';']]

/-- The names are words and the bounds numbers, and none of the words that start other lines occurs in it. -/
structure Window (C : Classes) (L a b c r : Text) : Prop where
  loop : IsWord C L
  left : IsNumber C a
  right : IsNumber C b
  clock : IsWord C c
  reset : ∀ x ∈ r, C.word x = true
  noHeader : ¬ ['t', 'i', 'm', 'e', 'd'] <:+: windowText L a b c r
  noChoice : ¬ ['c', 'h', 'o', 'i', 'c', 'e'] <:+: windowText L a b c r
  noLoop : ¬ ['r', 'e', 'c'] <:+: windowText L a b c r

theorem word_not {C : Classes} (hC : Usual C) {t : Text} (h : ∀ x ∈ t, C.word x = true) {x : Char}
    (hx : x ∈ [' ', '(', ')', '[', ']', '{', '}', ';', ',', '/']) : x ∉ t := fun hm => by
  have := hC.word x hx
  rw [h x hm] at this
  cases this

theorem number_not {C : Classes} (hC : Usual C) {t : Text} (h : ∀ x ∈ t, C.digit x = true) {x : Char}
    (hx : x ∈ [' ', '(', ')', '[', ']', '{', '}', ';', ',', '/']) : x ∉ t := fun hm => by
  have := hC.digit x hx
  rw [h x hm] at this
  cases this

/-- The first place of a character. -/
theorem split_first {c : Char} : ∀ {p q x y : Text}, p ++ c :: q = x ++ c :: y → c ∉ p →
    (x = p ∧ y = q) ∨ ∃ z, x = p ++ c :: z ∧ q = z ++ c :: y
  | [], q, [], y, h, _ => by
    simp only [List.nil_append, List.cons.injEq, true_and] at h
    exact .inl ⟨rfl, h.symm⟩
  | [], q, a :: x, y, h, _ => by
    simp only [List.nil_append, List.cons_append, List.cons.injEq] at h
    obtain ⟨rfl, rfl⟩ := h
    exact .inr ⟨x, rfl, rfl⟩
  | a :: p, q, [], y, h, hp => by
    simp only [List.nil_append, List.cons_append, List.cons.injEq] at h
    exact absurd (by rw [h.1]; exact List.mem_cons_self ..) hp
  | a :: p, q, b :: x, y, h, hp => by
    simp only [List.cons_append, List.cons.injEq] at h
    obtain ⟨rfl, h⟩ := h
    rcases split_first h (fun hm => hp (List.mem_cons_of_mem _ hm)) with ⟨rfl, rfl⟩ | ⟨z, rfl, rfl⟩
    · exact .inl ⟨rfl, rfl⟩
    · exact .inr ⟨z, rfl, rfl⟩

/-- The last of two characters, neither of which occurs after them. -/
theorem split_last {c d : Char} {p q x y : Text} (h : p ++ c :: q = x ++ d :: y) (hne : c ≠ d) (hc : c ∉ y) (hd : d ∉ q) :
    False := by
  rcases List.append_eq_append_iff.mp h with ⟨z, rfl, hz⟩ | ⟨z, rfl, hz⟩
  · cases z with
    | nil => simp only [List.nil_append, List.cons.injEq] at hz; exact hne hz.1
    | cons e z =>
      simp only [List.cons_append, List.cons.injEq] at hz
      exact hd (by rw [hz.2]; simp)
  · cases z with
    | nil => simp only [List.nil_append, List.cons.injEq] at hz; exact hne hz.1.symm
    | cons e z =>
      simp only [List.cons_append, List.cons.injEq] at hz
      exact hc (by rw [hz.2]; simp)

theorem last_char {p x : Text} {c d : Char} (h : p ++ [c] = x ++ [d]) : c = d := by
  have := (List.append_inj' h rfl).2
  simpa using this

section
variable {C : Classes} {L a b c r : Text}

/-- It is not a message: after `)` there is no blank. -/
theorem window_no_message (hC : Usual C) (h : Window C L a b c r) : search C rxMessage (windowText L a b c r) = none := by
  rw [search_none]
  rintro x s y e hs
  unfold rxMessage rxMsg at hs
  simp only [seqs] at hs
  obtain ⟨s1, v1, rfl, _, s2, v2, rfl, _, s3, v3, rfl, _, s4, v4, rfl, h4, s5, v5, rfl, h5, _⟩ := hs
  have e4 := (describes_lit C _ _).mp h4
  subst e4
  obtain ⟨n, hn⟩ := describes_sp1 h5
  subst hn
  have e1 : windowText L a b c r = List.flatten [sContinue, L, sWithin, ['['], a, [';'], b, sUsing, c, sResetting, r] ++ ')' :: [';'] := by
    simp [windowText]
  have e2 : x ++ (s1 ++ (s2 ++ (s3 ++ ([')'] ++ (gap n ++ v5))))) ++ y = (x ++ s1 ++ s2 ++ s3) ++ ')' :: (gap n ++ v5 ++ y) := by
    simp
  have hn : ')' ∉ List.flatten [sContinue, L, sWithin, ['['], a, [';'], b, sUsing, c, sResetting, r] := by
    simp only [List.flatten_cons, List.flatten_nil, List.mem_append, List.append_nil, not_or]
    exact ⟨by decide, word_not hC h.loop.2 (by decide), by decide, by decide, number_not hC h.left.2 (by decide), by decide,
      number_not hC h.right.2 (by decide), by decide, word_not hC h.clock.2 (by decide), by decide,
      word_not hC h.reset (by decide)⟩
  rw [e1, e2] at e
  rcases split_first e hn with ⟨_, h2⟩ | ⟨z, _, h2⟩
  · simp [gap] at h2
  · have : ')' ∈ [';'] := by rw [h2]; simp
    exact absurd this (by decide)

/-- It is not seen as a jump: between the name and the next `;` there is something else. -/
theorem window_no_jump (hC : Usual C) (h : Window C L a b c r) : search C rxContinue (windowText L a b c r) = none := by
  rw [search_none]
  rintro x s y e hs
  unfold rxContinue at hs
  simp only [seqs] at hs
  obtain ⟨s1, v1, rfl, _, s2, v2, rfl, h2, w, v3, rfl, hw, s4, v4, rfl, h4, s5, v5, rfl, h5, h6⟩ := hs
  have e5 := (describes_lit C _ _).mp h5
  have e6 : v5 = [] := h6
  subst e5 e6
  obtain ⟨n, rfl⟩ := describes_sp1 h2
  obtain ⟨k, rfl⟩ := describes_sp0 h4
  have hw : IsWord C w := describes_word1 hw
  have e1 : windowText L a b c r = (sContinue ++ L ++ sWithin ++ '[' :: a) ++ ';' ::
      ((b ++ sUsing ++ c ++ sResetting ++ r ++ [')']) ++ ';' :: []) := by
    simp [windowText]
  have e2 : x ++ (s1 ++ (gap n ++ (w ++ (blanks k ++ ([';'] ++ []))))) ++ y =
      (x ++ s1 ++ gap n ++ w ++ blanks k) ++ ';' :: y := by
    simp
  have n1 : ';' ∉ sContinue ++ L ++ sWithin ++ '[' :: a := by
    simp only [List.mem_append, List.mem_cons, not_or]
    exact ⟨⟨⟨by decide, word_not hC h.loop.2 (by decide)⟩, by decide⟩, by decide, number_not hC h.left.2 (by decide)⟩
  have n2 : ';' ∉ b ++ sUsing ++ c ++ sResetting ++ r ++ [')'] := by
    simp only [List.mem_append, not_or]
    exact ⟨⟨⟨⟨⟨number_not hC h.right.2 (by decide), by decide⟩, word_not hC h.clock.2 (by decide)⟩, by decide⟩,
      word_not hC h.reset (by decide)⟩, by decide⟩
  have nb : ' ' ∉ w := word_not hC hw.2 (by decide)
  have gapEnd : ∀ n, ∃ z, gap n = z ++ [' '] := by
    intro n
    refine ⟨blanks n, ?_⟩
    show ' ' :: List.replicate n ' ' = List.replicate n ' ' ++ [' ']
    rw [← List.replicate_succ, ← List.replicate_succ']
  rw [e1, e2] at e
  rcases split_first e n1 with ⟨h2, _⟩ | ⟨z, h2, h3⟩
  · -- the first semicolon is that of the window
    cases k with
    | succ k =>
      -- a blank before it
      have ha : a ≠ [] := h.left.1
      have e3 : sContinue ++ L ++ sWithin ++ '[' :: a =
          (sContinue ++ L ++ sWithin ++ '[' :: a.dropLast) ++ [a.getLast ha] := by
        conv => lhs; rw [← List.dropLast_append_getLast ha]
        simp
      obtain ⟨g, hg⟩ := gapEnd k
      rw [e3, show blanks (k + 1) = gap k from rfl, hg, ← List.append_assoc] at h2
      have hl := last_char h2
      exact number_not hC h.left.2 (x := ' ') (by decide) (by rw [hl]; exact List.getLast_mem ha)
    | zero =>
      obtain ⟨g, hg⟩ := gapEnd n
      rw [hg, show blanks 0 = [] from rfl, List.append_nil] at h2
      have e4 : x ++ s1 ++ (g ++ [' ']) ++ w = (x ++ s1 ++ g) ++ ' ' :: w := by simp
      rw [e4] at h2
      exact split_last h2 (by decide) (number_not hC h.left.2 (by decide)) (word_not hC hw.2 (by decide))
  · -- or it is the last
    have h3' : (b ++ sUsing ++ c ++ sResetting ++ r ++ [')']) ++ ';' :: [] = z ++ ';' :: y := h3
    rcases split_first h3' n2 with ⟨h4, _⟩ | ⟨u, _, h4⟩
    · subst h4
      cases k with
      | succ k =>
        obtain ⟨g, hg⟩ := gapEnd k
        rw [show blanks (k + 1) = gap k from rfl, hg, ← List.append_assoc, ← List.cons_append, ← List.append_assoc] at h2
        exact absurd (last_char h2) (by decide)
      | zero =>
        rw [show blanks 0 = [] from rfl, List.append_nil, ← List.dropLast_append_getLast hw.1, ← List.append_assoc,
          ← List.cons_append, ← List.append_assoc] at h2
        have hl := last_char h2
        exact word_not hC hw.2 (x := ')') (by decide) (by rw [← hl]; exact List.getLast_mem hw.1)
    · have : ';' ∈ ([] : Text) := by rw [h4]; simp
      simp at this

/-- C73: whatever the names and bounds, the generator does not see a jump with a time window. -/
theorem C73_window_silent (hC : Usual C) (h : Window C L a b c r) :
    lineOf C (windowText L a b c r) = ⟨0, 0, false, .other⟩ := by
  have nobr : ∀ x ∈ ['{', '}'], x ∉ windowText L a b c r := by
    intro x hx
    have hx' : x ∈ [' ', '(', ')', '[', ']', '{', '}', ';', ',', '/'] := by
      simp only [List.mem_cons, List.not_mem_nil, or_false] at hx
      rcases hx with rfl | rfl <;> decide
    unfold windowText
    simp only [List.flatten_cons, List.flatten_nil, List.mem_append, List.append_nil, not_or]
    refine ⟨?_, word_not hC h.loop.2 hx', ?_, ?_, number_not hC h.left.2 hx', ?_, number_not hC h.right.2 hx', ?_,
      word_not hC h.clock.2 hx', ?_, word_not hC h.reset hx', ?_⟩ <;>
    · simp only [List.mem_cons, List.not_mem_nil, or_false] at hx
      rcases hx with rfl | rfl <;> decide
  have hk : kindOf C (windowText L a b c r) = .other := by
    unfold kindOf
    rw [window_no_message hC h, window_no_jump hC h,
      show search C rxGlobal (windowText L a b c r) = none from search_needs (w := ['t', 'i', 'm', 'e', 'd']) (by simp) h.noHeader,
      show search C rxChoice (windowText L a b c r) = none from search_needs (w := ['c', 'h', 'o', 'i', 'c', 'e']) (by simp) h.noChoice,
      show search C rxRec (windowText L a b c r) = none from search_needs (w := ['r', 'e', 'c']) (by simp) h.noLoop,
      no_close (nobr '}' (by decide))]
    rfl
  unfold lineOf
  rw [hk, List.count_eq_zero.mpr (nobr '{' (by decide)), List.count_eq_zero.mpr (nobr '}' (by decide))]
  rfl

/-- Nor is its window removed for the external tool. -/
theorem C73_window_timed (hC : Usual C) (h : Window C L a b c r) (white : Char → Bool) :
    NuscrRegular.regularLine C white (windowText L a b c r) = windowText L a b c r := by
  unfold NuscrRegular.regularLine
  rw [window_no_message hC h]
  have : isMatch C rxGlobal (windowText L a b c r) = false := by
    unfold isMatch
    rw [show search C rxGlobal (windowText L a b c r) = none from search_needs (w := ['t', 'i', 'm', 'e', 'd']) (by simp) h.noHeader]
    rfl
  rw [this]
  rfl

end

/-- The ways of writing the lines of a protocol in which jumps have time windows; such a jump is `l`. -/
inductive WrittenTimed (C : Classes) (l : Line) : Line → Text → Prop where
  | usual {k t} : Written C k t → WrittenTimed C l k t
  | jump {L a b c r} : Window C L a b c r → WrittenTimed C l l (windowText L a b c r)

/-- C73, texts: a text of a protocol with a choice, in which every jump is written with a time window, is read as the
protocol in which nobody goes back. -/
theorem C73_window_lost (title : Text → Text) (C : Classes) (hC : Usual C) (P : Proto) (text : List Text)
    (h : List.Forall₂ (WrittenTimed C ⟨0, 0, false, .other⟩) (Proto.linesWith ⟨0, 0, false, .other⟩ P) text) (prog : Program) :
    generatorText title C text = .ok prog ↔ generator title (Proto.once P).lines = .ok prog := by
  have e : text.map (lineOf C) = Proto.linesWith ⟨0, 0, false, .other⟩ P := by
    generalize Proto.linesWith ⟨0, 0, false, .other⟩ P = ls at h
    induction h with
    | nil => rfl
    | cons h1 _ ih =>
      rw [List.map_cons, ih]
      congr 1
      cases h1 with
      | usual hw => exact lineOf_written hC hw
      | jump hw => exact C73_window_silent hC hw
  unfold generatorText
  rw [e]
  exact C73_continue_lost title P _ ⟨rfl, rfl, .inr rfl⟩ prog

/-- The line of the protocols that come with the project is such a line. -/
example : windowText "Loop".toList ['0'] ['1'] ['a'] [] = windowed ∧ Window ascii "Loop".toList ['0'] ['1'] ['a'] [] :=
  ⟨by decide, ⟨by decide, by decide +kernel⟩, ⟨by decide, by decide⟩, ⟨by decide, by decide⟩, ⟨by decide, by decide⟩, by decide,
    by decide +kernel, by decide +kernel, by decide +kernel⟩

/-- And there are such texts: that of the video stream, without its comments. -/
example : ∃ text prog, List.Forall₂ (WrittenTimed ascii ⟨0, 0, false, .other⟩) (Proto.linesWith ⟨0, 0, false, .other⟩ videoStreamPlan) text ∧
    generatorText id ascii text = .ok prog := by
  have hw : Window ascii "Loop".toList ['0'] ['1'] ['a'] [] :=
    ⟨⟨by decide, by decide +kernel⟩, ⟨by decide, by decide⟩, ⟨by decide, by decide⟩, ⟨by decide, by decide⟩, by decide,
      by decide +kernel, by decide +kernel, by decide +kernel⟩
  have hl : ∀ l ∈ Proto.linesWith ⟨0, 0, false, .other⟩ videoStreamPlan, l = ⟨0, 0, false, .other⟩ ∨ writtenB l = true := by
    decide +kernel
  have hx : ∀ ls : List Line, (∀ l ∈ ls, l = ⟨0, 0, false, .other⟩ ∨ writtenB l = true) →
      ∃ text, List.Forall₂ (WrittenTimed ascii ⟨0, 0, false, .other⟩) ls text := by
    intro ls
    induction ls with
    | nil => exact fun _ => ⟨[], .nil⟩
    | cons l ls ih =>
      intro h
      obtain ⟨text, ht⟩ := ih fun k hk => h k (List.mem_cons_of_mem _ hk)
      rcases h l (List.mem_cons_self ..) with rfl | h1
      · exact ⟨_, .cons (.jump hw) ht⟩
      · obtain ⟨t, h2⟩ := written_of h1
        exact ⟨_, .cons (.usual h2) ht⟩
  obtain ⟨text, ht⟩ := hx _ hl
  obtain ⟨prog, h⟩ := (okB_iff (generator id (Proto.once videoStreamPlan).lines)).mp (by decide +kernel)
  exact ⟨text, prog, ht, (C73_window_lost id ascii ascii_usual videoStreamPlan text ht prog).mpr h⟩

end Verif.Prop
