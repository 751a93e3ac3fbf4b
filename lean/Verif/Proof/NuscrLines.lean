import Verif.Proof.NuscrMessage

/-!
# Reading the other lines
-/
namespace Verif.NuscrTextSpec
open Verif.Nuscr Verif.NuscrText

theorem run_eq_lit (C : Classes) (k : Cont) (a : Char) (w : Text) (b : Char) (t : Text) (c : Caps) (h : b ≠ a) :
    (lit (a :: w)).run C k (b :: t) c = none := by
  simp [lit, seqs, Rx.run, Cls.has, h]

theorem lit_no_blank (C : Classes) (a : Char) (w : Text) (rs : List Rx) (h : ' ' ≠ a) (t : Text) (c : Caps) :
    (seqs (lit (a :: w) :: rs)).run C done (' ' :: t) c = none := by
  rw [run_seqs]
  exact run_eq_lit C _ a w ' ' t c h

theorem count_zero {c : Char} {l : List Text} (h : ∀ u ∈ l, c ∉ u) : c ∉ l.flatten := by
  rw [List.mem_flatten]
  rintro ⟨u, hu, hc⟩
  exact h u hu hc

theorem run_opt (C : Classes) (k : Cont) (w t : Text) (c : Caps) (res) (h : (lit w).run C k (w ++ t) c = some res) :
    (opt (lit w)).run C k (w ++ t) c = some res := by
  unfold opt
  simp only [Rx.run, h]

section lines
variable {C : Classes} (hC : Usual C) (g : Nat → Nat) {x : Text} (hx : IsWord C x)

/-! ## The beginning of a loop -/

include hC hx in
theorem loop_tokens : tokens (loopText g x) = [['r', 'e', 'c'], x ++ ['{']] ∨
    tokens (loopText g x) = [['r', 'e', 'c'], x, ['{']] := by
  unfold loopText
  rw [List.flatten_cons, tokens_blanks, List.flatten_cons, List.flatten_cons, tokens_gap,
    tokens_word (w := ['r', 'e', 'c']) (by simp) (by decide)]
  have hb := word_no hC hx (c := ' ') (by simp)
  cases hg : g 2 with
  | zero =>
    left
    have e : [x, blanks 0, ['{'], blanks (g 3)].flatten = (x ++ ['{']) ++ blanks (g 3) := by simp [blanks]
    rw [e, tokens_end, tokens_word (by simp) (by simp [hb])]
    rfl
  | succ n =>
    right
    have e : [x, blanks (n + 1), ['{'], blanks (g 3)].flatten = x ++ (gap n ++ (['{'] ++ blanks (g 3))) := by
      simp [blanks, gap, List.replicate_succ]
    rw [e, tokens_gap, tokens_end, tokens_word hx.1 hb, tokens_word (w := ['{']) (by simp) (by decide)]
    rfl

include hC hx in
theorem loop_no {c : Char} (h : c ∈ ['(', ')', '[', ']', '}', ';', ',', '/']) : c ∉ loopText g x := by
  have h1 : c ∈ [' ', '(', ')', '[', ']', '{', '}', ';', ',', '/'] := by
    simp only [List.mem_cons, List.not_mem_nil, or_false] at h
    rcases h with rfl | rfl | rfl | rfl | rfl | rfl | rfl | rfl <;> simp
  have h2 : c ≠ ' ' := by
    simp only [List.mem_cons, List.not_mem_nil, or_false] at h
    rcases h with rfl | rfl | rfl | rfl | rfl | rfl | rfl | rfl <;> decide
  have h3 : c ∉ ['r', 'e', 'c'] ∧ c ∉ ['{'] := by
    simp only [List.mem_cons, List.not_mem_nil, or_false] at h
    rcases h with rfl | rfl | rfl | rfl | rfl | rfl | rfl | rfl <;> decide
  apply count_zero
  simp only [List.forall_mem_cons]
  exact ⟨blanks_no h2 _, h3.1, gap_no h2 _, word_no hC hx h1, blanks_no h2 _, h3.2, blanks_no h2 _, by simp⟩

include hC hx in
theorem loop_not_choice : search C rxChoice (loopText g x) = none := by
  by_contra h
  obtain ⟨X, Y, c, w, e, h1, h2⟩ := choice_tokens hC h
  have hc : c ≠ '{' := by rintro rfl; rw [hC.word '{' (by simp)] at h2; cases h2
  cases X with
  | nil => exact h1 rfl
  | cons a X =>
    rcases loop_tokens hC g hx with k | k <;> rw [k] at e
    · have := congrArg List.length e
      simp at this
      omega
    · cases X with
      | nil => simp at e; exact hc e.2.2.1.1.symm
      | cons b X =>
        have := congrArg List.length e
        simp at this
        omega

include hC hx in
theorem search_loop : ∃ t, search C rxRec (loopText g x) = some (t, [(.loop, x)]) := by
  refine ⟨[blanks (g 2), ['{'], blanks (g 3)].flatten, ?_⟩
  unfold loopText rxRec
  rw [List.flatten_cons]
  refine search_blanks C _ (lit_no_blank C 'r' _ _ (by decide)) _ _ ?_ _
  rw [run_seqs, List.flatten_cons]; refine run_lit C _ _ _ _ _ ?_
  rw [run_seqs, List.flatten_cons]; refine run_sp1 C _ _ _ _ _ (ends_word hC hx _) ?_
  rw [run_seqs, List.flatten_cons]
  refine run_cap_word C _ _ _ _ _ _ hx (ends_blanks (hC.word ' ' (by simp)) (ends_cons (hC.word '{' (by simp)) _ _) _) ?_
  rfl

theorem no_close {t : Text} (h : '}' ∉ t) : isMatch C rxOr t = false := by
  unfold isMatch
  rw [show search C rxOr t = none from search_needs (w := ['}']) (by simp) (not_infix_of_mem (c := '}') (by simp) h)]
  rfl

theorem count_in {c : Char} {A B : Text} (h1 : c ∉ A) (h2 : c ∉ B) : (A ++ c :: B).count c = 1 := by
  rw [List.count_append, List.count_cons_self, List.count_eq_zero.mpr h1, List.count_eq_zero.mpr h2]

include hC hx in
theorem lineOf_loop : lineOf C (loopText g x) = ⟨1, 0, false, .loop x⟩ := by
  obtain ⟨t, ht⟩ := search_loop hC g hx
  have hp := no_paren C (loop_no hC g hx (c := '(') (by simp))
  have hk : kindOf C (loopText g x) = .loop x := by
    unfold kindOf rxMessage
    rw [hp.1, hp.2, loop_not_choice hC g hx, no_close (loop_no hC g hx (by simp)), ht]
    simp [Caps.get]
  unfold lineOf
  rw [hk, List.count_eq_zero.mpr (loop_no hC g hx (c := '}') (by simp))]
  have e : loopText g x = (blanks (g 0) ++ (['r', 'e', 'c'] ++ (gap (g 1) ++ (x ++ blanks (g 2))))) ++ '{' :: blanks (g 3) := by
    simp [loopText]
  have hb : ∀ n, '{' ∉ blanks n := blanks_no (by decide)
  have hg : '{' ∉ gap (g 1) := gap_no (by decide) _
  have hw := word_no hC hx (c := '{') (by simp)
  rw [e, count_in (by simp [hb, hg, hw]) (hb _)]
  simp

/-! ## A jump -/

include hC hx in
theorem jump_tokens : tokens (jumpText g x) = [['c', 'o', 'n', 't', 'i', 'n', 'u', 'e'], x ++ [';']] ∨
    tokens (jumpText g x) = [['c', 'o', 'n', 't', 'i', 'n', 'u', 'e'], x, [';']] := by
  unfold jumpText
  rw [List.flatten_cons, tokens_blanks, List.flatten_cons, List.flatten_cons, tokens_gap,
    tokens_word (w := ['c', 'o', 'n', 't', 'i', 'n', 'u', 'e']) (by simp) (by decide)]
  have hb := word_no hC hx (c := ' ') (by simp)
  cases hg : g 2 with
  | zero =>
    left
    have e : [x, blanks 0, [';'], blanks (g 3)].flatten = (x ++ [';']) ++ blanks (g 3) := by simp [blanks]
    rw [e, tokens_end, tokens_word (by simp) (by simp [hb])]
    rfl
  | succ n =>
    right
    have e : [x, blanks (n + 1), [';'], blanks (g 3)].flatten = x ++ (gap n ++ ([';'] ++ blanks (g 3))) := by
      simp [blanks, gap, List.replicate_succ]
    rw [e, tokens_gap, tokens_end, tokens_word hx.1 hb, tokens_word (w := [';']) (by simp) (by decide)]
    rfl

include hC hx in
theorem jump_no {c : Char} (h : c ∈ ['(', ')', '[', ']', '{', '}', ',', '/']) : c ∉ jumpText g x := by
  have h1 : c ∈ [' ', '(', ')', '[', ']', '{', '}', ';', ',', '/'] := by
    simp only [List.mem_cons, List.not_mem_nil, or_false] at h
    rcases h with rfl | rfl | rfl | rfl | rfl | rfl | rfl | rfl <;> simp
  have h2 : c ≠ ' ' := by
    simp only [List.mem_cons, List.not_mem_nil, or_false] at h
    rcases h with rfl | rfl | rfl | rfl | rfl | rfl | rfl | rfl <;> decide
  have h3 : c ∉ ['c', 'o', 'n', 't', 'i', 'n', 'u', 'e'] ∧ c ∉ [';'] := by
    simp only [List.mem_cons, List.not_mem_nil, or_false] at h
    rcases h with rfl | rfl | rfl | rfl | rfl | rfl | rfl | rfl <;> decide
  apply count_zero
  simp only [List.forall_mem_cons]
  exact ⟨blanks_no h2 _, h3.1, gap_no h2 _, word_no hC hx h1, blanks_no h2 _, h3.2, blanks_no h2 _, by simp⟩

include hC hx in
theorem jump_not_choice : search C rxChoice (jumpText g x) = none := by
  by_contra h
  obtain ⟨X, Y, c, w, e, h1, h2⟩ := choice_tokens hC h
  have hc : c ≠ ';' := by rintro rfl; rw [hC.word ';' (by simp)] at h2; cases h2
  cases X with
  | nil => exact h1 rfl
  | cons a X =>
    rcases jump_tokens hC g hx with k | k <;> rw [k] at e
    · have := congrArg List.length e
      simp at this
      omega
    · cases X with
      | nil => simp at e; exact hc e.2.2.1.1.symm
      | cons b X =>
        have := congrArg List.length e
        simp at this
        omega

theorem not_rec_continue {u : Text} : u ++ ['r', 'e', 'c'] ≠ ['c', 'o', 'n', 't', 'i', 'n', 'u', 'e'] := by
  intro e
  have := congrArg List.getLast? e
  simp at this

include hC hx in
theorem jump_not_rec : search C rxRec (jumpText g x) = none := by
  by_contra h
  obtain ⟨X, Y, u, c, w, e, h2⟩ := rec_tokens hC h
  have hc : c ≠ ';' := by rintro rfl; rw [hC.word ';' (by simp)] at h2; cases h2
  cases X with
  | nil =>
    rcases jump_tokens hC g hx with k | k <;> rw [k] at e <;> simp at e <;> exact not_rec_continue e.1.symm
  | cons a X =>
    rcases jump_tokens hC g hx with k | k <;> rw [k] at e
    · have := congrArg List.length e
      simp at this
      omega
    · cases X with
      | nil => simp at e; exact hc e.2.2.1.1.symm
      | cons b X =>
        have := congrArg List.length e
        simp at this
        omega

include hC hx in
theorem search_jump : ∃ t, search C rxContinue (jumpText g x) = some (t, [(.loop, x)]) := by
  refine ⟨[blanks (g 3)].flatten, ?_⟩
  unfold jumpText rxContinue
  rw [List.flatten_cons]
  refine search_blanks C _ (lit_no_blank C 'c' _ _ (by decide)) _ _ ?_ _
  rw [run_seqs, List.flatten_cons]; refine run_lit C _ _ _ _ _ ?_
  rw [run_seqs, List.flatten_cons]; refine run_sp1 C _ _ _ _ _ (ends_word hC hx _) ?_
  rw [run_seqs, List.flatten_cons]
  refine run_cap_word C _ _ _ _ _ _ hx (ends_blanks (hC.word ' ' (by simp)) (ends_cons (hC.word ';' (by simp)) _ _) _) ?_
  rw [run_seqs, List.flatten_cons]; refine run_sp0 C _ _ _ _ _ rfl ?_
  rw [run_seqs, List.flatten_cons]; refine run_lit C _ _ _ _ _ ?_
  rfl

include hC hx in
theorem lineOf_jump : lineOf C (jumpText g x) = ⟨0, 0, false, .jump x⟩ := by
  obtain ⟨t, ht⟩ := search_jump hC g hx
  have hp := no_paren C (jump_no hC g hx (c := '(') (by simp))
  have hk : kindOf C (jumpText g x) = .jump x := by
    unfold kindOf rxMessage
    rw [hp.1, hp.2, jump_not_choice hC g hx, no_close (jump_no hC g hx (by simp)), jump_not_rec hC g hx, ht]
    simp [Caps.get]
  unfold lineOf
  rw [hk, List.count_eq_zero.mpr (jump_no hC g hx (c := '}') (by simp)),
    List.count_eq_zero.mpr (jump_no hC g hx (c := '{') (by simp))]
  simp [jumpText]

/-! ## A choice -/

include hC hx in
theorem choice_no {c : Char} (h : c ∈ ['(', ')', '[', ']', '}', ';', ',', '/']) : c ∉ choiceText g x := by
  have h1 : c ∈ [' ', '(', ')', '[', ']', '{', '}', ';', ',', '/'] := by
    simp only [List.mem_cons, List.not_mem_nil, or_false] at h
    rcases h with rfl | rfl | rfl | rfl | rfl | rfl | rfl | rfl <;> simp
  have h2 : c ≠ ' ' := by
    simp only [List.mem_cons, List.not_mem_nil, or_false] at h
    rcases h with rfl | rfl | rfl | rfl | rfl | rfl | rfl | rfl <;> decide
  have h3 : c ∉ ['c', 'h', 'o', 'i', 'c', 'e'] ∧ c ∉ ['a', 't'] ∧ c ∉ ['{'] := by
    simp only [List.mem_cons, List.not_mem_nil, or_false] at h
    rcases h with rfl | rfl | rfl | rfl | rfl | rfl | rfl | rfl <;> decide
  apply count_zero
  simp only [List.forall_mem_cons]
  exact ⟨blanks_no h2 _, h3.1, gap_no h2 _, h3.2.1, gap_no h2 _, word_no hC hx h1, blanks_no h2 _, h3.2.2, blanks_no h2 _,
    by simp⟩

include hC hx in
theorem search_choice : ∃ t, search C rxChoice (choiceText g x) = some (t, [(.choice, x)]) := by
  refine ⟨[blanks (g 4)].flatten, ?_⟩
  unfold choiceText rxChoice
  rw [List.flatten_cons]
  refine search_blanks C _ (lit_no_blank C 'c' _ _ (by decide)) _ _ ?_ _
  rw [run_seqs, List.flatten_cons]; refine run_lit C _ _ _ _ _ ?_
  rw [run_seqs, List.flatten_cons]; refine run_sp1 C _ _ _ _ _ rfl ?_
  rw [run_seqs, List.flatten_cons]; refine run_lit C _ _ _ _ _ ?_
  rw [run_seqs, List.flatten_cons]; refine run_sp1 C _ _ _ _ _ (ends_word hC hx _) ?_
  rw [run_seqs, List.flatten_cons]
  refine run_cap_word C _ _ _ _ _ _ hx (ends_blanks (hC.word ' ' (by simp)) (ends_cons (hC.word '{' (by simp)) _ _) _) ?_
  rw [run_seqs, List.flatten_cons]; refine run_sp0 C _ _ _ _ _ rfl ?_
  rw [run_seqs, List.flatten_cons]; refine run_opt C _ _ _ _ _ ?_
  refine run_lit C _ _ _ _ _ ?_
  rfl

include hC hx in
theorem lineOf_choice : lineOf C (choiceText g x) = ⟨1, 0, false, .choice x⟩ := by
  obtain ⟨t, ht⟩ := search_choice hC g hx
  have hp := no_paren C (choice_no hC g hx (c := '(') (by simp))
  have hk : kindOf C (choiceText g x) = .choice x := by
    unfold kindOf rxMessage
    rw [hp.1, hp.2, ht]
    simp [Caps.get]
  unfold lineOf
  rw [hk, List.count_eq_zero.mpr (choice_no hC g hx (c := '}') (by simp))]
  have e : choiceText g x = (blanks (g 0) ++ (['c', 'h', 'o', 'i', 'c', 'e'] ++ (gap (g 1) ++ (['a', 't'] ++ (gap (g 2) ++
      (x ++ blanks (g 3))))))) ++ '{' :: blanks (g 4) := by
    simp [choiceText]
  have hb : ∀ n, '{' ∉ blanks n := blanks_no (by decide)
  have hg : ∀ n, '{' ∉ gap n := gap_no (by decide)
  have hw := word_no hC hx (c := '{') (by simp)
  rw [e, count_in (by simp [hb, hg, hw]) (hb _)]
  simp

/-! ## Between two branches, and at the end -/

theorem or_no {c : Char} (h : c ∈ ['(', 'c']) : c ∉ orText g := by
  have h2 : c ≠ ' ' := by
    simp only [List.mem_cons, List.not_mem_nil, or_false] at h
    rcases h with rfl | rfl <;> decide
  have h3 : c ∉ ['}'] ∧ c ∉ ['o', 'r'] ∧ c ∉ ['{'] := by
    simp only [List.mem_cons, List.not_mem_nil, or_false] at h
    rcases h with rfl | rfl <;> decide
  apply count_zero
  simp only [List.forall_mem_cons]
  exact ⟨blanks_no h2 _, h3.1, blanks_no h2 _, h3.2.1, blanks_no h2 _, h3.2.2, blanks_no h2 _, by simp⟩

theorem search_or : ∃ t, search C rxOr (orText g) = some (t, []) := by
  refine ⟨[blanks (g 3)].flatten, ?_⟩
  unfold orText rxOr
  rw [List.flatten_cons]
  refine search_blanks C _ (lit_no_blank C '}' _ _ (by decide)) _ _ ?_ _
  rw [run_seqs, List.flatten_cons]; refine run_lit C _ _ _ _ _ ?_
  rw [run_seqs, List.flatten_cons]; refine run_sp0 C _ _ _ _ _ rfl ?_
  rw [run_seqs, List.flatten_cons]; refine run_lit C _ _ _ _ _ ?_
  rw [run_seqs, List.flatten_cons]; refine run_sp0 C _ _ _ _ _ rfl ?_
  rw [run_seqs, List.flatten_cons]; refine run_lit C _ _ _ _ _ ?_
  rfl

theorem lineOf_or : lineOf C (orText g) = ⟨1, 1, false, .or⟩ := by
  obtain ⟨t, ht⟩ := search_or (C := C) g
  have hp := no_paren C (or_no g (c := '(') (by simp))
  have hk : kindOf C (orText g) = .or := by
    unfold kindOf rxMessage isMatch
    rw [hp.1, hp.2, ht, show search C rxChoice (orText g) = none from
      search_needs (w := ['c', 'h', 'o', 'i', 'c', 'e']) (by simp) (not_infix_of_mem (c := 'c') (by simp) (or_no g (by simp)))]
    rfl
  unfold lineOf
  rw [hk]
  have e : orText g = (blanks (g 0) ++ ('}' :: (blanks (g 1) ++ (['o', 'r'] ++ blanks (g 2))))) ++ '{' :: blanks (g 3) := by
    simp [orText]
  have e' : orText g = blanks (g 0) ++ '}' :: (blanks (g 1) ++ (['o', 'r'] ++ (blanks (g 2) ++ '{' :: blanks (g 3)))) := by
    simp [orText]
  have hb : ∀ n, '{' ∉ blanks n := blanks_no (by decide)
  have hb' : ∀ n, '}' ∉ blanks n := blanks_no (by decide)
  have h1 : (orText g).count '{' = 1 := by
    rw [e, count_in (by simp [hb]) (hb _)]
  have h2 : (orText g).count '}' = 1 := by
    rw [e', count_in (hb' _) (by simp [hb'])]
  rw [h1, h2]
  simp [orText]

theorem lineOf_close : lineOf C (closeText g) = ⟨0, 1, false, .other⟩ := by
  have hb : ∀ {c : Char}, c ≠ ' ' → c ≠ '}' → c ∉ closeText g := by
    intro c h1 h2
    apply count_zero
    simp only [List.forall_mem_cons]
    exact ⟨blanks_no h1 _, by simp [h2], blanks_no h1 _, by simp⟩
  have hp := no_paren C (hb (c := '(') (by decide) (by decide))
  have hk : kindOf C (closeText g) = .other := by
    unfold kindOf rxMessage isMatch
    rw [hp.1, hp.2, show search C rxChoice (closeText g) = none from
      search_needs (w := ['c', 'h', 'o', 'i', 'c', 'e']) (by simp) (not_infix_of_mem (c := 'c') (by simp)
        (hb (by decide) (by decide))), show search C rxOr (closeText g) = none from
      search_needs (w := ['{']) (by simp) (not_infix_of_mem (c := '{') (by simp) (hb (by decide) (by decide))),
      show search C rxRec (closeText g) = none from
      search_needs (w := ['r', 'e', 'c']) (by simp) (not_infix_of_mem (c := 'c') (by simp) (hb (by decide) (by decide))),
      show search C rxContinue (closeText g) = none from
      search_needs (w := [';']) (by simp) (not_infix_of_mem (c := ';') (by simp) (hb (by decide) (by decide)))]
    rfl
  unfold lineOf
  rw [hk, List.count_eq_zero.mpr (hb (c := '{') (by decide) (by decide))]
  have e : closeText g = blanks (g 0) ++ '}' :: blanks (g 1) := by simp [closeText]
  rw [e, count_in (blanks_no (by decide) _) (blanks_no (by decide) _)]
  simp

end lines

end Verif.NuscrTextSpec
