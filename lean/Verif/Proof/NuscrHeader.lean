import Verif.Proof.NuscrLines

/-!
# Reading the header
-/
namespace Verif.NuscrTextSpec
open Verif.Nuscr Verif.NuscrText

/-! The list of the roles in `GLOBAL_PROTOCOL`. -/

theorem roles_step {C : Classes} (hC : Usual C) (k : Cont) (t : Text) (c : Caps) (res) (r : Text × Nat × Nat)
    (hr : IsWord C r.1) (rs : List (Text × Nat × Nat)) (hk : k (rolesText rs ++ ')' :: t) c = some res) :
    rxRoles.run C k (rolesText (r :: rs) ++ ')' :: t) c = some res := by
  have wb : C.word ' ' = false := hC.word ' ' (by simp)
  unfold rxRoles
  cases rs with
  | nil =>
    have e : rolesText [r] ++ ')' :: t = [['r', 'o', 'l', 'e'], gap 0, r.1, blanks r.2.1, ')' :: t].flatten := by
      simp [rolesText, gap, blanks]
    rw [e]
    rw [run_seqs, List.flatten_cons]; refine run_lit C _ _ _ _ _ ?_
    rw [run_seqs, List.flatten_cons]; refine run_sp1 C _ _ _ _ _ (ends_word hC hr _) ?_
    rw [run_seqs, List.flatten_cons]
    refine run_word1 C _ _ _ _ _ hr (ends_blanks wb (ends_cons (hC.word ')' (by simp)) _ _) _) ?_
    rw [run_seqs, List.flatten_cons]; refine run_sp0 C _ _ _ _ _ rfl ?_
    rw [run_seqs]
    have e1 : [')' :: t].flatten = ')' :: t := by simp
    rw [e1]
    have e2 : (opt (lit [','])).run C ((seqs [sp0]).run C k) (')' :: t) c = (seqs [sp0]).run C k (')' :: t) c := by
      unfold opt
      simp only [Rx.run]
      rw [run_eq_lit C _ ',' [] ')' t c (by decide)]
    rw [e2, run_seqs]
    exact run_sp0 C _ _ _ _ 0 rfl hk
  | cons s rs =>
    have e : rolesText (r :: s :: rs) ++ ')' :: t = [['r', 'o', 'l', 'e'], gap 0, r.1, blanks r.2.1, [','], blanks r.2.2,
        rolesText (s :: rs) ++ ')' :: t].flatten := by
      simp [rolesText, gap, blanks]
    rw [e]
    rw [run_seqs, List.flatten_cons]; refine run_lit C _ _ _ _ _ ?_
    rw [run_seqs, List.flatten_cons]; refine run_sp1 C _ _ _ _ _ (ends_word hC hr _) ?_
    rw [run_seqs, List.flatten_cons]
    refine run_word1 C _ _ _ _ _ hr (ends_blanks wb (ends_cons (hC.word ',' (by simp)) _ _) _) ?_
    rw [run_seqs, List.flatten_cons]; refine run_sp0 C _ _ _ _ _ rfl ?_
    rw [run_seqs, List.flatten_cons]; refine run_opt C _ _ _ _ _ ?_
    refine run_lit C _ _ _ _ _ ?_
    rw [run_seqs, List.flatten_cons]
    have e1 : [rolesText (s :: rs) ++ ')' :: t].flatten = rolesText (s :: rs) ++ ')' :: t := by simp
    rw [e1]
    refine run_sp0 C _ _ _ _ _ ?_ hk
    cases rs <;> rfl

theorem rolesText_length : ∀ rs : List (Text × Nat × Nat), rs.length ≤ (rolesText rs).length
  | [] => by simp
  | [r] => by simp [rolesText]
  | r :: s :: rs => by
    have := rolesText_length (s :: rs)
    simp only [rolesText, List.length_append, List.length_cons, List.length_nil] at this ⊢
    omega

theorem rolesText_lt (r : Text × Nat × Nat) (rs : List (Text × Nat × Nat)) :
    (rolesText rs).length < (rolesText (r :: rs)).length := by
  cases rs with
  | nil => simp [rolesText]
  | cons s rs => simp [rolesText]; omega

theorem iter_roles {C : Classes} (hC : Usual C) (k : Cont) (t : Text) (c : Caps) (res)
    (hk : k (')' :: t) c = some res) : ∀ (rs : List (Text × Nat × Nat)) (n : Nat), (∀ r ∈ rs, IsWord C r.1) → rs.length ≤ n →
      iter (rxRoles.run C) k n (rolesText rs ++ ')' :: t) c = some res
  | [], 0, _, _ => hk
  | [], n + 1, _, _ => by
    unfold iter
    have e : rolesText [] ++ ')' :: t = ')' :: t := rfl
    rw [e]
    unfold rxRoles
    rw [run_seqs, run_eq_lit C _ 'r' _ ')' t c (by decide)]
    exact hk
  | r :: rs, 0, _, h => by simp at h
  | r :: rs, n + 1, hw, hn => by
    unfold iter
    have := roles_step hC (fun t' c' => if t'.length < (rolesText (r :: rs) ++ ')' :: t).length then
      iter (rxRoles.run C) k n t' c' else none) t c res r (hw r (by simp)) rs (by
        have hlt := rolesText_lt r rs
        rw [if_pos (by simp only [List.length_append]; omega)]
        exact iter_roles hC k t c res hk rs n (fun x hx => hw x (List.mem_cons_of_mem _ hx)) (by simpa using hn))
    rw [this]

theorem run_roles {C : Classes} (hC : Usual C) (k : Cont) (t : Text) (c : Caps) (res) (rs : List (Text × Nat × Nat))
    (h0 : rs ≠ []) (hw : ∀ r ∈ rs, IsWord C r.1) (hk : k (')' :: t) c = some res) :
    (plus rxRoles).run C k (rolesText rs ++ ')' :: t) c = some res := by
  cases rs with
  | nil => exact absurd rfl h0
  | cons r rs =>
    have e : (plus rxRoles).run C k = rxRoles.run C ((Rx.star rxRoles).run C k) := rfl
    rw [e]
    refine roles_step hC _ t c res r (hw r (by simp)) rs ?_
    have e2 : (Rx.star rxRoles).run C k (rolesText rs ++ ')' :: t) c =
        iter (rxRoles.run C) k (rolesText rs ++ ')' :: t).length (rolesText rs ++ ')' :: t) c := rfl
    rw [e2]
    refine iter_roles hC k t c res hk rs _ (fun x hx => hw x (List.mem_cons_of_mem _ hx)) ?_
    have := rolesText_length rs
    simp only [List.length_append]
    omega

theorem search_header {C : Classes} (hC : Usual C) (g : Nat → Nat) {name : Text} (hn : IsWord C name)
    {rs : List (Text × Nat × Nat)} (h0 : rs ≠ []) (hw : ∀ r ∈ rs, IsWord C r.1) :
    ∃ t, search C rxGlobal (headerText g name rs) = some (t, [(.name, name)]) := by
  refine ⟨[blanks (g 5)].flatten, ?_⟩
  unfold headerText rxGlobal
  rw [List.flatten_cons]
  refine search_blanks C _ (lit_no_blank C 't' _ _ (by decide)) _ _ ?_ _
  rw [run_seqs, List.flatten_cons]; refine run_lit C _ _ _ _ _ ?_
  rw [run_seqs, List.flatten_cons]; refine run_sp1 C _ _ _ _ _ rfl ?_
  rw [run_seqs, List.flatten_cons]; refine run_lit C _ _ _ _ _ ?_
  rw [run_seqs, List.flatten_cons]; refine run_sp1 C _ _ _ _ _ rfl ?_
  rw [run_seqs, List.flatten_cons]; refine run_lit C _ _ _ _ _ ?_
  rw [run_seqs, List.flatten_cons]; refine run_sp1 C _ _ _ _ _ (ends_word hC hn _) ?_
  rw [run_seqs, List.flatten_cons]
  refine run_cap_word C _ _ _ _ _ _ hn (ends_cons (hC.word '(' (by simp)) _ _) ?_
  rw [run_seqs, List.flatten_cons]; refine run_lit C _ _ _ _ _ ?_
  rw [run_seqs, List.flatten_cons, List.flatten_cons]
  refine run_roles hC _ _ _ _ _ h0 hw ?_
  rw [run_seqs]; refine run_lit C _ _ _ _ [')'] ?_
  rw [run_seqs, List.flatten_cons]; refine run_sp0 C _ _ _ _ _ rfl ?_
  rw [run_seqs, List.flatten_cons]; refine run_opt C _ _ _ _ _ ?_
  refine run_lit C _ _ _ _ _ ?_
  rfl

/-! The roles themselves. -/

/-- Text where no match begins is skipped. -/
theorem search_skip (C : Classes) (r : Rx) (T : Text) : ∀ A : Text,
    (∀ a1 b A', A = a1 ++ b :: A' → r.run C done (b :: (A' ++ T)) [] = none) → search C r (A ++ T) = search C r T
  | [], _ => rfl
  | a :: A, h => by
    rw [List.cons_append]
    simp only [search, h [] a A rfl]
    exact search_skip C r T A fun a1 b A' e => h (a :: a1) b A' (by rw [e]; rfl)

theorem run_lit_prefix (C : Classes) (k : Cont) : ∀ (w t : Text) (c : Caps), (lit w).run C k t c ≠ none → w <+: t
  | [], t, c, _ => List.nil_prefix
  | a :: w, [], c, h => by simp [lit, seqs, Rx.run] at h
  | a :: w, b :: t, c, h => by
    by_cases hb : b = a
    · subst hb
      have e : (lit (b :: w)).run C k (b :: t) c = (lit w).run C k t c := by
        simp [lit, seqs, Rx.run, Cls.has]
      rw [e] at h
      obtain ⟨z, hz⟩ := run_lit_prefix C k w t c h
      exact ⟨z, by rw [← hz]; rfl⟩
    · exact absurd (run_eq_lit C k a w b t c hb) h

theorem role_prefix {C : Classes} {t : Text} {c : Caps} (h : rxRole.run C done t c ≠ none) :
    ['r', 'o', 'l', 'e', ' '] <+: t := by
  unfold rxRole at h
  rw [run_seqs] at h
  exact run_lit_prefix C _ _ t c h

theorem skip_no_r (C : Classes) (A T : Text) (h : 'r' ∉ A) : search C rxRole (A ++ T) = search C rxRole T := by
  refine search_skip C rxRole T A fun a1 b A' e => ?_
  by_contra hne
  obtain ⟨z, hz⟩ := role_prefix hne
  simp only [List.cons_append, List.cons.injEq] at hz
  exact h (by rw [e, hz.1]; simp)

theorem searchAll_skip (C : Classes) (A T : Text) (h : search C rxRole (A ++ T) = search C rxRole T) (n : Nat) :
    searchAll C rxRole n (A ++ T) = searchAll C rxRole n T := by
  cases n with
  | zero => rfl
  | succ n => unfold searchAll; rw [h]

theorem search_role {C : Classes} {w t : Text} (hw : IsWord C w) (ht : Ends C.word t) :
    search C rxRole (['r', 'o', 'l', 'e', ' '] ++ (w ++ t)) = some (t, [(.name, w)]) := by
  have : rxRole.run C done (['r', 'o', 'l', 'e', ' '] ++ (w ++ t)) [] = some (t, [(.name, w)]) := by
    unfold rxRole
    rw [run_seqs]; refine run_lit C _ _ _ _ _ ?_
    rw [run_seqs]; refine run_cap_word C _ _ _ _ _ _ hw ht ?_
    rfl
  have h2 : ∀ x : Text, search C rxRole ('r' :: x) = match rxRole.run C done ('r' :: x) [] with
      | some y => some y
      | none => search C rxRole x := fun x => rfl
  simp only [List.cons_append] at this ⊢
  rw [h2, this]

theorem searchAll_roles {C : Classes} (hC : Usual C) (t : Text) (ht : 'r' ∉ t) (he : Ends C.word t) :
    ∀ (rs : List (Text × Nat × Nat)) (n : Nat), rs.length ≤ n → (∀ r ∈ rs, IsWord C r.1) →
      (searchAll C rxRole n (rolesText rs ++ t)).map (fun c => c.get .name) = rs.map (·.1)
  | [], 0, _, _ => rfl
  | [], n + 1, _, _ => by
    have e : rolesText [] ++ t = t := rfl
    rw [e]
    unfold searchAll
    rw [show search C rxRole t = none from
      search_needs (w := ['r', 'o', 'l', 'e', ' ']) (by simp) (not_infix_of_mem (c := 'r') (by simp) ht)]
    rfl
  | r :: rs, 0, h, _ => by simp at h
  | [r], n + 1, h, hw => by
    have e : rolesText [r] ++ t = ['r', 'o', 'l', 'e', ' '] ++ (r.1 ++ (blanks r.2.1 ++ t)) := by
      simp [rolesText]
    rw [e]
    unfold searchAll
    rw [search_role (hw r (by simp)) (ends_blanks (hC.word ' ' (by simp)) he _)]
    simp only [List.map_cons]
    have ih := searchAll_roles hC t ht he [] n (by simp) (by simp)
    have sk := searchAll_skip C (blanks r.2.1) t (skip_no_r C _ _ (blanks_no (by decide) _)) n
    rw [sk]
    have e : rolesText [] ++ t = t := rfl
    rw [e] at ih
    rw [ih]
    simp [Caps.get]
  | r :: s :: rs, n + 1, h, hw => by
    have e : rolesText (r :: s :: rs) ++ t = ['r', 'o', 'l', 'e', ' '] ++ (r.1 ++ ((blanks r.2.1 ++ (',' :: blanks r.2.2)) ++
        (rolesText (s :: rs) ++ t))) := by
      simp [rolesText]
    rw [e]
    unfold searchAll
    rw [search_role (hw r (by simp)) (by
      rw [List.append_assoc]
      exact ends_blanks (hC.word ' ' (by simp)) (ends_cons (hC.word ',' (by simp)) _ _) _)]
    simp only [List.map_cons]
    have ih := searchAll_roles hC t ht he (s :: rs) n (by simpa using h) (fun x hx => hw x (List.mem_cons_of_mem _ hx))
    have hb : 'r' ∉ blanks r.2.1 ++ (',' :: blanks r.2.2) := by
      simp [blanks_no (c := 'r') (by decide)]
    rw [searchAll_skip C _ _ (skip_no_r C _ _ hb), ih]
    simp [Caps.get]

/-- The header up to its opening parenthesis. -/
def headerFront (g : Nat → Nat) (name : Text) : Text :=
  blanks (g 0) ++ (['t', 'i', 'm', 'e', 'd'] ++ (gap (g 1) ++ (['g', 'l', 'o', 'b', 'a', 'l'] ++ (gap (g 2) ++
    (['p', 'r', 'o', 't', 'o', 'c', 'o', 'l'] ++ (gap (g 3) ++ (name ++ ['('])))))))

theorem headerText_eq (g : Nat → Nat) (name : Text) (rs) : headerText g name rs =
    headerFront g name ++ (rolesText rs ++ (')' :: (blanks (g 4) ++ '{' :: blanks (g 5)))) := by
  simp [headerText, headerFront]

theorem front_tokens {C : Classes} (hC : Usual C) (g : Nat → Nat) {name : Text} (hn : IsWord C name) :
    tokens (headerFront g name) = [['t', 'i', 'm', 'e', 'd'], ['g', 'l', 'o', 'b', 'a', 'l'],
      ['p', 'r', 'o', 't', 'o', 'c', 'o', 'l'], name ++ ['(']] := by
  unfold headerFront
  rw [tokens_blanks, tokens_gap, tokens_gap, tokens_gap, tokens_word (w := ['t', 'i', 'm', 'e', 'd']) (by simp) (by decide),
    tokens_word (w := ['g', 'l', 'o', 'b', 'a', 'l']) (by simp) (by decide),
    tokens_word (w := ['p', 'r', 'o', 't', 'o', 'c', 'o', 'l']) (by simp) (by decide),
    tokens_word (w := name ++ ['(']) (by simp) (by simp [word_no hC hn (c := ' ')])]
  rfl

theorem last_role {u w : Text} (h : w.getLast? ≠ some 'e') : u ++ ['r', 'o', 'l', 'e'] ≠ w := by
  intro e
  apply h
  rw [← e]; simp

theorem skip_front {C : Classes} (hC : Usual C) (g : Nat → Nat) {name : Text} (hn : IsWord C name) (T : Text) :
    search C rxRole (headerFront g name ++ T) = search C rxRole T := by
  refine search_skip C rxRole T _ fun a1 b A' e => ?_
  by_contra hne
  have hp := role_prefix hne
  -- the occurrence of `role ` lies before the parenthesis
  have hlast : ∃ F, headerFront g name = F ++ ['('] :=
    ⟨blanks (g 0) ++ (['t', 'i', 'm', 'e', 'd'] ++ (gap (g 1) ++ (['g', 'l', 'o', 'b', 'a', 'l'] ++ (gap (g 2) ++
      (['p', 'r', 'o', 't', 'o', 'c', 'o', 'l'] ++ (gap (g 3) ++ name)))))), by simp [headerFront]⟩
  obtain ⟨F, hF⟩ := hlast
  have hA : ∃ B, b :: A' = B ++ ['('] := by
    rw [hF] at e
    have h1 : (b :: A').getLast? = some '(' := by
      have := congrArg List.getLast? e
      rw [List.getLast?_append_of_ne_nil _ (by simp), List.getLast?_append_of_ne_nil _ (by simp)] at this
      exact this.symm
    exact (List.getLast?_eq_some_iff.mp h1)
  obtain ⟨B, hB⟩ := hA
  have hpB : ['r', 'o', 'l', 'e', ' '] <+: B := by
    have e1 : b :: (A' ++ T) = B ++ ('(' :: T) := by
      rw [show b :: (A' ++ T) = (b :: A') ++ T from rfl, hB]; simp
    rw [e1] at hp
    rcases List.prefix_or_prefix_of_prefix hp (List.prefix_append B ('(' :: T)) with h | h
    · exact h
    · obtain ⟨z, hz⟩ := h
      cases z with
      | nil => rw [List.append_nil] at hz; rw [hz]; exact List.prefix_refl _
      | cons y z =>
        obtain ⟨v, hv⟩ := hp
        rw [← hz] at hv
        have hv : B ++ ((y :: z) ++ v) = B ++ ('(' :: T) := by rw [← hv]; simp
        have := List.append_cancel_left hv
        simp only [List.cons_append, List.cons.injEq] at this
        have hy : y ∈ ['r', 'o', 'l', 'e', ' '] := by rw [← hz]; simp
        rw [this.1] at hy
        exact absurd hy (by decide)
  obtain ⟨z, hz⟩ := hpB
  have hfin : headerFront g name = (a1 ++ ['r', 'o', 'l', 'e']) ++ ' ' :: (z ++ ['(']) := by
    rw [e, hB, ← hz]; simp
  have ht := front_tokens hC g hn
  rw [hfin, tokens_append_blank] at ht
  obtain ⟨A, u, k1⟩ := tokens_last (w := ['r', 'o', 'l', 'e']) (by simp) (by decide) a1
  obtain ⟨A2, u2, k2⟩ := tokens_last (w := ['(']) (by simp) (by decide) z
  rw [k1, k2] at ht
  match A with
  | [] => simp only [List.nil_append, List.cons_append, List.cons.injEq] at ht; exact last_role (by decide) ht.1
  | [_] => simp only [List.nil_append, List.cons_append, List.cons.injEq] at ht; exact last_role (by decide) ht.2.1
  | [_, _] => simp only [List.nil_append, List.cons_append, List.cons.injEq] at ht; exact last_role (by decide) ht.2.2.1
  | _ :: _ :: _ :: A =>
    have := congrArg List.length ht
    simp at this
    omega

theorem rolesOf_header {C : Classes} (hC : Usual C) (g : Nat → Nat) {name : Text} (hn : IsWord C name)
    {rs : List (Text × Nat × Nat)} (hw : ∀ r ∈ rs, IsWord C r.1) : rolesOf C (headerText g name rs) = rs.map (·.1) := by
  unfold rolesOf
  have hlen : rs.length ≤ (headerText g name rs).length := by
    have := rolesText_length rs
    rw [headerText_eq]
    simp only [List.length_append]
    omega
  generalize (headerText g name rs).length = n at hlen
  rw [headerText_eq, searchAll_skip C _ _ (skip_front hC g hn _)]
  have he : Ends C.word (')' :: (blanks (g 4) ++ '{' :: blanks (g 5))) := hC.word ')' (by simp)
  refine searchAll_roles hC _ ?_ he rs n hlen hw
  simp [blanks_no (c := 'r') (by decide)]

theorem rolesText_no {C : Classes} (hC : Usual C) {c : Char} (hc : c ∈ ['{', '}']) :
    ∀ rs : List (Text × Nat × Nat), (∀ r ∈ rs, IsWord C r.1) → c ∉ rolesText rs
  | [], _ => by simp [rolesText]
  | [r], hw => by
    have h1 : c ∈ [' ', '(', ')', '[', ']', '{', '}', ';', ',', '/'] := by
      simp only [List.mem_cons, List.not_mem_nil, or_false] at hc
      rcases hc with rfl | rfl <;> simp
    have h2 : c ≠ ' ' ∧ c ≠ ',' ∧ c ≠ 'r' ∧ c ≠ 'o' ∧ c ≠ 'l' ∧ c ≠ 'e' := by
      simp only [List.mem_cons, List.not_mem_nil, or_false] at hc
      rcases hc with rfl | rfl <;> decide
    simp [rolesText, h2, word_no hC (hw r (by simp)) h1, blanks_no h2.1]
  | r :: s :: rs, hw => by
    have h1 : c ∈ [' ', '(', ')', '[', ']', '{', '}', ';', ',', '/'] := by
      simp only [List.mem_cons, List.not_mem_nil, or_false] at hc
      rcases hc with rfl | rfl <;> simp
    have h2 : c ≠ ' ' ∧ c ≠ ',' ∧ c ≠ 'r' ∧ c ≠ 'o' ∧ c ≠ 'l' ∧ c ≠ 'e' := by
      simp only [List.mem_cons, List.not_mem_nil, or_false] at hc
      rcases hc with rfl | rfl <;> decide
    have ih := rolesText_no hC hc (s :: rs) (fun x hx => hw x (List.mem_cons_of_mem _ hx))
    have w1 := word_no hC (hw r (by simp)) h1
    rw [rolesText]
    simp [h2, w1, blanks_no h2.1, ih]

theorem lineOf_header {C : Classes} (hC : Usual C) (g : Nat → Nat) {name : Text} (hn : IsWord C name)
    {rs : List (Text × Nat × Nat)} (h0 : rs ≠ []) (hw : ∀ r ∈ rs, IsWord C r.1) :
    lineOf C (headerText g name rs) = ⟨1, 0, false, .global name (rs.map (·.1))⟩ := by
  obtain ⟨t, ht⟩ := search_header hC g hn h0 hw
  unfold lineOf kindOf
  rw [ht, rolesOf_header hC g hn hw]
  have hb : ∀ n, '{' ∉ blanks n := blanks_no (by decide)
  have hg : ∀ n, '{' ∉ gap n := gap_no (by decide)
  have hb' : ∀ n, '}' ∉ blanks n := blanks_no (by decide)
  have hg' : ∀ n, '}' ∉ gap n := gap_no (by decide)
  have c1 : (headerText g name rs).count '{' = 1 := by
    have e : headerText g name rs = (headerFront g name ++ (rolesText rs ++ (')' :: blanks (g 4)))) ++ '{' :: blanks (g 5) := by
      simp [headerText, headerFront]
    rw [e, count_in _ (hb _)]
    have h1 := rolesText_no hC (c := '{') (by simp) rs hw
    have h2 := word_no hC hn (c := '{') (by simp)
    simp [headerFront, hb, hg, h1, h2]
  have c2 : (headerText g name rs).count '}' = 0 := by
    rw [List.count_eq_zero, headerText_eq]
    have h1 := rolesText_no hC (c := '}') (by simp) rs hw
    have h2 := word_no hC hn (c := '}') (by simp)
    simp [headerFront, hb', hg', h1, h2]
  rw [c1, c2]
  simp [headerText, Caps.get]

/-- Every line of a protocol is read as it was meant. -/
theorem lineOf_written {C : Classes} (hC : Usual C) {l : Line} {t : Text} (h : Written C l t) : lineOf C t = l := by
  cases h with
  | header name rs g hn h0 hw => exact lineOf_header hC g hn h0 hw
  | message m payload g hm => exact lineOf_message hC hm
  | loop name g hn => exact lineOf_loop hC g hn
  | choice x g hx => exact lineOf_choice hC g hx
  | or g => exact lineOf_or g
  | jump name g hn => exact lineOf_jump hC g hn
  | close g => exact lineOf_close g

theorem lines_written {C : Classes} (hC : Usual C) {protocol : List Line} {text : List Text} (h : IsText C protocol text) :
    text.map (lineOf C) = protocol := by
  induction h with
  | nil => rfl
  | cons h _ ih => rw [List.map_cons, lineOf_written hC h, ih]

end Verif.NuscrTextSpec
