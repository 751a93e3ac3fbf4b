import Verif.Proof.NuscrHeader
import Verif.Model.NuscrRegular
import Verif.Spec.NuscrRegular

/-!
# The untimed protocol: removing the word `timed`, the captures of a match
-/
namespace Verif.NuscrTextSpec
open Verif.Nuscr Verif.NuscrText Verif.NuscrRegular

abbrev timedWord : Text := ['t', 'i', 'm', 'e', 'd']

theorem removeFrom_skip (w : Text) : ∀ (u t : Text), removeFrom w u.length (u ++ t) = removeFrom w 0 t
  | [], t => by simp
  | a :: u, t => by
    simp only [List.length_cons, List.cons_append, removeFrom]
    exact removeFrom_skip w u t

/-- A blank-free text begins with `timed ` only if it is `timed`. -/
theorem prefix_timed {u rest : Text} (hu : ' ' ∉ u) (h : timed <+: u ++ ' ' :: rest) : u = timedWord := by
  obtain ⟨z, hz⟩ := h
  have e : timedWord ++ ' ' :: z = u ++ ' ' :: rest := by simpa [timed] using hz
  rcases List.append_eq_append_iff.mp e with ⟨a, h1, h2⟩ | ⟨a, h1, h2⟩
  · cases a with
    | nil => simpa using h1
    | cons b a =>
      simp only [List.cons_append, List.cons.injEq] at h2
      exact absurd (by rw [h1, ← h2.1]; simp) hu
  · cases a with
    | nil => simpa using h1.symm
    | cons b a =>
      simp only [List.cons_append, List.cons.injEq] at h2
      have : ' ' ∈ timedWord := by rw [h1, h2.1]; simp
      exact absurd this (by decide)

/-- What becomes of a word followed by a blank. -/
def shorten (u : Text) : Text := if timedWord <:+ u then u.take (u.length - 5) else u ++ [' ']

theorem remove_word : ∀ (u rest : Text), ' ' ∉ u → removeFrom timed 0 (u ++ ' ' :: rest) = shorten u ++ removeFrom timed 0 rest
  | [], rest, _ => by
    have : timedWord ≠ [] := by simp
    simp [removeFrom, timed, shorten]
  | a :: u, rest, hu => by
    have hu' : ' ' ∉ u := fun h => hu (List.mem_cons_of_mem _ h)
    simp only [List.cons_append, removeFrom]
    by_cases h : timed <+: a :: (u ++ ' ' :: rest)
    · rw [if_pos (List.isPrefixOf_iff_prefix.mpr h)]
      have e := prefix_timed (u := a :: u) hu h
      have e' := e
      simp only [List.cons.injEq] at e'
      have h5 : timed.length - 1 = (u ++ [' ']).length := by rw [e'.2]; rfl
      rw [h5, show u ++ ' ' :: rest = (u ++ [' ']) ++ rest by simp, removeFrom_skip, e]
      simp [shorten]
    · rw [if_neg (by rw [List.isPrefixOf_iff_prefix]; exact h), remove_word u rest hu']
      have hne : timedWord ≠ a :: u := by
        intro e
        apply h
        rw [← List.cons_append, ← e]
        exact ⟨rest, rfl⟩
      unfold shorten
      by_cases hs : timedWord <:+ u
      · have hl := hs.length_le
        simp only [List.length_cons, List.length_nil] at hl
        rw [if_pos hs, if_pos (List.suffix_cons_iff.mpr (.inr hs)), List.length_cons,
          show u.length + 1 - 5 = (u.length - 5) + 1 by omega, List.take_succ_cons, List.cons_append]
      · rw [if_neg hs, if_neg (fun h => (List.suffix_cons_iff.mp h).elim hne hs)]
        simp

theorem remove_end : ∀ u : Text, ' ' ∉ u → removeFrom timed 0 u = u
  | [], _ => rfl
  | a :: u, hu => by
    simp only [removeFrom]
    rw [if_neg, remove_end u fun h => hu (List.mem_cons_of_mem _ h)]
    rw [List.isPrefixOf_iff_prefix]
    intro h
    exact hu (h.subset (by simp [timed]))

theorem remove_blanks (n : Nat) (rest : Text) : removeFrom timed 0 (blanks n ++ rest) = blanks n ++ removeFrom timed 0 rest := by
  induction n with
  | zero => rfl
  | succ n ih =>
    have e : blanks (n + 1) ++ rest = [] ++ ' ' :: (blanks n ++ rest) := by simp [blanks, List.replicate_succ]
    rw [e, remove_word [] _ (by simp), ih]
    simp [shorten, blanks, List.replicate_succ]

theorem shorten_keep {u : Text} (h : u.getLast? ≠ some 'd') : shorten u = u ++ [' '] := by
  unfold shorten
  rw [if_neg]
  rintro ⟨z, hz⟩
  apply h
  rw [← hz]; simp

theorem remove_keep {u : Text} (hu : ' ' ∉ u) (h : u.getLast? ≠ some 'd') (n : Nat) (rest : Text) :
    removeFrom timed 0 (u ++ (gap n ++ rest)) = u ++ (gap n ++ removeFrom timed 0 rest) := by
  rw [show u ++ (gap n ++ rest) = u ++ ' ' :: (blanks n ++ rest) by simp [gap], remove_word u _ hu, shorten_keep h,
    remove_blanks]
  simp [gap]

/-- A role as it is left in the header. -/
def cutRole (r : Text × Nat × Nat) : Text × Nat × Nat :=
  if timedWord <:+ r.1 ∧ 0 < r.2.1 then (r.1.take (r.1.length - 5), r.2.1 - 1, r.2.2) else r

/-- A word in the header after which there may be blanks. -/
theorem remove_role {C : Classes} (hC : Usual C) (r : Text × Nat × Nat) (hw : IsWord C r.1) (a : Char)
    (rest : Text)
    (hrest : removeFrom timed 0 (r.1 ++ a :: rest) = r.1 ++ removeFrom timed 0 (a :: rest)) :
    removeFrom timed 0 (r.1 ++ (blanks r.2.1 ++ a :: rest)) =
      (cutRole r).1 ++ (blanks (cutRole r).2.1 ++ removeFrom timed 0 (a :: rest)) := by
  obtain ⟨w, n, k⟩ := r
  simp only at hw hrest ⊢
  have hb : ' ' ∉ w := word_no hC hw (by simp)
  cases n with
  | zero =>
    simp only [cutRole, Nat.lt_irrefl, and_false, if_false]
    simpa [blanks] using hrest
  | succ n =>
    rw [show blanks (n + 1) ++ a :: rest = ' ' :: (blanks n ++ a :: rest) by simp [blanks, List.replicate_succ],
      remove_word w _ hb, remove_blanks]
    unfold cutRole shorten
    by_cases h : timedWord <:+ w
    · simp [h]
    · simp [h, blanks, List.replicate_succ]

/-- Before a character that is no letter of the word, everything blank-free stays. -/
theorem remove_stop {u : Text} (hu : ' ' ∉ u) {a : Char} (ha : a ∉ timed) (rest : Text) :
    removeFrom timed 0 (u ++ a :: rest) = u ++ a :: removeFrom timed 0 rest := by
  induction u with
  | nil =>
    simp only [List.nil_append, removeFrom]
    rw [if_neg]
    rw [List.isPrefixOf_iff_prefix]
    rintro ⟨z, hz⟩
    simp only [timed, List.cons_append, List.cons.injEq] at hz
    exact ha (by simp [timed, ← hz.1])
  | cons b u ih =>
    have hu' : ' ' ∉ u := fun h => hu (List.mem_cons_of_mem _ h)
    simp only [List.cons_append, removeFrom]
    rw [if_neg, ih hu']
    rw [List.isPrefixOf_iff_prefix]
    rintro ⟨z, hz⟩
    have e : timedWord ++ ' ' :: z = (b :: u) ++ a :: rest := by simpa [timed] using hz
    rcases List.append_eq_append_iff.mp e with ⟨x, h1, h2⟩ | ⟨x, h1, h2⟩
    · cases x with
      | nil =>
        simp only [List.nil_append, List.cons.injEq] at h2
        exact ha (by simp [timed, ← h2.1])
      | cons y x =>
        simp only [List.cons_append, List.cons.injEq] at h2
        exact hu (by rw [h1, ← h2.1]; simp)
    · cases x with
      | nil =>
        simp only [List.nil_append, List.cons.injEq] at h2
        exact ha (by simp [timed, h2.1])
      | cons y x =>
        simp only [List.cons_append, List.cons.injEq] at h2
        have : a ∈ timedWord := by rw [h1, h2.1]; simp
        exact ha (by simp only [timed]; simp only [timedWord] at this; simp at this ⊢; tauto)

theorem remove_one {a : Char} (ha : a ∉ timed) (rest : Text) :
    removeFrom timed 0 (a :: rest) = a :: removeFrom timed 0 rest := by
  simpa using remove_stop (u := []) (by simp) ha rest

/-- `role` and the blank behind it stay. -/
theorem remove_roleWord (rest : Text) :
    removeFrom timed 0 (['r', 'o', 'l', 'e', ' '] ++ rest) = ['r', 'o', 'l', 'e', ' '] ++ removeFrom timed 0 rest := by
  have := remove_keep (u := ['r', 'o', 'l', 'e']) (by decide) (by decide) 0 rest
  simpa [gap, blanks] using this

theorem remove_roles {C : Classes} (hC : Usual C) (rest : Text) : ∀ rs : List (Text × Nat × Nat), (∀ r ∈ rs, IsWord C r.1) →
    removeFrom timed 0 (rolesText rs ++ ')' :: rest) = rolesText (rs.map cutRole) ++ ')' :: removeFrom timed 0 rest
  | [], _ => by
    simp only [rolesText, List.nil_append, List.map_nil]
    exact remove_one (by decide) rest
  | [r], hw => by
    have h0 := hw r (by simp)
    simp only [rolesText, List.map_cons, List.map_nil, List.append_assoc]
    rw [remove_roleWord, remove_role hC r h0 ')' rest, remove_one (by decide)]
    rw [remove_stop (word_no hC h0 (by simp)) (by decide), remove_one (by decide)]
  | r :: s :: rs, hw => by
    have h0 := hw r (by simp)
    have ih := remove_roles hC rest (s :: rs) (fun x hx => hw x (List.mem_cons_of_mem _ hx))
    have hk : (cutRole r).2.2 = r.2.2 := by unfold cutRole; split <;> rfl
    have e : rolesText (r :: s :: rs) ++ ')' :: rest = ['r', 'o', 'l', 'e', ' '] ++ (r.1 ++ (blanks r.2.1 ++ ',' ::
        (blanks r.2.2 ++ (rolesText (s :: rs) ++ ')' :: rest)))) := by
      simp [rolesText]
    rw [e, remove_roleWord, remove_role hC r h0 ',', remove_one (by decide), remove_blanks, ih]
    · simp [rolesText, hk]
    · rw [remove_stop (word_no hC h0 (by simp)) (by decide), remove_one (by decide)]

theorem remove_header {C : Classes} (hC : Usual C) (g : Nat → Nat) {name : Text} (hn : IsWord C name)
    {rs : List (Text × Nat × Nat)} (hw : ∀ r ∈ rs, IsWord C r.1) :
    removeFrom timed 0 (headerText g name rs) = plainHeader g name (rs.map cutRole) := by
  have e : headerText g name rs = blanks (g 0) ++ (timedWord ++ ' ' :: (blanks (g 1) ++ (['g', 'l', 'o', 'b', 'a', 'l'] ++
      (gap (g 2) ++ (['p', 'r', 'o', 't', 'o', 'c', 'o', 'l'] ++ (gap (g 3) ++ (name ++ '(' :: (rolesText rs ++ ')' ::
        (blanks (g 4) ++ '{' :: blanks (g 5)))))))))) := by
    simp [headerText, gap]
  rw [e, remove_blanks, remove_word _ _ (by decide), remove_blanks, remove_keep (by decide) (by decide),
    remove_keep (by decide) (by decide)]
  rw [remove_stop (word_no hC hn (by simp)) (by decide), remove_roles hC _ rs hw, remove_blanks, remove_one (by decide)]
  have e3 : removeFrom timed 0 (blanks (g 5)) = blanks (g 5) := by
    have := remove_blanks (g 5) []
    simpa [removeFrom] using this
  rw [e3]
  simp [plainHeader, shorten]

theorem clear_cut {rs : List (Text × Nat × Nat)} (h : Clear rs) : rs.map cutRole = rs := by
  conv => rhs; rw [← List.map_id rs]
  refine List.map_congr_left fun r hr => ?_
  unfold cutRole
  rw [if_neg]
  · rfl
  · rintro ⟨h1, h2⟩
    have := h r hr h1
    omega

theorem rolesText_len : ∀ rs : List (Text × Nat × Nat), (rolesText (rs.map cutRole)).length ≤ (rolesText rs).length ∧
    (¬ Clear rs → (rolesText (rs.map cutRole)).length < (rolesText rs).length) := by
  have one : ∀ r : Text × Nat × Nat, (cutRole r).2.2 = r.2.2 ∧
      (cutRole r).1.length + (cutRole r).2.1 ≤ r.1.length + r.2.1 ∧
      (¬ (timedWord <:+ r.1 → r.2.1 = 0) → (cutRole r).1.length + (cutRole r).2.1 < r.1.length + r.2.1) := by
    intro r
    unfold cutRole
    split
    · rename_i h
      have := h.1.length_le
      simp only [List.length_cons, List.length_nil] at this
      refine ⟨rfl, ?_, fun _ => ?_⟩ <;> simp only [List.length_take] <;> omega
    · rename_i h
      refine ⟨rfl, Nat.le_refl _, fun hn => ?_⟩
      exfalso
      apply hn
      intro h1
      by_contra h2
      exact h ⟨h1, by omega⟩
  intro rs
  induction rs with
  | nil => exact ⟨Nat.le_refl _, fun h => absurd (by intro r hr; cases hr) h⟩
  | cons r rs ih =>
    obtain ⟨o1, o2, o3⟩ := one r
    cases rs with
    | nil =>
      simp only [rolesText, List.map_cons, List.map_nil, List.length_append, blanks, List.length_replicate, List.length_cons,
        List.length_nil]
      refine ⟨by omega, fun h => ?_⟩
      have : ¬ (timedWord <:+ r.1 → r.2.1 = 0) := fun k => h (by intro x hx; simp at hx; subst hx; exact k)
      have := o3 this
      omega
    | cons s rs =>
      simp only [List.map_cons] at ih
      simp only [rolesText, List.map_cons, List.length_append, blanks, List.length_replicate, List.length_cons,
        List.length_nil, o1]
      refine ⟨by omega, fun h => ?_⟩
      by_cases hr : timedWord <:+ r.1 → r.2.1 = 0
      · have : ¬ Clear (s :: rs) := fun k => h (by
          intro x hx
          rcases List.mem_cons.mp hx with rfl | hx
          · exact hr
          · exact k x hx)
        have := ih.2 this
        omega
      · have := o3 hr
        omega

theorem plainHeader_iff (g : Nat → Nat) (name : Text) (rs : List (Text × Nat × Nat)) :
    plainHeader g name (rs.map cutRole) = plainHeader g name rs ↔ Clear rs := by
  constructor
  · intro h
    by_contra hc
    have := (rolesText_len rs).2 hc
    have hl := congrArg List.length h
    simp only [plainHeader, List.flatten_cons, List.length_append] at hl
    omega
  · intro h; rw [clear_cut h]

/-! The captures of a match are described by the groups. -/

/-- The groups of an expression. -/
def groups : Rx → List (Group × Rx)
  | .eps => []
  | .cls _ => []
  | .seq a b => groups a ++ groups b
  | .alt a b => groups a ++ groups b
  | .star a => groups a
  | .cap g a => (g, a) :: groups a

/-- Every capture is a text described by its group. -/
def Fits (C : Classes) (r : Rx) (d : Caps) : Prop := ∀ x ∈ d, ∃ a, (x.1, a) ∈ groups r ∧ Describes C a x.2

theorem run_caps (C : Classes) : ∀ (r : Rx) (k : Cont) (t : Text) (c : Caps) res, r.run C k t c = some res →
    ∃ s t' d, t = s ++ t' ∧ Describes C r s ∧ Fits C r d ∧ k t' (d ++ c) = some res
  | .eps, k, t, c, res, h => ⟨[], t, [], rfl, rfl, by simp [Fits], h⟩
  | .cls x, k, t, c, res, h => by
    simp only [Rx.run] at h
    cases t with
    | nil => cases h
    | cons a t =>
      simp only at h
      split at h
      · rename_i hx; exact ⟨[a], t, [], rfl, ⟨a, rfl, hx⟩, by simp [Fits], h⟩
      · cases h
  | .seq a b, k, t, c, res, h => by
    simp only [Rx.run] at h
    obtain ⟨s, t', d, rfl, h1, f1, h2⟩ := run_caps C a _ _ _ _ h
    obtain ⟨s', t'', d', rfl, h3, f2, h4⟩ := run_caps C b _ _ _ _ h2
    refine ⟨s ++ s', t'', d' ++ d, by simp, ⟨s, s', rfl, h1, h3⟩, ?_, by simpa using h4⟩
    intro x hx
    rcases List.mem_append.mp hx with hx | hx
    · obtain ⟨y, hy, hd⟩ := f2 x hx; exact ⟨y, by simp [groups, hy], hd⟩
    · obtain ⟨y, hy, hd⟩ := f1 x hx; exact ⟨y, by simp [groups, hy], hd⟩
  | .alt a b, k, t, c, res, h => by
    simp only [Rx.run] at h
    split at h
    · rename_i r hr
      simp only [Option.some.injEq] at h
      subst h
      obtain ⟨s, t', d, e, h1, f, h2⟩ := run_caps C a _ _ _ _ hr
      exact ⟨s, t', d, e, .inl h1, fun x hx => by obtain ⟨y, hy, hd⟩ := f x hx; exact ⟨y, by simp [groups, hy], hd⟩, h2⟩
    · obtain ⟨s, t', d, e, h1, f, h2⟩ := run_caps C b _ _ _ _ h
      exact ⟨s, t', d, e, .inr h1, fun x hx => by obtain ⟨y, hy, hd⟩ := f x hx; exact ⟨y, by simp [groups, hy], hd⟩, h2⟩
  | .star a, k, t, c, res, h => by
    have hc := h
    simp only [Rx.run] at h
    obtain ⟨l, t', d, e, h1, h2, h3⟩ : ∃ (l : List Text) (t' : Text) (d : Caps), t = l.flatten ++ t' ∧
        (∀ u ∈ l, Describes C a u) ∧ Fits C a d ∧ k t' (d ++ c) = some res := by
      clear hc
      generalize t.length = n at h
      induction n generalizing t c with
      | zero => exact ⟨[], t, [], rfl, by simp, by simp [Fits], h⟩
      | succ n ih =>
        unfold iter at h
        split at h
        · rename_i r hr
          simp only [Option.some.injEq] at h
          subst h
          obtain ⟨s, t', d, rfl, h1, f1, h2⟩ := run_caps C a _ _ _ _ hr
          split at h2
          · obtain ⟨l, t'', d', rfl, h3, f2, h4⟩ := ih _ _ h2
            refine ⟨s :: l, t'', d' ++ d, by simp, ?_, ?_, by simpa using h4⟩
            · intro u hu
              rcases List.mem_cons.mp hu with rfl | hu
              · exact h1
              · exact h3 u hu
            · intro x hx
              rcases List.mem_append.mp hx with hx | hx
              · exact f2 x hx
              · exact f1 x hx
          · cases h2
        · exact ⟨[], t, [], rfl, by simp, by simp [Fits], h⟩
    exact ⟨l.flatten, t', d, e, ⟨l, rfl, h1⟩, h2, h3⟩
  | .cap g a, k, t, c, res, h => by
    simp only [Rx.run] at h
    obtain ⟨s, t', d, e, h1, f, h2⟩ := run_caps C a _ _ _ _ h
    refine ⟨s, t', (g, t.take (t.length - t'.length)) :: d, e, h1, ?_, by simpa using h2⟩
    intro x hx
    rcases List.mem_cons.mp hx with rfl | hx
    · refine ⟨a, by simp [groups], ?_⟩
      subst e
      simpa using h1
    · obtain ⟨y, hy, hd⟩ := f x hx
      exact ⟨y, by simp [groups, hy], hd⟩

theorem search_caps (C : Classes) (r : Rx) : ∀ (t : Text) (x), search C r t = some x → Fits C r x.2
  | [], x, h => by
    simp only [search] at h
    obtain ⟨s, t', d, _, _, f, h2⟩ := run_caps C r _ _ _ _ h
    simp only [done, List.append_nil, Option.some.injEq] at h2
    rw [← h2]; exact f
  | a :: t, x, h => by
    simp only [search] at h
    split at h
    · rename_i y hy
      simp only [Option.some.injEq] at h
      subst h
      obtain ⟨s, t', d, _, _, f, h2⟩ := run_caps C r _ _ _ _ hy
      simp only [done, List.append_nil, Option.some.injEq] at h2
      rw [← h2]; exact f
    · exact search_caps C r t x h

theorem get_fits {C : Classes} {r : Rx} {d : Caps} (h : Fits C r d) (g : Group) :
    d.get g = [] ∨ ∃ a, (g, a) ∈ groups r ∧ Describes C a (d.get g) := by
  unfold Caps.get
  cases hf : d.find? (fun x => x.1 == g) with
  | none => exact .inl rfl
  | some x =>
    right
    have hx := List.mem_of_find?_eq_some hf
    have hg := List.find?_some hf
    simp only [beq_iff_eq] at hg
    obtain ⟨a, ha, hd⟩ := h x hx
    rw [hg] at ha
    exact ⟨a, ha, hd⟩

/-- The name captured from a header consists of word characters. -/
theorem name_word (C : Classes) (t : Text) (x) (h : search C rxGlobal t = some x) : ∀ c ∈ x.2.get .name, C.word c = true := by
  rcases get_fits (search_caps C rxGlobal t x h) .name with e | ⟨a, ha, hd⟩
  · simp [e]
  · have : a = word1 := by
      simp [rxGlobal, seqs, groups, lit, sp1, sp0, plus, rxRoles, opt, word1, word0] at ha
      simpa [word1, word0] using ha
    subst this
    exact (describes_word1 hd).2

end Verif.NuscrTextSpec
