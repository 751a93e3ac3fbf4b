import Verif.Model.Branching

/-!
# C37: the variants of a branching enum are listed in ascending order
-/
namespace Verif.Prop
open Verif.Branching

/-- `a` comes strictly before `b` in the dictionary order of the code points. -/
inductive Before : List Char → List Char → Prop where
  | short (c cs) : Before [] (c :: cs)
  | first (a b as bs) : a.toNat < b.toNat → Before (a :: as) (b :: bs)
  | later (c as bs) : Before as bs → Before (c :: as) (c :: bs)

/-- Listed in ascending order: nothing comes after something it should precede. -/
def Ascending (l : List (List Char)) : Prop := l.Pairwise fun earlier later => ¬ Before later earlier

theorem char_eq {a b : Char} (h : a.toNat = b.toNat) : a = b := Char.ext (UInt32.toNat_inj.mp h)

theorem strLt_iff : ∀ a b, strLt a b = true ↔ Before a b
  | _, [] => by
    constructor
    · intro h; cases ‹List Char› <;> simp [strLt] at h
    · intro h; cases h
  | [], _ :: _ => by simp only [strLt]; exact ⟨fun _ => .short _ _, fun _ => trivial⟩
  | a :: as, b :: bs => by
    unfold strLt
    split
    · exact ⟨fun _ => .first _ _ _ _ ‹_›, fun _ => rfl⟩
    · split
      · constructor
        · intro h; cases h
        · intro h
          cases h with
          | first _ _ _ _ h => omega
          | later _ _ _ h => omega
      · rw [strLt_iff as bs]
        have : a = b := char_eq (by omega)
        subst this
        constructor
        · exact .later _ _ _
        · intro h
          cases h with
          | first _ _ _ _ h => omega
          | later _ _ _ h => exact h

theorem before_irrefl : ∀ a, ¬ Before a a
  | [], h => by cases h
  | a :: as, h => by
    cases h with
    | first _ _ _ _ h => omega
    | later _ _ _ h => exact before_irrefl as h

theorem before_trans : ∀ {a b c}, Before a b → Before b c → Before a c := by
  intro a b c h1
  induction h1 generalizing c with
  | short x xs => intro h2; cases h2 <;> exact .short _ _
  | first x y xs ys h =>
    intro h2
    cases h2 with
    | first _ _ _ _ h' => exact .first _ _ _ _ (by omega)
    | later _ _ _ h' => exact .first _ _ _ _ h
  | later x xs ys h ih =>
    intro h2
    cases h2 with
    | first _ _ _ _ h' => exact .first _ _ _ _ h'
    | later _ _ _ h' => exact .later _ _ _ (ih h')

theorem before_total : ∀ a b, Before a b ∨ a = b ∨ Before b a
  | [], [] => .inr (.inl rfl)
  | [], _ :: _ => .inl (.short _ _)
  | _ :: _, [] => .inr (.inr (.short _ _))
  | a :: as, b :: bs => by
    rcases Nat.lt_trichotomy a.toNat b.toNat with h | h | h
    · exact .inl (.first _ _ _ _ h)
    · have := char_eq h
      subst this
      rcases before_total as bs with h | h | h
      · exact .inl (.later _ _ _ h)
      · exact .inr (.inl (by rw [h]))
      · exact .inr (.inr (.later _ _ _ h))
    · exact .inr (.inr (.first _ _ _ _ h))

/-- If `b` is not before `a` and `c` is not before `b` then `c` is not before `a`. -/
theorem notBefore_trans {a b c} (h1 : ¬ Before b a) (h2 : ¬ Before c b) : ¬ Before c a := by
  intro h
  rcases before_total a b with h' | h' | h'
  · exact h2 (before_trans h h')
  · subst h'; exact h2 h
  · exact h1 h'

theorem ascending_concat (l : List (List Char)) (x : List Char) (h : Ascending l)
    (hx : (l.getLast?.map fun last => strLt x last).getD false = false) : Ascending (l ++ [x]) := by
  unfold Ascending at *
  rw [List.pairwise_append]
  refine ⟨h, List.pairwise_singleton _ _, ?_⟩
  intro a ha b hb
  have := List.mem_singleton.mp hb
  subst this
  rcases List.eq_nil_or_concat l with h0 | ⟨l', y, h0⟩
  · subst h0; cases ha
  · rw [List.concat_eq_append] at h0
    subst h0
    simp only [List.getLast?_append, List.getLast?_singleton, Option.some_or, Option.map_some, Option.getD_some] at hx
    have hy : ¬ Before b y := by rw [← strLt_iff, hx]; simp
    rcases List.mem_append.mp ha with h1 | h1
    · exact notBefore_trans ((List.pairwise_append.mp h).2.2 a h1 y (List.mem_singleton.mpr rfl)) hy
    · rw [List.mem_singleton.mp h1]; exact hy

theorem loop_accepted : ∀ (rest names : List Name), Ascending names →
    (loop names rest = .accepted ↔ Ascending (names ++ rest))
  | [], names, h => by simp [loop, h]
  | x :: rest, names, h => by
    unfold loop
    split
    · rename_i hx
      constructor
      · intro hv
        cases hb : binarySearch names x with
        | none => rw [hb] at hv; cases hv
        | some i =>
          rw [hb] at hv
          simp only at hv
          split at hv <;> cases hv
      · intro ha
        exfalso
        rcases List.eq_nil_or_concat names with h0 | ⟨l', y, h0⟩
        · subst h0; simp at hx
        · rw [List.concat_eq_append] at h0
          subst h0
          simp only [List.getLast?_append, List.getLast?_singleton, Option.some_or, Option.map_some,
            Option.getD_some] at hx
          unfold Ascending at ha
          exact (List.pairwise_append.mp ha).2.2 y (by simp) x (by simp) ((strLt_iff _ _).mp hx)
    · rename_i hx
      rw [loop_accepted rest (names ++ [x]) (ascending_concat names x h (by simpa using hx))]
      simp

/-- C37.  The attribute accepts an enum exactly when its variants are listed in ascending order, and nothing that is not
an enum. -/
theorem C37_order (it : Item) :
    branchingVariants it = .accepted ↔ ∃ vs, it = .enum vs ∧ Ascending vs := by
  cases it with
  | other => simp [branchingVariants]
  | enum vs =>
    have := loop_accepted vs [] List.Pairwise.nil
    simp only [branchingVariants, this, List.nil_append, Item.enum.injEq]
    exact ⟨fun h => ⟨vs, rfl, h⟩, fun ⟨v, h, a⟩ => h ▸ a⟩

theorem takeWhile_spec (p : Name → Bool) : ∀ (l : List Name), (∃ y ∈ l, p y = false) →
    ∃ other, l[(l.takeWhile p).length]? = some other ∧ p other = false ∧
      ∀ z, z ∈ l.take (l.takeWhile p).length → p z = true
  | [], h => by obtain ⟨y, hy, _⟩ := h; cases hy
  | a :: l, h => by
    cases ha : p a with
    | false => simp [List.takeWhile, ha]
    | true =>
      obtain ⟨y, hy, hp⟩ := h
      have hy' : y ∈ l := by
        rcases List.mem_cons.mp hy with e | e
        · subst e; rw [ha] at hp; cases hp
        · exact e
      obtain ⟨o, h1, h2, h3⟩ := takeWhile_spec p l ⟨y, hy', hp⟩
      refine ⟨o, ?_, h2, ?_⟩
      · simp [List.takeWhile, ha, h1]
      · intro z hz
        simp only [List.takeWhile, ha, List.length_cons, List.take_succ_cons, List.mem_cons] at hz
        rcases hz with e | e
        · subst e; exact ha
        · exact h3 z e

theorem loop_rejected : ∀ (rest names : List Name), Ascending names → (names ++ rest).Nodup →
    ¬ Ascending (names ++ rest) →
    ∃ pre v post i other, rest = pre ++ v :: post ∧ Ascending (names ++ pre) ∧ ¬ Ascending (names ++ pre ++ [v]) ∧
      (names ++ pre)[i]? = some other ∧ Before v other ∧
      (∀ z, z ∈ (names ++ pre).take i → Before z v) ∧ loop names rest = .shouldSortBefore v other
  | [], names, h, _, hn => absurd (by simpa using h) hn
  | x :: rest, names, h, hd, hn => by
    by_cases hx : (names.getLast?.map fun last => strLt x last).getD false = true
    · rcases List.eq_nil_or_concat names with h0 | ⟨l', y, h0⟩
      · subst h0; simp at hx
      · rw [List.concat_eq_append] at h0
        have hnotin : x ∉ names := fun hm => by
          have := (List.nodup_append.mp hd).2.2 x hm x (by simp)
          exact this rfl
        have hlt : strLt x y = true := by
          rw [h0] at hx
          simpa only [List.getLast?_append, List.getLast?_singleton, Option.some_or, Option.map_some,
            Option.getD_some] using hx
        have hxy := (strLt_iff _ _).mp hlt
        have hy : y ∈ names := by rw [h0]; simp
        have hyx : strLt y x = false := by
          cases hc : strLt y x with
          | false => rfl
          | true => exact absurd (before_trans hxy ((strLt_iff _ _).mp hc)) (before_irrefl _)
        obtain ⟨o, h1, h2, h3⟩ := takeWhile_spec (fun z => strLt z x) names ⟨y, hy, hyx⟩
        have ho : Before x o := by
          rcases before_total x o with e | e | e
          · exact e
          · subst e
            exact absurd (List.mem_of_getElem? h1) hnotin
          · rw [← strLt_iff, h2] at e; cases e
        refine ⟨[], x, rest, _, o, rfl, by simpa using h, ?_, by simpa using h1, ho, ?_, ?_⟩
        · intro ha
          unfold Ascending at ha
          rw [List.append_nil] at ha
          exact (List.pairwise_append.mp ha).2.2 y hy x (by simp) hxy
        · intro z hz
          rw [List.append_nil] at hz
          exact (strLt_iff _ _).mp (h3 z hz)
        · unfold loop
          rw [if_pos hx]
          have hb : binarySearch names x = some (names.takeWhile fun z => strLt z x).length := by
            unfold binarySearch
            rw [if_neg (by simpa using hnotin)]
          simp only [hb, h1]
    · have hx' : (names.getLast?.map fun last => strLt x last).getD false = false := by simpa using hx
      have ha := ascending_concat names x h hx'
      obtain ⟨pre, v, post, i, o, e1, e2, e3, e4, e5, e6, e7⟩ :=
        loop_rejected rest (names ++ [x]) ha (by simpa using hd) (by simpa using hn)
      refine ⟨x :: pre, v, post, i, o, by rw [e1]; rfl, by simpa using e2, by simpa using e3, by simpa using e4, e5,
        by simpa using e6, ?_⟩
      unfold loop
      rw [if_neg hx]
      exact e7

/-- C37, the report.  When the variants are distinct, as those of a Rust enum are, and not in order, the attribute does
not panic: it names the first variant `v` that is out of order and the first of the earlier ones that `v` should
precede. -/
theorem C37_report (vs : List Name) (hd : vs.Nodup) (h : ¬ Ascending vs) :
    ∃ pre v post i other, vs = pre ++ v :: post ∧ Ascending pre ∧ ¬ Ascending (pre ++ [v]) ∧
      pre[i]? = some other ∧ Before v other ∧ (∀ z, z ∈ pre.take i → Before z v) ∧
      branchingVariants (.enum vs) = .shouldSortBefore v other := by
  unfold branchingVariants
  simpa using loop_rejected vs [] List.Pairwise.nil (by simpa using hd) (by simpa using h)

/-- Distinctness is needed: on `B, C, B` the attribute panics instead of reporting. -/
theorem C37_duplicate_panics : branchingVariants (.enum [['B'], ['C'], ['B']]) = .panicked := by decide

/-- `End`, `More` is accepted; `A`, `More`, `End`, `Z` is rejected with "End should sort before More". -/
example : branchingVariants (.enum [['E', 'n', 'd'], ['M', 'o', 'r', 'e']]) = .accepted := by decide
example : branchingVariants (.enum [['A'], ['M', 'o', 'r', 'e'], ['E', 'n', 'd'], ['Z']])
    = .shouldSortBefore ['E', 'n', 'd'] ['M', 'o', 'r', 'e'] := by decide
example : ¬ Ascending [['A'], ['M', 'o', 'r', 'e'], ['E', 'n', 'd'], ['Z']] := by
  intro h
  have := (C37_order (.enum _)).mpr ⟨_, rfl, h⟩
  revert this
  decide

end Verif.Prop
