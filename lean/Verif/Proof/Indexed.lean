import Verif.Spec.Indexed
/-!
# Lemmas about the functions made by macros with an index
-/
namespace Verif.Indexed

theorem flat_range {β : Type} (g : Nat → β) (k : Nat) : ∀ m a,
    ((List.range' a m).flatMap fun i => if i ≠ k then [] else [g i]) = if a ≤ k ∧ k < a + m then [g k] else [] := by
  intro m
  induction m with
  | zero => intro a; rw [if_neg (by omega)]; rfl
  | succ m ih =>
    intro a
    rw [List.range'_succ, List.flatMap_cons, ih (a + 1)]
    by_cases h : a = k
    · subst h
      rw [if_neg (by simp), if_neg (by omega), if_pos (by omega)]; rfl
    · rw [if_pos h]
      by_cases h2 : a + 1 ≤ k ∧ k < a + 1 + m
      · rw [if_pos h2, if_pos (by omega)]; rfl
      · rw [if_neg h2, if_neg (by omega)]; rfl

/-- The fields of `newFields`, from any number on. -/
def fieldsFrom (a m k : Nat) : List (Nat × Src) :=
  (List.range' a m).map fun i => if i = k then (i, .fresh) else (i, .old i)

theorem newFields_eq (n k : Nat) : newFields n k = fieldsFrom 1 (n - 1) k := rfl

theorem zip_range_cons {α : Type} (a : Nat) (x : α) (l : List α) :
    (List.range' a (x :: l).length).zip (x :: l) = (a, x) :: (List.range' (a + 1) l.length).zip l := by
  rw [List.length_cons, List.range'_succ, List.zip_cons_cons]

theorem take_none {α : Type} (k : Nat) : ∀ (l : List α) a, ¬ (a ≤ k ∧ k < a + l.length) →
    takeField k ((List.range' a l.length).zip l) = none := by
  intro l
  induction l with
  | nil => intro a _; rfl
  | cons x l ih =>
    intro a h
    rw [zip_range_cons]
    simp only [List.length_cons] at h
    unfold takeField
    rw [if_neg (by omega), ih (a + 1) (by omega)]

theorem build_old {α X K : Type} : ∀ (l : List α) (a k : Nat) (st : Env α X K), ¬ (a ≤ k ∧ k < a + l.length) →
    build { st with slots := (List.range' a l.length).zip l } (fieldsFrom a l.length k)
      = some ((List.range' a l.length).zip l) := by
  intro l
  induction l with
  | nil => intro a k st _; rfl
  | cons x l ih =>
    intro a k st h
    simp only [List.length_cons] at h
    rw [zip_range_cons]
    unfold fieldsFrom
    rw [List.length_cons, List.range'_succ, List.map_cons, if_neg (by omega)]
    unfold build takeField
    rw [if_pos rfl]
    dsimp only
    have := ih (a + 1) k st (by omega)
    unfold fieldsFrom at this
    rw [this]; rfl

theorem build_fresh {α X K : Type} : ∀ (l : List α) (a k : Nat), a ≤ k → k < a + l.length →
    ∃ s rest, l[k - a]? = some s ∧ takeField k ((List.range' a l.length).zip l) = some (s, rest) ∧
      ∀ (b : α) (st : Env α X K), build { st with slots := rest, fresh := some b } (fieldsFrom a l.length k)
        = some ((List.range' a l.length).zip (l.set (k - a) b)) := by
  intro l
  induction l with
  | nil => intro a k h1 h2; simp at h2; omega
  | cons x l ih =>
    intro a k h1 h2
    simp only [List.length_cons] at h2
    rw [zip_range_cons]
    by_cases h : a = k
    · subst h
      refine ⟨x, (List.range' (a + 1) l.length).zip l, by simp, by unfold takeField; rw [if_pos rfl], ?_⟩
      intro b st
      unfold fieldsFrom
      rw [List.length_cons, List.range'_succ, List.map_cons, if_pos rfl]
      unfold build
      dsimp only
      have := build_old l (a + 1) a { st with fresh := none } (by omega)
      unfold fieldsFrom at this
      dsimp only at this
      rw [this, Nat.sub_self]; rfl
    · obtain ⟨s, rest, e1, e2, e3⟩ := ih (a + 1) k (by omega) (by omega)
      have ek : k - a = (k - (a + 1)) + 1 := by omega
      refine ⟨s, (a, x) :: rest, by rw [ek, List.getElem?_cons_succ]; exact e1, ?_, ?_⟩
      · unfold takeField; rw [if_neg h, e2]
      · intro b st
        unfold fieldsFrom
        rw [List.length_cons, List.range'_succ, List.map_cons, if_neg h]
        unfold build takeField
        rw [if_pos rfl]
        dsimp only
        have := e3 b st
        unfold fieldsFrom at this
        rw [this, ek]; rfl

/-- The session with an index in range is there; what is built once it is replaced. -/
theorem slot_in {α : Type} (X K : Type) (slots : List α) (n k : Nat) (hk : 1 ≤ k) (hn : k < n)
    (hl : slots.length = n - 1) :
    ∃ s rest, slots[k - 1]? = some s ∧ takeField k (fieldsOf slots) = some (s, rest) ∧
      ∀ (b : α) (st : Env α X K), build { st with slots := rest, fresh := some b } (newFields n k)
        = some (fieldsOf (slots.set (k - 1) b)) := by
  obtain ⟨s, rest, e1, e2, e3⟩ := build_fresh (X := X) (K := K) slots 1 k hk (by omega)
  refine ⟨s, rest, e1, e2, fun b st => ?_⟩
  have := e3 b st
  rw [hl] at this
  rw [newFields_eq, this]
  unfold fieldsOf
  rw [List.length_set, hl]

/-- Without such a session all fields are moved. -/
theorem slot_out {α X K : Type} (slots : List α) (n k : Nat) (hk : ¬ (1 ≤ k ∧ k < n))
    (hl : slots.length = n - 1) (st : Env α X K) :
    build { st with slots := fieldsOf slots } (newFields n k) = some (fieldsOf slots) := by
  have := build_old slots 1 k st (by omega)
  rw [hl] at this
  rw [newFields_eq]
  unfold fieldsOf
  rw [hl]
  exact this

theorem call_eq {E α X K : Type} (o : Ops E α X K) (f : Fn) (x : Option X) (slots : List α) (stack : K) :
    f.call o x slots stack = match steps o { slots := fieldsOf slots, x := x, stack := some stack } f.body with
      | none => none
      | some (.error e) => some (.error e)
      | some (.ok st) => match build st f.fields, st.newStack with
        | some mesh, some q => some (.ok { mesh := mesh, stack := q, got := st.got })
        | _, _ => none := rfl

/-- The statements of the bodies. -/
theorem body_eq (g : Nat → Stmt) (n k : Nat) :
    ((List.range' 1 (n - 1)).flatMap fun i => if i ≠ k then [] else [g i]) = if 1 ≤ k ∧ k < n then [g k] else [] := by
  rw [flat_range]
  by_cases h : 1 ≤ k ∧ k < n
  · rw [if_pos h, if_pos (by omega)]
  · rw [if_neg h, if_neg (by omega)]

end Verif.Indexed
