import Verif.Prop.C57
import Verif.Prop.C49_Cases

/-!
# C57: concrete protocols
-/
namespace Verif.Prop
open Verif.Nuscr Verif.NuscrSpec

/-- The file of a protocol, with names left as they are. -/
def plainFile (lower : Text → Text) (lines : List Line) : Except Fault File :=
  file id (fun _ => false) lower id (fun _ => id) lines

theorem isOk_some {α : Type} {x : Except Fault α} (h : (okOf x).isSome = true) : ∃ a, x = .ok a := by
  cases x with
  | error e => cases h
  | ok a => exact ⟨a, rfl⟩

/-- Lower case, of the letters `A` to `Z`. -/
def lowerAscii (t : Text) : Text := t.map Char.toLower

/-- The hypotheses of the theorems are met: a file with a choice, in which all names refer to what is meant. -/
example : ∃ f, plainFile lowerAscii (askEither (abWith ['M'] ['x']) (abWith ['N'] ['y'])).lines = .ok f ∧ WellNamed f := by
  obtain ⟨f, hf⟩ : ∃ f, plainFile lowerAscii (askEither (abWith ['M'] ['x']) (abWith ['N'] ['y'])).lines = .ok f :=
    isOk_some (by decide +kernel)
  refine ⟨f, hf, ?_⟩
  rw [C57_partial (fun _ => .rfl) (fun _ _ => .rfl) _ f hf (by decide) (by decide) ?_ (by decide) (by decide +kernel)
    ⟨by decide, by decide⟩ (by decide +kernel)]
  · refine ⟨?_, by decide +kernel, by decide +kernel, by decide +kernel, by decide +kernel⟩
    unfold Baking.NamesApart
    decide +kernel
  · intro p hp
    have : p = ['A'] ∨ p = ['B'] := by simpa [askEither] using hp
    unfold NoTo
    rcases this with rfl | rfl <;> decide

/-- One message between `A` and `B`. -/
def single (m : Msg) : List Line := protocol ['P'] [['A'], ['B']] [m]

/-- C57, messages that are accepted although the file cannot be compiled: a message that carries a `String`, as in
`scribble_protocols/atmp/simple_voting.nuscr`, for the emitted code means another `String`; one called `Result`, also there;
one called `Ok` without a payload, for the functions end with `Ok(())`; one called `Error`, `End` or `Instant`, which are
brought in by `use`; and one with the name of a type made from a role. -/
theorem C57_messages : ∀ m ∈ [abWith "Authenticate".toList "String".toList, abWith "Result".toList "Int".toList,
    abWith "Ok".toList [], abWith "Error".toList [], abWith "End".toList [], abWith "Instant".toList [],
    abWith "RoleA".toList [], abWith "NameB".toList "Int".toList],
    ∃ f, plainFile lowerAscii (single m) = .ok f ∧ ¬ WellNamed f := by
  have key : ∀ m : Msg, (okOf (plainFile lowerAscii (single m))).isSome = true → '_' ∉ m.message → '_' ∉ m.payload →
      Consistent id [m] → ((∃ a ∈ named [m], a ∈ takenTypes ∨ a ∈ roleTypes ['A'] ∨ a ∈ roleTypes ['B']) ∨
        (m.payload = [] ∧ m.message ∈ takenValues)) → ∃ f, plainFile lowerAscii (single m) = .ok f ∧ ¬ WellNamed f := by
    intro m h1 h2 h3 h4 h5
    obtain ⟨f, hf⟩ := isOk_some h1
    refine ⟨f, hf, ?_⟩
    have ht : typeName id (fun _ => false) = id := by funext t; simp [typeName]
    rw [C57_plain_partial (fun _ => .rfl) (fun _ _ => .rfl) _ _ _ f hf (by decide) (by decide) ?_ (by decide) ?_ h4 ?_, ht]
    · intro h
      rcases h5 with ⟨a, ha, h5 | h5 | h5⟩ | ⟨e, h5⟩
      · exact (h.types a ha).1 h5
      · exact (h.types a ha).2.2 _ (by simp) h5
      · exact (h.types a ha).2.2 _ (by simp) h5
      · exact (h.values m (by simp)).1 e h5
    · intro p hp
      have : p = ['A'] ∨ p = ['B'] := by simpa using hp
      unfold NoTo
      rcases this with rfl | rfl <;> decide
    · rw [ht]
      intro a ha
      simp only [named, List.map_cons, List.map_nil, List.mem_append, List.mem_cons, List.not_mem_nil, or_false,
        List.mem_filter] at ha
      rcases ha with rfl | ⟨rfl, _⟩
      · exact h2
      · exact h3
    · rw [ht]; exact fun a _ b _ h => h
  intro m hm
  simp only [List.mem_cons, List.not_mem_nil, or_false] at hm
  rcases hm with rfl | rfl | rfl | rfl | rfl | rfl | rfl | rfl <;>
    exact key _ (by decide +kernel) (by decide +kernel) (by decide +kernel) ⟨by decide +kernel, by decide +kernel⟩
      (by decide +kernel)

/-- A message called `Ok` with a payload is no value, and does no harm. -/
example : ∃ f, plainFile lowerAscii (single (abWith "Ok".toList "Int".toList)) = .ok f ∧ WellNamed f := by
  obtain ⟨f, hf⟩ : ∃ f, plainFile lowerAscii (single (abWith "Ok".toList "Int".toList)) = .ok f :=
    isOk_some (by decide +kernel)
  refine ⟨f, hf, ?_⟩
  rw [C57_plain_partial (fun _ => .rfl) (fun _ _ => .rfl) _ _ _ f hf (by decide) (by decide) ?_ (by decide)
    (by decide +kernel) ⟨by decide +kernel, by decide +kernel⟩ (by decide +kernel)]
  · refine ⟨?_, by decide +kernel, by decide +kernel, by decide +kernel, by decide +kernel⟩
    unfold Baking.NamesApart
    decide +kernel
  · intro p hp
    have : p = ['A'] ∨ p = ['B'] := by simpa using hp
    unfold NoTo
    rcases this with rfl | rfl <;> decide

/-- The same message between other roles. -/
def between (p q : Text) : Msg := { ab ['M'] '0' '9' with sender := p, receiver := q }

/-- C57, roles that are accepted although the file cannot be compiled: `End`, for `RoleEnd` is brought in by `use`; `a` beside
`A`, for the functions and the variables of `main` are in lower case; and `ADual` beside `A` (C54). -/
theorem C57_roles : ∀ pq ∈ [("A".toList, "End".toList), ("A".toList, "a".toList), ("A".toList, "ADual".toList)],
    ∃ f, plainFile lowerAscii (protocol ['P'] [pq.1, pq.2] [between pq.1 pq.2]) = .ok f ∧ ¬ WellNamed f := by
  have key : ∀ p q : Text, (okOf (plainFile lowerAscii (protocol ['P'] [p, q] [between p q]))).isSome = true →
      p ≠ q → NoTo p → NoTo q → '_' ∉ lowerAscii p → '_' ∉ lowerAscii q →
      (q = "End".toList ∨ lowerAscii p = lowerAscii q ∨ q = p ++ "Dual".toList) →
      ∃ f, plainFile lowerAscii (protocol ['P'] [p, q] [between p q]) = .ok f ∧ ¬ WellNamed f := by
    intro p q h1 h2 h3 h4 h5 h6 h7
    obtain ⟨f, hf⟩ := isOk_some h1
    refine ⟨f, hf, ?_⟩
    have ht : typeName id (fun _ => false) = id := by funext t; simp [typeName]
    have hn : named [between p q] = [['M']] := by simp [named, between, ab]
    rw [C57_plain_partial (fun _ => .rfl) (fun _ _ => .rfl) _ _ _ f hf (by simp [h2]) (by simp) ?_ ?_ ?_ ?_ ?_, ht]
    · intro h
      rcases h7 with e | e | e
      · exact h.library.1 (by simp [e])
      · exact h2 (h.lowered p (by simp) q (by simp) e)
      · exact (h.apart q (by simp) p (by simp)).1 e
    · intro r hr
      simp only [List.mem_cons, List.not_mem_nil, or_false] at hr
      rcases hr with rfl | rfl
      · exact h3
      · exact h4
    · intro r hr
      simp only [List.mem_cons, List.not_mem_nil, or_false] at hr
      rcases hr with rfl | rfl
      · exact h5
      · exact h6
    · rw [ht, hn]; decide
    · constructor
      · intro m hm m' hm' _
        simp only [List.mem_cons, List.not_mem_nil, or_false] at hm hm'
        rw [hm, hm']
      · intro m hm m' hm' h
        simp only [List.mem_cons, List.not_mem_nil, or_false] at hm'
        subst hm'
        simp [between, ab] at h
    · rw [ht]; exact fun a _ b _ h => h
  intro pq hm
  simp only [List.mem_cons, List.not_mem_nil, or_false] at hm
  rcases hm with rfl | rfl | rfl <;>
    exact key _ _ (by decide +kernel) (by decide) (by unfold NoTo; decide) (by unfold NoTo; decide) (by decide +kernel)
      (by decide +kernel) (by decide +kernel)

end Verif.Prop
