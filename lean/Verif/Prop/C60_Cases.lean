import Verif.Prop.C60
/-!
# C60, concrete texts: the hypotheses are met, and where the claim fails
-/
namespace Verif.Prop
open Verif.Nuscr Verif.NuscrSpec Verif.NuscrText Verif.NuscrTextSpec Verif.NuscrRegular

def isBlank (c : Char) : Bool := c == ' ' || c == '\t'

theorem ascii_whites : Whites ascii isBlank where
  blank := by decide
  word := by
    intro c hc
    unfold isBlank
    by_cases h1 : c = ' '
    · subst h1; exact absurd hc (by decide)
    · by_cases h2 : c = '\t'
      · subst h2; exact absurd hc (by decide)
      · simp [h1, h2]

/-- A line of a protocol and what the tool is given. -/
example : regularLine ascii isBlank "\t  Hello(Int)  from A to B within [0;5] using a and resetting (a);".toList =
    "   Hello(Int) from A to B;".toList := by decide +kernel

example : regularLine ascii isBlank "  timed  global protocol P(role A, role B) {".toList =
    "   global protocol P(role A, role B) {".toList := by decide +kernel

example : Clear [(['t', 'i', 'm', 'e', 'd'], 0, 1), (['B'], 2, 0)] := by
  intro r hr
  simp only [List.mem_cons, List.not_mem_nil, or_false] at hr
  rcases hr with rfl | rfl <;> decide

/-- C60, roles: of a role whose name ends in `timed` the tool is given another name, in the header only, or none. -/
theorem C60_role_renamed :
    kindOf ascii "timed global protocol P(role Untimed , role B){".toList =
      .global ['P'] [['U', 'n', 't', 'i', 'm', 'e', 'd'], ['B']] ∧
    regularLine ascii isBlank "timed global protocol P(role Untimed , role B){".toList =
      "global protocol P(role Un, role B){".toList ∧
    regularLine ascii isBlank "M() from Untimed to B within [0;1] using a and resetting ();".toList =
      "M() from Untimed to B;".toList ∧
    regularLine ascii isBlank "timed global protocol P(role timed , role B){".toList =
      "global protocol P(role , role B){".toList := by decide +kernel

/-- C60, brackets: what follows a message on its line is not given to the tool, not even the bracket the generator counts,
so that a protocol the generator accepts is given with a bracket missing. -/
theorem C60_bracket_lost : ∃ text prog, generatorText id ascii text = .ok prog ∧
    (text.map fun t => t.count '{').sum = (text.map fun t => t.count '}').sum ∧
    ((regular ascii isBlank [] text).1.map fun t => t.count '{').sum = 1 ∧
    ((regular ascii isBlank [] text).1.map fun t => t.count '}').sum = 0 := by
  refine ⟨["timed global protocol P(role A, role B) {".toList,
    "M() from A to B within [0;1] using a and resetting ();".toList,
    "N() from B to A within [2;3] using a and resetting (); }".toList], ?_⟩
  have h : ∃ prog, generatorText id ascii ["timed global protocol P(role A, role B) {".toList,
    "M() from A to B within [0;1] using a and resetting ();".toList,
    "N() from B to A within [2;3] using a and resetting (); }".toList] = .ok prog := by
    rw [← okB_iff]
    decide +kernel
  obtain ⟨prog, hp⟩ := h
  exact ⟨prog, hp, by decide +kernel, by decide +kernel, by decide +kernel⟩

/-- C60, comments: a message that has been commented out is given to the tool as a message. -/
theorem C60_comment : regularLine ascii isBlank "// M() from A to B within [0;1] using a and resetting ();".toList =
    "M() from A to B;".toList := by decide +kernel

end Verif.Prop
