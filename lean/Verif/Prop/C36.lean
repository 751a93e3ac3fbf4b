import Verif.Proof.Nuscr

/-!
# C36: bracket accounting of global protocols
-/
namespace Verif.Prop
open Verif.Nuscr

/-- Blocks opened and closed in some lines. -/
def opened (l : List Line) : Nat := (l.map (·.opens)).sum
def closed (l : List Line) : Nat := (l.map (·.closes)).sum

theorem opensOf_eq (l : List (Nat × Line)) : opensOf l = opened (l.map (·.2)) := by
  simp [opensOf, opened, Function.comp_def]

theorem closesOf_eq (l : List (Nat × Line)) : closesOf l = closed (l.map (·.2)) := by
  simp [closesOf, closed, Function.comp_def]

/-- C36, what acceptance means.  If the generator accepts a file then it has read a non-empty beginning of it in which
every block opened is closed, and in no initial part of that beginning more blocks are closed than opened. -/
theorem C36_accepted (title : Text → Text) (lines : List Line) (prog : Program)
    (h : generator title lines = .ok prog) :
    ∃ pre post, lines = pre ++ post ∧ pre ≠ [] ∧ opened pre = closed pre ∧
      ∀ k, closed (pre.take k) ≤ opened (pre.take k) := by
  rw [generator_eq] at h
  obtain ⟨d, hd, h⟩ := bind_ok h
  obtain ⟨pre, e, s, hne⟩ := processLine_reads title _ _ _ _ _ _ d hd
  have hlines : lines = pre.map (·.2) ++ d.rest.map (·.2) := by
    rw [← List.map_append, ← e, number_snd]
  split at h
  · cases h
  · rename_i hbal
    split at h
    · cases h
    · rename_i hout
      refine ⟨pre.map (·.2), d.rest.map (·.2), hlines, ?_, ?_, ?_⟩
      · intro h0
        have h0' : pre = [] := List.map_eq_nil_iff.mp h0
        have : number 0 lines = [] := Classical.byContradiction fun hn => hne hn h0'
        have hl : lines = [] := by rw [← number_snd 0 lines, this]; rfl
        subst hl
        simp only [number, List.length_nil, processLine, Except.ok.injEq] at hd
        subst hd
        exact hout rfl
      · have a := s.opening
        have b := s.closing
        rw [opensOf_eq] at a
        rw [closesOf_eq] at b
        simp only [Glob.start] at a b
        omega
      · intro k
        rw [← List.map_take, ← opensOf_eq, ← closesOf_eq]
        by_cases h0 : k = 0
        · subst h0; simp [opensOf, closesOf]
        · by_cases hk : k ≤ pre.length
          · have := s.never k (by omega) hk
            simpa [Glob.start] using this
          · rw [List.take_of_length_le (by omega)]
            have := s.opening
            have := s.closing
            simp only [Glob.start] at *
            omega

/-- C36, unclosed blocks.  A file in which, after each line, some block is still open is rejected.  Missing for the full
property: blocks left open after a point at which all blocks were closed (`C36_ignores_rest`). -/
theorem C36_unclosed_partial (title : Text → Text) (lines : List Line)
    (h : ∀ k, 0 < k → k ≤ lines.length → closed (lines.take k) < opened (lines.take k)) (prog : Program) :
    generator title lines ≠ .ok prog := by
  intro ha
  obtain ⟨pre, post, e, hne, hb, _⟩ := C36_accepted title lines prog ha
  have := h pre.length (List.length_pos_iff.mpr hne) (by rw [e]; simp)
  rw [e, List.take_left] at this
  omega

/-- C36, too many closing.  A file in which, after some line, more blocks were closed than opened is rejected, unless at
an earlier line all blocks were closed.  Missing for the full property: that exception (`C36_ignores_rest`). -/
theorem C36_overclosed_partial (title : Text → Text) (lines : List Line) (n : Nat)
    (hn : opened (lines.take n) < closed (lines.take n))
    (h : ∀ k, 0 < k → k < n → opened (lines.take k) ≠ closed (lines.take k)) (prog : Program) :
    generator title lines ≠ .ok prog := by
  intro ha
  obtain ⟨pre, post, e, hne, hb, hp⟩ := C36_accepted title lines prog ha
  by_cases hl : n ≤ pre.length
  · have := hp n
    rw [e, List.take_append_of_le_length hl] at hn
    omega
  · have := h pre.length (List.length_pos_iff.mpr hne) (by omega)
    rw [e, List.take_left] at this
    exact this hb

/-- `timed global protocol P(role A, role B) {` -/
def headerLine : Line := ⟨1, 0, false, .global ['P'] [['A'], ['B']]⟩
/-- `}` -/
def closeLine : Line := ⟨0, 1, false, .other⟩
/-- `foo {`, a line of no meaning that opens a block -/
def openLine : Line := ⟨1, 0, false, .other⟩
/-- `M() from A to B within [0;1] using a and resetting ();` -/
def sampleMsg : Msg := ⟨['A'], ['B'], ['M'], ['a'], ['0'], .opening, ['1'], .closing, none, []⟩
def sampleLine : Line := ⟨0, 0, false, .message sampleMsg⟩

/-- Does the generator accept? -/
def accepts (lines : List Line) : Bool :=
  match generator id lines with
  | .ok _ => true
  | .error _ => false

/-- The full property fails: after the line that closes the protocol nothing is read, so that superfluous closing
brackets and blocks left open after it go unnoticed. -/
theorem C36_ignores_rest :
    accepts [headerLine, sampleLine, closeLine, closeLine] = true ∧
    accepts [headerLine, sampleLine, closeLine, openLine] = true := by decide

/-- The hypotheses are met: a protocol left open, one with a line closing twice; and an accepted one. -/
example : accepts [headerLine, sampleLine] = false := by decide
example : accepts [headerLine, sampleLine, ⟨0, 2, false, .other⟩] = false := by decide
example : accepts [headerLine, sampleLine, closeLine] = true := by decide
example : ∀ k, 0 < k → k ≤ 2 → closed ([headerLine, sampleLine].take k) < opened ([headerLine, sampleLine].take k) := by
  intro k h1 h2
  have : k = 1 ∨ k = 2 := by omega
  rcases this with e | e <;> subst e <;> decide

end Verif.Prop
