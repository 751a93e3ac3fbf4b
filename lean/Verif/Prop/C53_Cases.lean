import Verif.Prop.C53
/-! # C53: concrete cases -/
namespace Verif.Prop
open Verif.Nuscr Verif.NuscrSpec Verif.NuscrText Verif.NuscrTextSpec Verif.EndToEnd

/-- `A` greets `B` again and again; `C` hears of the choices only. -/
def greet : Proto :=
  ⟨['P'], [['A'], ['C'], ['B']], [.msg (ab ['H'] '0' '1'), .loop ['L'], .msg (ab ['K'] '0' '9')], ['A'],
    ⟨[ab ['M'] '0' '9'], some ['L']⟩, [⟨[ab ['N'] '0' '9'], none⟩]⟩

/-- Its text. -/
def greetText : List Text :=
  [headerText one ['P'] [(['A'], 0, 1), (['C'], 0, 1), (['B'], 0, 0)],
    messageText one none (ab ['H'] '0' '1'), loopText one ['L'], messageText one none (ab ['K'] '0' '9'),
    choiceText one ['A'], messageText one none (ab ['M'] '0' '9'), jumpText one ['L'], orText one,
    messageText one none (ab ['N'] '0' '9'), closeText one, closeText one, closeText one]

example : greetText[0]! = "timed global protocol P(role A, role C, role B){".toList ∧
    greetText[3]! = "K() from A to B within [0;9] using a and resetting ();".toList ∧
    greetText[6]! = "continue L;".toList := by decide +kernel

theorem greet_written : IsText ascii greet.lines greetText := by
  have m : ∀ label l r, IsWord ascii label → l.isDigit = true → r.isDigit = true →
      Written ascii ⟨0, 0, false, .message (ab label l r)⟩ (messageText one none (ab label l r)) :=
    fun label l r h1 h2 h3 => .message _ _ _ (ab_written none (by simp) label h1 l r h2 h3)
  have w : ∀ c : Char, ascii.word c = true → IsWord ascii [c] := fun c h => ⟨by simp, by simpa using h⟩
  refine .cons (.header ['P'] [(['A'], 0, 1), (['C'], 0, 1), (['B'], 0, 0)] one (w _ (by decide)) (by simp) ?_)
    (.cons (m _ _ _ (w _ (by decide)) (by decide) (by decide))
    (.cons (.loop _ _ (w _ (by decide)))
    (.cons (m _ _ _ (w _ (by decide)) (by decide) (by decide))
    (.cons (.choice _ _ (w _ (by decide)))
    (.cons (m _ _ _ (w _ (by decide)) (by decide) (by decide))
    (.cons (.jump _ _ (w _ (by decide)))
    (.cons (.or _)
    (.cons (m _ _ _ (w _ (by decide)) (by decide) (by decide))
    (.cons (.close _) (.cons (.close _) (.cons (.close _) .nil)))))))))))
  intro r hr
  simp only [List.mem_cons, List.not_mem_nil, or_false] at hr
  rcases hr with rfl | rfl | rfl <;> exact w _ (by decide)

/-- The hypotheses can be met. -/
theorem greet_accepted : ∃ prog, Accepted id ascii (.choice greet) greetText prog := by
  obtain ⟨prog, h⟩ := (okB_iff (generator id greet.lines)).mp (by decide)
  refine ⟨prog, ascii_usual, greet_written, by decide, by decide, ?_⟩
  rw [C48_generator id ascii ascii_usual _ _ greet_written]
  exact h

/-- An execution in which the greeting is repeated once. -/
theorem greet_execution : Execution (.choice greet) true
    [.exchange (ab ['H'] '0' '1'), .exchange (ab ['K'] '0' '9'), .choice ['A'] 0, .exchange (ab ['M'] '0' '9'),
      .exchange (ab ['K'] '0' '9'), .choice ['A'] 1, .exchange (ab ['N'] '0' '9')] :=
  .choice (P := greet) (.again (i := 0) (b := greet.first) (l := ['L']) (body := [ab ['K'] '0' '9']) rfl rfl rfl
    (.ends (i := 1) (b := ⟨[ab ['N'] '0' '9'], none⟩) rfl rfl))

/-- It can be performed by the generated program, to the return of all roles from `close`; `C` does nothing but hear of the
choices. -/
example : ∃ prog ls st, Accepted id ascii (.choice greet) greetText prog ∧
    Runtime.RRun (system prog (fun _ => 7) id (.choice greet)) 0 ls st ∧
    Runtime.AllClosed (system prog (fun _ => 7) id (.choice greet)) st ∧
    Mesh.actsOf (EndToEnd.number prog ['C']) (Runtime.sims ls) = [.heed 1 1, .heed 1 2] := by
  obtain ⟨prog, h⟩ := greet_accepted
  obtain ⟨ls, st, h1, h2, h3⟩ := C53_possible h (fun _ => 7) true _ greet_execution
  refine ⟨prog, ls, st, h, h1, h3 rfl, ?_⟩
  rw [h2 ['C'] (by decide)]
  have hr : prog.roles = [['A'], ['B'], ['C']] := by rw [accepted_roles h]; decide
  simp [does, ab, EndToEnd.number, hr, List.idxOf_cons]

/-- An execution of a protocol without a choice. -/
example : Execution (.straight ['P'] [['A'], ['B']] [ab ['M'] '0' '1']) true [.exchange (ab ['M'] '0' '1')] := .straight

/-- In the first branch `A` sends twice to `B` and chooses again. -/
example (prog : Program) (hr : prog.roles = [['A'], ['B'], ['C']]) (code : Params → Nat) :
    globalOf prog code id (.choice greet) 1 =
      ⟨[⟨1, 2, code (written id (ab ['M'] '0' '9'))⟩, ⟨1, 2, code (written id (ab ['K'] '0' '9'))⟩], .choice 1 [1, 2]⟩ := by
  simp [globalOf, greet, Proto.branches, Proto.exchanges, loopBody, messagesOf, EndToEnd.comm, EndToEnd.tailOf, EndToEnd.number, hr, ab,
    List.idxOf_cons, List.range']

end Verif.Prop
