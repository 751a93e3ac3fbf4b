import Verif.Prop.C49

/-!
# C49: concrete protocols

Here and in a file of their own: the evaluation of a wrong version of the model may need a lot of memory.
-/
namespace Verif.Prop
open Verif.Nuscr Verif.NuscrSpec

/-- A message from `A` to `B` with a payload. -/
def abWith (label payload : Text) : Msg := { ab label '0' '9' with payload := payload }

/-- Two branches, of one message each. -/
def askEither (m m' : Msg) : Proto where
  name := ['P']
  roles := [['A'], ['B']]
  pre := [.msg (ab ['I'] '0' '1')]
  chooser := ['A']
  first := ⟨[m], none⟩
  others := [⟨[m'], none⟩]

def okOf {α : Type} : Except Fault α → Option α
  | .ok a => some a
  | .error _ => none

theorem okOf_iff {α : Type} {x : Except Fault α} {a : α} (h : okOf x = some a) : x = .ok a := by
  cases x with
  | error e => cases h
  | ok b => simp only [okOf, Option.some.injEq] at h; rw [h]

/-- The hypotheses of the theorems above are met. -/
example : Consistent id (askEither (abWith ['M'] ['x']) (abWith ['N'] ['y'])).messages ∧
    ∃ ss, structs id (fun _ => false) id (fun _ => id) (askEither (abWith ['M'] ['x']) (abWith ['N'] ['y'])).lines =
      .ok ss ∧ (['M'], some ['x']) ∈ ss ∧ (['N'], some ['y']) ∈ ss ∧ (['x'], none) ∈ ss ∧ ss.length = 5 :=
  ⟨⟨by decide, by decide⟩, _, okOf_iff (a := [(['x'], none), (['y'], none), (['I'], none), (['N'], some ['y']),
    (['M'], some ['x'])]) (by decide +kernel), by decide⟩

/-- C49, a label with two payloads: only one of them is in the generated file, in the same part of the protocol the last
one, in branches the one of a later branch. -/
theorem C49_two_payloads :
    structs id (fun _ => false) id (fun _ => id) (protocol ['P'] [['A'], ['B']] [abWith ['M'] ['x'], abWith ['M'] ['y']]) =
      .ok [(['x'], none), (['y'], none), (['M'], some ['y'])] ∧
    structs id (fun _ => false) id (fun _ => id) (askEither (abWith ['M'] ['x']) (abWith ['M'] ['y'])).lines =
      .ok [(['x'], none), (['y'], none), (['I'], none), (['M'], some ['y'])] :=
  ⟨okOf_iff (by decide +kernel), okOf_iff (by decide +kernel)⟩

/-- C49, a label that is the name of a payload has no field. -/
theorem C49_label_is_payload :
    structs id (fun _ => false) id (fun _ => id) (protocol ['P'] [['A'], ['B']] [abWith ['M'] ['M']]) =
      .ok [(['M'], none)] := okOf_iff (by decide +kernel)

/-- C49, names that differ in blanks only: if the title case of `a1` is `A1` and that of `a_1` is `A 1`, the structure
`A1` is declared twice. -/
theorem C49_twice (titleCase : Text → Text) (h1 : titleCase ['a', '1'] = ['A', '1'])
    (h2 : titleCase ['a', '_', '1'] = ['A', ' ', '1']) :
    structs titleCase (· == ' ') id (fun _ => id)
        (protocol ['P'] [['A'], ['B']] [abWith ['a', '1'] [], abWith ['a', '_', '1'] []]) =
      .ok [(['A', '1'], none), (['A', '1'], none)] := by
  obtain ⟨prog, e⟩ := (generator_iff (typeName titleCase (· == ' ')) ['P'] [['A'], ['B']]
    [abWith ['a', '1'] [], abWith ['a', '_', '1'] []]).2 (by decide) ((okB_iff _).mp (by decide))
  unfold generator at e
  unfold structs
  rw [reading_protocol] at e ⊢
  rw [bind_assoc']
  cases ha : addMessages (typeName titleCase (· == ' ')) (sorted [['A'], ['B']]) [abWith ['a', '1'] [], abWith ['a', '_', '1'] []]
      (initTree (sorted [['A'], ['B']]) ['0'] (Tree.new [0])) with
  | error x => rw [ha] at e; cases e
  | ok m =>
    have hl : m.labels = [(['a', '1'], []), (['a', '_', '1'], [])] ∧ m.subTrees = [] := by
      unfold addMessages at ha
      simp only [List.foldlM_cons, List.foldlM_nil] at ha
      obtain ⟨t1, a1, ha⟩ := bind_ok ha
      obtain ⟨t2, a2, ha⟩ := bind_ok ha
      simp only [pure, Except.pure, Except.ok.injEq] at ha
      subst ha
      obtain ⟨b1, b2, _⟩ := update_change a1
      obtain ⟨c1, c2, _⟩ := update_change a2
      rw [c1, b1, c2, b2]
      exact ⟨rfl, rfl⟩
    simp only [ok_bind]
    rw [declareAll_eq, requests_eq, hl.1, hl.2]
    simp [Tables.note, Tables.empty, abWith, ab, requestsList, declare, h1, h2, typeName]

/-- C49, the clock to be reset: a message may reset a clock that its sender never starts (the send then panics after the
message has gone out, `C40_missing_clock`). -/
theorem C49_reset_missing :
    ∃ fs, bodies id (protocol ['P'] [['A'], ['B']] [{ ab ['M'] '0' '9' with reset := some ['b'] }]) = .ok fs ∧
      (∃ cs, ((['A'], ['0'], 0), cs) ∈ fs) ∧ ∀ f cs, (f, cs) ∈ fs → ['b'] ∉ cs := by
  refine ⟨[((['A'], ['0'], 0), [['a']]), ((['B'], ['0'], 0), [['a']])], okOf_iff (by decide +kernel), ⟨_, List.mem_cons_self ..⟩, ?_⟩
  intro f cs h
  simp only [List.mem_cons, Prod.mk.injEq, List.not_mem_nil, or_false] at h
  rcases h with ⟨_, rfl⟩ | ⟨_, rfl⟩ <;> decide

/-- C49, a clock with a name of two letters is accepted; in the generated file it stands between single quotes. -/
theorem C49_clock_letters :
    bodies id (protocol ['P'] [['A'], ['B']] [{ ab ['M'] '0' '9' with clock := ['a', 'b'] }]) =
      .ok [((['A'], ['0'], 0), [['a', 'b']]), ((['B'], ['0'], 0), [['a', 'b']])] := okOf_iff (by decide +kernel)

end Verif.Prop
