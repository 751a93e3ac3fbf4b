import Verif.Prop.C63

/-!
# C64: what `read_global_protocol_file` shows of a file
-/
namespace Verif.Prop
open Verif.Proto

/-- C64.  A file that stores one action is shown as that action.  Missing from the full property: a file that stores a
global type, which is never shown (`C64_never_shown`). -/
theorem C64_action_partial (a : Action) (h : a.Valid) :
    readGlobalProtocolFile a.write = some { action := a, start := 0, actions := [] } := by
  simp only [readGlobalProtocolFile, parseFromReader, C63_round_trip_parts.1 a h, Option.map_some]
  rfl

/-- C64 does not hold: whatever the file contains, the global type that is shown is the empty one. -/
theorem C64_never_shown (file : Bytes) (out : Shown) (h : readGlobalProtocolFile file = some out) :
    out.start = 0 ∧ out.actions = [] := by
  unfold readGlobalProtocolFile at h
  split at h
  · simp at h
  · rename_i a rest ha
    have hr : rest = [] := by
      unfold parseFromReader at ha
      cases hp : Action.mergeFrom {} file with
      | none => simp [hp] at ha
      | some b => simp [hp] at ha; exact ha.2
    subst hr
    have e : parseFromReader (GlobalType.mergeFrom {}) [] = some ({}, []) := rfl
    rw [e] at h
    simp only [Option.some.injEq] at h
    subst h
    exact ⟨rfl, rfl⟩

/-- C64 does not hold: a stored global type is shown as an action whose index is the start of the protocol, without
roles; the actions are taken for fields that `Action` does not declare. -/
theorem C64_misread (g : GlobalType) (h : g.Valid) (hu : g.unknown = []) :
    readGlobalProtocolFile g.write =
      some { action := { idx := g.start, unknown := g.actions.map fun a => (2, .len a.write) }, start := 0, actions := [] } := by
  have hw : Wrote Action.Sets {} g.write { idx := g.start, unknown := g.actions.map fun a => (2, .len a.write) } := by
    unfold GlobalType.write
    have a := orInt_set (Sets := Action.Sets) (num := 1) (x := g.start) (m := {})
      (fun x => { idx := x }) 0 (by decide) (by decide) rfl (fun _ => by
        have := Action.Sets.idx {} (ofInt g.start)
        rwa [int32_ofInt h.start] at this)
    rw [orInt_zero] at a
    have b := wrote_messages (Sets := Action.Sets) (num := 2) (by decide) (by decide)
      Action.size Action.write
      (fun i l => { i with unknown := i.unknown ++ l.map fun a => ((2 : Nat), Unk.len a.write) })
      (fun i a b => by simp) (fun i => by simp) g.actions
      (fun v hv => by
        have hv := h.actions v hv
        exact ⟨(Action.write_length hv).symm, hv.size, fun i => .other i _ (by simp [Action.declared, wire])⟩)
      { idx := g.start }
    rw [hu]
    simpa [writeUnknowns] using a.append b
  obtain ⟨fs, h1, h2⟩ := hw
  simp only [readGlobalProtocolFile, parseFromReader, Action.mergeFrom_of h1 h2, Option.map_some]
  rfl

/-- The sample of C63 without its unknown field. -/
example : readGlobalProtocolFile { C63_sample with actions := [{ idx := 7 }], unknown := [] }.write =
    some { action := { idx := 1, unknown := [(2, .len [8, 7])] }, start := 0, actions := [] } := by
  decide +kernel

/-- An action that is shown. -/
example : readGlobalProtocolFile { idx := 3, fromRole := "A", toRole := "B" : Action }.write =
    some { action := { idx := 3, fromRole := "A", toRole := "B" }, start := 0, actions := [] } := by
  decide +kernel

end Verif.Prop
