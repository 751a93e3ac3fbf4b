import Verif.Proof.ProtoWrite

/-!
# C63: a stored global type is read back as it was stored
-/
namespace Verif.Prop
open Verif.Proto

/-- C63.  Writing succeeds: the buffer whose length `compute_size` gives is filled exactly. -/
theorem C63_size (g : GlobalType) (h : g.Valid) : writeToBytes g.size g.write = some g.write := by
  simp [writeToBytes, GlobalType.write_length h]

/-- C63.  The same for a message of its own of the other two types. -/
theorem C63_size_parts :
    (∀ a : Action, a.Valid → writeToBytes a.size a.write = some a.write) ∧
      ∀ i : Index, i.Valid → writeToBytes i.size i.write = some i.write :=
  ⟨fun a h => by simp [writeToBytes, Action.write_length h],
    fun i h => by simp [writeToBytes, Index.write_length h]⟩

/-- C63.  What is written is a message of the wire format, whose fields mean, by the numbers and types of
globaltype.proto, the value that was written. -/
theorem C63_write (g : GlobalType) (h : g.Valid) :
    ∃ fs, IsMessage fs g.write ∧ Reads GlobalType.Sets fs {} g :=
  GlobalType.reads h

/-- C63.  Any file in the wire format, with its fields in any order and number and whoever wrote it, is read as
globaltype.proto says. -/
theorem C63_read (fs : List (Nat × Unk)) (bs : Bytes) (g g' : GlobalType) (h : IsMessage fs bs)
    (hr : Reads GlobalType.Sets fs g g') : g.mergeFrom bs = some g' :=
  GlobalType.mergeFrom_of h hr

/-- C63.  The same for actions and indices read on their own. -/
theorem C63_read_parts (fs : List (Nat × Unk)) (bs : Bytes) (h : IsMessage fs bs) :
    (∀ a a' : Action, Reads Action.Sets fs a a' → a.mergeFrom bs = some a') ∧
      ∀ i i' : Index, Reads Index.Sets fs i i' → i.mergeFrom bs = some i' :=
  ⟨fun _ _ hr => Action.mergeFrom_of h hr, fun _ _ hr => Index.mergeFrom_of h hr⟩

/-- C63.  Reading what was written gives the value back, with everything that its type does not declare. -/
theorem C63_round_trip (g : GlobalType) (h : g.Valid) : GlobalType.mergeFrom {} g.write = some g := by
  obtain ⟨fs, h1, h2⟩ := GlobalType.reads h
  exact GlobalType.mergeFrom_of h1 h2

/-- C63.  The same for actions and indices. -/
theorem C63_round_trip_parts :
    (∀ a : Action, a.Valid → Action.mergeFrom {} a.write = some a) ∧
      ∀ i : Index, i.Valid → Index.mergeFrom {} i.write = some i := by
  constructor
  · intro a h
    obtain ⟨fs, h1, h2⟩ := Action.reads h
    exact Action.mergeFrom_of h1 h2
  · intro i h
    obtain ⟨fs, h1, h2⟩ := Index.reads h
    exact Index.mergeFrom_of h1 h2

/-- C63.  Different values are stored differently. -/
theorem C63_injective (g g' : GlobalType) (h : g.Valid) (h' : g'.Valid) (e : g.write = g'.write) : g = g' := by
  have := C63_round_trip g h
  rw [e, C63_round_trip g' h'] at this
  exact (Option.some.inj this).symm

/-- C63.  A file made by putting two stored values one after the other is read as the two merged. -/
theorem C63_concat (g g' : GlobalType) (h : g.Valid) (h' : g'.Valid) :
    GlobalType.mergeFrom {} (g.write ++ g'.write) = some (g.merged g') := by
  obtain ⟨fs, h1, h2⟩ := GlobalType.reads h
  obtain ⟨gs, h3, h4⟩ := GlobalType.wrote h' g
  exact GlobalType.mergeFrom_of (h1.append h3) (h2.append h4)

/-! ## A case -/

/-- A protocol of two actions, one with two continuations, negative numbers, a field of a newer version. -/
def C63_sample : GlobalType where
  start := 1
  actions := [
    { idx := 1, fromRole := "A", toRole := "B", clock := "a", lowerBound := 300, includeLb := true, upperBound := -1,
      resetClock := true, continuations := [{ label := "Hé", next := 2 }, { next := -2 }] },
    { idx := 2, type := 1, fromRole := "B", toRole := "A", unknown := [(12, .len [1, 2, 3]), (1, .fixed32 [0, 0, 0, 1])] }]
  unknown := [(3, .varint 18446744073709551615)]

example : C63_sample.Valid where
  start := ⟨by decide, by decide⟩
  actions := by
    have i1 : Index.Valid { label := "Hé", next := 2 } :=
      ⟨by unfold Short; decide, ⟨by decide, by decide⟩, by unfold Unknown; simp, by decide +kernel⟩
    have i2 : Index.Valid { next := -2 } :=
      ⟨by unfold Short; decide, ⟨by decide, by decide⟩, by unfold Unknown; simp, by decide +kernel⟩
    simp only [C63_sample, List.mem_cons, List.not_mem_nil, or_false]
    rintro a (rfl | rfl)
    · exact {
        idx := ⟨by decide, by decide⟩, type := ⟨by decide, by decide⟩
        fromRole := by unfold Short; decide
        toRole := by unfold Short; decide
        clock := by unfold Short; decide
        continuations := by
          simp only [List.mem_cons, List.not_mem_nil, or_false]
          rintro i (rfl | rfl)
          · exact i1
          · exact i2
        lowerBound := ⟨by decide, by decide⟩, upperBound := ⟨by decide, by decide⟩
        unknown := by unfold Unknown; simp
        size := by decide +kernel }
    · exact {
        idx := ⟨by decide, by decide⟩, type := ⟨by decide, by decide⟩
        fromRole := by unfold Short; decide
        toRole := by unfold Short; decide
        clock := by unfold Short; decide
        continuations := by simp
        lowerBound := ⟨by decide, by decide⟩, upperBound := ⟨by decide, by decide⟩
        unknown := by simp [Unknown, Carried, Action.declared, wire]
        size := by decide +kernel }
  unknown := by simp [Unknown, C63_sample, Carried, GlobalType.declared, wire]

/-- The bytes of the second action of the sample, by hand. -/
example : (C63_sample.actions[1]?).map Action.write =
    some [8, 2, 16, 1, 26, 1, 66, 34, 1, 65, 98, 3, 1, 2, 3, 13, 0, 0, 0, 1] := by
  decide +kernel

/-- A file with its fields in another order, a number longer than needed and a field twice. -/
example : Index.mergeFrom {} [16, 133, 0, 10, 1, 97, 10, 1, 98] = some { label := "b", next := 5 } := by
  decide +kernel

/-- The hypotheses of `C63_read_parts` for that file. -/
example : ∃ fs, IsMessage fs [16, 133, 0, 10, 1, 97, 10, 1, 98] ∧ Reads Index.Sets fs {} { label := "b", next := 5 } := by
  refine ⟨[(2, .varint 5), (1, .len [97]), (1, .len [98])], ?_, ?_⟩
  · refine .cons _ _ [16, 133, 0] [10, 1, 97, 10, 1, 98] ?_ (.cons _ _ [10, 1, 97] [10, 1, 98] ?_
      (.cons _ _ [10, 1, 98] [] ?_ .nil))
    · exact .mk 2 (.varint 5) [16] [133, 0] (by decide) (by decide) (show 5 < 2 ^ 64 by decide) (by decide) (.last 16 (by decide))
        (.varint 5 _ (by decide) (.more 133 0 [0] (by decide) (.last 0 (by decide))))
    · exact .mk 1 (.len [97]) [10] [1, 97] (by decide) (by decide) (show 1 < 2 ^ 32 by decide) (by decide) (.last 10 (by decide))
        (.len [97] [1] (by decide) (.last 1 (by decide)))
    · exact .mk 1 (.len [98]) [10] [1, 98] (by decide) (by decide) (show 1 < 2 ^ 32 by decide) (by decide) (.last 10 (by decide))
        (.len [98] [1] (by decide) (.last 1 (by decide)))
  · exact .cons _ _ _ _ _ (.next {} 5) (.cons _ _ _ _ _ (.label _ "a" [97] (by unfold Utf8; decide +kernel))
      (.cons _ _ _ _ _ (.label _ "b" [98] (by unfold Utf8; decide +kernel)) (.nil _)))

end Verif.Prop
