import Verif.Model.Gen
import Verif.Spec.Pairs
/-!
# Specification: a correctly wired mesh
-/
namespace Verif.Spec
open Verif.Gen

/-- Two endpoints are the two ends of one channel, hence of dual types. -/
def Connected (e f : EP) : Prop := e.chan = f.chan ∧ e.sess = f.sess ∧ e.dual ≠ f.dual

/-- `r` is one of the roles `1..n`. -/
def IsRole (n r : Nat) : Prop := 1 ≤ r ∧ r ≤ n

/-- The meshes `mesh 1, .., mesh n` are fully and correctly connected, on channels not in use before
(numbers from `fresh`): slot "for `j`" of role `i` and slot "for `i`" of role `j` are the two ends of
one channel, and different pairs of roles use different channels.  Every mesh has exactly the fields
`session1 .. session{n-1}`. -/
structure Wired (n fresh : Nat) (mesh : Nat → MeshV) : Prop where
  fields : ∀ i, IsRole n i → ((mesh i).slots.map Prod.fst).Perm (List.range' 1 (n - 1))
  linked : ∀ i j, IsRole n i → IsRole n j → i ≠ j → ∃ e f,
    (mesh i).slot (slotOf i j) = some e ∧ (mesh j).slot (slotOf j i) = some f ∧ Connected e f
  fresh : ∀ i k e, IsRole n i → (mesh i).slot k = some e → fresh ≤ e.chan
  distinct : ∀ i j i' j' e e', IsRole n i → IsRole n j → i ≠ j → IsRole n i' → IsRole n j' → i' ≠ j' →
    (mesh i).slot (slotOf i j) = some e → (mesh i').slot (slotOf i' j') = some e' →
    e.chan = e'.chan → (i = i' ∧ j = j') ∨ (i = j' ∧ j = i')

end Verif.Spec
