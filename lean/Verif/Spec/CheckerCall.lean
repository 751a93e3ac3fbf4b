import Verif.Spec.LocalRec
import Verif.Spec.TypeName
import Verif.Model.CheckClean

/-!
# A call of `checker_concat!`

Roles are numbered in alphabetical order.
-/
namespace Verif.Spec
open Verif.Check

/-- The text is how Rust names the type with these fields and the name of this role, behind some references. -/
def Written (fields : List Ty) (x : Str) (text : Str) : Prop :=
  ∃ (k : Nat) (q : PTy), MeshType q fields x ∧ text = List.replicate k '&' ++ q.print

/-- `RoleX`. -/
def roleOf (x : Str) : Str := ['R', 'o', 'l', 'e'] ++ x

/-- The arguments of `checker_concat!` are those of a protocol with roles `names`, choices `sites`, and starting parts
`main`: the starting types in any order; what the branches of the enums hold; one group for each branch of each choice, in
any order, with the type of the chooser, and the branch in the enums of the receivers, in any order. -/
structure Call (names : List Str) (sites : List Site) (main : Nat → Part) (sessions : List Str)
    (variant : Str → Str → Str) (groups : List BranchGroup) : Prop where
  starts : ∃ (order : List Nat) (text : Nat → Str), order.Perm (List.range names.length) ∧ sessions = order.map text ∧
    ∀ i < names.length, Written ((main i).fields (names.map roleOf) sites i) (names.getD i []) (text i)
  variants : ∀ s ∈ sites, ∀ x < names.length, x ≠ s.sender → ∀ b ∈ s.branches,
    Written ((s.part b x).fields (names.map roleOf) sites x) (names.getD x []) (variant (s.enum x) b)
  branches : ∃ (ids : List (Nat × Str)) (group : Nat → Str → BranchGroup), ids.Nodup ∧
    (∀ c b, (c, b) ∈ ids ↔ ∃ s, sites[c]? = some s ∧ b ∈ s.branches) ∧ groups = ids.map (fun id => group id.1 id.2) ∧
    ∀ c s, sites[c]? = some s → ∀ b ∈ s.branches,
      (group c b).cells.Perm (((List.range names.length).filter (· ≠ s.sender)).map fun x => (s.enum x, b)) ∧
      Written ((s.part b s.sender).fields (names.map roleOf) sites s.sender) (names.getD s.sender []) (group c b).stack

/-- Graph and machine are those of C50: their walks are the runs of the role, the states of the machine its parts. -/
structure Faithful (roles : List Str) (sites : List Site) (me : Nat) (main : Part) (g : Graph) (ts : List Trans) : Prop where
  graph : ∀ w, (∃ v, Walk g 0 w v) ↔ ∃ cs Q, Run (partsOf sites me) main cs Q ∧
    (w = cs.map (Comm.label roles (roles.getD me [])) ∨
      (w = cs.map (Comm.label roles (roles.getD me [])) ++ [['0']] ∧ Q = ⟨[], none⟩))
  machine : ∀ w, (∃ v, Moves ts 0 w v) ↔ ∃ cs Q, Run (partsOf sites me) main cs Q ∧
    w = cs.map fun c => (c.out, c.partner, c.payload.print)
  stuck : ∀ w v, Moves ts 0 w v → (∀ t ∈ ts, t.src ≠ v) → ∃ cs, Run (partsOf sites me) main cs ⟨[], none⟩ ∧
    w = cs.map fun c => (c.out, c.partner, c.payload.print)
  states : States (partsOf sites me) main ts

end Verif.Spec
