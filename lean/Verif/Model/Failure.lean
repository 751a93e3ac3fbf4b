import Verif.Model.Runtime
/-!
# Model of the whole runtime when roles fail

The steps are those of `Model/Runtime.lean`, and at any moment a role may disappear: because a call of its has
returned an error (`fail`), or for a reason of its own (`crash`).  In both cases everything its variables hold is
dropped.  The methods of a mesh take `self` by value, so after an error nothing of the mesh is left that could be used.

Simplifications: those of `Model/Runtime.lean`, except that roles may cancel and panic.  The text printed by the panic
hook and the result of `join` are not modelled.
-/
namespace Verif.Runtime
open Verif.Mesh (Sys Name upd)
open Verif.Heap hiding upd

/-- Nobody has failed. -/
def nobody : Nat → Bool := fun _ => false

/-- The state: channels, programs, and which roles have failed.  The position of a failed role is the last one it had. -/
structure FS where
  heap : Heap.St Pay
  pos : Nat → Pos
  dead : Nat → Bool

/-- Labels: a step of `Model/Runtime.lean`; a role gives up after an error; a role disappears. -/
inductive FLabel where
  | step (l : RLabel)
  | fail (r : Nat)
  | crash (r : Nat)
deriving DecidableEq

/-- Whose step it is. -/
def FLabel.actor : FLabel → Option Nat
  | .step l => l.actor
  | .fail r => some r
  | .crash r => some r

/-- The steps of the protocol among the steps of a program. -/
def fsims (ls : List FLabel) : List Mesh.Label := ls.filterMap fun | .step (.sim l) => some l | _ => none

/-- What is left of the endpoints of a role whose call has failed: `recv` consumes its endpoint (src/binary/recv.rs:12-19, expand/recv.rs:166-182);
the signals of `close` only borrow it (expand/close.rs:13-33). -/
def remaining (l : List (Entry Pay)) : Op Pay → List (Entry Pay)
  | .recv e => l.erase e
  | _ => l

/-- One step. -/
inductive FStep (Y : Sys) (s : FS) : FLabel → FS → Prop
  /-- a step of a role that has not failed, or a drop -/
  | step {l t} : RStep Y s.heap s.pos l t → (∀ r, l.actor = some r → s.dead r = false) →
      FStep Y s (.step l) ⟨t.heap, t.pos, s.dead⟩
  /-- The call of role `r` returns `Err`: the method returns early with `?` (expand/recv.rs:170, expand/close.rs:13-33)
  or panics in `unwrap` (expand/recv.rs:80), and the thread of the role panics (expand/fork.rs:96-104). -/
  | fail {r op h1 h2} : 1 ≤ r → r ≤ Y.n → s.dead r = false → Call Y r (s.pos r) op →
      Heap.step (env Y) s.heap op = some (h1, .err) → dropAll Y h1 (remaining (own (s.pos r)) op) = some h2 →
      FStep Y s (.fail r) ⟨h2, s.pos, upd s.dead r true⟩
  /-- `cancel` (src/binary/cancel.rs:22-24, expand/cancel.rs:37-40), a panic between two calls, an early `return`. -/
  | crash {r h'} : 1 ≤ r → r ≤ Y.n → s.dead r = false → s.pos r ≠ .closed → dropAll Y s.heap (own (s.pos r)) = some h' →
      FStep Y s (.crash r) ⟨h', s.pos, upd s.dead r true⟩

/-- A run. -/
inductive FRun (Y : Sys) (root : Name) : List FLabel → FS → Prop
  | start {s} : Start Y root s → FRun Y root [] ⟨s.heap, s.pos, nobody⟩
  | snoc {ls s l s'} : FRun Y root ls s → FStep Y s l s' → FRun Y root (ls ++ [l]) s'

end Verif.Runtime
