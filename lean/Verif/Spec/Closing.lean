import Verif.Model.Close
import Verif.Spec.Pairs
/-!
# Specification vocabulary for closing
-/
namespace Verif.Close

/-- Scheduler choices when exactly the threads in `canc` cancel, all others call close, and nobody sends
anything but through close. -/
def Plays (Y : Sys) (canc : Nat → Prop) : Label → Prop
  | .call t => t ∈ Y.ths ∧ ¬ canc t
  | .quit t => t ∈ Y.ths ∧ canc t
  | .emit _ _ => False
  | .act t => t ∈ Y.ths
  | .dropTx x => ∃ t ∈ Y.ths, x ∈ Y.eps t
  | .dropRx x => ∃ t ∈ Y.ths, x ∈ Y.eps t

/-- `s` is reached from fresh endpoints by the schedule `ls`, the threads in `canc` cancelling. -/
def Reaches (Y : Sys) (canc : Nat → Prop) (ls : List Label) (s : S) : Prop :=
  Run Y .init ls s ∧ ∀ l ∈ ls, Plays Y canc l

/-- No thread can take any step. -/
def Stuck (Y : Sys) (canc : Nat → Prop) (s : S) : Prop := ∀ l, Plays Y canc l → step Y s l = none

/-- The closing code of `t` has returned `r`. -/
def Returned (s : S) (t : Nat) (r : Res) : Prop := ∃ rest, s.pc t = .fin r rest

/-- `t` has called its close function. -/
def Called (s : S) (t : Nat) : Prop := (∃ rest, s.pc t = .run rest) ∨ ∃ r rest, s.pc t = .fin r rest

/-- The system of `n` roles with a fully connected mesh: the slot of `i` for `j` is connected to the slot of `j`
for `i`.  Role `i` runs `code i`. -/
def meshPeer (x : E) : E := (Spec.partner x.1 x.2, Spec.slotOf (Spec.partner x.1 x.2) x.1)

/-- One thread per role. -/
def meshSys (n : Nat) (code : Nat → List Act) : Sys where
  ths := List.range' 1 n
  eps := slots n
  owner := fun x => x.1
  peer := meshPeer
  code := code

/-- All roles in a single thread (`fork_mpst_solo`, src/interleaved/fork.rs). -/
def soloSys (n : Nat) (code : List Act) : Sys where
  ths := [0]
  eps := fun _ => (List.range' 1 n).flatMap (slots n)
  owner := fun _ => 0
  peer := meshPeer
  code := fun _ => code

end Verif.Close
namespace Verif.Close

/-- `c` is a body the library provides for closing the mesh of role `i` among `n`. -/
def IsCloseFn (n i : Nat) (c : List Act) : Prop :=
  c ∈ [genClose n i, closeMpstMulti n i, closeMpstCancel n i, closeMpstCheckCancel n i] ∨
  (n = 2 ∧ c = binaryClose (i, 1)) ∨ (n = 3 ∧ c = closeMpst3 i)

/-- Wiring of two disjoint meshes: role `i` of the first is `i`, role `j` of the second is `n1 + j`. -/
def twoPeer (n1 : Nat) (x : E) : E :=
  if x.1 ≤ n1 then meshPeer x
  else (n1 + (meshPeer (x.1 - n1, x.2)).1, (meshPeer (x.1 - n1, x.2)).2)

/-- Two meshes of `n1` and `n2` roles; thread `0` plays role `idx1` of the first and `idx2` of the second
(`fork_interleaved_mpst`), every other role has its own thread. -/
def twoSys (n1 n2 idx1 idx2 : Nat) (code : Nat → List Act) : Sys where
  ths := 0 :: (List.range' 1 (n1 + n2)).filter (fun t => t ≠ idx1 ∧ t ≠ n1 + idx2)
  eps := fun t =>
    if t = 0 then slots n1 idx1 ++ slots n2 (n1 + idx2) else if t ≤ n1 then slots n1 t else slots n2 t
  owner := fun x => if x.1 = idx1 ∨ x.1 = n1 + idx2 then 0 else x.1
  peer := twoPeer n1
  code := code

end Verif.Close
