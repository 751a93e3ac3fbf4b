import Verif.Model.Hand3
import Verif.Proof.GenTypes
/-!
# C14: wiring of the hand-written three-role choices and fork, and of the macros for three roles
-/
namespace Verif.Prop
open Verif.Gen Verif.Spec Verif.Hand3

/-- The endpoint bound to a name by the three channel creations of a body. -/
private def env3 (cs : List ((Name × Name) × Nat)) (fresh : Nat) (nm : Name) : EP :=
  match run (St.init fresh) (cs.map fun x => .newChan x.1.1 x.1.2 x.2) with
  | some st => (st.env nm).getD ⟨0, 0, false⟩
  | none => ⟨0, 0, false⟩

private theorem role3 {i : Nat} (h : IsRole 3 i) : i = 1 ∨ i = 2 ∨ i = 3 := by
  unfold IsRole at h; omega

private def stk3 (api : Api) (r : Role3) (right : Bool) (i : Nat) : Nat :=
  ((stackArgs api right)[if i = r.num then 2 else if i = (receivers r).1.num then 0 else 1]?).getD 0

/-- The position of the channel between two roles among the three created. -/
private def num3 (api : Api) (r : Role3) (i j : Nat) : Nat :=
  1 + (chans api r).findIdx (fun x => x.1.1 + x.1.2 = i + j)

private theorem wired3 (api : Api) (r : Role3) (right : Bool) (fresh : Nat) :
    Wired 3 fresh (fun i => idealMesh 3 0 (env3 ((chans api r).zip (sessArgs api r right)) fresh) i (stk3 api r right i)) := by
  refine wired_ideal_any 3 0 fresh fresh _ (stk3 api r right) (num3 api r) ?_ ?_ ?_ (Nat.le_refl _) ?_
  · intro i j hi hj hij
    rcases role3 hi with rfl | rfl | rfl <;> rcases role3 hj with rfl | rfl | rfl <;>
      first
      | exact absurd rfl hij
      | (cases api <;> cases r <;> decide)
  · intro i j
    unfold num3
    rw [Nat.add_comm i j]
  · intro i j i' j' hi hj hij hi' hj' hij'
    rcases role3 hi with rfl | rfl | rfl <;> rcases role3 hj with rfl | rfl | rfl <;>
      first
      | exact absurd rfl hij
      | (rcases role3 hi' with rfl | rfl | rfl <;> rcases role3 hj' with rfl | rfl | rfl <;>
          first
          | exact absurd rfl hij'
          | (cases api <;> cases r <;> decide))
  intro i j hi hj hij
  rcases role3 hi with rfl | rfl | rfl <;> rcases role3 hj with rfl | rfl | rfl <;>
    first
    | exact absurd rfl hij
    | (cases api <;> cases r <;> cases right <;>
        exact ⟨rfl, rfl, by first | exact Bool.false_ne_true | exact Bool.false_ne_true.symm⟩)

private theorem chans3 (api : Api) (r : Role3) (right : Bool) (fresh : Nat) :
    ∃ env1, run (St.init fresh) (((chans api r).zip (sessArgs api r right)).map (fun x => .newChan x.1.1 x.1.2 x.2))
      = some { (St.init fresh) with env := env1, fresh := fresh + 3 } ∧
    (∀ i j, IsRole 3 i → IsRole 3 j → i ≠ j →
      env1 (0 + i, 0 + j) = some (env3 ((chans api r).zip (sessArgs api r right)) fresh (0 + i, 0 + j))) ∧
    (∀ nm, (∀ i j, IsRole 3 i → IsRole 3 j → i ≠ j → nm ≠ (0 + i, 0 + j)) → env1 nm = none) := by
  cases api <;> cases r <;> cases right <;>
  · refine ⟨_, rfl, ?_, ?_⟩
    · intro i j hi hj hij
      rcases role3 hi with rfl | rfl | rfl <;> rcases role3 hj with rfl | rfl | rfl <;>
        first
        | exact absurd rfl hij
        | rfl
    · intro nm h
      have h12 := h 1 2 (by unfold IsRole; decide) (by unfold IsRole; decide) (by decide)
      have h13 := h 1 3 (by unfold IsRole; decide) (by unfold IsRole; decide) (by decide)
      have h23 := h 2 3 (by unfold IsRole; decide) (by unfold IsRole; decide) (by decide)
      have h21 := h 2 1 (by unfold IsRole; decide) (by unfold IsRole; decide) (by decide)
      have h31 := h 3 1 (by unfold IsRole; decide) (by unfold IsRole; decide) (by decide)
      have h32 := h 3 2 (by unfold IsRole; decide) (by unfold IsRole; decide) (by decide)
      simp only [Nat.zero_add] at h12 h13 h23 h21 h31 h32
      simp [h12, h13, h23, h21, h31, h32, St.init]

private theorem stacks3 (api : Api) (right : Bool) (st : St) :
    run st (((List.range' 1 3).zip (stackArgs api right)).map (fun x => .newStack x.1 x.2))
      = some { st with stacks := fun x => if x = 3 then (stackArgs api right)[2]? else if x = 2 then (stackArgs api right)[1]?
                    else if x = 1 then (stackArgs api right)[0]? else st.stacks x } := by
  cases api <;> cases right <;> rfl

/-- For each API, chooser and branch: the body runs; the three new meshes are wired on fresh channels; the
chooser gets its own; its partners get theirs on the corresponding session; the types are the declared ones;
nothing is left over. -/
theorem C14_hand_written_wired (api : Api) (r : Role3) (right : Bool) (fresh : Nat) :
    ∃ st mesh, run (St.init fresh) (chooseBody3 api r right) = some st ∧ Wired 3 fresh mesh ∧
      st.out = some (mesh r.num) ∧
      st.sent = [(1, mesh (receivers r).1.num), (2, mesh (receivers r).2.num)] ∧
      ((mesh (receivers r).1.num).slot 1).map EP.ty = some (declared api r right).1.1 ∧
      ((mesh (receivers r).1.num).slot 2).map EP.ty = some (declared api r right).1.2 ∧
      ((mesh (receivers r).2.num).slot 1).map EP.ty = some (declared api r right).2.1.1 ∧
      ((mesh (receivers r).2.num).slot 2).map EP.ty = some (declared api r right).2.1.2 ∧
      ((mesh r.num).slot 1).map EP.ty = some (declared api r right).2.2.1 ∧
      ((mesh r.num).slot 2).map EP.ty = some (declared api r right).2.2.2 ∧
      ((mesh (receivers r).1.num).stack, (mesh (receivers r).2.num).stack, (mesh r.num).stack)
        = declaredStacks api right ∧
      (∀ i j, IsRole 3 i → IsRole 3 j → st.env (i, j) = none) := by
  obtain ⟨env1, hr, henv, hother⟩ := chans3 api r right fresh
  obtain ⟨st, hrun, h1, h2, h3, -, -⟩ := choose_core 3 r.num (by unfold IsRole; cases r <;> decide)
    (env3 ((chans api r).zip (sessArgs api r right)) fresh) (fun k => ((stackArgs api right)[k - 1]?).getD 0)
    { (St.init fresh) with
        env := env1, fresh := fresh + 3,
        stacks := fun x => if x = 3 then (stackArgs api right)[2]? else if x = 2 then (stackArgs api right)[1]?
                    else if x = 1 then (stackArgs api right)[0]? else none }
    henv hother
    (by
      intro k a b
      have : k = 1 ∨ k = 2 ∨ k = 3 := by omega
      rcases this with rfl | rfl | rfl <;> cases api <;> cases right <;> rfl)
    (by
      intro k hk
      have a : k ≠ 1 := by omega
      have b : k ≠ 2 := by omega
      have c : k ≠ 3 := by omega
      simp [a, b, c])
    rfl (fun _ => rfl)
  have hrun2 := (run_append_some hr).trans ((run_append_some (stacks3 api right _)).trans hrun)
  refine ⟨st, _, ?_, wired3 api r right fresh, ?_, ?_, ?_⟩
  · rw [← hrun2]
    cases api <;> cases r <;> cases right <;> rfl
  · rw [h2]; cases api <;> cases r <;> cases right <;> rfl
  · rw [h1]; cases api <;> cases r <;> cases right <;> rfl
  · cases api <;> cases r <;> cases right <;>
      exact ⟨rfl, rfl, rfl, rfl, rfl, rfl, rfl, fun i j _ _ => h3 (i, j)⟩

/-- The hand-written fork. -/
theorem C14_hand_written_fork (fresh : Nat) :
    ∃ st mesh, run (St.init fresh) forkBody3 = some st ∧ Wired 3 fresh mesh ∧
      st.spawned = [(1, [mesh 1]), (2, [mesh 2]), (3, [mesh 3])] ∧
      (∀ r : Role3, ((mesh r.num).slot 1).map EP.ty = some (forkDeclared3 r).1 ∧
        ((mesh r.num).slot 2).map EP.ty = some (forkDeclared3 r).2) := by
  let E := env3 [(((1,2),(2,1)),0), (((1,3),(3,1)),1), (((2,3),(3,2)),2)] fresh
  have hw : Wired 3 fresh (fun i => idealMesh 3 0 E i (i - 1)) := by
    apply wired_ideal 3 0 fresh fresh E (fun i => i - 1) (Nat.le_refl _)
    intro i j hi hj hij
    rcases role3 hi with rfl | rfl | rfl <;> rcases role3 hj with rfl | rfl | rfl <;>
      first
      | exact absurd rfl hij
      | exact ⟨rfl, rfl, by first | exact Bool.false_ne_true | exact Bool.false_ne_true.symm⟩
  refine ⟨_, _, rfl, hw, rfl, ?_⟩
  intro r
  cases r <;> exact ⟨rfl, rfl⟩

end Verif.Prop
