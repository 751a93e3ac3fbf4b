import Verif.Proof.GenTypes
/-!
# C12, C13: wiring and typing of generated N-party choices

Specification vocabulary: `Verif/Spec/Wiring.lean` (`Wired`, `Connected`, `IsRole`) and
`Verif/Spec/Pairs.lean` (`slotOf`).  Generated code and its semantics: `Verif/Model/Gen.lean`.
-/
namespace Verif.Prop
open Verif.Gen Verif.Spec

/-- C12 for `choose_left`/`choose_right`.  For any number of roles, any chooser and any branch the
generated body is well formed and its execution: wires one new mesh per role on fresh channels, returns
the chooser's own new mesh, sends to every other role its own mesh on the session with that role, and to
nobody else, and leaves no endpoint, mesh or stack unused. -/
theorem C12_choose_wired (n sender fresh : Nat) (right : Bool) (hs : IsRole n sender) :
    ∃ body st mesh, chooseBody n sender right = some body ∧ run (St.init fresh) body = some st ∧
      Wired n fresh mesh ∧
      st.out = some (mesh sender) ∧
      (∀ j, IsRole n j → j ≠ sender → (slotOf sender j, mesh j) ∈ st.sent) ∧
      st.sent.length = n - 1 ∧
      (∀ nm, st.env nm = none) ∧ (∀ k, st.meshes k = none) ∧ (∀ k, st.stacks k = none) := by
  obtain ⟨body, st, h1, h2, h3, h4, h5, h6, h7⟩ := choose_run n sender fresh right hs
  refine ⟨body, st, fun i => idealMesh n 0 (idealEP n 0 (branchOff n right) fresh (chooseDual sender)) i
    (if i = sender then (if right then 2 * n else 2 * n - 1) else recvStk right (slotOf sender i)),
    h1, h2, ?_, ?_, ?_, ?_, h5, h6, h7⟩
  · exact wired_idealEP n 0 _ fresh fresh _ _ (Nat.le_refl _) (fun i j _ _ hij => chooseDual_ne hij)
  · rw [h4]; simp
  · intro j hj hjs
    rw [h3]
    have hr := slot_range hs hj (Ne.symm hjs)
    refine List.mem_map.2 ⟨slotOf sender j, by rw [mem_range']; omega, ?_⟩
    rw [partner_slot hj (Ne.symm hjs)]
    simp only [hjs, if_false]
  · rw [h3]; simp

/-- C12 for the choices with an arbitrary number of branches (`choose_mpst_multi_to_all!` and its timed
variant), same statement. -/
theorem C12_to_all_wired (n sender fresh : Nat) (hs : IsRole n sender) :
    ∃ body st mesh, toAllBody n sender = some body ∧ run (St.init fresh) body = some st ∧
      Wired n fresh mesh ∧
      st.out = some (mesh sender) ∧
      (∀ j, IsRole n j → j ≠ sender → (slotOf sender j, mesh j) ∈ st.sent) ∧
      st.sent.length = n - 1 ∧
      (∀ nm, st.env nm = none) ∧ (∀ k, st.meshes k = none) ∧ (∀ k, st.stacks k = none) := by
  obtain ⟨body, st, h1, h2, h3, h4, h5, h6, h7⟩ := toAll_run n sender fresh hs
  refine ⟨body, st, fun i => idealMesh n 0 (idealEP n 0 0 fresh forkDual) i
    (if i = sender then n else slotOf sender i), h1, h2, ?_, ?_, ?_, ?_, h5, h6, h7⟩
  · exact wired_idealEP n 0 _ fresh fresh _ _ (Nat.le_refl _) (fun i j _ _ hij => forkDual_ne hij)
  · rw [h4]; simp
  · intro j hj hjs
    rw [h3]
    have hr := slot_range hs hj (Ne.symm hjs)
    refine List.mem_map.2 ⟨slotOf sender j, by rw [mem_range']; omega, ?_⟩
    rw [partner_slot hj (Ne.symm hjs)]
    simp only [hjs, if_false]
  · rw [h3]; simp

/-- C13.  The types of the values wired by `choose_left`/`choose_right` are the ones declared in the
signature: slot `k` of receiver `j`'s mesh has type `chooseRecvTy .. j k`, its stack is
`chooseRecvStack .. j`, and the chooser's mesh has the return types `chooseSenderTys`.  Since `Wired`
connects the two slots of each pair, the declared types of the two slots are dual (`tyDual`). -/
theorem C13_choose_typed (n sender fresh : Nat) (right : Bool) (hs : IsRole n sender) :
    ∃ body st mesh tys, chooseBody n sender right = some body ∧ run (St.init fresh) body = some st ∧
      Wired n fresh mesh ∧ st.out = some (mesh sender) ∧
      (∀ j, IsRole n j → j ≠ sender → (slotOf sender j, mesh j) ∈ st.sent ∧
        (∀ k e, (mesh j).slot k = some e → chooseRecvTy n sender right j k = some e.ty) ∧
        (mesh j).stack = chooseRecvStack sender right j) ∧
      chooseSenderTys n sender right = some tys ∧ tys.length = n - 1 ∧
      (∀ k e, (mesh sender).slot k = some e → tys[k - 1]? = some e.ty) ∧
      (mesh sender).stack = (if right then 2 * n else 2 * n - 1) := by
  obtain ⟨body, st, h1, h2, h3, h4, h5, h6, h7⟩ := choose_run n sender fresh right hs
  obtain ⟨tys, ht, hl, hty⟩ := chooseSenderTys_eq n sender fresh (if right then 2 * n else 2 * n - 1) right hs
  refine ⟨body, st, fun i => idealMesh n 0 (idealEP n 0 (branchOff n right) fresh (chooseDual sender)) i
    (if i = sender then (if right then 2 * n else 2 * n - 1) else recvStk right (slotOf sender i)), tys,
    h1, h2, ?_, ?_, ?_, ht, hl, ?_, ?_⟩
  · exact wired_idealEP n 0 _ fresh fresh _ _ (Nat.le_refl _) (fun i j _ _ hij => chooseDual_ne hij)
  · rw [h4]; simp
  · intro j hj hjs
    refine ⟨?_, ?_, ?_⟩
    · rw [h3]
      have hr := slot_range hs hj (Ne.symm hjs)
      refine List.mem_map.2 ⟨slotOf sender j, by rw [mem_range']; omega, ?_⟩
      rw [partner_slot hj (Ne.symm hjs)]
      simp only [hjs, if_false]
    · intro k e he
      exact chooseRecvTy_eq n sender fresh j _ k right e hs hj hjs he
    · simp only [hjs, if_false, idealMesh]
      exact chooseRecvStack_eq n sender j right hj hs hjs
  · intro k e he
    simp only [if_true] at he
    exact hty k e he
  · simp only [if_true, idealMesh]

/-- The dual of a type expression. -/
def tyDual (t : TyExp) : TyExp := ⟨t.sess, !t.dual⟩

/-- C13, signature only: for two receivers `i ≠ j` of a choice, the types declared for `i`'s slot for `j`
and `j`'s slot for `i` are dual, and so are the types declared for the chooser's slot for `j` and `j`'s
slot for the chooser. The two branches use disjoint session parameters. -/
theorem C13_declared_dual (n sender : Nat) (right : Bool) (hs : IsRole n sender) :
    (∀ i j, IsRole n i → IsRole n j → i ≠ j → i ≠ sender → j ≠ sender → ∃ t,
      chooseRecvTy n sender right i (slotOf i j) = some t ∧
      chooseRecvTy n sender right j (slotOf j i) = some (tyDual t)) ∧
    (∀ j, IsRole n j → j ≠ sender → ∃ tys t, chooseSenderTys n sender right = some tys ∧
      tys[slotOf sender j - 1]? = some t ∧
      chooseRecvTy n sender right j (slotOf j sender) = some (tyDual t)) := by
  obtain ⟨body, st, mesh, tys, -, -, hw, -, hrecv, htys, -, hsend, -⟩ := C13_choose_typed n sender 0 right hs
  have key : ∀ e f, Connected e f → f.ty = tyDual e.ty := by
    intro e f h
    unfold EP.ty tyDual
    obtain ⟨-, h2, h3⟩ := h
    simp only [TyExp.mk.injEq]
    refine ⟨h2.symm, ?_⟩
    cases he : e.dual <;> cases hf : f.dual <;> simp_all
  constructor
  · intro i j hi hj hij his hjs
    obtain ⟨e, f, he, hf, hc⟩ := hw.linked i j hi hj hij
    refine ⟨e.ty, (hrecv i hi his).2.1 _ e he, ?_⟩
    rw [(hrecv j hj hjs).2.1 _ f hf, key e f hc]
  · intro j hj hjs
    obtain ⟨e, f, he, hf, hc⟩ := hw.linked sender j hs hj (Ne.symm hjs)
    refine ⟨tys, e.ty, htys, hsend _ e he, ?_⟩
    rw [(hrecv j hj hjs).2.1 _ f hf, key e f hc]

/-- C13, the session parameters themselves: the declared session of the pair `i`, `j` is number
`pairRank n i j` (1 to n(n-1)/2) of the block of the branch: the first n(n-1)/2 parameters belong to the left
branch, the next ones to the right branch.  So different pairs, and the two branches, never share one. -/
theorem C13_branch_params (n sender : Nat) (right : Bool) (hs : IsRole n sender) (i j : Nat) (hi : IsRole n i)
    (hj : IsRole n j) (hij : i ≠ j) (his : i ≠ sender) :
    (∃ t, chooseRecvTy n sender right i (slotOf i j) = some t ∧
      t.sess = (if right then (n - 1) * n / 2 else 0) + pairRank n (min i j) (max i j)) ∧
    (∃ tys t, chooseSenderTys n sender right = some tys ∧ tys[slotOf sender i - 1]? = some t ∧
      t.sess = (if right then (n - 1) * n / 2 else 0) + pairRank n (min i sender) (max i sender)) ∧
    1 ≤ pairRank n (min i j) (max i j) ∧ pairRank n (min i j) (max i j) ≤ (n - 1) * n / 2 := by
  have hoff : branchOff n right = if right then (n - 1) * n / 2 else 0 := by
    unfold branchOff
    have : n - 1 + 1 = n := by unfold IsRole at hs; omega
    rw [this]
  refine ⟨?_, ?_, ?_, ?_⟩
  · have hr := slot_range hi hj hij
    have := chooseRecvTy_eq n sender 0 i 0 (slotOf i j) right _ hs hi his (by
      rw [idealMesh_slot, if_pos hr, partner_slot hj hij, idealEP_at])
    refine ⟨_, this, ?_⟩
    simp only [EP.ty, hoff, pr]
  · obtain ⟨tys, h1, h2, h3⟩ := chooseSenderTys_eq n sender 0 0 right hs
    have hr := slot_range hs hi (Ne.symm his)
    have := h3 (slotOf sender i) _ (by
      rw [idealMesh_slot, if_pos hr, partner_slot hi (Ne.symm his), idealEP_at])
    refine ⟨tys, _, h1, this, ?_⟩
    simp only [EP.ty, hoff, pr]
    rw [Nat.min_comm, Nat.max_comm]
  · exact pr_pos hi hj hij
  · exact pr_le hi hj hij

/-- Non-vacuity: role 2 of 4 chooses right; role 3 gets its mesh on session 2, whose slot for role 2 is
session parameter `S{6+4}`. -/
example : IsRole 4 2 ∧ slotOf 2 3 = 2 := by unfold IsRole; decide
example : chooseRecvTy 4 2 true 3 2 = some ⟨10, false⟩ ∧
    chooseSenderTys 4 2 true = some [⟨7, true⟩, ⟨10, true⟩, ⟨11, true⟩] := by decide

end Verif.Prop
