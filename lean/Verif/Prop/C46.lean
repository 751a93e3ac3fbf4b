import Verif.Proof.GenLast
/-!
# C46: choices of the last role, forks for one thread

Specification vocabulary: `Verif/Spec/Wiring.lean` (`Wired`, `IsRole`) and `Verif/Spec/Pairs.lean` (`slotOf`).
Generated code: `Verif/Model/GenLast.lean`.
-/
namespace Verif.Prop
open Verif.Gen Verif.Spec

/-- C46.  The function emitted for a choice of the last of `n` roles, for either branch: its body runs; it wires one new
mesh per role on fresh channels; it returns the chooser's; it sends to every other role its own, on the session with
that role, and nothing else; nothing is left over.  Every value has the type the signature declares for it; the stack of a
receiver is the dual of one of the stack parameters of its role, that of the chooser one of its own, and no two are the
same. -/
theorem C46_last_wired (n fresh : Nat) (right : Bool) (h : 1 ≤ n) :
    ∃ body st mesh, lastBody n right = some body ∧ run (St.init fresh) body = some st ∧
      Wired n fresh mesh ∧ st.out = some (mesh n) ∧
      (∀ j, 1 ≤ j → j < n → (slotOf n j, mesh j) ∈ st.sent) ∧ st.sent.length = n - 1 ∧
      (∀ nm, st.env nm = none) ∧ (∀ k, st.meshes k = none) ∧ (∀ k, st.stacks k = none) ∧
      (∀ j, 1 ≤ j → j < n →
        (∀ k e, (mesh j).slot k = some e → lastRecvTy n right j k = some e.ty) ∧
        (mesh j).stack = lastRecvStack right j) ∧
      (lastSenderTys n right).length = n - 1 ∧
      (∀ k e, (mesh n).slot k = some e → (lastSenderTys n right)[k - 1]? = some e.ty) ∧
      (mesh n).stack = lastSenderStack n right ∧
      (∀ j, 1 ≤ j → j < n → (mesh j).stack = 2 * (3 * (j - 1) + (if right then 2 else 1)) + 1) ∧
      (mesh n).stack = 2 * (3 * (n - 1) + (if right then 2 else 1)) := by
  obtain ⟨body, st, h1, h2, h3, h4, h5, h6, h7⟩ := last_run n fresh right h
  refine ⟨body, st, fun i => idealMesh n 0 (idealEP n 0 (branchOff n right) fresh forkDual) i (lastStk n right i),
    h1, h2, ?_, h4, ?_, ?_, h5, h6, h7, ?_, ?_, ?_, ?_, ?_, ?_⟩
  · exact wired_idealEP n 0 _ fresh fresh _ _ (Nat.le_refl _) (fun i j _ _ hij => forkDual_ne hij)
  · intro j hj hn
    rw [h3]
    have e : slotOf n j = j := by unfold slotOf; rw [if_pos hn]
    exact List.mem_map.2 ⟨j, by rw [mem_range']; omega, by rw [e, partner_last (by omega) hj]⟩
  · rw [h3]; simp
  · intro j hj hn
    refine ⟨fun k e he => lastRecvTy_eq n fresh j _ k right e ⟨hj, by omega⟩ he, ?_⟩
    show lastStk n right j = _
    unfold lastStk lastRecvStack
    rw [if_neg (by omega)]
    cases right <;> rfl
  · simp [lastSenderTys]
  · intro k e he; exact lastSenderTys_eq n fresh _ right k e he
  · show lastStk n right n = _
    unfold lastStk; rw [if_pos rfl]
  · intro j hj hn
    show lastStk n right j = _
    unfold lastStk stackNo
    rw [if_neg (by omega)]; rfl
  · show lastStk n right n = _
    unfold lastStk lastSenderStack stackNo
    rw [if_pos rfl]
    cases right <;> simp <;> omega

/-- C46, signatures only: the types declared for the two slots of a pair of roles are dual, and the two branches use
different session parameters. -/
theorem C46_last_dual (n : Nat) (right : Bool) (i j : Nat) (hi : 1 ≤ i) (hij : i < j) (hj : j ≤ n) :
    ∃ m, 1 ≤ m ∧ m ≤ (n - 1) * n / 2 ∧
      lastRecvTy n right i (slotOf i j) = some ⟨(if right then (n - 1) * n / 2 else 0) + m, false⟩ ∧
      (if j = n then (lastSenderTys n right)[slotOf n i - 1]? else lastRecvTy n right j (slotOf j i))
        = some ⟨(if right then (n - 1) * n / 2 else 0) + m, true⟩ := by
  have hoff : branchOff n right = if right then (n - 1) * n / 2 else 0 := by
    unfold branchOff
    have : n - 1 + 1 = n := by omega
    rw [this]
  have ri : IsRole n i := ⟨hi, by omega⟩
  have rj : IsRole n j := ⟨by omega, hj⟩
  have s1 := slot_range ri rj (by omega)
  have s2 := slot_range rj ri (by omega)
  refine ⟨pr n i j, pr_pos ri rj (by omega), pr_le ri rj (by omega), ?_, ?_⟩
  · have := lastRecvTy_eq n 0 i 0 (slotOf i j) right _ ri (by
      rw [idealMesh_slot, if_pos s1, partner_slot rj (by omega), idealEP_at])
    rw [this]
    simp only [EP.ty, hoff, forkDual]
    congr 2
    simp; omega
  · by_cases hn : j = n
    · subst hn
      rw [if_pos rfl]
      have := lastSenderTys_eq j 0 0 right (slotOf j i) _ (by
        rw [idealMesh_slot, if_pos s2, partner_slot ri (by omega), idealEP_at])
      rw [this]
      simp only [EP.ty, hoff, forkDual, pr_comm]
      congr 2
      simp; omega
    · rw [if_neg hn]
      have := lastRecvTy_eq n 0 j 0 (slotOf j i) right _ rj (by
        rw [idealMesh_slot, if_pos s2, partner_slot ri (by omega), idealEP_at])
      rw [this]
      simp only [EP.ty, hoff, forkDual, pr_comm]
      congr 2
      simp; omega

/-- C46.  The fork for one thread calls its function once, with the meshes of the roles `1 .. n` in this order, wired on
fresh channels and with the declared types. -/
theorem C46_solo_wired (n fresh : Nat) (h : 1 ≤ n) :
    ∃ body st mesh, soloBody n = some body ∧ run (St.init fresh) body = some st ∧
      Wired n fresh mesh ∧ st.spawned = [(0, (List.range' 1 n).map mesh)] ∧
      (∀ i k e, IsRole n i → (mesh i).slot k = some e → forkParamTy n 0 i k = some e.ty) ∧
      (∀ i, IsRole n i → (mesh i).stack = i) ∧
      (∀ nm, st.env nm = none) ∧ (∀ k, st.meshes k = none) := by
  obtain ⟨body, st, h1, h2, h3, h4, h5⟩ := solo_run n fresh h
  refine ⟨body, st, fun i => idealMesh n 0 (idealEP n 0 0 fresh forkDual) i i, h1, h2, ?_, h3, ?_, ?_, h4, h5⟩
  · exact wired_idealEP n 0 0 fresh fresh _ (fun i => i) (Nat.le_refl _) (fun i j _ _ hij => forkDual_ne hij)
  · intro i k e hi he
    exact forkParamTy_eq n 0 0 fresh i i k e hi he
  · intro i _; rfl

/-- Non-vacuity: role 4 of 4 chooses the right branch; role 2's slot for role 4 is `S{6+5}`, the dual of which the
chooser keeps in its slot for role 2. -/
example : lastRecvTy 4 true 2 3 = some ⟨11, false⟩ ∧ lastSenderTys 4 true = [⟨9, true⟩, ⟨11, true⟩, ⟨12, true⟩] ∧
    lastRecvStack true 2 = stackNo 5 true ∧ (lastBody 4 true).map List.length = some 17 := by decide
example : (soloBody 3).map List.length = some 10 := by decide

end Verif.Prop
