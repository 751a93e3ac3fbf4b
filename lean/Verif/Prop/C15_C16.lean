import Verif.Proof.GenTypes
/-!
# C15, C16: wiring of generated forks
-/
namespace Verif.Prop
open Verif.Gen Verif.Spec

/-- C15.  The generated `fork_mpst` for `n` roles starts exactly the threads `1..n`; thread `i` receives
the mesh of role `i`; the meshes are wired on fresh channels; slot `k` of thread `i`'s mesh has the type
declared for it in the signature; no endpoint is left over. -/
theorem C15_fork_wired (n fresh : Nat) (h : 1 ≤ n) :
    ∃ body st mesh, forkBody n = some body ∧ run (St.init fresh) body = some st ∧
      Wired n fresh mesh ∧
      st.spawned = (List.range' 1 n).map (fun i => (i, [mesh i])) ∧
      (∀ i k e, IsRole n i → (mesh i).slot k = some e → forkParamTy n 0 i k = some e.ty) ∧
      (∀ i, IsRole n i → (mesh i).stack = i) ∧
      (∀ nm, st.env nm = none) ∧ (∀ k, st.meshes k = none) := by
  obtain ⟨body, st, h1, h2, h3, h4, h5, -⟩ := fork_run n fresh h
  refine ⟨body, st, fun i => idealMesh n 0 (idealEP n 0 0 fresh forkDual) i i, h1, h2, ?_, h3, ?_, ?_, h4, h5⟩
  · exact wired_idealEP n 0 0 fresh fresh _ (fun i => i) (Nat.le_refl _) (fun i j _ _ hij => forkDual_ne hij)
  · intro i k e hi he
    exact forkParamTy_eq n 0 0 fresh i i k e hi he
  · intro i _; rfl

/-- C16.  `fork_interleaved_mpst` over meshes of `n1` and `n2` roles with interleaved roles `idx1`, `idx2`:
`n1 + n2 - 1` threads are started; thread `0` (the interleaved one) gets exactly the two meshes of `idx1`
and `idx2`; every other role of mesh one (two) runs in the thread whose function parameter is declared for
it, with the declared types; the two meshes are wired on channels no mesh shares with the other. -/
theorem C16_interleaved_wired (n1 idx1 n2 idx2 fresh : Nat) (h1 : IsRole n1 idx1) (h2 : IsRole n2 idx2) :
    ∃ body st mesh1 mesh2, interleavedBody n1 idx1 n2 idx2 = some body ∧
      run (St.init fresh) body = some st ∧
      Wired n1 fresh mesh1 ∧ Wired n2 fresh mesh2 ∧
      (∀ i j k k' e e', IsRole n1 i → IsRole n2 j → (mesh1 i).slot k = some e → (mesh2 j).slot k' = some e' →
        e.chan ≠ e'.chan) ∧
      st.spawned.length = n1 + n2 - 1 ∧ (st.spawned.map Prod.fst).Nodup ∧
      (0, [mesh1 idx1, mesh2 idx2]) ∈ st.spawned ∧
      (∀ i, IsRole n1 i → i ≠ idx1 → (interleavedFnOne idx1 i, [mesh1 i]) ∈ st.spawned) ∧
      (∀ i, IsRole n2 i → i ≠ idx2 → (interleavedFnTwo n1 idx2 i, [mesh2 i]) ∈ st.spawned) ∧
      (∀ i k e, IsRole n1 i → (mesh1 i).slot k = some e → forkParamTy n1 0 i k = some e.ty) ∧
      (∀ i k e, IsRole n2 i → (mesh2 i).slot k = some e →
        forkParamTy n2 ((n1 - 1) * n1 / 2) i k = some e.ty) ∧
      (∀ nm, st.env nm = none) ∧ (∀ k, st.meshes k = none) := by
  obtain ⟨body, st, hb, hr, hsp, henv, hms⟩ := interleaved_run n1 idx1 n2 idx2 fresh h1 h2
  have hn1 : 1 ≤ n1 := by unfold IsRole at h1; omega
  have hn2 : 1 ≤ n2 := by unfold IsRole at h2; omega
  let mesh1 := fun i => idealMesh n1 0 (idealEP n1 0 0 fresh forkDual) i i
  let mesh2 := fun i => idealMesh n2 n1
    (idealEP n2 n1 ((n1 - 1) * n1 / 2) (fresh + (n1 - 1) * n1 / 2) forkDual) i (n1 + i)
  have hm1 : ∀ i, IsRole n1 i → interMesh n1 n2 fresh i = mesh1 i := by
    intro i hi; unfold IsRole at hi; unfold interMesh; rw [if_pos hi.2]
  have hm2 : ∀ i, IsRole n2 i → interMesh n1 n2 fresh (n1 + i) = mesh2 i := by
    intro i hi; unfold IsRole at hi; unfold interMesh; rw [if_neg (by omega)]
    have : n1 + i - n1 = i := by omega
    rw [this]
  refine ⟨body, st, mesh1, mesh2, hb, hr, ?_, ?_, ?_, ?_, ?_, ?_, ?_, ?_, ?_, ?_, henv, hms⟩
  · exact wired_idealEP n1 0 0 fresh fresh _ (fun i => i) (Nat.le_refl _) (fun i j _ _ hij => forkDual_ne hij)
  · exact wired_idealEP n2 n1 _ _ fresh _ (fun i => n1 + i) (by omega) (fun i j _ _ hij => forkDual_ne hij)
  · intro i j k k' e e' hi hj he he' hc
    simp only [mesh1, mesh2] at he he'
    rw [idealMesh_slot] at he he'
    by_cases hk : 1 ≤ k ∧ k ≤ n1 - 1
    · by_cases hk' : 1 ≤ k' ∧ k' ≤ n2 - 1
      · rw [if_pos hk, idealEP_at] at he
        rw [if_pos hk', idealEP_at] at he'
        injection he with he; injection he' with he'
        subst he; subst he'
        simp only at hc
        have p1 := partner_role hi hk.1 hk.2
        have p2 := partner_role hj hk'.1 hk'.2
        have q2 := pr_pos hj p2.1 (Ne.symm p2.2)
        have q0 := pr_pos hi p1.1 (Ne.symm p1.2)
        have q1 := pr_le hi p1.1 (Ne.symm p1.2)
        omega
      · rw [if_neg hk'] at he'; cases he'
    · rw [if_neg hk] at he; cases he
  · rw [hsp]; simp; omega
  · rw [hsp]
    simp only [List.map_append, List.map_map, List.map_cons, List.map_nil]
    have : (Prod.fst ∘ fun i => (i, [interMesh n1 n2 fresh (interleavedOffset n1 idx1 idx2 i)])) = id := by
      funext i; rfl
    rw [this, List.map_id, List.nodup_append]
    refine ⟨List.nodup_range', by simp, ?_⟩
    intro a ha b hb
    rw [mem_range'] at ha
    simp at hb; omega
  · rw [hsp, ← hm1 idx1 h1, ← hm2 idx2 h2]; simp
  · intro i hi hne
    rw [hsp, List.mem_append]
    left
    refine List.mem_map.2 ⟨interleavedFnOne idx1 i, ?_, ?_⟩
    · rw [mem_range']; unfold IsRole at *; unfold interleavedFnOne; split <;> omega
    · rw [interleavedOffset_one h1 h2 hi hne, hm1 i hi]
  · intro i hi hne
    rw [hsp, List.mem_append]
    left
    refine List.mem_map.2 ⟨interleavedFnTwo n1 idx2 i, ?_, ?_⟩
    · rw [mem_range']; unfold IsRole at *; unfold interleavedFnTwo; split <;> omega
    · rw [interleavedOffset_two h1 h2 hi hne, hm2 i hi]
  · intro i k e hi he; exact forkParamTy_eq n1 0 0 fresh i i k e hi he
  · intro i k e hi he; exact forkParamTy_eq n2 n1 _ _ i _ k e hi he

/-- Non-vacuity: two meshes of three roles interleaved at roles 2 and 1 use five threads. -/
example : IsRole 3 2 ∧ IsRole 3 1 ∧ interleavedFnTwo 3 1 2 = 3 ∧ interleavedFnTwo 3 1 3 = 4 := by
  unfold IsRole; decide
example : (forkBody 3).map List.length = some 12 := by decide

end Verif.Prop
