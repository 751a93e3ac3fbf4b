import Verif.Proof.GenChoose
/-! Declared types of generated functions against the types of the values. -/
namespace Verif.Gen
open Verif.Maths Verif.Spec

theorem pr_ordPair (n i p : Nat) : pairRank n (ordPair i p).1 (ordPair i p).2 = pr n i p := by
  unfold pr ordPair
  by_cases h : i < p
  · rw [if_pos h]; congr 1 <;> omega
  · rw [if_neg h]; simp only; congr 1 <;> omega

theorem ordPair_fst_eq (i p : Nat) (h : i ≠ p) : (ordPair i p).1 = i ↔ i < p := by
  unfold ordPair; split <;> simp <;> omega

theorem lookupMatrix (n i j : Nat) (hi : IsRole n i) (hj1 : 1 ≤ j) (hj : j ≤ n - 1) :
    ∃ l c, getTupleMatrix (diagAndMatrix n).1 i j = some (l, c, pr n i (partner i j)) ∧
      (l = i ↔ i < partner i j) := by
  have hp := (partner_role hi hj1 hj).2
  unfold IsRole at hi
  have h := getTupleMatrix_diag n i j hi.1 hi.2 hj1 hj
  rw [pr_ordPair] at h
  exact ⟨_, _, h, ordPair_fst_eq i _ (Ne.symm hp)⟩

theorem forkParamTy_eq (n off soff fresh i r k : Nat) (e : EP) (hi : IsRole n i)
    (he : (idealMesh n off (idealEP n off soff fresh forkDual) i r).slot k = some e) :
    forkParamTy n soff i k = some e.ty := by
  rw [idealMesh_slot] at he
  by_cases hk : 1 ≤ k ∧ k ≤ n - 1
  · rw [if_pos hk, idealEP_at] at he
    injection he with he
    subst he
    obtain ⟨l, c, hl, hlt⟩ := lookupMatrix n i k hi hk.1 hk.2
    have hp := (partner_role hi hk.1 hk.2).2
    unfold forkParamTy
    unfold IsRole at hi
    rw [getTupleMatrixW_eq n i k hi.1 hi.2 hk.1 hk.2, hl]
    simp only [EP.ty, forkDual]
    congr 2
    by_cases h : l = i
    · have := hlt.1 h
      have h' : ¬ partner i k < i := by omega
      simp [h, h']
    · have : ¬ i < partner i k := fun x => h (hlt.2 x)
      have h' : partner i k < i := by omega
      simp [h, h']
  · rw [if_neg hk] at he; cases he

theorem pr_le {n i j : Nat} (hi : IsRole n i) (hj : IsRole n j) (h : i ≠ j) : pr n i j ≤ (n - 1) * n / 2 := by
  have hn : 1 ≤ n := by unfold IsRole at hi; omega
  have hp := isPair_minmax hi hj h
  have hl := diag_lookup n hn _ _ hp
  have hpos := pr_pos hi hj h
  have := (List.getElem?_eq_some_iff.1 hl).1
  rw [diag_length n hn] at this
  unfold pr at *
  omega

theorem sub_slot {s j : Nat} (h : j ≠ s) : (if j > s then j - 1 else j) = slotOf s j := by
  unfold slotOf; (repeat' split) <;> omega

theorem chooseRecvTy_eq (n s fresh j r k : Nat) (right : Bool) (e : EP) (hs : IsRole n s) (hj : IsRole n j)
    (hjs : j ≠ s)
    (he : (idealMesh n 0 (idealEP n 0 (branchOff n right) fresh (chooseDual s)) j r).slot k = some e) :
    chooseRecvTy n s right j k = some e.ty := by
  rw [idealMesh_slot] at he
  by_cases hk : 1 ≤ k ∧ k ≤ n - 1
  · rw [if_pos hk, idealEP_at] at he
    injection he with he
    subst he
    obtain ⟨l, c, hl, hlt⟩ := lookupMatrix n j k hj hk.1 hk.2
    have hp := partner_role hj hk.1 hk.2
    have hr := slot_range hs hj (Ne.symm hjs)
    obtain ⟨l1, c1, hl1, -⟩ := lookupMatrix n s (slotOf s j) hs hr.1 hr.2
    rw [partner_slot hj (Ne.symm hjs)] at hl1
    unfold chooseRecvTy
    rw [sub_slot hjs, hl, hl1]
    simp only [EP.ty, chooseDual, hjs, if_false]
    congr 2
    by_cases hps : partner j k = s
    · have : pr n s j = pr n j (partner j k) := by rw [hps, pr_comm]
      simp [hps, pr_comm]
    · have hne : pr n s j ≠ pr n j (partner j k) := by
        intro e
        have := pr_inj hs hj (Ne.symm hjs) hj hp.1 (Ne.symm hp.2) e
        omega
      simp only [hps, if_false, hne, or_false]
      by_cases h : l = j
      · have := hlt.1 h
        have h' : ¬ partner j k < j := by omega
        simp [h, h']
      · have : ¬ j < partner j k := fun x => h (hlt.2 x)
        have h' : partner j k < j := by omega
        simp [h, h']
  · rw [if_neg hk] at he; cases he

theorem chooseRecvStack_eq (n s j : Nat) (right : Bool) (hj : IsRole n j) (hs : IsRole n s) (hjs : j ≠ s) :
    recvStk right (slotOf s j) = chooseRecvStack s right j := by
  unfold IsRole at *
  unfold recvStk chooseRecvStack slotOf
  cases right <;> simp only [if_true, if_false, Bool.false_eq_true] <;> (repeat' split) <;> omega

theorem chooseSenderTys_eq (n s fresh r : Nat) (right : Bool) (hs : IsRole n s) :
    ∃ tys, chooseSenderTys n s right = some tys ∧ tys.length = n - 1 ∧
      ∀ k e, (idealMesh n 0 (idealEP n 0 (branchOff n right) fresh (chooseDual s)) s r).slot k = some e →
        tys[k - 1]? = some e.ty := by
  refine ⟨(List.range' 1 (n - 1)).map fun k => ⟨branchOff n right + pr n s (partner s k), true⟩, ?_, by simp, ?_⟩
  · unfold chooseSenderTys
    have hf : (List.range' 1 n).filter (fun j => decide (j ≠ s)) = (List.range' 1 (n - 1)).map (partner s) := by
      rw [← filter_roles n s hs]
      congr 1; funext j; simp only [ne_eq, eq_comm]
    rw [rangeIncl_one, hf, List.mapM_map]
    apply mapM_some
    intro k hk
    rw [mem_range'] at hk
    have hp := partner_role hs hk.1 (by omega : k ≤ n - 1)
    obtain ⟨l, c, hl, -⟩ := lookupMatrix n s k hs hk.1 (by omega)
    simp only [Function.comp]
    rw [sub_slot hp.2, slot_partner hk.1, hl]
  · intro k e he
    rw [idealMesh_slot] at he
    by_cases hk : 1 ≤ k ∧ k ≤ n - 1
    · rw [if_pos hk, idealEP_at] at he
      injection he with he
      subst he
      rw [List.getElem?_map, List.getElem?_range' (by omega)]
      have e1 : 1 + 1 * (k - 1) = k := by omega
      simp only [Option.map_some, e1, EP.ty, chooseDual, if_true]
    · rw [if_neg hk] at he; cases he

end Verif.Gen
