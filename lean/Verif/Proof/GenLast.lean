import Verif.Proof.GenTypes
import Verif.Model.GenLast
/-! Wiring and typing of the choices of the last role, and of the fork for one thread. -/
namespace Verif.Gen
open Verif.Maths Verif.Spec

theorem lastChannels_eq (n : Nat) (right : Bool) (h : 1 ≤ n) :
    lastChannels n right = some ((diag n).map fun t =>
      .newChan (t.1, t.2.1) (t.2.1, t.1) (branchOff n right + t.2.2)) := by
  unfold lastChannels
  have e : n - 1 + 1 = n := by omega
  rw [rangeIncl_one, e, ← diag_length n h]
  apply mapM_range_eq
  intro i hi
  have hl : getTupleDiag (diagAndMatrix n).2 (1 + i) = some (diag n)[i] := by
    unfold getTupleDiag diagAndMatrix
    rw [if_neg (by omega)]
    have : 1 + i - 1 = i := by omega
    simp only
    rw [this, List.getElem?_eq_getElem hi]
  rw [hl]
  have h2 := diag_index n h i _ (List.getElem?_eq_getElem hi)
  generalize (diag n)[i] = t at *
  obtain ⟨l, c, k⟩ := t
  simp only at h2 ⊢
  rw [h2, Nat.add_comm 1 i]

theorem partner_last {n k : Nat} (h : k ≤ n - 1) (h1 : 1 ≤ k) : partner n k = k := by
  unfold partner; rw [if_pos (by omega)]

theorem lastFields_eq (n i : Nat) (hi : IsRole n i) : lastFields n i = some (idealFields n 0 i) := by
  have := forkFields_eq n 0 i hi
  unfold forkFields at this
  simp only [Nat.zero_add] at this
  exact this

theorem lastChoices_eq (n : Nat) : lastChoices n =
    some ((List.range' 1 (n - 1)).map fun k => .mesh k (idealFields n 0 (partner n k)) k) := by
  unfold lastChoices
  apply mapM_some
  intro i hi
  rw [mem_range'] at hi
  rw [lastFields_eq n i (by unfold IsRole; omega), partner_last (by omega) hi.1]

theorem lastSender_eq (n : Nat) : lastSender n = some (idealFields n 0 n) := by
  unfold lastSender idealFields
  apply mapM_some
  intro i hi
  rw [mem_range'] at hi
  rw [getTupleMatrix_diag n n i (by omega) (Nat.le_refl _) hi.1 (by omega), partner_last (by omega) hi.1]
  unfold ordPair
  rw [if_neg (by omega)]
  simp

theorem lastSum (n : Nat) : ∀ i, 1 ≤ i → i ≤ n - 1 → ((List.range i).map fun j => n - 1 - j).sum = pairRank n i n := by
  have key : ∀ i, i ≤ n → ((List.range i).map fun j => n - 1 - j).sum = rowStart n i := by
    intro i
    induction i with
    | zero => intro _; rfl
    | succ i ih =>
      intro h
      rw [List.range_succ, List.map_append, List.sum_append, ih (by omega)]
      simp only [List.map_cons, List.map_nil, List.sum_cons, List.sum_nil, rowStart]
      omega
  intro i h1 h2
  rw [key i (by omega)]
  unfold pairRank
  obtain ⟨m, rfl⟩ : ∃ m, i = m + 1 := ⟨i - 1, by omega⟩
  rfl

/-- The stacks of the receivers and of the chooser. -/
def lastStk (n : Nat) (right : Bool) (k : Nat) : Nat :=
  if k = n then lastSenderStack n right else stackNo (3 * (k - 1) + (if right then 2 else 1)) true

theorem last_run (n fresh : Nat) (right : Bool) (h : 1 ≤ n) :
    ∃ body st, lastBody n right = some body ∧ run (St.init fresh) body = some st ∧
      st.sent = (List.range' 1 (n - 1)).map (fun k => (k,
        idealMesh n 0 (idealEP n 0 (branchOff n right) fresh forkDual) (partner n k) (lastStk n right k))) ∧
      st.out = some (idealMesh n 0 (idealEP n 0 (branchOff n right) fresh forkDual) n (lastStk n right n)) ∧
      (∀ nm, st.env nm = none) ∧ (∀ k, st.meshes k = none) ∧ (∀ k, st.stacks k = none) := by
  have hs : IsRole n n := ⟨h, Nat.le_refl _⟩
  let E := idealEP n 0 (branchOff n right) fresh forkDual
  obtain ⟨env1, hr1, henv, hother⟩ := run_diag_env n 0 (branchOff n right) h
    (fun t => (t.1, t.2.1)) (fun t => (t.2.1, t.1)) forkDual
    (by
      intro t ht; unfold IsPair at ht; left
      refine ⟨by simp, by simp, ?_, ?_⟩ <;> unfold forkDual <;> simp <;> omega)
    (by intro t; left; simp) (St.init fresh)
  obtain ⟨stk2, hr2, hs2, hs2'⟩ := run_newStacks (fun j => j)
    (fun i => stackNo (3 * (i - 1) + (if right then 2 else 1)) true)
    (List.range' 1 (n - 1)) { (St.init fresh) with env := env1, fresh := fresh + (n - 1) * n / 2 } (nodup_range' 1 _)
  obtain ⟨stk3, hr3, hs3, hs3'⟩ := run_newStacks (fun _ => n) (fun _ => stackNo (if right then 3 * n - 1 else 3 * n - 2) false)
    [()] { (St.init fresh) with env := env1, fresh := fresh + (n - 1) * n / 2, stacks := stk2 } (by simp)
  obtain ⟨st, hr, h1, h2, h3, h4, h5⟩ := choose_core n n hs E (lastStk n right)
    { (St.init fresh) with env := env1, fresh := fresh + (n - 1) * n / 2, stacks := stk3 } henv
    (fun nm hnm => hother nm hnm)
    (by
      intro k a b
      unfold lastStk
      by_cases hk : k = n
      · subst hk
        rw [if_pos rfl]; exact hs3 () (by simp)
      · rw [if_neg hk]
        simp only
        rw [hs3' k (by intro x _; exact hk)]
        exact hs2 k (by rw [mem_range']; omega))
    (by
      intro k hk
      simp only
      rw [hs3' k (by intro x _; omega)]
      simp only
      rw [hs2' k (by intro x hx; rw [mem_range'] at hx; omega)]
      rfl) rfl (fun _ => rfl)
  have hrun := (run_append_some hr1).trans ((run_append_some hr2).trans ((run_append_some hr3).trans hr))
  refine ⟨_, st, ?_, hrun, h1, h2, h3, h4, h5⟩
  unfold lastBody
  rw [lastChannels_eq n right h, lastChoices_eq, lastSender_eq]
  simp only [lastStacks, lastSends, List.append_assoc, List.map_cons, List.map_nil]

theorem lastRecvTy_eq (n fresh i r k : Nat) (right : Bool) (e : EP) (hi : IsRole n i)
    (he : (idealMesh n 0 (idealEP n 0 (branchOff n right) fresh forkDual) i r).slot k = some e) :
    lastRecvTy n right i k = some e.ty := by
  rw [idealMesh_slot] at he
  by_cases hk : 1 ≤ k ∧ k ≤ n - 1
  · rw [if_pos hk, idealEP_at] at he
    injection he with he
    subst he
    obtain ⟨l, c, hl, hlt⟩ := lookupMatrix n i k hi hk.1 hk.2
    have hp := (partner_role hi hk.1 hk.2).2
    unfold lastRecvTy
    rw [hl]
    simp only [EP.ty, forkDual]
    congr 2
    by_cases h : l = i
    · have := hlt.1 h
      have h' : ¬ partner i k < i := by omega
      simp [h, h']
    · have : ¬ i < partner i k := fun x => h (hlt.2 x)
      have h' : partner i k < i := by omega
      simp [h, h']
  · rw [if_neg hk] at he; cases he

theorem lastSenderTys_eq (n fresh r : Nat) (right : Bool) (k : Nat) (e : EP)
    (he : (idealMesh n 0 (idealEP n 0 (branchOff n right) fresh forkDual) n r).slot k = some e) :
    (lastSenderTys n right)[k - 1]? = some e.ty := by
  rw [idealMesh_slot] at he
  by_cases hk : 1 ≤ k ∧ k ≤ n - 1
  · rw [if_pos hk, idealEP_at] at he
    injection he with he
    subst he
    unfold lastSenderTys
    rw [List.getElem?_map, List.getElem?_range' (by omega)]
    have e1 : 1 + 1 * (k - 1) = k := by omega
    simp only [Option.map_some, e1, EP.ty]
    rw [lastSum n k hk.1 hk.2, partner_last hk.2 hk.1]
    have e2 : pr n n k = pairRank n k n := by unfold pr; congr 1 <;> omega
    rw [e2]
    unfold forkDual
    congr 2
    simp; omega
  · rw [if_neg hk] at he; cases he

/-- Moving all the meshes out of their variables. -/
theorem takeMeshes_ok (M : Nat → MeshV) : ∀ (l : List Nat) (m : Nat → Option MeshV), l.Nodup →
    (∀ j ∈ l, m j = some (M j)) →
    takeMeshes m l = some (fun k => if k ∈ l then none else m k, l.map M) := by
  intro l
  induction l with
  | nil => intro m _ _; simp [takeMeshes]
  | cons a as ih =>
    intro m hn hm
    rw [List.nodup_cons] at hn
    simp only [takeMeshes, hm a (by simp)]
    rw [ih _ hn.2 (by
      intro j hj
      have : j ≠ a := fun e => hn.1 (e ▸ hj)
      simp [this, hm j (by simp [hj])])]
    simp only [List.map_cons]
    congr 2
    funext k
    by_cases h : k ∈ as
    · simp [h]
    · by_cases h' : k = a <;> simp [h, h']

theorem solo_run (n fresh : Nat) (h : 1 ≤ n) :
    ∃ body st, soloBody n = some body ∧ run (St.init fresh) body = some st ∧
      st.spawned = [(0, (List.range' 1 n).map fun i => idealMesh n 0 (idealEP n 0 0 fresh forkDual) i i)] ∧
      (∀ nm, st.env nm = none) ∧ (∀ k, st.meshes k = none) := by
  obtain ⟨cs, env1, hcs, hr1, henv, hother⟩ := run_forkChannels n 0 0 h (St.init fresh)
  obtain ⟨stk2, hr2, hs2, hs2'⟩ := run_newStacks_range n
    { (St.init fresh) with env := env1, fresh := fresh + (n - 1) * n / 2 }
  obtain ⟨ms3, hr3, hm3, hm3'⟩ := run_forkMeshes n 0 (idealEP n 0 0 fresh forkDual)
    { (St.init fresh) with env := env1, fresh := fresh + (n - 1) * n / 2, stacks := stk2 }
    (fun i j hi hj hij => henv i j hi hj hij)
    (fun i hi => by
      have := hs2 i hi.1 hi.2
      simpa using this)
  obtain ⟨st3, hr3, e3⟩ := ex_state hr3
  have ht := takeMeshes_ok (fun i => idealMesh n 0 (idealEP n 0 0 fresh forkDual) i i) (List.range' 1 n) st3.meshes
    List.nodup_range' (by
      intro j hj
      rw [mem_range'] at hj
      rw [e3]
      have := hm3 j (by unfold IsRole; omega)
      simpa using this)
  have hr4 : run st3 [.spawn 0 (List.range' 1 n)] = some { st3 with
      meshes := fun k => if k ∈ List.range' 1 n then none else st3.meshes k,
      spawned := st3.spawned ++ [(0, (List.range' 1 n).map fun i => idealMesh n 0 (idealEP n 0 0 fresh forkDual) i i)] } := by
    simp only [run, step, ht]
  have hrun := (run_append_some hr1).trans ((run_append_some hr2).trans ((run_append_some hr3).trans hr4))
  refine ⟨_, _, ?_, hrun, ?_, ?_, ?_⟩
  · unfold soloBody; rw [hcs, forkMeshes_eq]
    simp only [forkStacks, rangeIncl_one, List.append_assoc]
  · rw [e3]; rfl
  · intro nm
    rw [e3]
    simp only
    split
    · rfl
    · rename_i hne
      rw [mem_idealNames] at hne
      rw [hother nm (fun i j hi hj hij e => hne ⟨i, j, hi, hj, hij, e⟩)]
      rfl
  · intro k
    simp only
    split
    · rfl
    · rename_i hne
      rw [e3]
      simp only
      rw [hm3' k (fun i hi e => hne (by rw [mem_range']; unfold IsRole at hi; omega))]
      rfl

end Verif.Gen
