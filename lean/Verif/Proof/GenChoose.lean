import Verif.Proof.GenWire
/-! Wiring proofs for choices and interleaved forks. -/
namespace Verif.Gen
open Verif.Maths Verif.Spec

theorem filter_all {α : Type} (p : α → Bool) (l : List α) (h : ∀ x ∈ l, p x = true) : l.filter p = l :=
  List.filter_eq_self.2 h

/-- The roles other than `s`, in ascending order, are the partners of `s`. -/
theorem filter_roles (n s : Nat) (hs : IsRole n s) :
    (List.range' 1 n).filter (fun j => decide (s ≠ j)) = (List.range' 1 (n - 1)).map (partner s) := by
  unfold IsRole at hs
  have e1 : List.range' 1 n = List.range' 1 (s - 1) ++ (s :: List.range' (s + 1) (n - s)) := by
    have h1 : s :: List.range' (s + 1) (n - s) = List.range' s (n - s + 1) := by
      rw [List.range'_succ]
    rw [h1]
    have := List.range'_append (s := 1) (m := s - 1) (n := n - s + 1) (step := 1)
    have a : 1 + 1 * (s - 1) = s := by omega
    have b : s - 1 + (n - s + 1) = n := by omega
    rw [a, b] at this
    exact this.symm
  have e2 : List.range' 1 (n - 1) = List.range' 1 (s - 1) ++ List.range' s (n - s) := by
    have := List.range'_append (s := 1) (m := s - 1) (n := n - s) (step := 1)
    have a : 1 + 1 * (s - 1) = s := by omega
    have b : s - 1 + (n - s) = n - 1 := by omega
    rw [a, b] at this
    exact this.symm
  rw [e1, e2, List.filter_append, List.filter_cons, List.map_append]
  rw [filter_all _ (List.range' 1 (s - 1)) (by intro x hx; rw [mem_range'] at hx; simp; omega)]
  rw [filter_all _ (List.range' (s + 1) (n - s)) (by intro x hx; rw [mem_range'] at hx; simp; omega)]
  have hself : decide (s ≠ s) = false := by simp
  rw [hself]
  simp only [Bool.false_eq_true, if_false]
  congr 1
  · conv => lhs; rw [← List.map_id (List.range' 1 (s - 1))]
    apply List.map_congr_left
    intro x hx; rw [mem_range'] at hx
    unfold partner; rw [if_pos (by omega)]; rfl
  · apply List.ext_getElem
    · simp
    · intro i h1 h2
      simp only [List.getElem_range', List.getElem_map, Nat.one_mul]
      unfold partner; rw [if_neg (by omega)]; omega

/-- Which end of the channel of a pair `channel_i_j` is, in a choice made by `s`. -/
def chooseDual (s i j : Nat) : Bool := if i = s then true else if j = s then false else decide (j < i)

theorem chooseDual_ne {s i j : Nat} (h : i ≠ j) : chooseDual s i j ≠ chooseDual s j i := by
  unfold chooseDual
  by_cases a : i = s
  · have b : j ≠ s := by omega
    simp [a, b]
  · by_cases b : j = s
    · simp [a, b]
    · simp only [a, b, if_false]
      exact forkDual_ne h

theorem run_chooseChannels (n s : Nat) (right : Bool) (h : 1 ≤ n) (st : St) :
    ∃ cs env', chooseChannels n s right = some cs ∧
      run st cs = some { st with env := env', fresh := st.fresh + (n - 1) * n / 2 } ∧
      (∀ i j, IsRole n i → IsRole n j → i ≠ j →
        env' (0 + i, 0 + j) = some (idealEP n 0 (branchOff n right) st.fresh (chooseDual s) (0 + i, 0 + j))) ∧
      (∀ nm, (∀ i j, IsRole n i → IsRole n j → i ≠ j → nm ≠ (0 + i, 0 + j)) → env' nm = st.env nm) := by
  obtain ⟨env', h1, h2, h3⟩ := run_diag_env n 0 (branchOff n right) h
    (fun t => if s ≠ t.1 then (t.1, t.2.1) else (t.2.1, t.1))
    (fun t => if s ≠ t.1 then (t.2.1, t.1) else (t.1, t.2.1)) (chooseDual s)
    (by
      intro t ht; unfold IsPair at ht
      by_cases hs : s = t.1
      · right
        have hn : ¬ t.2.1 = s := by omega
        have hs' : t.1 = s := hs.symm
        refine ⟨by simp [hs], by simp [hs], ?_, ?_⟩ <;> unfold chooseDual <;> simp [hs', hn]
      · left
        have hs' : ¬ t.1 = s := fun e => hs e.symm
        refine ⟨by simp [hs], by simp [hs], ?_, ?_⟩ <;> unfold chooseDual <;> simp only [hs', if_false]
        · by_cases h2 : t.2.1 = s
          · simp [h2]
          · simp only [h2, if_false]; simp; omega
        · by_cases h2 : t.2.1 = s
          · simp [h2]
          · simp only [h2, if_false]; simp; omega)
    (by
      intro t
      by_cases hs : s = t.1
      · right; simp [hs]
      · left; simp [hs]) st
  exact ⟨_, env', chooseChannels_eq n s right h, h1, h2, h3⟩

theorem chooseRecvFields_eq (n j : Nat) : chooseRecvFields n j = idealFields n 0 j := by
  unfold chooseRecvFields idealFields
  apply List.map_congr_left
  intro k _
  unfold partner
  by_cases h : k < j
  · simp [h]
  · simp [h]

theorem partner_sub {s k : Nat} (hk : 1 ≤ k) : (if partner s k > s then partner s k - 1 else partner s k) = k := by
  unfold partner; (repeat' split) <;> omega

theorem chooseRecvMeshes_eq (n s : Nat) (hs : IsRole n s) : chooseRecvMeshes n s =
    (List.range' 1 (n - 1)).map fun k => .mesh k (idealFields n 0 (partner s k)) k := by
  unfold chooseRecvMeshes
  rw [rangeIncl_one, filter_roles n s hs, List.map_map]
  apply List.map_congr_left
  intro k hk
  rw [mem_range'] at hk
  simp only [Function.comp, chooseRecvFields_eq, partner_sub hk.1]

theorem chooseSenderFields_eq (n s : Nat) (hs : IsRole n s) : chooseSenderFields n s = idealFields n 0 s := by
  unfold chooseSenderFields idealFields
  rw [rangeIncl_one, filter_roles n s hs, List.map_map]
  apply List.map_congr_left
  intro k hk
  rw [mem_range'] at hk
  simp only [Function.comp, Nat.zero_add]
  have : (if partner s k < s then partner s k else partner s k - 1) = k := by
    unfold partner; (repeat' split) <;> omega
  rw [this]

theorem ideal_env {n : Nat} {E : Name → EP} {env : Name → Option EP} {i : Nat} (hi : IsRole n i)
    (hE : ∀ i j, IsRole n i → IsRole n j → i ≠ j → env (0 + i, 0 + j) = some (E (0 + i, 0 + j))) :
    ∀ f ∈ idealFields n 0 i, f.2.1 = 0 + i ∧ env f.2 = some (E f.2) := by
  intro f hf
  rw [mem_idealFields] at hf
  have hp := partner_role hi hf.1 hf.2.1
  rw [hf.2.2]
  exact ⟨rfl, hE i _ hi hp.1 (Ne.symm hp.2)⟩

theorem mem_recvNames {n s : Nat} (hs : IsRole n s) {nm : Name} :
    (∃ x ∈ List.range' 1 (n - 1), nm ∈ (idealFields n 0 (partner s x)).map Prod.snd) ↔
      ∃ i j, IsRole n i ∧ IsRole n j ∧ i ≠ j ∧ i ≠ s ∧ nm = (0 + i, 0 + j) := by
  constructor
  · rintro ⟨x, hx, hm⟩
    rw [mem_range'] at hx
    obtain ⟨f, hf, rfl⟩ := List.mem_map.1 hm
    rw [mem_idealFields] at hf
    have hx' := partner_role hs hx.1 (by omega)
    have hp := partner_role hx'.1 hf.1 hf.2.1
    exact ⟨_, _, hx'.1, hp.1, Ne.symm hp.2, hx'.2, hf.2.2⟩
  · rintro ⟨i, j, hi, hj, hij, his, rfl⟩
    have hr := slot_range hs hi (Ne.symm his)
    refine ⟨slotOf s i, by rw [mem_range']; omega, ?_⟩
    rw [partner_slot hi (Ne.symm his)]
    have := slot_range hi hj hij
    exact List.mem_map.2 ⟨(slotOf i j, (0 + i, 0 + j)),
      mem_idealFields.2 ⟨this.1, this.2, by simp only; rw [partner_slot hj hij]⟩, rfl⟩

theorem not_recvName {n s : Nat} (hs : IsRole n s) (j : Nat) :
    ¬ ∃ x ∈ List.range' 1 (n - 1), ((0 + s, 0 + j) : Name) ∈ (idealFields n 0 (partner s x)).map Prod.snd := by
  rw [mem_recvNames hs]
  rintro ⟨i, j', _, _, _, his, e⟩
  simp only [Nat.zero_add, Prod.mk.injEq] at e
  exact his e.1.symm

theorem partner_injOn (s : Nat) (m : Nat) :
    (List.range' 1 m).Pairwise (fun x y => x ≠ y ∧ 0 + partner s x ≠ 0 + partner s y ∧ x ≠ y) := by
  refine List.Pairwise.imp ?_ (nodup_range' 1 m)
  intro a b hab
  refine ⟨hab, fun e => hab (partner_inj (i := s) ?_), hab⟩
  simpa using e

theorem run_ret {st st' : St} {fs : List (Nat × Name)} {k : Nat} {m : MeshV} (h : build st fs k = some (st', m)) :
    run st [.ret fs k] = some { st' with out := some m } := by
  simp only [run, step, h]

theorem ex_state {o : Option St} {s : St} (h : o = some s) : ∃ s', o = some s' ∧ s' = s := ⟨s, h, rfl⟩

/-- Number of the stack type parameter of the `k`-th receiver in a binary choice. -/
def recvStk (right : Bool) (k : Nat) : Nat := 2 * (k - 1) + (if right then 2 else 1)

/-- The tail of a choice: build the receivers' meshes, send them, return the sender's mesh. -/
theorem choose_core (n s : Nat) (hs : IsRole n s) (E : Name → EP) (rs : Nat → Nat) (st0 : St)
    (henv : ∀ i j, IsRole n i → IsRole n j → i ≠ j → st0.env (0 + i, 0 + j) = some (E (0 + i, 0 + j)))
    (hother : ∀ nm, (∀ i j, IsRole n i → IsRole n j → i ≠ j → nm ≠ (0 + i, 0 + j)) → st0.env nm = none)
    (hstk : ∀ k, 1 ≤ k → k ≤ n → st0.stacks k = some (rs k))
    (hstko : ∀ k, ¬ (1 ≤ k ∧ k ≤ n) → st0.stacks k = none)
    (hsent : st0.sent = []) (hms : ∀ k, st0.meshes k = none) :
    ∃ st, run st0 (((List.range' 1 (n - 1)).map fun k => .mesh k (idealFields n 0 (partner s k)) k)
          ++ (((List.range' 1 (n - 1)).map fun j => .sendVar j j) ++ [.ret (idealFields n 0 s) n])) = some st ∧
      st.sent = (List.range' 1 (n - 1)).map (fun k => (k, idealMesh n 0 E (partner s k) (rs k))) ∧
      st.out = some (idealMesh n 0 E s (rs n)) ∧
      (∀ nm, st.env nm = none) ∧ (∀ k, st.meshes k = none) ∧ (∀ k, st.stacks k = none) := by
  have h : 1 ≤ n := by unfold IsRole at hs; omega
  obtain ⟨ms4, hr4, hm4, hm4'⟩ := run_meshes E (fun k => k) (fun k => 0 + partner s k) (fun k => k)
    rs (fun k => idealFields n 0 (partner s k)) (List.range' 1 (n - 1)) st0
    (partner_injOn s _) (fun x _ => idealFields_nodup n 0 _)
    (by
      intro x hx
      rw [mem_range'] at hx
      exact ideal_env (partner_role hs hx.1 (by omega)).1 henv)
    (by intro x hx; rw [mem_range'] at hx; exact hstk x hx.1 (by omega))
  obtain ⟨st4, hr4, e4⟩ := ex_state hr4
  have hr5 := run_sendVars (fun k => idealMesh n 0 E (partner s k) (rs k)) (List.range' 1 (n - 1))
    st4 List.nodup_range' (fun j hj => by rw [e4]; exact hm4 j hj) (by rw [e4]; simp [hsent])
  obtain ⟨st5, hr5, e5⟩ := ex_state hr5
  have hb := build_ok E st5 (idealFields n 0 s) n (rs n) (idealFields_nodup n 0 s)
    (by
      intro f hf
      have := ideal_env hs henv f hf
      have hne : ¬ ∃ x ∈ List.range' 1 (n - 1), f.2 ∈ (idealFields n 0 (partner s x)).map Prod.snd := by
        have h2 : f.2 = (0 + s, 0 + f.2.2) := by rw [← this.1]; simp
        rw [h2]; exact not_recvName hs _
      rw [e5, e4]
      simp only [hne, if_false]
      exact this.2)
    (by
      have hne : ¬ ∃ x ∈ List.range' 1 (n - 1), n = x := by
        rintro ⟨x, hx, e⟩; rw [mem_range'] at hx; omega
      rw [e5, e4]
      simp only [hne, if_false]
      exact hstk n h (Nat.le_refl _))
  have hr6 := run_ret hb
  have hrun := (run_append_some hr4).trans ((run_append_some hr5).trans hr6)
  refine ⟨_, hrun, ?_, rfl, ?_, ?_, ?_⟩
  · rw [e5, e4]; simp [hsent]
  · intro nm
    rw [e5, e4]
    simp only
    split
    · rfl
    · rename_i h1
      split
      · rfl
      · rename_i h2
        rw [mem_recvNames hs] at h2
        rw [hother nm]
        · intro i j hi hj hij e
          by_cases his : i = s
          · subst his
            apply h1
            have := slot_range hi hj hij
            exact List.mem_map.2 ⟨(slotOf i j, (0 + i, 0 + j)),
              mem_idealFields.2 ⟨this.1, this.2, by simp only; rw [partner_slot hj hij]⟩, e.symm⟩
          · exact h2 ⟨i, j, hi, hj, hij, his, e⟩
  · intro k
    rw [e5, e4]
    simp only
    split
    · rfl
    · rename_i h1
      rw [hm4' k (by intro x hx e; exact h1 (e ▸ hx))]
      exact hms k
  · intro k
    rw [e5, e4]
    simp only
    split
    · rfl
    · rename_i h1
      split
      · rfl
      · rename_i h2
        apply hstko
        intro hk
        exact h2 ⟨k, by rw [mem_range']; omega, rfl⟩

/-- The generated binary choice runs and produces ideal meshes. -/
theorem choose_run (n s fresh : Nat) (right : Bool) (hs : IsRole n s) :
    ∃ body st, chooseBody n s right = some body ∧ run (St.init fresh) body = some st ∧
      st.sent = (List.range' 1 (n - 1)).map (fun k => (k,
        idealMesh n 0 (idealEP n 0 (branchOff n right) fresh (chooseDual s)) (partner s k) (recvStk right k))) ∧
      st.out = some (idealMesh n 0 (idealEP n 0 (branchOff n right) fresh (chooseDual s)) s
        (if right then 2 * n else 2 * n - 1)) ∧
      (∀ nm, st.env nm = none) ∧ (∀ k, st.meshes k = none) ∧ (∀ k, st.stacks k = none) := by
  have h : 1 ≤ n := by unfold IsRole at hs; omega
  let E := idealEP n 0 (branchOff n right) fresh (chooseDual s)
  obtain ⟨cs, env1, hcs, hr1, henv, hother⟩ := run_chooseChannels n s right h (St.init fresh)
  obtain ⟨stk2, hr2, hs2, hs2'⟩ := run_newStacks (fun j => j) (fun j => 2 * (j - 1) + (if right then 2 else 1))
    (List.range' 1 (n - 1)) { (St.init fresh) with env := env1, fresh := fresh + (n - 1) * n / 2 } (nodup_range' 1 _)
  obtain ⟨stk3, hr3, hs3, hs3'⟩ := run_newStacks (fun _ => n) (fun _ => if right then 2 * n else 2 * n - 1)
    [()] { (St.init fresh) with env := env1, fresh := fresh + (n - 1) * n / 2, stacks := stk2 } (by simp)
  have hstkn : stk3 n = some (if right then 2 * n else 2 * n - 1) := hs3 () (by simp)
  have hstkk : ∀ k, 1 ≤ k → k ≤ n - 1 → stk3 k = some (recvStk right k) := by
    intro k a b
    rw [hs3' k (by intro x _; omega)]
    exact hs2 k (by rw [mem_range']; omega)
  have hstko : ∀ k, ¬ (1 ≤ k ∧ k ≤ n) → stk3 k = none := by
    intro k hk
    rw [hs3' k (by intro x _; omega)]
    simp only
    rw [hs2' k (by intro x hx; rw [mem_range'] at hx; omega)]
    rfl
  obtain ⟨st, hr, h1, h2, h3, h4, h5⟩ := choose_core n s hs E
    (fun k => if k = n then (if right then 2 * n else 2 * n - 1) else recvStk right k)
    { (St.init fresh) with env := env1, fresh := fresh + (n - 1) * n / 2, stacks := stk3 } henv
    (fun nm hnm => hother nm hnm)
    (by
      intro k a b
      by_cases hk : k = n
      · simp only [hk, if_true]; exact hstkn
      · simp only [hk, if_false]; exact hstkk k a (by omega))
    hstko rfl (fun _ => rfl)
  have hrun := (run_append_some hr1).trans ((run_append_some hr2).trans ((run_append_some hr3).trans hr))
  refine ⟨_, _, ?_, hrun, ?_, ?_, h3, h4, h5⟩
  · unfold chooseBody; rw [hcs]
    simp only [chooseStacks, chooseSends, chooseRecvMeshes_eq n s hs, chooseSenderFields_eq n s hs,
      List.append_assoc, List.map_cons, List.map_nil]
  · rw [h1]
    apply List.map_congr_left
    intro k hk
    rw [mem_range'] at hk
    rw [if_neg (by omega)]
  · rw [h2]; simp only [if_true]; rfl

/-! ### Enum choices -/

theorem toAllSends_eq (n s : Nat) : toAllSends n s =
    (List.range' 1 (n - 1)).map fun k => .sendMesh (idealFields n 0 (partner s k)) k k := by
  unfold toAllSends
  apply List.map_congr_left
  intro k _
  have e : (if k ≥ s then k + 1 else k) = partner s k := by
    unfold partner; (repeat' split) <;> omega
  simp only [e]
  rw [← chooseRecvFields_eq]
  rfl

theorem toAllSenderFields_eq (n s : Nat) : toAllSenderFields n s = idealFields n 0 s := by
  rw [← chooseRecvFields_eq]; rfl

theorem toAll_run (n s fresh : Nat) (hs : IsRole n s) :
    ∃ body st, toAllBody n s = some body ∧ run (St.init fresh) body = some st ∧
      st.sent = (List.range' 1 (n - 1)).map (fun k => (k,
        idealMesh n 0 (idealEP n 0 0 fresh forkDual) (partner s k) k)) ∧
      st.out = some (idealMesh n 0 (idealEP n 0 0 fresh forkDual) s n) ∧
      (∀ nm, st.env nm = none) ∧ (∀ k, st.meshes k = none) ∧ (∀ k, st.stacks k = none) := by
  have h : 1 ≤ n := by unfold IsRole at hs; omega
  let E := idealEP n 0 0 fresh forkDual
  obtain ⟨env1, hr1, henv, hother⟩ := run_diag_env n 0 0 h
    (fun t => (t.1, t.2.1)) (fun t => (t.2.1, t.1)) forkDual
    (by
      intro t ht; unfold IsPair at ht; left
      refine ⟨by simp, by simp, ?_, ?_⟩ <;> unfold forkDual <;> simp <;> omega)
    (by intro t; left; simp) (St.init fresh)
  obtain ⟨stk2, hr2, hs2, hs2'⟩ := run_newStacks_range n
    { (St.init fresh) with env := env1, fresh := fresh + (n - 1) * n / 2 }
  have hr3 := run_sendMeshes E (fun k => k) (fun k => 0 + partner s k) (fun k => k)
    (fun k => k) (fun k => idealFields n 0 (partner s k)) (List.range' 1 (n - 1))
    { (St.init fresh) with env := env1, fresh := fresh + (n - 1) * n / 2, stacks := stk2 }
    (partner_injOn s _) (fun x _ => idealFields_nodup n 0 _)
    (by
      intro x hx
      rw [mem_range'] at hx
      exact ideal_env (partner_role hs hx.1 (by omega)).1 henv)
    (by intro x hx; rw [mem_range'] at hx; exact hs2 x hx.1 (by omega))
    (by simp [St.init])
  obtain ⟨st3, hr3, e3⟩ := ex_state hr3
  have hb := build_ok E st3 (idealFields n 0 s) n n (idealFields_nodup n 0 s)
    (by
      intro f hf
      have := ideal_env hs henv f hf
      have hne : ¬ ∃ x ∈ List.range' 1 (n - 1), f.2 ∈ (idealFields n 0 (partner s x)).map Prod.snd := by
        have h2 : f.2 = (0 + s, 0 + f.2.2) := by rw [← this.1]; simp
        rw [h2]; exact not_recvName hs _
      rw [e3]
      simp only [hne, if_false]
      exact this.2)
    (by
      have hne : ¬ ∃ x ∈ List.range' 1 (n - 1), n = x := by
        rintro ⟨x, hx, e⟩; rw [mem_range'] at hx; omega
      rw [e3]
      simp only [hne, if_false]
      exact hs2 n h (by omega))
  have hr4 := run_ret hb
  have hrun := (run_append_some hr1).trans ((run_append_some hr2).trans ((run_append_some hr3).trans hr4))
  refine ⟨_, _, ?_, hrun, ?_, rfl, ?_, ?_, ?_⟩
  · unfold toAllBody; rw [toAllChannels_eq n h]
    simp only [toAllStacks, toAllSends_eq, toAllSenderFields_eq, rangeIncl_one, List.append_assoc, Nat.zero_add]
  · rw [e3]; rfl
  · intro nm
    rw [e3]
    simp only
    split
    · rfl
    · rename_i h1
      split
      · rfl
      · rename_i h2
        rw [mem_recvNames hs] at h2
        rw [hother nm]
        · rfl
        · intro i j hi hj hij e
          by_cases his : i = s
          · subst his
            apply h1
            have := slot_range hi hj hij
            exact List.mem_map.2 ⟨(slotOf i j, (0 + i, 0 + j)),
              mem_idealFields.2 ⟨this.1, this.2, by simp only; rw [partner_slot hj hij]⟩, e.symm⟩
          · exact h2 ⟨i, j, hi, hj, hij, his, e⟩
  · intro k; rw [e3]; rfl
  · intro k
    rw [e3]
    simp only
    split
    · rfl
    · rename_i h1
      split
      · rfl
      · rename_i h2
        rw [hs2' k]
        · rfl
        · intro hk
          exact h2 ⟨k, by rw [mem_range']; omega, rfl⟩

/-! ### Interleaved forks -/

theorem interleavedOffset_one {n1 idx1 n2 idx2 i : Nat} (h1 : IsRole n1 idx1) (h2 : IsRole n2 idx2)
    (hi : IsRole n1 i) (hne : i ≠ idx1) :
    interleavedOffset n1 idx1 idx2 (interleavedFnOne idx1 i) = i := by
  unfold IsRole at *
  unfold interleavedOffset interleavedFnOne
  (repeat' split) <;> omega

theorem interleavedOffset_two {n1 idx1 n2 idx2 i : Nat} (h1 : IsRole n1 idx1) (h2 : IsRole n2 idx2)
    (hi : IsRole n2 i) (hne : i ≠ idx2) :
    interleavedOffset n1 idx1 idx2 (interleavedFnTwo n1 idx2 i) = n1 + i := by
  unfold IsRole at *
  unfold interleavedOffset interleavedFnTwo
  (repeat' split) <;> omega

theorem interleavedOffset_range {n1 idx1 n2 idx2 i : Nat} (h1 : IsRole n1 idx1) (h2 : IsRole n2 idx2)
    (hi : 1 ≤ i) (hi' : i ≤ n1 + n2 - 2) :
    1 ≤ interleavedOffset n1 idx1 idx2 i ∧ interleavedOffset n1 idx1 idx2 i ≤ n1 + n2 ∧
    interleavedOffset n1 idx1 idx2 i ≠ idx1 ∧ interleavedOffset n1 idx1 idx2 i ≠ n1 + idx2 := by
  unfold IsRole at *
  unfold interleavedOffset
  (repeat' split) <;> omega

theorem interleavedOffset_inj {n1 idx1 idx2 i j : Nat} (h : i ≠ j) :
    interleavedOffset n1 idx1 idx2 i ≠ interleavedOffset n1 idx1 idx2 j := by
  unfold interleavedOffset
  (repeat' split) <;> omega

/-- The mesh in variable `meshedchannels_{k}` of an interleaved fork. -/
def interMesh (n1 n2 fresh : Nat) (k : Nat) : MeshV :=
  if k ≤ n1 then idealMesh n1 0 (idealEP n1 0 0 fresh forkDual) k k
  else idealMesh n2 n1 (idealEP n2 n1 ((n1 - 1) * n1 / 2) (fresh + (n1 - 1) * n1 / 2) forkDual) (k - n1) k

theorem interleaved_run (n1 idx1 n2 idx2 fresh : Nat) (h1 : IsRole n1 idx1) (h2 : IsRole n2 idx2) :
    ∃ body st, interleavedBody n1 idx1 n2 idx2 = some body ∧ run (St.init fresh) body = some st ∧
      st.spawned = (List.range' 1 (n1 + n2 - 2)).map
          (fun i => (i, [interMesh n1 n2 fresh (interleavedOffset n1 idx1 idx2 i)]))
        ++ [(0, [interMesh n1 n2 fresh idx1, interMesh n1 n2 fresh (n1 + idx2)])] ∧
      (∀ nm, st.env nm = none) ∧ (∀ k, st.meshes k = none) := by
  have hn1 : 1 ≤ n1 := by unfold IsRole at h1; omega
  have hn2 : 1 ≤ n2 := by unfold IsRole at h2; omega
  let E1 := idealEP n1 0 0 fresh forkDual
  let E2 := idealEP n2 n1 ((n1 - 1) * n1 / 2) (fresh + (n1 - 1) * n1 / 2) forkDual
  obtain ⟨cs1, env1, hcs1, hr1, henv1, hother1⟩ := run_forkChannels n1 0 0 hn1 (St.init fresh)
  obtain ⟨cs2, env2, hcs2, hr2, henv2, hother2⟩ := run_forkChannels n2 n1 ((n1 - 1) * n1 / 2) hn2
    { (St.init fresh) with env := env1, fresh := fresh + (n1 - 1) * n1 / 2 }
  have henv1' : ∀ i j, IsRole n1 i → IsRole n1 j → i ≠ j →
      env2 (0 + i, 0 + j) = some (E1 (0 + i, 0 + j)) := by
    intro i j hi hj hij
    rw [hother2]
    · exact henv1 i j hi hj hij
    · intro i' j' hi' hj' _ e
      simp only [Nat.zero_add, Prod.mk.injEq] at e
      unfold IsRole at *; omega
  obtain ⟨stk3, hr3, hs3, hs3'⟩ := run_newStacks_range (n1 + n2)
    { (St.init fresh) with env := env2, fresh := fresh + (n1 - 1) * n1 / 2 + (n2 - 1) * n2 / 2 }
  obtain ⟨ms4, hr4, hm4, hm4'⟩ := run_forkMeshes n1 0 E1
    { (St.init fresh) with env := env2, fresh := fresh + (n1 - 1) * n1 / 2 + (n2 - 1) * n2 / 2, stacks := stk3 }
    henv1' (fun i hi => by
      unfold IsRole at hi
      have := hs3 i hi.1 (by omega)
      simpa using this)
  obtain ⟨st4, hr4, e4⟩ := ex_state hr4
  obtain ⟨ms5, hr5, hm5, hm5'⟩ := run_forkMeshes n2 n1 E2 st4
    (by
      intro i j hi hj hij
      rw [e4]
      have hne : ¬ ∃ x ∈ List.range' 1 n1, ((n1 + i, n1 + j) : Name) ∈ (idealFields n1 0 x).map Prod.snd := by
        rw [mem_idealNames]
        rintro ⟨a, b, ha, hb, _, e⟩
        simp only [Nat.zero_add, Prod.mk.injEq] at e
        unfold IsRole at *; omega
      simp only [hne, if_false]
      exact henv2 i j hi hj hij)
    (by
      intro i hi
      rw [e4]
      have hne : ¬ ∃ x ∈ List.range' 1 n1, n1 + i = 0 + x := by
        rintro ⟨x, hx, e⟩; rw [mem_range'] at hx; unfold IsRole at *; omega
      simp only [hne, if_false]
      unfold IsRole at hi
      exact hs3 _ (by omega) (by omega))
  obtain ⟨st5, hr5, e5⟩ := ex_state hr5
  have hmesh : ∀ k, 1 ≤ k → k ≤ n1 + n2 → st5.meshes k = some (interMesh n1 n2 fresh k) := by
    intro k a b
    rw [e5]
    unfold interMesh
    by_cases hk : k ≤ n1
    · simp only [hk, if_true]
      rw [hm5' k (by intro i hi; unfold IsRole at hi; omega), e4]
      have := hm4 k ⟨a, hk⟩
      simpa using this
    · simp only [hk, if_false]
      have := hm5 (k - n1) (by unfold IsRole; omega)
      have e : n1 + (k - n1) = k := by omega
      rw [e] at this
      exact this
  have hmesh' : ∀ k, ¬ (1 ≤ k ∧ k ≤ n1 + n2) → st5.meshes k = none := by
    intro k hk
    rw [e5]
    simp only
    rw [hm5' k (by intro i hi; unfold IsRole at hi; omega), e4]
    simp only
    rw [hm4' k (by intro i hi; unfold IsRole at hi; omega)]
    rfl
  have hr6 := run_spawns (interMesh n1 n2 fresh) (interleavedOffset n1 idx1 idx2)
    (List.range' 1 (n1 + n2 - 2)) st5
    (List.Pairwise.imp (fun hab => interleavedOffset_inj hab) (nodup_range' 1 _))
    (by
      intro j hj
      rw [mem_range'] at hj
      have := interleavedOffset_range (n1 := n1) (idx1 := idx1) (n2 := n2) (idx2 := idx2) (i := j) h1 h2 hj.1 (by omega)
      exact hmesh _ this.1 this.2.1)
  obtain ⟨st6, hr6, e6⟩ := ex_state hr6
  have hmid : ∀ k, 1 ≤ k → k ≤ n1 + n2 → (k = idx1 ∨ k = n1 + idx2) →
      st6.meshes k = some (interMesh n1 n2 fresh k) := by
    intro k a b hk
    rw [e6]
    simp only
    rw [if_neg, hmesh k a b]
    rintro ⟨j, hj, e⟩
    rw [mem_range'] at hj
    have := interleavedOffset_range (n1 := n1) (idx1 := idx1) (n2 := n2) (idx2 := idx2) (i := j) h1 h2 hj.1 (by omega)
    omega
  have ha := hmid idx1 (by unfold IsRole at h1; omega) (by unfold IsRole at h1; omega) (.inl rfl)
  have hb := hmid (n1 + idx2) (by omega) (by unfold IsRole at h2; omega) (.inr rfl)
  have hneq : n1 + idx2 ≠ idx1 := by unfold IsRole at *; omega
  have hr7 : run st6 [.spawn 0 [idx1, n1 + idx2]] = some { st6 with
      meshes := fun y => if y = n1 + idx2 then none else if y = idx1 then none else st6.meshes y,
      spawned := st6.spawned ++ [(0, [interMesh n1 n2 fresh idx1, interMesh n1 n2 fresh (n1 + idx2)])] } := by
    simp only [run, step, takeMeshes, ha, hneq, if_false, hb]
  have hrun := (run_append_some hr1).trans ((run_append_some hr2).trans ((run_append_some hr3).trans
    ((run_append_some hr4).trans ((run_append_some hr5).trans ((run_append_some hr6).trans hr7)))))
  refine ⟨_, _, ?_, hrun, ?_, ?_, ?_⟩
  · unfold interleavedBody; rw [hcs1, hcs2, forkMeshes_eq, forkMeshes_eq]
    simp only [forkStacks, interleavedThreads, rangeIncl_one, List.append_assoc]
  · rw [e6, e5, e4]; rfl
  · intro nm
    rw [e6, e5]
    simp only
    split
    · rfl
    · rename_i hne
      rw [e4]
      simp only
      split
      · rfl
      · rename_i hne'
        rw [mem_idealNames] at hne hne'
        rw [hother2 nm (fun i j hi hj hij e => hne ⟨i, j, hi, hj, hij, e⟩)]
        simp only
        rw [hother1 nm (fun i j hi hj hij e => hne' ⟨i, j, hi, hj, hij, e⟩)]
        rfl
  · intro k
    simp only
    split
    · rfl
    · rename_i k1
      split
      · rfl
      · rename_i k2
        rw [e6]
        simp only
        split
        · rfl
        · rename_i k3
          by_cases hk : 1 ≤ k ∧ k ≤ n1 + n2
          · exfalso
            apply k3
            by_cases hle : k ≤ n1
            · refine ⟨interleavedFnOne idx1 k, ?_, (interleavedOffset_one h1 h2 ⟨hk.1, hle⟩ k2).symm⟩
              rw [mem_range']
              unfold IsRole at *; unfold interleavedFnOne
              split <;> omega
            · have hr : IsRole n2 (k - n1) := by unfold IsRole; omega
              have hx := interleavedOffset_two h1 h2 hr (by omega)
              refine ⟨interleavedFnTwo n1 idx2 (k - n1), ?_, by rw [hx]; omega⟩
              rw [mem_range']
              unfold IsRole at *; unfold interleavedFnTwo
              split <;> omega
          · exact hmesh' k hk

end Verif.Gen
