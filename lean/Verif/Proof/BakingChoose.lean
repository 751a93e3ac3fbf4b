import Verif.Proof.Baking
/-! Which types offer a choice. -/
namespace Verif.Baking
open Verif.Spec Verif.Gen Verif.SendRecv Verif.Maths

/-- The pair of roles with number `m`. -/
def pairAt (n m : Nat) : Nat × Nat :=
  match (diag n)[m - 1]? with
  | some t => (t.1, t.2.1)
  | none => (0, 0)

theorem pairAt_pr {n l c : Nat} (hp : IsPair n l c) : pairAt n (pairRank n l c) = (l, c) := by
  unfold pairAt
  rw [diag_lookup n (by unfold IsPair at hp; omega) l c hp]

theorem pairAt_is {n m : Nat} (hn : 1 ≤ n) (h1 : 1 ≤ m) (h2 : m ≤ (n - 1) * n / 2) :
    IsPair n (pairAt n m).1 (pairAt n m).2 := by
  have hl : m - 1 < (diag n).length := by rw [diag_length n hn]; omega
  have hg : (diag n)[m - 1]? = some (diag n)[m - 1] := List.getElem?_eq_getElem hl
  unfold pairAt
  rw [hg]
  exact ((mem_diag n hn _).1 (List.getElem_mem hl)).1

theorem half_double (n : Nat) : (n - 1) * n / 2 + (n - 1) * n / 2 = (n - 1) * n := by
  have : (n - 1) * n % 2 = 0 := by
    rcases n with _ | m
    · rfl
    · simp only [Nat.add_sub_cancel]
      rw [Nat.mul_mod]
      rcases Nat.mod_two_eq_zero_or_one m with h | h
      · simp [h]
      · rw [Nat.add_mod, h]
  omega

theorem branchOff_eq (n : Nat) (hn : 1 ≤ n) (right : Bool) :
    branchOff n right = if right then (n - 1) * n / 2 else 0 := by
  unfold branchOff
  rw [show n - 1 + 1 = n by omega]

/-- The parameters of the block of a choice, for given types of the branches. -/
def chooseSub (n s : Nat) (cs : List RTy) (B : Bool → Nat → Nat → RTy) (P : Bool → Nat → RTy) : TVar → RTy
  | .S m =>
    let right := decide ((n - 1) * n / 2 < m)
    let p := pairAt n (if right then m - (n - 1) * n / 2 else m)
    if p.1 = s then B right p.2 s else B right p.1 p.2
  | .R k => P (decide (k % 2 = 0)) (if k ≤ 2 * n - 2 then partner s ((k + 1) / 2) else s)
  | .T => endTy
  | .N => endTy
  | .C k => cs.getD k endTy

theorem chooseSub_S {n s cs B P} {right : Bool} {l c : Nat} (hn : 1 ≤ n) (hp : IsPair n l c) :
    chooseSub n s cs B P (.S (branchOff n right + pairRank n l c)) =
      if l = s then B right c s else B right l c := by
  have h1 := pairRank_pos hp
  have h2 : pairRank n l c ≤ (n - 1) * n / 2 := by
    have := pr_le (n := n) (i := l) (j := c) (by unfold IsPair at hp; unfold IsRole; omega)
      (by unfold IsPair at hp; unfold IsRole; omega) (by unfold IsPair at hp; omega)
    have e : pr n l c = pairRank n l c := by
      unfold pr; rw [Nat.min_eq_left (by unfold IsPair at hp; omega), Nat.max_eq_right (by unfold IsPair at hp; omega)]
    omega
  rw [branchOff_eq n hn]
  cases right
  · have e : decide ((n - 1) * n / 2 < 0 + pairRank n l c) = false := by simp; omega
    simp only [chooseSub, Bool.false_eq_true, if_false, e]
    rw [Nat.zero_add, pairAt_pr hp]
  · have e : decide ((n - 1) * n / 2 < (n - 1) * n / 2 + pairRank n l c) = true := by simp; omega
    simp only [chooseSub, if_true, e]
    rw [Nat.add_sub_cancel_left, pairAt_pr hp]

theorem chooseSub_pr {n s cs B P} {right : Bool} {j q : Nat} (hj : IsRole n j) (hq : IsRole n q) (hne : j ≠ q) :
    chooseSub n s cs B P (.S (branchOff n right + pr n j q)) =
      if min j q = s then B right (max j q) s else B right (min j q) (max j q) :=
  chooseSub_S (by unfold IsRole at hj; omega) (isPair_minmax hj hq hne)

theorem branchF_sub {W : Traits} {n s cs B P} {right : Bool} (hB : BranchOk W n s (B right)) {j q : Nat}
    (hs : IsRole n s) (hj : IsRole n j) (hq : IsRole n q) (hjs : j ≠ s) (hne : j ≠ q) :
    branchF W.dual (chooseSub n s cs B P) n s right j q = B right j q := by
  unfold branchF
  rw [chooseSub_pr hj hq hne]
  unfold chooseDual
  rw [if_neg hjs]
  by_cases e : q = s
  · subst e
    simp only [if_true, Bool.false_eq_true, if_false]
    by_cases h : j < q
    · rw [Nat.min_eq_left (by omega), Nat.max_eq_right (by omega), if_neg hjs]
    · rw [Nat.min_eq_right (by omega), Nat.max_eq_left (by omega), if_pos rfl]
  · rw [if_neg e]
    by_cases h : j < q
    · rw [Nat.min_eq_left (by omega), Nat.max_eq_right (by omega), if_neg hjs,
        if_neg (by simp; omega)]
    · rw [Nat.min_eq_right (by omega), Nat.max_eq_left (by omega), if_neg e, if_pos (by simp; omega)]
      exact (hB.1 q j hq hj e hjs (by omega)).symm

theorem chooseSub_R {n s cs B P} {right : Bool} {j : Nat} (hs : IsRole n s) (hj : IsRole n j) (hjs : j ≠ s) :
    chooseSub n s cs B P (.R (chooseRecvStack s right j)) = P right j := by
  rw [← chooseRecvStack_eq n s j right hj hs hjs]
  have hr := slot_range hs hj (Ne.symm hjs)
  have hp := partner_slot hj (Ne.symm hjs)
  unfold recvStk
  cases right
  · simp only [chooseSub, Bool.false_eq_true, if_false]
    have e1 : decide ((2 * (slotOf s j - 1) + 1) % 2 = 0) = false := by simp
    rw [e1, if_pos (by omega), show (2 * (slotOf s j - 1) + 1 + 1) / 2 = slotOf s j by omega, hp]
  · simp only [chooseSub, if_true]
    have e1 : decide ((2 * (slotOf s j - 1) + 2) % 2 = 0) = true := by simp
    rw [e1, if_pos (by omega), show (2 * (slotOf s j - 1) + 2 + 1) / 2 = slotOf s j by omega, hp]

theorem chooseSub_own {n s cs B P} {right : Bool} (hs : IsRole n s) :
    chooseSub n s cs B P (.R (if right then 2 * n else 2 * n - 1)) = P right s := by
  have hn : 1 ≤ n := by unfold IsRole at hs; omega
  cases right
  · simp only [chooseSub, Bool.false_eq_true, if_false]
    have e1 : decide ((2 * n - 1) % 2 = 0) = false := by simp; omega
    rw [e1, if_neg (by omega)]
  · simp only [chooseSub, if_true]
    have e1 : decide ((2 * n) % 2 = 0) = true := by simp
    rw [e1, if_neg (by omega)]

theorem choose_params (timed M roles s) : (choosePat timed M roles s).params =
    sessionParams ((roles.length - 1) * roles.length) ++ (rangeIncl 1 (2 * roles.length)).map .R ++ constParams timed := rfl

/-- Bounds of the parameters of a choice. -/
theorem chooseSub_bounds {W : Traits} {timed M roles s cs B P} (hs : IsRole roles.length s)
    (hB : ∀ right, BranchOk W roles.length s (B right)) (hP : ∀ right j, IsRole roles.length j → W.role (P right j)) :
    ∀ v ∈ (choosePat timed M roles s).params, W.holds v (chooseSub roles.length s cs B P v) := by
  have hn : 1 ≤ roles.length := by unfold IsRole at hs; omega
  rw [choose_params, bounds_iff]
  refine ⟨?_, ?_⟩
  · intro k h1 h2
    have key : ∀ (right : Bool) m, 1 ≤ m → m ≤ (roles.length - 1) * roles.length / 2 → k = branchOff roles.length right + m →
        W.session (chooseSub roles.length s cs B P (.S k)) := by
      intro right m hm1 hm2 hk
      have hp := pairAt_is hn hm1 hm2
      obtain ⟨t, ht⟩ : ∃ t, (diag roles.length)[m - 1]? = some t := by
        have hl : m - 1 < (diag roles.length).length := by rw [diag_length _ hn]; omega
        exact ⟨_, List.getElem?_eq_getElem hl⟩
      have hi := diag_index _ hn _ _ ht
      have hmem := (mem_diag _ hn t).1 (List.mem_of_getElem? ht)
      have hm : m = pairRank roles.length t.1 t.2.1 := by rw [← hmem.2]; omega
      rw [hk, hm, chooseSub_S hn hmem.1]
      have hpr := hmem.1
      unfold IsPair at hpr
      by_cases e : t.1 = s
      · rw [if_pos e]
        exact (hB right).2.2 _ (by unfold IsRole; omega) (by omega)
      · rw [if_neg e]
        by_cases e2 : t.2.1 = s
        · rw [e2]
          exact (hB right).2.2 _ (by unfold IsRole; omega) e
        · exact (hB right).2.1 _ _ (by unfold IsRole; omega) (by unfold IsRole; omega) e e2 (by omega)
    have hh := half_double roles.length
    by_cases e : k ≤ (roles.length - 1) * roles.length / 2
    · exact key false k h1 e (by rw [branchOff_eq _ hn]; simp)
    · exact key true (k - (roles.length - 1) * roles.length / 2) (by omega) (by omega)
        (by rw [branchOff_eq _ hn]; simp only [if_true]; omega)
  · intro v hv
    rw [rangeIncl_one] at hv
    simp only [List.mem_map, mem_range'] at hv
    obtain ⟨k, hk, rfl⟩ := hv
    simp only [Traits.holds, chooseSub]
    apply hP
    split
    · exact (partner_role hs (by omega) (by omega)).1
    · exact hs

theorem chooseSub_self {W : Traits} {timed M roles s cs B P} (hs : IsRole roles.length s) (hcs : cs.length = 6)
    (hB : ∀ right, BranchOk W roles.length s (B right)) :
    inst W.dual (chooseSub roles.length s cs B P) (choosePat timed M roles s).self = chooseTy timed M roles s cs B P := by
  rw [choosePat_self _ _ _ _ _ _ hs, constVals_getD cs hcs _ (fun _ => rfl)]
  have e1 := chooseSub_own (cs := cs) (B := B) (P := P) (right := false) hs
  have e2 := chooseSub_own (cs := cs) (B := B) (P := P) (right := true) hs
  simp only [Bool.false_eq_true, if_false, if_true] at e1 e2
  rw [e1, e2]
  unfold chooseTy
  apply meshTy_congr _ hs
  intro q hq hqs
  have h : ∀ right : Bool, meshTy M roles q (branchF W.dual (chooseSub roles.length s cs B P) roles.length s right q)
      (chooseSub roles.length s cs B P (.R (chooseRecvStack s right q))) = meshTy M roles q (B right q) (P right q) := by
    intro right
    rw [chooseSub_R hs hq hqs]
    apply meshTy_congr _ hq
    intro r hr hrq
    exact branchF_sub (hB right) hs hq hr hqs (Ne.symm hrq)
  rw [h false, h true]

/-- A choice exists exactly on the types of the form `chooseTy`. -/
theorem offers_choose {W timed M roles t next} (right : Bool) :
    Offers W timed M roles (if right then .chooseRight else .chooseLeft) t next ↔
    ∃ s cs B P, IsRole roles.length s ∧ cs.length = 6 ∧ (∀ right, BranchOk W roles.length s (B right)) ∧
      (∀ right j, IsRole roles.length j → W.role (P right j)) ∧ t = chooseTy timed M roles s cs B P ∧
      next = [meshTy M roles s (fun q => W.dual (B right q s)) (P right s)] := by
  constructor
  · rintro ⟨b, hb, ps, hm, σ, hσ, rfl, rfl⟩
    rcases hb with ⟨i, j, hi, hj, hij, rfl | rfl | rfl | rfl⟩ | ⟨s, hs, rfl⟩ | rfl | rfl
    · cases right <;> simp [sendBlock] at hm
    · cases right <;> simp [recvBlock] at hm
    · cases right <;> simp [recvFromAllBlock] at hm
    · cases right <;> simp [offerBlock] at hm
    · have hn : 1 ≤ roles.length := by unfold IsRole at hs; omega
      rw [choose_params, bounds_iff] at hσ
      have hS : ∀ (right : Bool) j q, IsRole roles.length j → IsRole roles.length q → j ≠ q →
          W.session (σ (.S (branchOff roles.length right + pr roles.length j q))) := by
        intro right j q hj hq hne
        have h1 := pr_pos hj hq hne
        have h2 := pr_le hj hq hne
        have hh := half_double roles.length
        have h3 := branchOff_eq _ hn right
        apply hσ.1
        · omega
        · rw [h3]; cases right <;> simp <;> omega
      have hR : ∀ k, 1 ≤ k → k ≤ 2 * roles.length → W.role (σ (.R k)) := by
        intro k h1 h2
        apply hσ.2 (.R k)
        rw [rangeIncl_one]
        simp only [List.mem_map, mem_range']
        exact ⟨k, by omega, rfl⟩
      have hB : ∀ right, BranchOk W roles.length s (branchF W.dual σ roles.length s right) := by
        intro right
        refine ⟨?_, ?_, ?_⟩
        · intro j q hj hq hjs hqs hlt
          have e1 : chooseDual s q j = true := by simp [chooseDual, hqs, hjs, hlt]
          have e2 : chooseDual s j q = false := by simp [chooseDual, hqs, hjs]; omega
          unfold branchF
          rw [e1, e2, pr_comm]
          simp
        · intro j q hj hq hjs hqs hlt
          have e2 : chooseDual s j q = false := by simp [chooseDual, hqs, hjs]; omega
          unfold branchF
          rw [e2]
          simpa using hS right j q hj hq (by omega)
        · intro j hj hjs
          have e2 : chooseDual s j s = false := by simp [chooseDual, hjs]
          unfold branchF
          rw [e2]
          simpa using hS right j s hj hs hjs
      let P : Bool → Nat → RTy := fun r j => if j = s then σ (.R (if r then 2 * roles.length else 2 * roles.length - 1))
        else σ (.R (chooseRecvStack s r j))
      refine ⟨s, constVals σ, branchF W.dual σ roles.length s, P, hs, constVals_length σ, hB, ?_, ?_, ?_⟩
      · intro r j hj
        by_cases e : j = s
        · simp only [P, e, if_true]
          apply hR
          · cases r <;> simp <;> omega
          · cases r <;> simp
        · simp only [P, e, if_false]
          rw [← chooseRecvStack_eq _ s j r hj hs e]
          have := slot_range hs hj (Ne.symm e)
          apply hR
          · unfold recvStk; cases r <;> simp
          · unfold recvStk; cases r <;> simp <;> omega
      · rw [choosePat_self _ _ _ _ _ _ hs]
        unfold chooseTy
        simp only [P, if_true, Bool.false_eq_true, if_false]
        apply meshTy_congr _ hs
        intro q hq hqs
        simp only [hqs, if_false]
      · have hps : ps = [meshP M ((List.range' 1 (roles.length - 1)).map fun k =>
            tyP ⟨branchOff roles.length right + pr roles.length s (partner s k), true⟩)
            (.var (.R (if right then 2 * roles.length else 2 * roles.length - 1)))
            (.app (.here (nameId (roleAt roles s))) [])] := by
          cases right <;> simpa [choosePat] using hm
        subst hps
        simp only [List.map_cons, List.map_nil, choose_result, P, if_true]
        congr 1
        apply meshTy_congr _ hs
        intro q hq hqs
        have e2 : chooseDual s q s = false := by simp [chooseDual, hqs]
        unfold branchF
        rw [e2, pr_comm]
        simp
    · cases right <;> simp [closeBlock] at hm
    · cases right <;> simp [cancelBlock] at hm
  · rintro ⟨s, cs, B, P, hs, hcs, hB, hP, rfl, rfl⟩
    refine ⟨_, .inr (.inl ⟨s, hs, rfl⟩), [meshP M ((List.range' 1 (roles.length - 1)).map fun k =>
            tyP ⟨branchOff roles.length right + pr roles.length s (partner s k), true⟩)
            (.var (.R (if right then 2 * roles.length else 2 * roles.length - 1)))
            (.app (.here (nameId (roleAt roles s))) [])], by cases right <;> simp [choosePat],
      chooseSub roles.length s cs B P, chooseSub_bounds hs hB hP, chooseSub_self hs hcs hB, ?_⟩
    simp only [List.map_cons, List.map_nil, choose_result]
    rw [chooseSub_own hs]
    congr 1
    apply meshTy_congr _ hs
    intro q hq hqs
    have := branchF_sub (cs := cs) (P := P) (hB right) hs hq hs hqs hqs
    unfold branchF at this
    have e2 : chooseDual s q s = false := by simp [chooseDual, hqs]
    rw [e2, if_neg (by simp)] at this
    rw [pr_comm, this]

end Verif.Baking
