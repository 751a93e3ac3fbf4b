import Verif.Proof.Gen
/-! Wiring proofs for forks and choices. -/
namespace Verif.Gen
open Verif.Maths Verif.Spec

/-- Rank of the unordered pair of two roles. -/
def pr (n i j : Nat) : Nat := pairRank n (min i j) (max i j)

theorem pr_comm (n i j : Nat) : pr n i j = pr n j i := by
  unfold pr; rw [Nat.min_comm, Nat.max_comm]

theorem isPair_minmax {n i j : Nat} (hi : IsRole n i) (hj : IsRole n j) (h : i ≠ j) :
    IsPair n (min i j) (max i j) := by
  unfold IsRole at hi hj; unfold IsPair; omega

theorem pairRank_inj {n l c l' c' : Nat} (h : IsPair n l c) (h' : IsPair n l' c')
    (e : pairRank n l c = pairRank n l' c') : l = l' ∧ c = c' := by
  have hn : 1 ≤ n := by unfold IsPair at h; omega
  have h1 := diag_lookup n hn l c h
  have h2 := diag_lookup n hn l' c' h'
  rw [e, h2] at h1
  simp only [Option.some.injEq, Prod.mk.injEq] at h1
  exact ⟨h1.1.symm, h1.2.1.symm⟩

theorem pr_inj {n i j i' j' : Nat} (hi : IsRole n i) (hj : IsRole n j) (h : i ≠ j)
    (hi' : IsRole n i') (hj' : IsRole n j') (h' : i' ≠ j') (e : pr n i j = pr n i' j') :
    (i = i' ∧ j = j') ∨ (i = j' ∧ j = i') := by
  have := pairRank_inj (isPair_minmax hi hj h) (isPair_minmax hi' hj' h') e
  omega

theorem pairRank_pos {n l c : Nat} (h : IsPair n l c) : 1 ≤ pairRank n l c := by
  unfold IsPair at h; unfold pairRank; omega

theorem pr_pos {n i j : Nat} (hi : IsRole n i) (hj : IsRole n j) (h : i ≠ j) : 1 ≤ pr n i j :=
  pairRank_pos (isPair_minmax hi hj h)

theorem partner_role {n i k : Nat} (hi : IsRole n i) (hk1 : 1 ≤ k) (hk : k ≤ n - 1) :
    IsRole n (partner i k) ∧ partner i k ≠ i := by
  unfold IsRole at *; unfold partner; split <;> omega

theorem slot_partner {i k : Nat} (hk : 1 ≤ k) : slotOf i (partner i k) = k := by
  unfold slotOf partner; (repeat' split) <;> omega

theorem partner_slot {n i j : Nat} (hj : IsRole n j) (h : i ≠ j) : partner i (slotOf i j) = j := by
  unfold IsRole at hj; unfold slotOf partner; (repeat' split) <;> omega

theorem slot_range {n i j : Nat} (hi : IsRole n i) (hj : IsRole n j) (h : i ≠ j) :
    1 ≤ slotOf i j ∧ slotOf i j ≤ n - 1 := by
  unfold IsRole at *; unfold slotOf; split <;> omega

theorem slotOf_inj {i j j' : Nat} (h : i ≠ j) (h' : i ≠ j') (e : slotOf i j = slotOf i j') : j = j' := by
  unfold slotOf at e; split at e <;> split at e <;> omega

theorem partner_inj {i k k' : Nat} (e : partner i k = partner i k') : k = k' := by
  unfold partner at e; split at e <;> split at e <;> omega

/-- The fields every role's mesh should have. -/
def idealFields (n off i : Nat) : List (Nat × Name) :=
  (List.range' 1 (n - 1)).map fun k => (k, (off + i, off + partner i k))

theorem mem_range' {a m x : Nat} : x ∈ List.range' a m ↔ a ≤ x ∧ x < a + m := by
  simp [List.mem_range'_1]

theorem idealFields_nodup (n off i : Nat) : ((idealFields n off i).map Prod.snd).Nodup := by
  unfold idealFields
  rw [List.map_map, List.nodup_iff_pairwise_ne, List.pairwise_map]
  refine List.Pairwise.imp ?_ (List.nodup_iff_pairwise_ne.1 (List.nodup_range' (s := 1) (n := n - 1) (step := 1)))
  intro a b hab e
  simp only [Function.comp, Prod.mk.injEq] at e
  exact hab (partner_inj (by omega : partner i a = partner i b))

theorem mem_idealFields {n off i : Nat} {f : Nat × Name} :
    f ∈ idealFields n off i ↔ 1 ≤ f.1 ∧ f.1 ≤ n - 1 ∧ f.2 = (off + i, off + partner i f.1) := by
  unfold idealFields
  simp only [List.mem_map, mem_range']
  constructor
  · rintro ⟨k, hk, rfl⟩; exact ⟨hk.1, by simp only; omega, rfl⟩
  · rintro ⟨h1, h2, h3⟩; exact ⟨f.1, ⟨h1, by omega⟩, by rw [← h3]⟩

/-- The mesh of role `i` when endpoint names denote `E`. -/
def idealMesh (n off : Nat) (E : Name → EP) (i r : Nat) : MeshV :=
  ⟨(idealFields n off i).map fun f => (f.1, E f.2), r⟩

theorem lookup_map_range (g : Nat → EP) (m a k : Nat) :
    ((List.range' a m).map fun x => (x, g x)).lookup k = if a ≤ k ∧ k < a + m then some (g k) else none := by
  induction m generalizing a with
  | zero => rw [if_neg (by omega)]; rfl
  | succ m ih =>
    rw [List.range'_succ, List.map_cons, List.lookup_cons]
    by_cases h : k = a
    · subst h; simp
    · have hb : (k == a) = false := by simp [h]
      rw [hb, ih]
      by_cases h2 : a + 1 ≤ k ∧ k < a + 1 + m
      · rw [if_pos h2, if_pos (by omega)]
      · rw [if_neg h2, if_neg (by omega)]

theorem idealMesh_slot (n off : Nat) (E : Name → EP) (i r k : Nat) :
    (idealMesh n off E i r).slot k =
      if 1 ≤ k ∧ k ≤ n - 1 then some (E (off + i, off + partner i k)) else none := by
  unfold idealMesh MeshV.slot idealFields
  rw [List.map_map]
  have := lookup_map_range (fun k => E (off + i, off + partner i k)) (n - 1) 1 k
  simp only [Function.comp_def]
  rw [this]
  by_cases h : 1 ≤ k ∧ k < 1 + (n - 1)
  · rw [if_pos h, if_pos (by omega)]
  · rw [if_neg h, if_neg (by omega)]

/-- Meshes built from consistent endpoints are wired. -/
theorem wired_ideal_any (n off base fresh : Nat) (E : Name → EP) (r : Nat → Nat) (c : Nat → Nat → Nat)
    (hcp : ∀ i j, IsRole n i → IsRole n j → i ≠ j → 1 ≤ c i j) (hcc : ∀ i j, c i j = c j i)
    (hci : ∀ i j i' j', IsRole n i → IsRole n j → i ≠ j → IsRole n i' → IsRole n j' → i' ≠ j' → c i j = c i' j' →
      (i = i' ∧ j = j') ∨ (i = j' ∧ j = i'))
    (hb : fresh ≤ base)
    (hE : ∀ i j, IsRole n i → IsRole n j → i ≠ j → (E (off + i, off + j)).chan + 1 = base + c i j ∧
      (E (off + i, off + j)).sess = (E (off + j, off + i)).sess ∧ (E (off + i, off + j)).dual ≠ (E (off + j, off + i)).dual) :
    Wired n fresh (fun i => idealMesh n off E i (r i)) := by
  have hslot : ∀ i j, IsRole n i → IsRole n j → i ≠ j →
      (idealMesh n off E i (r i)).slot (slotOf i j) = some (E (off + i, off + j)) := by
    intro i j hi hj hij
    rw [idealMesh_slot, if_pos (slot_range hi hj hij), partner_slot hj hij]
  refine ⟨?_, ?_, ?_, ?_⟩
  · intro i _
    simp only [idealMesh, idealFields, List.map_map]
    have : (Prod.fst ∘ (fun f : Nat × Name => (f.1, E f.2)) ∘ fun k => (k, (off + i, off + partner i k))) = id := by
      funext k; rfl
    rw [this, List.map_id]
  · intro i j hi hj hij
    refine ⟨_, _, hslot i j hi hj hij, hslot j i hj hi (Ne.symm hij), ?_⟩
    have h1 := hE i j hi hj hij
    have h2 := hE j i hj hi (Ne.symm hij)
    refine ⟨?_, ?_, h1.2.2⟩
    · have := hcc i j; omega
    · exact h1.2.1
  · intro i k e hi hk
    rw [idealMesh_slot] at hk
    by_cases h : 1 ≤ k ∧ k ≤ n - 1
    · rw [if_pos h] at hk
      injection hk with hk
      have hp := partner_role hi h.1 h.2
      have := (hE i (partner i k) hi hp.1 (Ne.symm hp.2)).1
      have hpos := hcp _ _ hi hp.1 (Ne.symm hp.2)
      rw [← hk]; omega
    · rw [if_neg h] at hk; cases hk
  · intro i j i' j' e e' hi hj hij hi' hj' hij' he he' hc
    rw [hslot i j hi hj hij] at he
    rw [hslot i' j' hi' hj' hij'] at he'
    injection he with he; injection he' with he'
    subst he; subst he'
    have e1 := (hE i j hi hj hij).1
    have e2 := (hE i' j' hi' hj' hij').1
    exact hci _ _ _ _ hi hj hij hi' hj' hij' (by omega)

theorem wired_ideal (n off base fresh : Nat) (E : Name → EP) (r : Nat → Nat)
    (hb : fresh ≤ base)
    (hE : ∀ i j, IsRole n i → IsRole n j → i ≠ j → (E (off + i, off + j)).chan + 1 = base + pr n i j ∧
      (E (off + i, off + j)).sess = (E (off + j, off + i)).sess ∧ (E (off + i, off + j)).dual ≠ (E (off + j, off + i)).dual) :
    Wired n fresh (fun i => idealMesh n off E i (r i)) :=
  wired_ideal_any n off base fresh E r (pr n) (fun _ _ hi hj h => pr_pos hi hj h) (pr_comm n)
    (fun _ _ _ _ hi hj hij hi' hj' hij' h => pr_inj hi hj hij hi' hj' hij' h) hb hE

/-! ### The channel-creation phase -/

/-- `(n-1)*n/2` is the number of pairs. -/
theorem diag_length (n : Nat) (h : 1 ≤ n) : (diag n).length = (n - 1) * n / 2 := by
  rw [diag_eq_lex n h, lexL_length, ← diag_count n h]
  have : n - 1 + 1 = n := by omega
  rw [this]

theorem diag_pairwise (n : Nat) (h : 1 ≤ n) : (diag n).Pairwise (fun x y => x.2.2 ≠ y.2.2) := by
  rw [List.pairwise_iff_getElem]
  intro i j hi hj hij e
  have h1 := diag_index n h i _ (List.getElem?_eq_getElem hi)
  have h2 := diag_index n h j _ (List.getElem?_eq_getElem hj)
  omega

theorem rangeIncl_one (m : Nat) : rangeIncl 1 m = List.range' 1 m := by
  unfold rangeIncl; rw [Nat.add_sub_cancel]

theorem forkChannels_eq (n off soff : Nat) (h : 1 ≤ n) :
    forkChannels n off soff = some ((diag n).map fun t =>
      .newChan (off + t.1, off + t.2.1) (off + t.2.1, off + t.1) (soff + t.2.2)) := by
  unfold forkChannels
  rw [rangeIncl_one, ← diag_length n h]
  apply mapM_range_eq
  intro i hi
  have hl : getTupleDiag (diagAndMatrixWOffset n).2 (1 + i) = some (diag n)[i] := by
    unfold getTupleDiag diagAndMatrixWOffset
    rw [if_neg (by omega)]
    simp only [diagWOffset_eq n h]
    have : 1 + i - 1 = i := by omega
    rw [this, List.getElem?_append_left hi, List.getElem?_eq_getElem hi]
  rw [hl]
  have h2 := diag_index n h i _ (List.getElem?_eq_getElem hi)
  generalize (diag n)[i] = t at *
  obtain ⟨l, c, k⟩ := t
  simp only at h2 ⊢
  rw [h2, Nat.add_comm 1 i]

theorem toAllChannels_eq (n : Nat) (h : 1 ≤ n) :
    toAllChannels n = some ((diag n).map fun t => .newChan (t.1, t.2.1) (t.2.1, t.1) t.2.2) := by
  unfold toAllChannels
  have e : n - 1 + 1 = n := by omega
  rw [rangeIncl_one, e, ← diag_length n h]
  apply mapM_range_eq
  intro i hi
  have hl : getTupleDiag (diag n) (1 + i) = some (diag n)[i] := by
    unfold getTupleDiag
    rw [if_neg (by omega)]
    have : 1 + i - 1 = i := by omega
    rw [this, List.getElem?_eq_getElem hi]
  rw [hl]
  have h2 := diag_index n h i _ (List.getElem?_eq_getElem hi)
  generalize (diag n)[i] = t at *
  obtain ⟨l, c, k⟩ := t
  simp only at h2 ⊢
  rw [h2, Nat.add_comm 1 i]

theorem chooseChannels_eq (n sender : Nat) (right : Bool) (h : 1 ≤ n) :
    chooseChannels n sender right = some ((diag n).map fun t => .newChan
      (if sender ≠ t.1 then (t.1, t.2.1) else (t.2.1, t.1))
      (if sender ≠ t.1 then (t.2.1, t.1) else (t.1, t.2.1))
      (branchOff n right + t.2.2)) := by
  unfold chooseChannels
  rw [rangeIncl_one, ← diag_length n h]
  apply mapM_range_eq
  intro i hi
  have h2 := diag_index n h i _ (List.getElem?_eq_getElem hi)
  have hm : (diag n)[i] ∈ diag n := List.getElem_mem hi
  have hl : getLineColumnFromDiag (diagAndMatrix n).2 (1 + i) = some ((diag n)[i].1, (diag n)[i].2.1) := by
    have := getLineColumn_of_mem (diag n) (diag n)[i] hm (diag_index_inj n h)
    rw [h2, Nat.add_comm] at this
    exact this
  rw [hl]
  generalize (diag n)[i] = t at *
  obtain ⟨l, c, k⟩ := t
  simp only at h2 ⊢
  rw [h2, Nat.add_comm 1 i]

/-- Effect of creating one channel per pair; `A`, `B` are the two orders of the pair. -/
theorem run_diag_chans (n off : Nat) (h : 1 ≤ n) (A B : Triple → Name) (s : Triple → Nat)
    (hAB : ∀ t, (A t = (off + t.1, off + t.2.1) ∧ B t = (off + t.2.1, off + t.1)) ∨
      (B t = (off + t.1, off + t.2.1) ∧ A t = (off + t.2.1, off + t.1))) (st : St) :
    ∃ env', run st ((diag n).map fun t => .newChan (A t) (B t) (s t))
        = some { st with env := env', fresh := st.fresh + (n - 1) * n / 2 } ∧
      (∀ l c, IsPair n l c →
        env' (A (l, c, pairRank n l c)) = some ⟨st.fresh + pairRank n l c - 1, s (l, c, pairRank n l c), false⟩ ∧
        env' (B (l, c, pairRank n l c)) = some ⟨st.fresh + pairRank n l c - 1, s (l, c, pairRank n l c), true⟩) ∧
      (∀ nm, (∀ i j, IsRole n i → IsRole n j → i ≠ j → nm ≠ (off + i, off + j)) → env' nm = st.env nm) := by
  have hlt : ∀ x ∈ diag n, IsPair n x.1 x.2.1 := fun x hx => ((mem_diag n h x).1 hx).1
  obtain ⟨env', h1, h2, h3⟩ := run_newChans A B s (diag n) st
    (by
      intro x hx
      have := hlt x hx
      unfold IsPair at this
      intro e
      rcases hAB x with ⟨a, b⟩ | ⟨a, b⟩
      · rw [a, b] at e; simp only [Prod.mk.injEq] at e; omega
      · rw [a, b] at e; simp only [Prod.mk.injEq] at e; omega)
    (by
      refine List.Pairwise.imp_of_mem ?_ (diag_pairwise n h)
      intro x y hx hy hne
      have hx' := (mem_diag n h x).1 hx
      have hy' := (mem_diag n h y).1 hy
      have hxy : ¬ (x.1 = y.1 ∧ x.2.1 = y.2.1) := by
        rintro ⟨a, b⟩
        apply hne
        rw [hx'.2, hy'.2, a, b]
      have p1 := hx'.1
      have p2 := hy'.1
      unfold IsPair at p1 p2
      refine ⟨?_, ?_, ?_, ?_⟩ <;> intro e <;>
      rcases hAB x with ⟨a, b⟩ | ⟨a, b⟩ <;> rcases hAB y with ⟨a', b'⟩ | ⟨a', b'⟩ <;>
      first
      | (rw [a, a'] at e; simp only [Prod.mk.injEq] at e; omega)
      | (rw [a, b'] at e; simp only [Prod.mk.injEq] at e; omega)
      | (rw [b, a'] at e; simp only [Prod.mk.injEq] at e; omega)
      | (rw [b, b'] at e; simp only [Prod.mk.injEq] at e; omega))
  refine ⟨env', ?_, ?_, ?_⟩
  · rw [h1, diag_length n h]
  · intro l c hp
    have := h2 _ _ (diag_lookup n h l c hp)
    have hpos := pairRank_pos hp
    have e : st.fresh + (pairRank n l c - 1) = st.fresh + pairRank n l c - 1 := by omega
    rw [e] at this
    exact this
  · intro nm hnm
    apply h3
    intro x hx
    have p := hlt x hx
    unfold IsPair at p
    have r1 : IsRole n x.1 := by unfold IsRole; omega
    have r2 : IsRole n x.2.1 := by unfold IsRole; omega
    have n1 := hnm x.1 x.2.1 r1 r2 (by omega)
    have n2 := hnm x.2.1 x.1 r2 r1 (by omega)
    rcases hAB x with ⟨a, b⟩ | ⟨a, b⟩ <;> rw [a, b]
    · exact ⟨n1, n2⟩
    · exact ⟨n2, n1⟩

/-- Endpoint denoted by `channel_{off+i}_{off+j}`. -/
def idealEP (n off soff fresh : Nat) (d : Nat → Nat → Bool) (nm : Name) : EP :=
  ⟨fresh + pr n (nm.1 - off) (nm.2 - off) - 1, soff + pr n (nm.1 - off) (nm.2 - off),
    d (nm.1 - off) (nm.2 - off)⟩

theorem idealEP_at (n off soff fresh : Nat) (d : Nat → Nat → Bool) (i j : Nat) :
    idealEP n off soff fresh d (off + i, off + j) = ⟨fresh + pr n i j - 1, soff + pr n i j, d i j⟩ := by
  unfold idealEP; simp

theorem run_diag_env (n off soff : Nat) (h : 1 ≤ n) (A B : Triple → Name) (d : Nat → Nat → Bool)
    (hAB : ∀ t, IsPair n t.1 t.2.1 →
      (A t = (off + t.1, off + t.2.1) ∧ B t = (off + t.2.1, off + t.1) ∧ d t.1 t.2.1 = false ∧ d t.2.1 t.1 = true) ∨
      (B t = (off + t.1, off + t.2.1) ∧ A t = (off + t.2.1, off + t.1) ∧ d t.1 t.2.1 = true ∧ d t.2.1 t.1 = false))
    (hAB' : ∀ t, (A t = (off + t.1, off + t.2.1) ∧ B t = (off + t.2.1, off + t.1)) ∨
      (B t = (off + t.1, off + t.2.1) ∧ A t = (off + t.2.1, off + t.1)))
    (st : St) :
    ∃ env', run st ((diag n).map fun t => .newChan (A t) (B t) (soff + t.2.2))
        = some { st with env := env', fresh := st.fresh + (n - 1) * n / 2 } ∧
      (∀ i j, IsRole n i → IsRole n j → i ≠ j →
        env' (off + i, off + j) = some (idealEP n off soff st.fresh d (off + i, off + j))) ∧
      (∀ nm, (∀ i j, IsRole n i → IsRole n j → i ≠ j → nm ≠ (off + i, off + j)) → env' nm = st.env nm) := by
  obtain ⟨env', h1, h2, h3⟩ := run_diag_chans n off h A B (fun t => soff + t.2.2) hAB' st
  refine ⟨env', h1, ?_, h3⟩
  intro i j hi hj hij
  rw [idealEP_at]
  by_cases hlt : i < j
  · have hp : IsPair n i j := by unfold IsPair IsRole at *; omega
    have e : pr n i j = pairRank n i j := by unfold pr; congr 1 <;> omega
    have := h2 i j hp
    rw [e]
    rcases hAB (i, j, pairRank n i j) hp with ⟨a, b, c, c'⟩ | ⟨b, a, c, c'⟩ <;> simp only at a b c c'
    · rw [a] at this; rw [this.1, c]
    · rw [b] at this; rw [this.2, c]
  · have hp : IsPair n j i := by unfold IsPair IsRole at *; omega
    have e : pr n i j = pairRank n j i := by unfold pr; congr 1 <;> omega
    have := h2 j i hp
    rw [e]
    rcases hAB (j, i, pairRank n j i) hp with ⟨a, b, c, c'⟩ | ⟨b, a, c, c'⟩ <;> simp only at a b c c'
    · rw [b] at this; rw [this.2, c']
    · rw [a] at this; rw [this.1, c']

theorem wired_idealEP (n off soff fresh fresh' : Nat) (d : Nat → Nat → Bool) (r : Nat → Nat)
    (hf : fresh' ≤ fresh)
    (hd : ∀ i j, IsRole n i → IsRole n j → i ≠ j → d i j ≠ d j i) :
    Wired n fresh' (fun i => idealMesh n off (idealEP n off soff fresh d) i (r i)) := by
  apply wired_ideal n off fresh fresh' _ r hf
  intro i j hi hj hij
  rw [idealEP_at, idealEP_at]
  have hpos := pr_pos hi hj hij
  exact ⟨by simp only; omega, by simp only; rw [pr_comm], hd i j hi hj hij⟩

/-! ### Fork -/

theorem ordPair_fst (i p : Nat) (h : i ≠ p) (off : Nat) :
    (if (ordPair i p).1 = i then (off + (ordPair i p).1, off + (ordPair i p).2)
      else (off + (ordPair i p).2, off + (ordPair i p).1)) = (off + i, off + p) := by
  unfold ordPair
  by_cases hlt : i < p
  · simp [hlt]
  · have : p ≠ i := Ne.symm h
    simp [hlt, this]

theorem forkFields_eq (n off i : Nat) (hi : IsRole n i) : forkFields n off i = some (idealFields n off i) := by
  unfold forkFields idealFields
  apply mapM_some
  intro j hj
  rw [mem_range'] at hj
  unfold IsRole at hi
  rw [getTupleMatrix_diag n i j hi.1 hi.2 hj.1 (by omega)]
  have hp := (partner_role (n := n) (i := i) (k := j) hi hj.1 (by omega)).2
  simp only
  rw [ordPair_fst i _ (Ne.symm hp)]

theorem forkMeshes_eq (n off : Nat) : forkMeshes n off =
    some ((List.range' 1 n).map fun i => .mesh (off + i) (idealFields n off i) (off + i)) := by
  unfold forkMeshes
  rw [rangeIncl_one]
  apply mapM_some
  intro i hi
  rw [mem_range'] at hi
  rw [forkFields_eq n off i (by unfold IsRole; omega)]

theorem nodup_range' (a m : Nat) : (List.range' a m).Pairwise (fun x y => x ≠ y) :=
  List.nodup_iff_pairwise_ne.1 (List.nodup_range')

/-- Which end of the channel of a pair `channel_i_j` is, in a fork. -/
def forkDual (i j : Nat) : Bool := decide (j < i)

theorem forkDual_ne {i j : Nat} (h : i ≠ j) : forkDual i j ≠ forkDual j i := by
  unfold forkDual
  by_cases a : i < j
  · have : ¬ j < i := by omega
    simp [a, this]
  · have : j < i := by omega
    simp [a, this]

theorem run_forkChannels (n off soff : Nat) (h : 1 ≤ n) (st : St) :
    ∃ cs env', forkChannels n off soff = some cs ∧
      run st cs = some { st with env := env', fresh := st.fresh + (n - 1) * n / 2 } ∧
      (∀ i j, IsRole n i → IsRole n j → i ≠ j →
        env' (off + i, off + j) = some (idealEP n off soff st.fresh forkDual (off + i, off + j))) ∧
      (∀ nm, (∀ i j, IsRole n i → IsRole n j → i ≠ j → nm ≠ (off + i, off + j)) → env' nm = st.env nm) := by
  obtain ⟨env', h1, h2, h3⟩ := run_diag_env n off soff h
    (fun t => (off + t.1, off + t.2.1)) (fun t => (off + t.2.1, off + t.1)) forkDual
    (by
      intro t ht; unfold IsPair at ht; left
      refine ⟨rfl, rfl, ?_, ?_⟩ <;> unfold forkDual <;> simp <;> omega)
    (by intro t; left; exact ⟨rfl, rfl⟩) st
  exact ⟨_, env', forkChannels_eq n off soff h, h1, h2, h3⟩

theorem run_newStacks_range (m : Nat) (st : St) :
    ∃ stk', run st ((List.range' 1 m).map fun i => .newStack i i) = some { st with stacks := stk' } ∧
      (∀ i, 1 ≤ i → i ≤ m → stk' i = some i) ∧ (∀ i, ¬ (1 ≤ i ∧ i ≤ m) → stk' i = st.stacks i) := by
  obtain ⟨stk', h1, h2, h3⟩ := run_newStacks (fun i => i) (fun i => i) (List.range' 1 m) st (nodup_range' 1 m)
  refine ⟨stk', h1, ?_, ?_⟩
  · intro i a b; exact h2 i (by rw [mem_range']; omega)
  · intro i hi; exact h3 i (fun x hx => by rw [mem_range'] at hx; omega)

/-- Building the `n` meshes of a fork. -/
theorem run_forkMeshes (n off : Nat) (E : Name → EP) (st : St)
    (hE : ∀ i j, IsRole n i → IsRole n j → i ≠ j → st.env (off + i, off + j) = some (E (off + i, off + j)))
    (hs : ∀ i, IsRole n i → st.stacks (off + i) = some (off + i)) :
    ∃ ms', run st ((List.range' 1 n).map fun i => .mesh (off + i) (idealFields n off i) (off + i)) = some { st with
        env := fun nm => if (∃ x ∈ List.range' 1 n, nm ∈ (idealFields n off x).map Prod.snd) then none else st.env nm,
        stacks := fun k => if (∃ x ∈ List.range' 1 n, k = off + x) then none else st.stacks k,
        meshes := ms' } ∧
      (∀ i, IsRole n i → ms' (off + i) = some (idealMesh n off E i (off + i))) ∧
      (∀ k, (∀ i, IsRole n i → k ≠ off + i) → ms' k = st.meshes k) := by
  obtain ⟨ms', h1, h2, h3⟩ := run_meshes E (fun i => off + i) (fun i => off + i) (fun i => off + i)
    (fun i => off + i) (idealFields n off) (List.range' 1 n) st
    (by
      refine List.Pairwise.imp ?_ (nodup_range' 1 n)
      intro a b hab; exact ⟨by omega, by omega, by omega⟩)
    (fun x _ => idealFields_nodup n off x)
    (by
      intro x hx f hf
      rw [mem_range'] at hx
      rw [mem_idealFields] at hf
      have hx' : IsRole n x := by unfold IsRole; omega
      have hp := partner_role hx' hf.1 hf.2.1
      rw [hf.2.2]
      exact ⟨rfl, hE x _ hx' hp.1 (Ne.symm hp.2)⟩)
    (by intro x hx; rw [mem_range'] at hx; exact hs x (by unfold IsRole; omega))
  refine ⟨ms', h1, ?_, ?_⟩
  · intro i hi
    have := h2 i (by rw [mem_range']; unfold IsRole at hi; omega)
    rw [this]; rfl
  · intro k hk
    apply h3
    intro x hx
    rw [mem_range'] at hx
    exact hk x (by unfold IsRole; omega)

theorem mem_idealNames {n off : Nat} {nm : Name} :
    (∃ x ∈ List.range' 1 n, nm ∈ (idealFields n off x).map Prod.snd) ↔
      ∃ i j, IsRole n i ∧ IsRole n j ∧ i ≠ j ∧ nm = (off + i, off + j) := by
  constructor
  · rintro ⟨x, hx, hm⟩
    rw [mem_range'] at hx
    obtain ⟨f, hf, rfl⟩ := List.mem_map.1 hm
    rw [mem_idealFields] at hf
    have hx' : IsRole n x := by unfold IsRole; omega
    have hp := partner_role hx' hf.1 hf.2.1
    exact ⟨x, partner x f.1, hx', hp.1, Ne.symm hp.2, hf.2.2⟩
  · rintro ⟨i, j, hi, hj, hij, rfl⟩
    refine ⟨i, by rw [mem_range']; unfold IsRole at hi; omega, ?_⟩
    have := slot_range hi hj hij
    exact List.mem_map.2 ⟨(slotOf i j, (off + i, off + j)),
      mem_idealFields.2 ⟨this.1, this.2, by simp only; rw [partner_slot hj hij]⟩, rfl⟩

/-- The generated `fork_mpst` runs, wires the meshes, gives mesh `i` to thread `i`. -/
theorem fork_run (n fresh : Nat) (h : 1 ≤ n) :
    ∃ body st, forkBody n = some body ∧ run (St.init fresh) body = some st ∧
      st.spawned = (List.range' 1 n).map (fun i => (i, [idealMesh n 0 (idealEP n 0 0 fresh forkDual) i i])) ∧
      (∀ nm, st.env nm = none) ∧ (∀ k, st.meshes k = none) ∧ st.fresh = fresh + (n - 1) * n / 2 := by
  obtain ⟨cs, env1, hcs, hr1, henv, hother⟩ := run_forkChannels n 0 0 h (St.init fresh)
  obtain ⟨stk2, hr2, hs2, hs2'⟩ := run_newStacks_range n
    { (St.init fresh) with env := env1, fresh := fresh + (n - 1) * n / 2 }
  obtain ⟨ms3, hr3, hm3, hm3'⟩ := run_forkMeshes n 0 (idealEP n 0 0 fresh forkDual)
    { (St.init fresh) with env := env1, fresh := fresh + (n - 1) * n / 2, stacks := stk2 }
    (fun i j hi hj hij => henv i j hi hj hij)
    (fun i hi => by
      have := hs2 i hi.1 hi.2
      simpa using this)
  have hr4 := run_spawns (fun i => idealMesh n 0 (idealEP n 0 0 fresh forkDual) i i) (fun i => i)
    (List.range' 1 n)
    { (St.init fresh) with
        env := fun nm => if (∃ x ∈ List.range' 1 n, nm ∈ (idealFields n 0 x).map Prod.snd) then none else env1 nm,
        fresh := fresh + (n - 1) * n / 2,
        stacks := fun k => if (∃ x ∈ List.range' 1 n, k = 0 + x) then none else stk2 k,
        meshes := ms3 }
    (nodup_range' 1 n)
    (by
      intro j hj
      rw [mem_range'] at hj
      have := hm3 j (by unfold IsRole; omega)
      simpa using this)
  have hrun := (run_append_some hr1).trans ((run_append_some hr2).trans ((run_append_some hr3).trans hr4))
  refine ⟨_, _, ?_, hrun, rfl, ?_, ?_, rfl⟩
  · unfold forkBody; rw [hcs, forkMeshes_eq]
    simp only [forkStacks, forkThreads, rangeIncl_one, List.append_assoc]
  · intro nm
    simp only
    split
    · rfl
    · rename_i hne
      rw [mem_idealNames] at hne
      rw [hother nm (fun i j hi hj hij e => hne ⟨i, j, hi, hj, hij, e⟩)]
      rfl
  · intro k
    simp only
    split
    · rfl
    · rename_i hne
      rw [hm3' k (fun i hi e => hne ⟨i, by rw [mem_range']; unfold IsRole at hi; omega, by simpa using e⟩)]
      rfl

end Verif.Gen
