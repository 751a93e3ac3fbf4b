import Mathlib.Data.List.Nodup
import Mathlib.Data.List.Perm.Lattice
import Verif.Proof.RuntimeStep
/-!
# New meshes: what the emitted `S::new()` statements leave on the channels
-/
namespace Verif.Runtime
open Verif.Mesh (Sys Name Sess Stack Label upd Part Global project S others mem_others)
open Verif.Types (STy)
open Verif.Heap hiding upd
open Verif.Spec Verif.SendRecv
open Verif.Gen (slot_partner partner_slot slot_range partner_role slotOf_inj partner_inj pr pr_pos pr_comm isPair_minmax
  idealMesh idealEP idealEP_at idealMesh_slot forkDual toAll_run fork_run)
open Verif.Maths

variable {n : Nat} {D : Global} {root : Name} {ls : List Label} {dead : Nat → Bool} {h : Heap.St Pay} {pos : Nat → Pos} {s : S} {id : Ids} {T : Nat}

/-- The statements other than `S::new()`. -/
def NoNew (ss : List Gen.Stmt) : Prop := ∀ x ∈ ss, ∀ a b c, x ≠ .newChan a b c

theorem news_rest (Y : Sys) (N : Name) : ∀ (ss : List Gen.Stmt) (h : Heap.St Pay), NoNew ss → news Y N h ss = (h, []) := by
  intro ss
  induction ss with
  | nil => intro h _; rfl
  | cons x ss ih =>
    intro h hn
    have h1 := ih h (fun y hy => hn y (List.mem_cons_of_mem _ hy))
    have h2 := hn x List.mem_cons_self
    cases x <;> first | (exact absurd rfl (h2 _ _ _)) | (simp only [news]; exact h1)

/-- What `news` does. -/
structure Made (Y : Sys) (N : Name) (ts : List Triple) (h h' : Heap.St Pay) (l : List (Entry Pay × Entry Pay)) : Prop where
  reach : Reach (env Y) h'
  trace : h'.trace = h.trace
  nsid : h'.nsid = h.nsid + ts.length
  len : l.length = ts.length
  at' : ∀ (i : Nat) (t : Triple), ts[i]? = some t → ∃ a b, l[i]? = some (⟨a, enc t.1 t.2.1 ((Y.types N t.1).sess t.2.1)⟩,
    ⟨b, (enc t.1 t.2.1 ((Y.types N t.1).sess t.2.1)).dual⟩) ∧
    a.sid = h.nsid + i ∧ a.side = true ∧ b.sid = h.nsid + i ∧ b.side = false
  pool : h'.pool.Perm (l.flatMap (fun p => [p.1, p.2]) ++ h.pool)
  ends : ∀ x t r, Ends (env Y) h' x t r →
    (Ends (env Y) h x t r ∧ (h'.chan t).buf = (h.chan t).buf ∧ (h'.chan r).buf = (h.chan r).buf) ∨
    (h.nsid ≤ x.ep.sid ∧ (h'.chan t).buf = none ∧ (h'.chan r).buf = none)

theorem news_made (Y : Sys) (N : Name) (f : Triple → Nat) (rest : List Gen.Stmt) (hrest : NoNew rest) :
    ∀ (ts : List Triple) (h : Heap.St Pay), Reach (env Y) h →
    ∃ h' l, news Y N h (ts.map (fun t => .newChan (t.1, t.2.1) (t.2.1, t.1) (f t)) ++ rest) = (h', l) ∧
      Made Y N ts h h' l := by
  intro ts
  induction ts with
  | nil =>
    intro h hr
    refine ⟨h, [], ?_, hr, rfl, rfl, rfl, by intro i t hi; simp at hi, by simp, fun x t r hx => .inl ⟨hx, rfl, rfl⟩⟩
    simpa using news_rest Y N rest h hrest
  | cons t ts ih =>
    intro h hr
    obtain ⟨h1, a, b, hs, hp, a1, a2, b1, b2, htr, hns⟩ :=
      new_rest (env Y) h (enc t.1 t.2.1 ((Y.types N t.1).sess t.2.1))
    have hr1 : Reach (env Y) h1 := Reach.step hr hs
    obtain ⟨h', l, e, m⟩ := ih h1 hr1
    refine ⟨h', (⟨a, enc t.1 t.2.1 ((Y.types N t.1).sess t.2.1)⟩,
      ⟨b, (enc t.1 t.2.1 ((Y.types N t.1).sess t.2.1)).dual⟩) :: l, ?_, m.reach, m.trace.trans htr, ?_, ?_, ?_, ?_, ?_⟩
    · simp only [List.map_cons, List.cons_append, news]
      simp only [hs, hp, e]
    · rw [m.nsid, hns, List.length_cons]; omega
    · rw [List.length_cons, List.length_cons, m.len]
    · intro i u hi
      cases i with
      | zero =>
        simp only [List.getElem?_cons_zero, Option.some.injEq] at hi
        subst hi
        exact ⟨a, b, rfl, by simpa using a1, a2, by simpa using b1, b2⟩
      | succ i =>
        simp only [List.getElem?_cons_succ] at hi
        obtain ⟨a', b', h2, h3, h4, h5, h6⟩ := m.at' i u hi
        exact ⟨a', b', by simpa using h2, by rw [h3, hns]; omega, h4, by rw [h5, hns]; omega, h6⟩
    · refine m.pool.trans ?_
      rw [hp]
      simp only [List.flatMap_cons, List.cons_append, List.nil_append]
      refine (List.perm_middle).trans (List.Perm.cons _ ?_)
      exact List.perm_middle
    · intro x c d hx
      rcases m.ends x c d hx with ⟨e1, e2, e3⟩ | ⟨e1, e2⟩
      · rcases new_ends (reach_inv hr) hs e1 with ⟨f1, f2, f3⟩ | ⟨f1, f2, f3⟩
        · exact .inl ⟨f1, e2.trans f2, e3.trans f3⟩
        · exact .inr ⟨by omega, e2.trans f2, e3.trans f3⟩
      · exact .inr ⟨by omega, e2⟩

/-! ## Every endpoint is held once -/

theorem count_poolToks (e : Entry Pay) : ∀ p : List (Entry Pay), p.count e ≤ (poolToks p).count (.idn e.ep.sid e.ep.side) := by
  intro p
  induction p with
  | nil => simp
  | cons x p ih =>
    rw [poolToks_cons, List.count_append, List.count_cons]
    by_cases hx : x = e
    · subst hx
      have := count_idn x.ep
      simp; omega
    · have : (x == e) = false := by simpa using hx
      rw [this]; simp; omega

theorem pool_nodup {G : Env Pay} {st : Heap.St Pay} (inv : Heap.Inv G st) : st.pool.Nodup := by
  rw [List.nodup_iff_count_le_one]
  intro e
  have h1 := count_poolToks e st.pool
  have h2 := inv.cid e.ep.sid e.ep.side
  unfold Heap.cnt at h2
  omega

/-! ## The meshes -/

/-- The fields of the mesh of role `i`. -/
def row (n : Nat) (F : Nat → Nat → Entry Pay) (i : Nat) : List (Entry Pay) :=
  (List.range' 1 (n - 1)).map fun k => F i (partner i k)

/-- New endpoints for every ordered pair of roles. -/
structure Ends2 (n : Nat) (D : Global) (N : Name) (h h' : Heap.St Pay) (l : List (Entry Pay × Entry Pay))
    (F : Nat → Nat → Entry Pay) : Prop where
  res : ∀ i j, IsRole n i → IsRole n j → i ≠ j → resolve l (idealEP n 0 0 0 forkDual (i, j)) = some (F i j)
  ids : ∀ i j, IsRole n i → IsRole n j → i ≠ j → (F i j).ep.sid = h.nsid + pr n i j - 1 ∧ (F i j).ep.side = side i j ∧
    (F i j).ty = enc i j (((project n D).types N i).sess j)
  pool : h'.pool.Perm ((List.range' 1 n).flatMap (row n F) ++ h.pool)

theorem pr_inj {n i j i' j' : Nat} (hi : IsRole n i) (hj : IsRole n j) (hne : i ≠ j) (hi' : IsRole n i') (hj' : IsRole n j')
    (hne' : i' ≠ j') (e : pr n i j = pr n i' j') : (i = i' ∧ j = j') ∨ (i = j' ∧ j = i') := by
  have := Gen.pairRank_inj (isPair_minmax hi hj hne) (isPair_minmax hi' hj' hne') e
  omega

theorem ends2 (hn : 1 ≤ n) {N : Name} {h h' : Heap.St Pay} {l} (m : Made (project n D) N (diag n) h h' l) :
    ∃ F, Ends2 n D N h h' l F := by
  have key : ∀ i j, IsRole n i → IsRole n j → i ≠ j → ∃ e, resolve l (idealEP n 0 0 0 forkDual (i, j)) = some e ∧
      e.ep.sid = h.nsid + pr n i j - 1 ∧ e.ep.side = side i j ∧ e.ty = enc i j (((project n D).types N i).sess j) := by
    intro i j hi hj hne
    have hp := isPair_minmax hi hj hne
    have hl := diag_lookup n hn _ _ hp
    obtain ⟨a, b, h1, h2, h3, h4, h5⟩ := m.at' _ _ hl
    have hpos := pr_pos hi hj hne
    have hep : idealEP n 0 0 0 forkDual (i, j) = ⟨pr n i j - 1, pr n i j, decide (j < i)⟩ := by
      have := idealEP_at n 0 0 0 forkDual i j
      simpa [forkDual] using this
    rw [hep]
    unfold resolve
    simp only
    rw [show pairRank n (min i j) (max i j) = pr n i j from rfl] at h1 h2 h4
    rw [h1]
    rcases Nat.lt_or_ge i j with hlt | hge
    · refine ⟨_, rfl, ?_⟩
      have hji : ¬ j < i := by omega
      have e1 : min i j = i := by omega
      have e2 : max i j = j := by omega
      simp only [e1, e2, hji, decide_false, Bool.false_eq_true, if_false, side, hlt, decide_true]
      exact ⟨by omega, h3, trivial⟩
    · have hji : j < i := by omega
      have e1 : min i j = j := by omega
      have e2 : max i j = i := by omega
      have hij : ¬ i < j := by omega
      refine ⟨_, rfl, ?_⟩
      simp only [e1, e2, hji, decide_true, if_true, side, hij, decide_false]
      refine ⟨by omega, h5, ?_⟩
      rw [enc_dual]
      congr 1
      exact (Prop.C34_dual i j hne _ _).symm
  have : Nonempty (Entry Pay) := ⟨⟨⟨.snd 0, 0, true⟩, .fin⟩⟩
  choose! F hF using key
  refine ⟨F, fun i j hi hj hne => (hF i j hi hj hne).1, fun i j hi hj hne => (hF i j hi hj hne).2, ?_⟩
  refine m.pool.trans (List.Perm.append_right _ ?_)
  have nd1 : (l.flatMap fun p => [p.1, p.2]).Nodup :=
    ((m.pool.nodup_iff).1 (pool_nodup (reach_inv m.reach))).of_append_left
  have rng : ∀ {i : Nat}, i ∈ List.range' 1 n → IsRole n i := by
    intro i hi; rw [List.mem_range'_1] at hi; unfold IsRole; omega
  have inj : ∀ i j i' j', IsRole n i → IsRole n j → i ≠ j → IsRole n i' → IsRole n j' → i' ≠ j' → F i j = F i' j' →
      i = i' ∧ j = j' := by
    intro i j i' j' hi hj hne hi' hj' hne' e
    have h1 := (hF i j hi hj hne).2
    have h2 := (hF i' j' hi' hj' hne').2
    rw [e] at h1
    have p1 := pr_pos hi hj hne
    have p2 := pr_pos hi' hj' hne'
    rcases pr_inj hi hj hne hi' hj' hne' (by omega) with h3 | ⟨rfl, rfl⟩
    · exact h3
    · exfalso
      have := h1.2.1.symm.trans h2.2.1
      rw [side_not hne] at this
      cases hs : side i j <;> rw [hs] at this <;> cases this
  have nd2 : ((List.range' 1 n).flatMap (row n F)).Nodup := by
    rw [List.nodup_flatMap]
    constructor
    · intro i hi
      unfold row
      refine List.Nodup.map_on ?_ (List.nodup_range')
      intro k hk k' hk' e
      rw [List.mem_range'_1] at hk hk'
      obtain ⟨a1, a2⟩ := partner_role (rng hi) (k := k) (by omega) (by omega)
      obtain ⟨b1, b2⟩ := partner_role (rng hi) (k := k') (by omega) (by omega)
      have := (inj _ _ _ _ (rng hi) a1 a2.symm (rng hi) b1 b2.symm e).2
      unfold partner at this
      split at this <;> split at this <;> omega
    · refine List.Pairwise.imp_of_mem ?_ (List.nodup_range' (s := 1) (n := n) (step := 1))
      intro i i' hi hi' hne
      intro x hx hx'
      unfold row at hx hx'
      obtain ⟨k, hk, rfl⟩ := List.mem_map.1 hx
      obtain ⟨k', hk', e⟩ := List.mem_map.1 hx'
      rw [List.mem_range'_1] at hk hk'
      obtain ⟨a1, a2⟩ := partner_role (rng hi) (k := k) (by omega) (by omega)
      obtain ⟨b1, b2⟩ := partner_role (rng hi') (k := k') (by omega) (by omega)
      exact hne (inj _ _ _ _ (rng hi') b1 b2.symm (rng hi) a1 a2.symm e).1.symm
  rw [List.perm_ext_iff_of_nodup nd1 nd2]
  have hrow : ∀ i j, IsRole n i → IsRole n j → i ≠ j → F i j ∈ (List.range' 1 n).flatMap (row n F) := by
    intro i j hi hj hne
    refine List.mem_flatMap.2 ⟨i, by rw [List.mem_range'_1]; unfold IsRole at hi; omega, ?_⟩
    unfold row
    have hs := slot_range hi hj hne
    refine List.mem_map.2 ⟨slotOf i j, by rw [List.mem_range'_1]; omega, ?_⟩
    rw [partner_slot hj hne]
  intro x
  constructor
  · intro hx
    obtain ⟨p, hp, hx⟩ := List.mem_flatMap.1 hx
    obtain ⟨i, hi, rfl⟩ := List.getElem_of_mem hp
    have hi' : i < (diag n).length := by rw [← m.len]; exact hi
    have ht := List.getElem?_eq_getElem hi'
    have hidx := diag_index n hn i _ ht
    have hmem := (mem_diag n hn _).1 (List.getElem_mem hi')
    generalize (diag n)[i] = t at *
    obtain ⟨hp, hr⟩ := hmem
    have hp' := hp
    unfold IsPair at hp'
    have r1 : IsRole n t.1 := by unfold IsRole; omega
    have r2 : IsRole n t.2.1 := by unfold IsRole; omega
    have e1 : pr n t.1 t.2.1 = i + 1 := by
      unfold pr; rw [show min t.1 t.2.1 = t.1 by omega, show max t.1 t.2.1 = t.2.1 by omega, ← hr, hidx]
    have f1 := (hF _ _ r1 r2 (by omega)).1
    have f2 := (hF _ _ r2 r1 (by omega)).1
    have g1 : idealEP n 0 0 0 forkDual (t.1, t.2.1) = ⟨i, i + 1, false⟩ := by
      have := idealEP_at n 0 0 0 forkDual t.1 t.2.1
      rw [e1] at this
      have h3 : forkDual t.1 t.2.1 = false := by unfold forkDual; simp; omega
      rw [h3] at this
      simpa using this
    have g2 : idealEP n 0 0 0 forkDual (t.2.1, t.1) = ⟨i, i + 1, true⟩ := by
      have := idealEP_at n 0 0 0 forkDual t.2.1 t.1
      rw [pr_comm, e1] at this
      have h3 : forkDual t.2.1 t.1 = true := by unfold forkDual; simp; omega
      rw [h3] at this
      simpa using this
    rw [g1] at f1; rw [g2] at f2
    simp only [resolve, List.getElem?_eq_getElem hi, Option.map_some, Option.some.injEq, Bool.false_eq_true, if_false,
      if_true] at f1 f2
    simp only [List.mem_cons, List.not_mem_nil, or_false] at hx
    rcases hx with hx | hx
    · rw [hx, f1]; exact hrow _ _ r1 r2 (by omega)
    · rw [hx, f2]; exact hrow _ _ r2 r1 (by omega)
  · intro hx
    obtain ⟨i, hi, hx⟩ := List.mem_flatMap.1 hx
    unfold row at hx
    obtain ⟨k, hk, rfl⟩ := List.mem_map.1 hx
    rw [List.mem_range'_1] at hk
    obtain ⟨a1, a2⟩ := partner_role (rng hi) (k := k) (by omega) (by omega)
    have h1 := (hF _ _ (rng hi) a1 a2.symm).1
    unfold resolve at h1
    obtain ⟨p, hp, e⟩ := Option.map_eq_some_iff.1 h1
    refine List.mem_flatMap.2 ⟨p, List.mem_of_getElem? hp, ?_⟩
    rw [← e]
    split <;> simp

theorem mapM_all {α β : Type} (f : α → Option β) (g : α → β) : ∀ l : List α, (∀ x ∈ l, f x = some (g x)) →
    l.mapM f = some (l.map g) := by
  intro l
  induction l with
  | nil => intro _; rfl
  | cons x l ih =>
    intro h
    rw [List.mapM_cons, h x List.mem_cons_self, ih (fun y hy => h y (List.mem_cons_of_mem _ hy))]
    rfl

theorem Ends2.fields {N h h' l F} (E : Ends2 n D N h h' l F) {i : Nat} (hi : IsRole n i) (r : Nat) :
    fieldsOf n l (idealMesh n 0 (idealEP n 0 0 0 forkDual) i r) = some (row n F i) := by
  unfold fieldsOf row
  apply mapM_all
  intro k hk
  rw [List.mem_range'_1] at hk
  obtain ⟨a1, a2⟩ := partner_role hi (k := k) (by omega) (by omega)
  rw [idealMesh_slot, if_pos (by omega)]
  simpa using E.res i (partner i k) hi a1 a2.symm

theorem Ends2.mesh {N h h' l F} (E : Ends2 n D N h h' l F) {i : Nat} (hi : IsRole n i) {id : Ids} {g : Nat}
    (hid : ∀ q, Part n q → q ≠ i → id g i q = h.nsid + pr n i q - 1) :
    MeshOK n id g i ((project n D).types N i).sess (row n F i) := by
  refine ⟨by simp [row], fun q hq hne => ?_⟩
  have hs := slot_range hi (isRole hq) hne.symm
  refine ⟨F i q, ?_, ?_⟩
  · unfold row
    rw [List.getElem?_map, List.getElem?_range' (by omega)]
    have : 1 + 1 * (slotOf i q - 1) = slotOf i q := by omega
    rw [this, Option.map_some, partner_slot (isRole hq) hne.symm]
  · rw [hid q hq hne]
    exact E.ids i q hi (isRole hq) hne.symm

end Verif.Runtime
