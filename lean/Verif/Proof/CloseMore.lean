import Verif.Proof.CloseMesh
/-!
# Causes of panics; two interleaved meshes
-/
namespace Verif.Close
open Verif.Spec

/-- Invariant of all runs, including those in which threads send arbitrary signals. -/
structure PInv (Y : Sys) (ls : List Label) (s : S) : Prop where
  buf : ∀ x g, s.buf x = some g → g ≠ .stop → ∃ y, Y.peer y = x ∧ .emit y g ∈ ls
  run : ∀ t rest, s.pc t = .run rest → rest <:+ Y.code t
  pan : ∀ t rest, s.pc t = .fin .panic rest → ∃ m x r, rest = .recv m x :: r ∧ rest <:+ Y.code t ∧
    (m = .checkCancel ∨ ∃ y g, Y.peer y = x ∧ g ≠ .stop ∧ .emit y g ∈ ls)

theorem PInv.weaken {Y ls s} (i : PInv Y ls s) (l) : PInv Y (ls ++ [l]) s := by
  refine ⟨?_, i.run, ?_⟩
  · intro x g h1 h2; obtain ⟨y, hy, hm⟩ := i.buf x g h1 h2; exact ⟨y, hy, by simp [hm]⟩
  · intro t rest h
    obtain ⟨m, x, r, h1, h2, h3⟩ := i.pan t rest h
    refine ⟨m, x, r, h1, h2, ?_⟩
    rcases h3 with h3 | ⟨y, g, h3, h4, h5⟩
    · exact .inl h3
    · exact .inr ⟨y, g, h3, h4, by simp [h5]⟩

theorem PInv.pcs {Y ls s} (i : PInv Y ls s) (t : Nat) (p : PC)
    (h1 : ∀ rest, p = .run rest → rest <:+ Y.code t)
    (h2 : ∀ rest, p = .fin .panic rest → ∃ m x r, rest = .recv m x :: r ∧ rest <:+ Y.code t ∧
      (m = .checkCancel ∨ ∃ y g, Y.peer y = x ∧ g ≠ .stop ∧ .emit y g ∈ ls)) :
    PInv Y ls { s with pc := upd s.pc t p } := by
  refine ⟨i.buf, ?_, ?_⟩
  · intro u rest h; simp only [upd] at h; split at h
    · next h' => subst h'; exact h1 rest h
    · exact i.run u rest h
  · intro u rest h; simp only [upd] at h; split at h
    · next h' => subst h'; exact h2 rest h
    · exact i.pan u rest h

theorem PInv.bufs {Y ls s} (i : PInv Y ls s) (x : E) (b : Option Sig)
    (h : ∀ g, b = some g → g ≠ .stop → ∃ y, Y.peer y = x ∧ .emit y g ∈ ls) :
    PInv Y ls { s with buf := upd s.buf x b } := by
  refine ⟨?_, i.run, i.pan⟩
  intro y g hb hg
  simp only [upd] at hb; split at hb
  · next h' => subst h'; exact h g hb hg
  · exact i.buf y g hb hg

theorem run_pinv {Y ls s} (h : Run Y .init ls s) : PInv Y ls s := by
  induction h with
  | nil => 
    refine ⟨?_, ?_, ?_⟩
    · intro x g h; simp [S.init] at h
    · intro t r h; simp [S.init] at h
    · intro t r h; simp [S.init] at h
  | @snoc ls s1 l s2 hr hst ih =>
    have i := ih.weaken l
    cases l with
    | call t =>
      simp only [step] at hst; split at hst
      · cases hst
        exact i.pcs t _ (by intro r h; cases h; exact List.suffix_refl _) (by intro r h; cases h)
      · cases hst
    | quit t =>
      simp only [step] at hst; split at hst
      · cases hst; exact i.pcs t _ (by intro r h; cases h) (by intro r h; cases h)
      · cases hst
    | emit x g =>
      simp only [step] at hst; split at hst
      · cases hst
        exact i.bufs _ _ (by intro g' h _; cases h; exact ⟨x, rfl, by simp⟩)
      · cases hst
    | act t =>
      simp only [step, exec] at hst
      split at hst
      · cases hst; exact i.pcs t _ (by intro r h; cases h) (by intro r h; cases h)
      · next m x rest hp =>
        have hs := i.run _ _ hp
        have hrun : ∀ r, PC.run rest = .run r → r <:+ Y.code t := by
          intro r h; cases h; exact (List.suffix_cons _ _).trans hs
        split at hst
        · cases m
          · simp only at hst; cases hst; exact i.pcs t _ (by intro r h; cases h) (by intro r h; cases h)
          · simp only at hst; cases hst; exact i.pcs t _ hrun (by intro r h; cases h)
        · split at hst
          · cases hst
          · cases hst
            exact (i.pcs t _ hrun (by intro r h; cases h)).bufs _ _ (by intro g h h'; cases h; exact absurd rfl h')
      · next m x rest hp =>
        have hs := i.run _ _ hp
        split at hst
        · next g hg =>
          cases hst
          refine PInv.bufs (i.pcs t _ ?_ ?_) x none (by intro g h; cases h)
          · intro r h; split at h
            · cases h; exact (List.suffix_cons _ _).trans hs
            · cases h
          · intro r h; split at h
            · cases h
            · next ha =>
              cases h
              refine ⟨m, x, rest, rfl, hs, ?_⟩
              cases m with
              | checkCancel => exact .inl rfl
              | unchecked => simp [accepts] at ha
              | stopOnly =>
                right
                have hne : g ≠ .stop := by rintro rfl; simp [accepts] at ha
                obtain ⟨y, hy, hm⟩ := i.buf x g hg hne
                exact ⟨y, g, hy, hne, hm⟩
        · split at hst
          · cases hst
          · cases hst
            refine i.pcs t _ (by intro r h; cases h) ?_
            intro r h
            injection h with h1 h2
            subst h2
            refine ⟨m, x, rest, rfl, hs, .inl ?_⟩
            cases m <;> simp [onDisconnect] at h1 ⊢
      · cases hst
    | dropTx x =>
      simp only [step] at hst; split at hst
      · cases hst; exact ⟨i.buf, i.run, i.pan⟩
      · cases hst
    | dropRx x =>
      simp only [step] at hst; split at hst
      · cases hst
        have := i.bufs x none (by intro g h; cases h)
        exact ⟨this.buf, this.run, this.pan⟩
      · cases hst

theorem closeFn_form {n i c} (h : IsCloseFn n i c) : ∃ sm rm, c = closeAll sm rm (slots n i) := by
  unfold IsCloseFn at h
  simp only [List.mem_cons, List.not_mem_nil, or_false] at h
  rcases h with (h | h | h | h) | ⟨rfl, h⟩ | ⟨rfl, h⟩
  · exact ⟨_, _, h⟩
  · exact ⟨_, _, h⟩
  · exact ⟨_, _, h⟩
  · exact ⟨_, _, h⟩
  · exact ⟨.strict, .stopOnly, by rw [h]; rfl⟩
  · exact ⟨.strict, .stopOnly, by rw [h]; rfl⟩

theorem wf_closeFns {n : Nat} {code : Nat → List Act} (h : ∀ i, 1 ≤ i → i ≤ n → IsCloseFn n i (code i)) :
    WF (meshSys n code) := by
  have : ∀ i, ∃ p : SendMode × RecvMode, i ∈ List.range' 1 n → code i = closeAll p.1 p.2 (slots n i) := by
    intro i
    by_cases hi : i ∈ List.range' 1 n
    · have hi' := mem_roles.1 hi
      obtain ⟨sm, rm, he⟩ := closeFn_form (h i hi'.1 hi'.2)
      exact ⟨(sm, rm), fun _ => he⟩
    · exact ⟨(.strict, .stopOnly), fun h => absurd h hi⟩
  obtain ⟨f, hf⟩ := Classical.axiomOfChoice this
  exact wf_mesh n (fun i => (f i).1) (fun i => (f i).2) code hf

/-! ## Two meshes -/

/-- `x` is a slot of one of the two meshes. -/
def TwoEP (n1 n2 : Nat) (x : E) : Prop :=
  (x.1 ≤ n1 ∧ MeshEP n1 x) ∨ (n1 < x.1 ∧ MeshEP n2 (x.1 - n1, x.2))

theorem twoPeer_ep {n1 n2 : Nat} {x : E} (h : TwoEP n1 n2 x) : TwoEP n1 n2 (twoPeer n1 x) := by
  rcases h with ⟨h1, h2⟩ | ⟨h1, h2⟩
  · have := meshPeer_ep h2
    unfold twoPeer; rw [if_pos h1]
    exact .inl ⟨this.2.1, this⟩
  · have := meshPeer_ep h2
    unfold twoPeer; rw [if_neg (by omega)]
    refine .inr ⟨?_, ?_⟩
    · have := this.1; simp only; omega
    · simp only [Nat.add_sub_cancel_left]; exact this

theorem twoPeer_invol {n1 n2 : Nat} {x : E} (h : TwoEP n1 n2 x) : twoPeer n1 (twoPeer n1 x) = x := by
  rcases h with ⟨h1, h2⟩ | ⟨h1, h2⟩
  · have := meshPeer_ep h2
    unfold twoPeer; rw [if_pos h1, if_pos this.2.1, meshPeer_invol h2]
  · have := meshPeer_ep h2
    have h3 := this.1
    have hi := meshPeer_invol h2
    have e : twoPeer n1 x = (n1 + (meshPeer (x.1 - n1, x.2)).1, (meshPeer (x.1 - n1, x.2)).2) := by
      unfold twoPeer; rw [if_neg (by omega)]
    rw [e]
    unfold twoPeer
    rw [if_neg (by simp only; omega)]
    simp only [Nat.add_sub_cancel_left]
    have e2 : ((meshPeer (x.1 - n1, x.2)).1, (meshPeer (x.1 - n1, x.2)).2) = meshPeer (x.1 - n1, x.2) := rfl
    rw [e2, hi]
    ext
    · simp only; omega
    · rfl

theorem twoPeer_side {n1 n2 : Nat} {x : E} (h : TwoEP n1 n2 x) : (twoPeer n1 x).1 ≤ n1 ↔ x.1 ≤ n1 := by
  rcases h with ⟨h1, h2⟩ | ⟨h1, h2⟩
  · have := meshPeer_ep h2
    unfold twoPeer; rw [if_pos h1]
    exact ⟨fun _ => h1, fun _ => this.2.1⟩
  · have := (meshPeer_ep h2).1
    unfold twoPeer; rw [if_neg (by omega)]
    simp only; omega

theorem wf_two {n1 n2 idx1 idx2 : Nat} (hi1 : 1 ≤ idx1 ∧ idx1 ≤ n1) (hi2 : 1 ≤ idx2 ∧ idx2 ≤ n2)
    (code : Nat → List Act)
    (hA : ∀ t, t ≠ 0 → t ≠ idx1 → t ≤ n1 → ∃ sm rm, code t = closeAll sm rm (slots n1 t))
    (hB : ∀ t, n1 < t → t ≤ n1 + n2 → t ≠ n1 + idx2 → ∃ sm rm, code t = closeAll sm rm (slots n2 t))
    (h0 : (∃ sm rm sm' rm', code 0 = closeAll sm rm (slots n1 idx1) ++ closeAll sm' rm' (slots n2 (n1 + idx2))) ∨
      (∃ sm rm sm' rm', code 0 = closeAll sm rm (slots n2 (n1 + idx2)) ++ closeAll sm' rm' (slots n1 idx1))) :
    WF (twoSys n1 n2 idx1 idx2 code) := by
  have hths : ∀ t, t ∈ (twoSys n1 n2 idx1 idx2 code).ths ↔
      t = 0 ∨ (1 ≤ t ∧ t ≤ n1 + n2 ∧ t ≠ idx1 ∧ t ≠ n1 + idx2) := by
    intro t; simp only [twoSys, List.mem_cons, List.mem_filter, mem_roles]; simp; omega
  have heps : ∀ t ∈ (twoSys n1 n2 idx1 idx2 code).ths, ∀ x, x ∈ (twoSys n1 n2 idx1 idx2 code).eps t ↔
      TwoEP n1 n2 x ∧ (twoSys n1 n2 idx1 idx2 code).owner x = t := by
    intro t ht x
    rw [hths] at ht
    simp only [twoSys, TwoEP, MeshEP]
    constructor
    · intro hx
      split at hx
      · next h =>
        rcases List.mem_append.1 hx with hx | hx <;> rw [mem_slots] at hx <;> (split <;> omega)
      · split at hx <;> rw [mem_slots] at hx <;> (split <;> omega)
    · rintro ⟨h1, h2⟩
      split at h2
      · rw [if_pos h2.symm, List.mem_append, mem_slots, mem_slots]; omega
      · rw [if_neg (by omega)]
        split <;> rw [mem_slots] <;> omega
  have dis : ∀ x, ¬ (x ∈ slots n1 idx1 ∧ x ∈ slots n2 (n1 + idx2)) := by
    rintro x ⟨h1, h2⟩; rw [mem_slots] at h1 h2; omega
  have hcode : ∀ t ∈ (twoSys n1 n2 idx1 idx2 code).ths, ∀ b x,
      (b, x) ∈ ((twoSys n1 n2 idx1 idx2 code).code t).map Act.id ↔ x ∈ (twoSys n1 n2 idx1 idx2 code).eps t := by
    intro t ht b x
    rw [hths] at ht
    simp only [twoSys]
    by_cases h : t = 0
    · rw [h]; simp only [if_true]
      rcases h0 with ⟨_, _, _, _, h0⟩ | ⟨_, _, _, _, h0⟩
      · rw [h0, List.map_append, List.mem_append, List.mem_append, mem_closeAll, mem_closeAll]
      · rw [h0, List.map_append, List.mem_append, List.mem_append, mem_closeAll, mem_closeAll]; exact or_comm
    · simp only [if_neg h]
      by_cases h1 : t ≤ n1
      · obtain ⟨_, _, hc⟩ := hA t h (by omega) h1
        rw [hc, if_pos h1]; exact mem_closeAll
      · obtain ⟨_, _, hc⟩ := hB t (by omega) (by omega) (by omega)
        rw [hc, if_neg h1]; exact mem_closeAll
  have apnd : ∀ sm rm sm' rm' xs ys, xs.Nodup → ys.Nodup → (∀ x, ¬ (x ∈ xs ∧ x ∈ ys)) →
      ((closeAll sm rm xs ++ closeAll sm' rm' ys).map Act.id).Nodup := by
    intro sm rm sm' rm' xs ys h1 h2 h3
    rw [List.map_append, List.nodup_append]
    refine ⟨closeAll_nodup h1, closeAll_nodup h2, ?_⟩
    rintro ⟨b, x⟩ ha ⟨b', y⟩ hb hab
    injection hab with _ hxy
    subst hxy
    exact h3 x ⟨mem_closeAll.1 ha, mem_closeAll.1 hb⟩
  refine ⟨?_, ?_, ?_, ?_, ?_, ?_, ?_, ?_, ?_⟩
  · simp only [twoSys, List.nodup_cons]
    refine ⟨?_, List.Nodup.filter _ List.nodup_range'⟩
    simp [List.mem_filter, List.mem_range'_1]
  · intro t ht x hx; exact ((heps t ht x).1 hx).2
  · intro t ht a ha
    exact (hcode t ht a.id.1 a.id.2).1 (List.mem_map_of_mem ha)
  · intro t ht x hx b; exact (hcode t ht b x).2 hx
  · intro t ht
    rw [hths] at ht
    simp only [twoSys]
    by_cases h : t = 0
    · rw [h]
      rcases h0 with ⟨_, _, _, _, h0⟩ | ⟨_, _, _, _, h0⟩
      · rw [h0]; exact apnd _ _ _ _ _ _ (slots_nodup _ _) (slots_nodup _ _) dis
      · rw [h0]; exact apnd _ _ _ _ _ _ (slots_nodup _ _) (slots_nodup _ _) (fun x h => dis x h.symm)
    · by_cases h1 : t ≤ n1
      · obtain ⟨_, _, hc⟩ := hA t h (by omega) h1
        rw [hc]; exact closeAll_nodup (slots_nodup _ _)
      · obtain ⟨_, _, hc⟩ := hB t (by omega) (by omega) (by omega)
        rw [hc]; exact closeAll_nodup (slots_nodup _ _)
  · intro t ht
    simp only [twoSys]
    split
    · rw [List.nodup_append]
      refine ⟨slots_nodup _ _, slots_nodup _ _, ?_⟩
      rintro a ha b hb rfl; exact dis a ⟨ha, hb⟩
    · split <;> exact slots_nodup _ _
  · intro t ht x hx
    have hx' := ((heps t ht x).1 hx).1
    have hp := twoPeer_ep hx'
    have ho : (twoSys n1 n2 idx1 idx2 code).owner (twoPeer n1 x) ∈ (twoSys n1 n2 idx1 idx2 code).ths := by
      rw [hths]; simp only [twoSys]; unfold TwoEP MeshEP at hp
      split <;> omega
    exact ⟨ho, (heps _ ho _).2 ⟨hp, rfl⟩⟩
  · intro t ht x hx; exact twoPeer_invol ((heps t ht x).1 hx).1
  · have sorted : ∀ (sm rm sm' rm') (xs ys : List E) (r : E → Nat), (∀ x ∈ xs, r x = 0) → (∀ y ∈ ys, r y = 1) →
        ((closeAll sm rm xs ++ closeAll sm' rm' ys).map Act.id).Pairwise (fun a b => key r a ≤ key r b) := by
      intro sm rm sm' rm' xs ys r h1 h2
      rw [List.map_append, List.pairwise_append]
      refine ⟨closeAll_sorted h1, closeAll_sorted h2, ?_⟩
      rintro ⟨b, x⟩ ha ⟨b', y⟩ hb
      rw [mem_closeAll] at ha hb
      simp only [key, h1 x ha, h2 y hb]
      split <;> omega
    have others : ∀ (r : E → Nat) (c1 c2 : Nat), (∀ x : E, x.1 ≤ n1 → r x = c1) → (∀ x : E, n1 < x.1 → r x = c2) →
        ∀ t ∈ (twoSys n1 n2 idx1 idx2 code).ths, t ≠ 0 →
        (((twoSys n1 n2 idx1 idx2 code).code t).map Act.id).Pairwise (fun a b => key r a ≤ key r b) := by
      intro r c1 c2 hr1 hr2 t ht h
      rw [hths] at ht
      simp only [twoSys]
      by_cases h1 : t ≤ n1
      · obtain ⟨_, _, hc⟩ := hA t h (by omega) h1
        rw [hc]; exact closeAll_sorted (c := c1) (fun x hx => hr1 x (by rw [mem_slots] at hx; omega))
      · obtain ⟨_, _, hc⟩ := hB t (by omega) (by omega) (by omega)
        rw [hc]; exact closeAll_sorted (c := c2) (fun x hx => hr2 x (by rw [mem_slots] at hx; omega))
    rcases h0 with ⟨_, _, _, _, h0⟩ | ⟨_, _, _, _, h0⟩
    · refine ⟨fun x => if x.1 ≤ n1 then 0 else 1, ?_, ?_⟩
      · intro t ht x hx
        have := twoPeer_side ((heps t ht x).1 hx).1
        simp only [twoSys, this]
      · intro t ht
        by_cases h : t = 0
        · rw [h]; simp only [twoSys]; rw [h0]
          refine sorted _ _ _ _ _ _ _ ?_ ?_
          · intro x hx; rw [mem_slots] at hx; rw [if_pos (by omega)]
          · intro x hx; rw [mem_slots] at hx; rw [if_neg (by omega)]
        · exact others _ 0 1 (fun x hx => by rw [if_pos hx]) (fun x hx => by rw [if_neg (by omega)]) t ht h
    · refine ⟨fun x => if x.1 ≤ n1 then 1 else 0, ?_, ?_⟩
      · intro t ht x hx
        have := twoPeer_side ((heps t ht x).1 hx).1
        simp only [twoSys, this]
      · intro t ht
        by_cases h : t = 0
        · rw [h]; simp only [twoSys]; rw [h0]
          refine sorted _ _ _ _ _ _ _ ?_ ?_
          · intro x hx; rw [mem_slots] at hx; rw [if_neg (by omega)]
          · intro x hx; rw [mem_slots] at hx; rw [if_pos (by omega)]
        · exact others _ 1 0 (fun x hx => by rw [if_pos hx]) (fun x hx => by rw [if_neg (by omega)]) t ht h

end Verif.Close
