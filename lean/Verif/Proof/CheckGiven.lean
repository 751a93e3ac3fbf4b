import Verif.Proof.CheckLoopTrace

/-! # Arguments of the checker for given choices -/
namespace Verif.Check
open Verif.Spec

variable (roles : List Str) (sites : List Site)

/-- All enums: choice and receiver. -/
def enums : List (Nat × Nat) :=
  (List.range sites.length).flatMap fun c => (List.range roles.length).filterMap fun x =>
    match sites[c]? with
    | none => none
    | some s => if x = s.sender then none else some (c, x)

def siteAt (c : Nat) : Site := sites.getD c ⟨0, fun _ => [], [], fun _ _ => ⟨[], none⟩⟩

/-- All `Enum::Branch`. -/
def cells : List (Nat × Nat × Nat × Str) :=
  (enums roles sites).flatMap fun p => ((siteAt sites p.1).branches.zipIdx).map fun b => (p.1, p.2, b.2, b.1)

def givenReceivers (p : Str) : Option (List (Str × List Str)) :=
  ((enums roles sites).find? fun q => (siteAt sites q.1).enum q.2 == p).map fun q =>
    (siteAt sites q.1).branches.map fun b =>
      (b, (((siteAt sites q.1).part b q.2).fields roles sites q.2).map Ty.print ++ [[], []])

def cellKey (q : Nat × Nat × Nat × Str) : Str := branchKey ((siteAt sites q.1).enum q.2.1) q.2.2.2

def givenBranching (k : Str) : Option (List Str) :=
  ((cells roles sites).find? fun q => cellKey sites q == k).map fun q =>
    (((siteAt sites q.1).part q.2.2.2 (siteAt sites q.1).sender).fields roles sites (siteAt sites q.1).sender).map Ty.print ++ [[]]

/-- Branches are numbered: all those of the first choice, then all those of the second one... -/
def groupNum (c i : Nat) : Int := (((List.range c).map fun d => (siteAt sites d).branches.length).sum + i : Nat)

def givenGroup (k : Str) : Option Int :=
  ((cells roles sites).find? fun q => cellKey sites q == k).map fun q => groupNum sites q.1 q.2.2.1

def givenKeys : List Str := (cells roles sites).map (cellKey sites)

variable {roles sites}

theorem mem_enums {c x : Nat} : (c, x) ∈ enums roles sites ↔ ∃ s, sites[c]? = some s ∧ x < roles.length ∧ x ≠ s.sender := by
  unfold enums
  simp only [List.mem_flatMap, List.mem_range, List.mem_filterMap]
  constructor
  · rintro ⟨d, hd, y, hy, h⟩
    split at h
    · cases h
    · rename_i s hs
      split at h
      · cases h
      · cases h
        exact ⟨s, hs, hy, by assumption⟩
  · rintro ⟨s, hs, hx, hne⟩
    obtain ⟨h, _⟩ := List.getElem?_eq_some_iff.mp hs
    exact ⟨c, h, x, hx, by simp [hs, hne]⟩

theorem siteAt_eq {c : Nat} {s : Site} (h : sites[c]? = some s) : siteAt sites c = s := by
  unfold siteAt
  rw [List.getD_eq_getElem?_getD, h]
  rfl

theorem mem_cells {c x i : Nat} {b : Str} : (c, x, i, b) ∈ cells roles sites ↔
    ∃ s, sites[c]? = some s ∧ x < roles.length ∧ x ≠ s.sender ∧ s.branches[i]? = some b := by
  unfold cells
  simp only [List.mem_flatMap, List.mem_map]
  constructor
  · rintro ⟨⟨c', x'⟩, hp, ⟨b', i'⟩, hb, h⟩
    cases h
    obtain ⟨s, h1, h2, h3⟩ := mem_enums.mp hp
    rw [siteAt_eq h1] at hb
    exact ⟨s, h1, h2, h3, by simpa [List.mem_zipIdx_iff_getElem?] using hb⟩
  · rintro ⟨s, h1, h2, h3, h4⟩
    refine ⟨(c, x), mem_enums.mpr ⟨s, h1, h2, h3⟩, (b, i), ?_, rfl⟩
    rw [siteAt_eq h1]
    simpa [List.mem_zipIdx_iff_getElem?] using h4

theorem find_enum (hn : Named roles sites) {c x : Nat} {s : Site} (hs : sites[c]? = some s) (hx : x < roles.length)
    (hne : x ≠ s.sender) : ((enums roles sites).find? fun q => (siteAt sites q.1).enum q.2 == s.enum x) = some (c, x) := by
  have hmem : (c, x) ∈ enums roles sites := mem_enums.mpr ⟨s, hs, hx, hne⟩
  have hf : ∃ q, ((enums roles sites).find? fun q => (siteAt sites q.1).enum q.2 == s.enum x) = some q := by
    rw [← Option.isSome_iff_exists, List.find?_isSome]
    exact ⟨_, hmem, by simp [siteAt_eq hs]⟩
  obtain ⟨⟨c', x'⟩, hq⟩ := hf
  rw [hq]
  have h1 := List.find?_some hq
  have h2 := List.mem_of_find?_eq_some hq
  obtain ⟨t, ht, hx', hne'⟩ := mem_enums.mp h2
  simp only [siteAt_eq ht, beq_iff_eq] at h1
  obtain ⟨rfl, rfl⟩ := hn.enumInj c' c t s ht hs x' hx' x hx h1
  rfl

theorem find_cell (hn : Named roles sites) {c x : Nat} {s : Site} (hs : sites[c]? = some s) (hx : x < roles.length)
    (hne : x ≠ s.sender) {i : Nat} {b : Str} (hb : s.branches[i]? = some b) :
    ((cells roles sites).find? fun q => cellKey sites q == branchKey (s.enum x) b) = some (c, x, i, b) := by
  have hmem : (c, x, i, b) ∈ cells roles sites := mem_cells.mpr ⟨s, hs, hx, hne, hb⟩
  have hf : ∃ q, ((cells roles sites).find? fun q => cellKey sites q == branchKey (s.enum x) b) = some q := by
    rw [← Option.isSome_iff_exists, List.find?_isSome]
    exact ⟨_, hmem, by simp [cellKey, siteAt_eq hs]⟩
  obtain ⟨⟨c', x', i', b'⟩, hq⟩ := hf
  rw [hq]
  have h1 := List.find?_some hq
  have h2 := List.mem_of_find?_eq_some hq
  obtain ⟨t, ht, hx', hne', hb'⟩ := mem_cells.mp h2
  simp only [cellKey, siteAt_eq ht, beq_iff_eq] at h1
  have e1 : ':' ∉ t.enum x' := fun hm => (hn.enumPlain t (List.mem_of_getElem? ht) x' hx' _ hm).2 rfl
  have e2 : ':' ∉ s.enum x := fun hm => (hn.enumPlain s (List.mem_of_getElem? hs) x hx _ hm).2 rfl
  obtain ⟨h3, rfl⟩ := branchKey_inj e1 e2 h1
  obtain ⟨rfl, rfl⟩ := hn.enumInj c' c t s ht hs x' hx' x hx h3
  rw [hs] at ht
  cases ht
  have hnd := (hn.branches s (List.mem_of_getElem? hs)).2
  obtain ⟨l1, l2⟩ := List.getElem?_eq_some_iff.mp hb
  obtain ⟨l3, l4⟩ := List.getElem?_eq_some_iff.mp hb'
  have hpw := List.pairwise_iff_getElem.mp hnd
  have : i' = i := by
    rcases Nat.lt_trichotomy i' i with h | h | h
    · exact absurd (l4.trans l2.symm) (hpw i' i l3 l1 h)
    · exact h
    · exact absurd (l2.trans l4.symm) (hpw i i' l1 l3 h)
  rw [this]

theorem groupNum_inj (hn : Named roles sites) {c d i j : Nat} {s t : Site} (hs : sites[c]? = some s) (ht : sites[d]? = some t)
    (hi : i < s.branches.length) (hj : j < t.branches.length) (h : groupNum sites c i = groupNum sites d j) : c = d ∧ i = j := by
  have _ := hn
  have key : ∀ a b, a < b → ((List.range a).map fun d => (siteAt sites d).branches.length).sum + (siteAt sites a).branches.length ≤
      ((List.range b).map fun d => (siteAt sites d).branches.length).sum := by
    intro a b hab
    induction b with
    | zero => omega
    | succ b ih =>
      rw [List.range_succ, List.map_append, List.sum_append]
      simp only [List.map_cons, List.map_nil, List.sum_cons, List.sum_nil]
      by_cases hc : a = b
      · subst hc; omega
      · have := ih (by omega); omega
  unfold groupNum at h
  have h' := Int.ofNat.inj h
  rcases Nat.lt_trichotomy c d with hc | hc | hc
  · have := key c d hc
    rw [siteAt_eq hs] at this
    omega
  · subst hc
    exact ⟨rfl, by omega⟩
  · have := key d c hc
    rw [siteAt_eq ht] at this
    omega

/-- Every set of well-named choices can be given to the checker. -/
theorem given_exists (hn : Named roles sites) : Given roles sites (givenReceivers roles sites) (givenBranching roles sites)
    (givenGroup roles sites) (givenKeys roles sites) where
  receives := by
    intro s hs x hx hne
    obtain ⟨c, hc⟩ := List.mem_iff_getElem?.mp hs
    refine ⟨[], [], _, ?_, List.Perm.refl _⟩
    unfold givenReceivers
    rw [find_enum hn hc hx hne]
    simp only [Option.map_some, siteAt_eq hc]
  noEnum := by
    intro p hp
    unfold givenReceivers
    rw [Option.map_eq_none_iff, List.find?_eq_none]
    rintro ⟨c, x⟩ hq
    obtain ⟨s, hs, hx, _⟩ := mem_enums.mp hq
    simp only [siteAt_eq hs, beq_iff_eq]
    exact fun h => hp s (List.mem_of_getElem? hs) x hx h.symm
  chooses := by
    intro s hs x hx hne b hb
    obtain ⟨c, hc⟩ := List.mem_iff_getElem?.mp hs
    obtain ⟨i, hi⟩ := List.mem_iff_getElem?.mp hb
    refine ⟨[], ?_⟩
    unfold givenBranching
    rw [find_cell hn hc hx hne hi]
    simp only [Option.map_some, siteAt_eq hc]
  groups := by
    refine ⟨fun c b => groupNum sites c ((siteAt sites c).branches.idxOf b), ?_, ?_, ?_⟩
    · intro c s hs x hx hne b hb
      have hi : s.branches[s.branches.idxOf b]? = some b := by
        rw [List.getElem?_eq_getElem (List.idxOf_lt_length_of_mem hb)]
        simp
      constructor
      · unfold givenGroup
        rw [find_cell hn hs hx hne hi]
        simp only [Option.map_some, siteAt_eq hs]
      · unfold givenKeys
        exact List.mem_map.mpr ⟨_, mem_cells.mpr ⟨s, hs, hx, hne, hi⟩, by simp [cellKey, siteAt_eq hs]⟩
    · intro c d s t hs ht b hb b' hb' h
      simp only [siteAt_eq hs, siteAt_eq ht] at h
      obtain ⟨rfl, h2⟩ := groupNum_inj hn hs ht (List.idxOf_lt_length_of_mem hb) (List.idxOf_lt_length_of_mem hb') h
      rw [hs] at ht
      cases ht
      exact ⟨rfl, by
        have h3 := List.getElem_idxOf (List.idxOf_lt_length_of_mem hb)
        have h4 := List.getElem_idxOf (List.idxOf_lt_length_of_mem hb')
        rw [← h3, ← h4]
        simp only [h2]⟩
    · intro k hk
      obtain ⟨⟨c, x, i, b⟩, hq, rfl⟩ := List.mem_map.mp hk
      obtain ⟨s, hs, hx, hne, hb⟩ := mem_cells.mp hq
      exact ⟨c, s, x, b, hs, List.mem_of_getElem? hb, hx, hne, by simp [cellKey, siteAt_eq hs]⟩

end Verif.Check
