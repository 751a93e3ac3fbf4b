import Verif.Proof.Close
import Mathlib.Data.List.Nodup
/-!
# The close systems of meshes are well formed
-/
namespace Verif.Close
open Verif.Spec

theorem closeAll_ids (sm rm) (xs : List E) :
    (closeAll sm rm xs).map Act.id = xs.map (fun x => (false, x)) ++ xs.map (fun x => (true, x)) := by
  simp [closeAll, Act.id, Function.comp_def]

theorem mem_closeAll {sm rm xs} {b : Bool} {x : E} :
    (b, x) ∈ (closeAll sm rm xs).map Act.id ↔ x ∈ xs := by
  rw [closeAll_ids]; cases b <;> simp

theorem closeAll_nodup {sm rm} {xs : List E} (h : xs.Nodup) : ((closeAll sm rm xs).map Act.id).Nodup := by
  rw [closeAll_ids, List.nodup_append]
  refine ⟨?_, ?_, ?_⟩
  · unfold List.Nodup at *; rw [List.pairwise_map]; exact h.imp (fun h h' => h (by injection h'))
  · unfold List.Nodup at *; rw [List.pairwise_map]; exact h.imp (fun h h' => h (by injection h'))
  · intro a ha b hb hab
    simp only [List.mem_map] at ha hb
    obtain ⟨x, _, rfl⟩ := ha
    obtain ⟨y, _, rfl⟩ := hb
    injection hab with h _; cases h

theorem closeAll_sorted {sm rm} {xs : List E} {r : E → Nat} {c : Nat} (h : ∀ x ∈ xs, r x = c) :
    ((closeAll sm rm xs).map Act.id).Pairwise (fun a b => key r a ≤ key r b) := by
  rw [closeAll_ids, List.pairwise_append]
  refine ⟨?_, ?_, ?_⟩
  · rw [List.pairwise_map]
    exact List.Pairwise.imp_of_mem (R := fun _ _ => True)
      (fun {a b} ha hb _ => by simp [key, h a ha, h b hb]) (List.pairwise_of_forall (by intros; trivial))
  · rw [List.pairwise_map]
    exact List.Pairwise.imp_of_mem (R := fun _ _ => True)
      (fun {a b} ha hb _ => by simp [key, h a ha, h b hb]) (List.pairwise_of_forall (by intros; trivial))
  · intro a ha b hb
    simp only [List.mem_map] at ha hb
    obtain ⟨x, hx, rfl⟩ := ha
    obtain ⟨y, hy, rfl⟩ := hb
    simp [key, h x hx, h y hy]

theorem mem_slots {n i : Nat} {x : E} : x ∈ slots n i ↔ x.1 = i ∧ 1 ≤ x.2 ∧ x.2 ≤ n - 1 := by
  unfold slots
  simp only [List.mem_map, List.mem_range'_1]
  constructor
  · rintro ⟨k, hk, rfl⟩; exact ⟨rfl, by simp only; omega, by simp only; omega⟩
  · rintro ⟨h1, h2, h3⟩; exact ⟨x.2, by omega, by rw [← h1]⟩

theorem slots_nodup (n i : Nat) : (slots n i).Nodup := by
  unfold slots List.Nodup
  rw [List.pairwise_map]
  exact (List.nodup_range' (s := 1) (n := n - 1)).imp (fun h h' => h (by injection h'))

theorem mem_roles {n i : Nat} : i ∈ List.range' 1 n ↔ 1 ≤ i ∧ i ≤ n := by
  rw [List.mem_range'_1]; omega

/-- `x` is a slot of a mesh of `n` roles. -/
def MeshEP (n : Nat) (x : E) : Prop := 1 ≤ x.1 ∧ x.1 ≤ n ∧ 1 ≤ x.2 ∧ x.2 ≤ n - 1

theorem meshPeer_ep {n : Nat} {x : E} (h : MeshEP n x) : MeshEP n (meshPeer x) := by
  obtain ⟨i, k⟩ := x
  unfold MeshEP meshPeer slotOf partner at *
  simp only at *
  (repeat' split) <;> omega

theorem meshPeer_invol {n : Nat} {x : E} (h : MeshEP n x) : meshPeer (meshPeer x) = x := by
  obtain ⟨i, k⟩ := x
  unfold MeshEP meshPeer slotOf partner at *
  simp only at *
  ext <;> simp only <;> (repeat' split) <;> omega

theorem meshPeer_ne {n : Nat} {x : E} (h : MeshEP n x) : (meshPeer x).1 ≠ x.1 := by
  obtain ⟨i, k⟩ := x
  unfold MeshEP meshPeer partner at *
  simp only at *
  split <;> omega

theorem meshPeer_to {n i j : Nat} (hi : 1 ≤ i ∧ i ≤ n) (hj : 1 ≤ j ∧ j ≤ n) (h : i ≠ j) :
    MeshEP n (i, slotOf i j) ∧ (meshPeer (i, slotOf i j)).1 = j := by
  unfold MeshEP meshPeer slotOf partner
  simp only
  (repeat' split) <;> omega

theorem wf_mesh (n : Nat) (sm : Nat → SendMode) (rm : Nat → RecvMode) (code : Nat → List Act)
    (hc : ∀ i ∈ List.range' 1 n, code i = closeAll (sm i) (rm i) (slots n i)) : WF (meshSys n code) := by
  have ep : ∀ t ∈ List.range' 1 n, ∀ x ∈ slots n t, MeshEP n x := by
    intro t ht x hx
    rw [mem_roles] at ht; rw [mem_slots] at hx; unfold MeshEP; omega
  refine ⟨List.nodup_range', ?_, ?_, ?_, ?_, ?_, ?_, ?_, ?_⟩
  · intro t _ x hx; exact (mem_slots.1 hx).1
  · intro t ht a ha
    have := hc t ht
    simp only [meshSys] at ha ⊢
    have hm := List.mem_map_of_mem (f := Act.id) ha
    rw [this] at hm
    exact mem_closeAll.1 hm
  · intro t ht x hx b
    simp only [meshSys] at hx ⊢
    rw [hc t ht]; exact mem_closeAll.2 hx
  · intro t ht; simp only [meshSys]; rw [hc t ht]; exact closeAll_nodup (slots_nodup _ _)
  · intro t _; exact slots_nodup _ _
  · intro t ht x hx
    have := meshPeer_ep (ep t ht x hx)
    refine ⟨?_, ?_⟩
    · simp only [meshSys]; rw [mem_roles]; exact ⟨this.1, this.2.1⟩
    · simp only [meshSys]; rw [mem_slots]; exact ⟨rfl, this.2.2⟩
  · intro t ht x hx; exact meshPeer_invol (ep t ht x hx)
  · refine ⟨fun _ => 0, fun _ _ _ _ => rfl, ?_⟩
    intro t ht; simp only [meshSys]; rw [hc t ht]; exact closeAll_sorted (c := 0) (fun _ _ => rfl)

theorem mem_allSlots {n : Nat} {x : E} : x ∈ (List.range' 1 n).flatMap (slots n) ↔ MeshEP n x := by
  simp only [List.mem_flatMap, mem_roles, mem_slots, MeshEP]
  constructor
  · rintro ⟨i, hi, rfl, h⟩; omega
  · intro h; exact ⟨x.1, by omega, rfl, by omega⟩

theorem allSlots_nodup (n : Nat) : ((List.range' 1 n).flatMap (slots n)).Nodup := by
  rw [List.nodup_flatMap]
  refine ⟨fun i _ => slots_nodup n i, ?_⟩
  refine (List.nodup_range' (s := 1) (n := n)).imp ?_
  intro a b hab
  simp only [Function.onFun, List.disjoint_left]
  intro x ha hb
  rw [mem_slots] at ha hb
  exact hab (ha.1.symm.trans hb.1)

theorem wf_solo (n : Nat) (sm : SendMode) (rm : RecvMode) (code : List Act)
    (hc : code = closeAll sm rm ((List.range' 1 n).flatMap (slots n))) : WF (soloSys n code) := by
  subst hc
  refine ⟨by simp [soloSys], ?_, ?_, ?_, ?_, ?_, ?_, ?_, ?_⟩
  · intro t ht x _; simp [soloSys] at ht ⊢; exact ht.symm
  · intro t _ a ha
    simp only [soloSys] at ha ⊢
    exact mem_closeAll.1 (List.mem_map_of_mem (f := Act.id) ha)
  · intro t _ x hx b; simp only [soloSys] at hx ⊢; exact mem_closeAll.2 hx
  · intro t _; exact closeAll_nodup (allSlots_nodup n)
  · intro t _; exact allSlots_nodup n
  · intro t _ x hx
    refine ⟨by simp [soloSys], ?_⟩
    simp only [soloSys] at hx ⊢
    exact mem_allSlots.2 (meshPeer_ep (mem_allSlots.1 hx))
  · intro t _ x hx; exact meshPeer_invol (mem_allSlots.1 hx)
  · exact ⟨fun _ => 0, fun _ _ _ _ => rfl, fun t _ => closeAll_sorted (c := 0) (fun _ _ => rfl)⟩

end Verif.Close
