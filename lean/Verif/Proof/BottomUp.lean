import Verif.Spec.BottomUp
import Mathlib.Tactic.ByContra
import Mathlib.Data.List.Basic

/-! # Programs and the machines of their roles: lists and meshes -/
namespace Verif.BottomUp
open Verif.Check Verif.Spec

/-! ## What one of two roles has done, the other not -/

section Lists
variable {A B α β : List Comm} {q : Nat} {c : Comm}

theorem prefix_get {α A : List Comm} (h : α <+: A) {i : Nat} (hi : i < α.length) : A[i]? = some α[i] := by
  obtain ⟨t, rfl⟩ := h
  rw [List.getElem?_append_left hi, List.getElem?_eq_getElem hi]

theorem prefix_snoc (h : α ++ [c] <+: A) : A[α.length]? = some c := by
  obtain ⟨t, rfl⟩ := h
  simp

/-- A role that sends is ahead. -/
theorem sender_ahead (hA : A = B.map fun c => ⟨!c.out, q, c.payload⟩) (ha : α ++ [c] <+: A) (hb : β <+: B) (hc : c.out = true)
    (ho : ∀ x ∈ β.drop α.length, x.out = true) : β.length ≤ α.length := by
  by_contra hlt
  have hlt : α.length < β.length := by omega
  have h1 := prefix_get hb hlt
  have h2 := prefix_snoc ha
  rw [hA, List.getElem?_map, h1] at h2
  have h3 : β[α.length].out = true := ho _ (by rw [List.drop_eq_getElem_cons hlt]; exact List.mem_cons_self)
  simp only [Option.map_some, Option.some.injEq] at h2
  rw [← h2] at hc
  simp [h3] at hc

/-- What a role receives is what the other has sent. -/
theorem receives (hA : A = B.map fun c => ⟨!c.out, q, c.payload⟩) (ha : α ++ [c] <+: A) (hb : β <+: B) {d : Comm} {l : List Comm}
    (hd : β.drop α.length = d :: l) : d.payload = c.payload ∧ d.out = !c.out ∧ β.drop (α ++ [c]).length = l ∧
      α.length < β.length := by
  have hlt : α.length < β.length := by
    by_contra h
    rw [List.drop_eq_nil_of_le (by omega)] at hd
    cases hd
  have h1 := prefix_get hb hlt
  have h2 := prefix_snoc ha
  rw [hA, List.getElem?_map, h1] at h2
  rw [List.drop_eq_getElem_cons hlt] at hd
  simp only [List.cons.injEq] at hd
  obtain ⟨rfl, h3⟩ := hd
  simp only [Option.map_some, Option.some.injEq] at h2
  rw [← h2]
  refine ⟨rfl, by simp, by simpa using h3, hlt⟩

/-- With nothing to receive, the other has not done all. -/
theorem not_full (hA : A = B.map fun c => ⟨!c.out, q, c.payload⟩) (ha : α ++ [c] <+: A) (hd : β.drop α.length = []) : β ≠ B := by
  rintro rfl
  have h2 := ha.length_le
  rw [hA] at h2
  simp only [List.length_append, List.length_singleton, List.length_map] at h2
  have h3 := List.drop_eq_nil_iff.mp hd
  omega

/-- What the other has done up to the end is not left. -/
theorem full_empty (hA : A = B.map fun c => ⟨!c.out, q, c.payload⟩) (ha : α <+: A) : α.drop B.length = [] := by
  have h2 := ha.length_le
  rw [hA] at h2
  simp only [List.length_map] at h2
  exact List.drop_eq_nil_of_le h2

theorem withs_append (x : Nat) (l l' : List Comm) : withs x (l ++ l') = withs x l ++ withs x l' := by simp [withs]

theorem withs_prefix {l l' : List Comm} (x : Nat) (h : l <+: l') : withs x l <+: withs x l' := by
  obtain ⟨t, rfl⟩ := h
  exact ⟨withs x t, (withs_append x l t).symm⟩

theorem withs_single {x : Nat} {c : Comm} : withs x [c] = if c.partner = x then [c] else [] := by
  by_cases h : c.partner = x <;> simp [withs, h]

end Lists

section Flat
variable {γ : Type}

theorem flatMap_range_append {f f' : Nat → List γ} {m g : Nat} {l : List γ} (hg : g < m) (hlater : ∀ j, g < j → f j = [])
    (hf : ∀ j, j ≠ g → f' j = f j) (hfg : f' g = f g ++ l) :
    (List.range m).flatMap f' = (List.range m).flatMap f ++ l := by
  induction m with
  | zero => omega
  | succ m ih =>
    simp only [List.range_succ, List.flatMap_append, List.flatMap_cons, List.flatMap_nil, List.append_nil]
    by_cases h : g = m
    · subst h
      have : (List.range g).flatMap f' = (List.range g).flatMap f := by
        apply List.flatMap_congr
        intro j hj
        exact hf j (by have := List.mem_range.mp hj; omega)
      rw [this, hfg, List.append_assoc]
    · rw [ih (by omega), hf m (by omega), hlater m (by omega)]
      simp

theorem flatMap_range_pop {f f' : Nat → List γ} {m g : Nat} {x : γ} {l : List γ} (hg : g < m) (hearlier : ∀ j, j < g → f j = [])
    (hf : ∀ j, j ≠ g → f' j = f j) (hfg : f g = x :: l) (hfg' : f' g = l) :
    (List.range m).flatMap f = x :: (List.range m).flatMap f' := by
  induction m with
  | zero => omega
  | succ m ih =>
    simp only [List.range_succ, List.flatMap_append, List.flatMap_cons, List.flatMap_nil, List.append_nil]
    by_cases h : g = m
    · subst h
      have h1 : (List.range g).flatMap f = [] := by
        rw [List.flatMap_eq_nil_iff]
        intro j hj
        exact hearlier j (List.mem_range.mp hj)
      have h2 : (List.range g).flatMap f' = [] := by
        rw [List.flatMap_eq_nil_iff]
        intro j hj
        have := List.mem_range.mp hj
        rw [hf j (by omega)]
        exact hearlier j this
      rw [h1, h2, hfg, hfg']
      rfl
    · rw [ih (by omega), hf m (by omega)]
      rfl

end Flat

/-! ## Meshes -/

section Meshes
variable {code : Str → Nat} {num : Nat → Str → Mesh.Name} {sites : List Site} {me : Nat}

theorem sessionLast_comm {x : Nat} {nx : Option Nat} : (∀ m T, sessionLast num sites me x nx ≠ .send m T) ∧
    ∀ m T, sessionLast num sites me x nx ≠ .recv m T := by
  unfold sessionLast
  constructor <;> intro m T <;> split
  · simp
  · split
    · simp
    · split <;> simp
  · simp
  · split
    · simp
    · split <;> simp

theorem partnersLast_role {nx : Option Nat} {q : Nat} {k : Mesh.Stack} (h : partnersLast sites me nx = .role q k) :
    ∃ c, nx = some c ∧ chooser sites c ≠ me ∧ q = chooser sites c + 1 ∧ k = .fin := by
  unfold partnersLast at h
  split at h
  · cases h
  · rename_i c
    split at h
    · cases h
    · cases h
      rename_i hc
      exact ⟨c, rfl, hc, rfl, rfl⟩

theorem mesh_tail {c : Comm} {cs : List Comm} {nx : Option Nat} :
    (⟨Mesh.upd ((⟨c :: cs, nx⟩ : Part).mesh code num sites me).sess (c.partner + 1)
        (sessionOf code (c.partner + 1) (sessionLast num sites me (c.partner + 1) nx) cs),
      partnersThen (partnersLast sites me nx) cs⟩ : Mesh.Mesh) = (⟨cs, nx⟩ : Part).mesh code num sites me := by
  unfold Part.mesh
  simp only
  congr 1
  funext x
  unfold Mesh.upd
  by_cases h : x = c.partner + 1
  · rw [if_pos h, h]
  · rw [if_neg h]
    simp only [sessionOf]
    rw [if_neg (fun h' => h h'.symm)]

theorem mesh_send {P : Part} {q m : Nat} {k : Mesh.Stack} {T : Mesh.Sess}
    (h1 : (P.mesh code num sites me).stack = .role q k) (h2 : (P.mesh code num sites me).sess q = .send m T) :
    ∃ c cs, P.comms = c :: cs ∧ q = c.partner + 1 ∧ c.out = true ∧ m = code c.payload.print ∧
      (⟨Mesh.upd (P.mesh code num sites me).sess q T, k⟩ : Mesh.Mesh) = (⟨cs, P.next⟩ : Part).mesh code num sites me := by
  obtain ⟨cs, nx⟩ := P
  cases cs with
  | nil => exact absurd h2 (sessionLast_comm.1 m T)
  | cons c cs =>
    have h1' : Mesh.Stack.role (c.partner + 1) (partnersThen (partnersLast sites me nx) cs) = .role q k := h1
    cases h1'
    have h2' := h2
    simp only [Part.mesh, sessionOf] at h2'
    rw [if_pos trivial] at h2'
    split at h2'
    · rename_i ho
      cases h2'
      exact ⟨c, cs, rfl, rfl, ho, rfl, mesh_tail⟩
    · cases h2'

theorem mesh_recv {P : Part} {q m : Nat} {k : Mesh.Stack} {T : Mesh.Sess}
    (h1 : (P.mesh code num sites me).stack = .role q k) (h2 : (P.mesh code num sites me).sess q = .recv m T) :
    ∃ c cs, P.comms = c :: cs ∧ q = c.partner + 1 ∧ c.out = false ∧ m = code c.payload.print ∧
      (⟨Mesh.upd (P.mesh code num sites me).sess q T, k⟩ : Mesh.Mesh) = (⟨cs, P.next⟩ : Part).mesh code num sites me := by
  obtain ⟨cs, nx⟩ := P
  cases cs with
  | nil => exact absurd h2 (sessionLast_comm.2 m T)
  | cons c cs =>
    have h1' : Mesh.Stack.role (c.partner + 1) (partnersThen (partnersLast sites me nx) cs) = .role q k := h1
    cases h1'
    have h2' := h2
    simp only [Part.mesh, sessionOf] at h2'
    rw [if_pos trivial] at h2'
    split at h2'
    · cases h2'
    · rename_i ho
      cases h2'
      exact ⟨c, cs, rfl, rfl, by simpa using ho, rfl, mesh_tail⟩

theorem mesh_heed {P : Part} {q : Nat} {bs : List Mesh.Name} {k : Mesh.Stack}
    (h1 : (P.mesh code num sites me).stack = .role q k) (h2 : (P.mesh code num sites me).sess q = .recvChoice bs) :
    P.comms = [] ∧ ∃ c, P.next = some c ∧ chooser sites c ≠ me ∧ q = chooser sites c + 1 := by
  obtain ⟨cs, nx⟩ := P
  cases cs with
  | nil =>
    obtain ⟨c, a, b, d, _⟩ := partnersLast_role (show partnersLast sites me nx = .role q k from h1)
    exact ⟨rfl, c, a, b, d⟩
  | cons c cs =>
    have h1' : Mesh.Stack.role (c.partner + 1) (partnersThen (partnersLast sites me nx) cs) = .role q k := h1
    cases h1'
    have h2' := h2
    simp only [Part.mesh, sessionOf] at h2'
    rw [if_pos trivial] at h2'
    split at h2' <;> cases h2'

theorem mesh_decide {P : Part} (h1 : (P.mesh code num sites me).stack = .broadcast) :
    P.comms = [] ∧ ∃ c, P.next = some c ∧ chooser sites c = me ∧
      ∀ x, (P.mesh code num sites me).sess x = .sendChoice (branchNames num sites c) := by
  obtain ⟨cs, nx⟩ := P
  cases cs with
  | nil =>
    have h1' : partnersLast sites me nx = .broadcast := h1
    unfold partnersLast at h1'
    split at h1'
    · cases h1'
    · rename_i c
      split at h1'
      · rename_i hc
        refine ⟨rfl, c, rfl, hc, fun x => ?_⟩
        simp only [Part.mesh, sessionOf, sessionLast]
        rw [if_pos hc]
      · cases h1'
  | cons c cs => cases h1

end Meshes

theorem branchNames_mem {num : Nat → Str → Mesh.Name} {sites : List Site} {c : Nat} {N : Mesh.Name}
    (h : N ∈ branchNames num sites c) : ∃ s b, sites[c]? = some s ∧ b ∈ s.branches ∧ N = num c b := by
  unfold branchNames at h
  split at h
  · cases h
  · rename_i s hs
    obtain ⟨b, hb, rfl⟩ := List.mem_map.mp h
    exact ⟨s, b, hs, hb, rfl⟩

end Verif.BottomUp
