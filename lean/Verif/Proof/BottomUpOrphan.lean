import Verif.Proof.BottomUpRun

/-! # What is sent to a role that has ended -/
namespace Verif.BottomUp
open Verif.Check Verif.Spec

variable {n : Nat} {sites : List Site} {main : Nat → Part} {code : Str → Nat} {num : Nat → Str → Mesh.Name}
  {Y : Mesh.Sys} {root : Mesh.Name} {ts : Nat → List Trans} {part : Nat → Nat → Part} {G : Ghost} {s : Mesh.S} {cf : Config}

/-- In a run of the machines what one has sent to another is what the other has received, then what is in the queue. -/
theorem crun_fifo {w : List (Nat × Action)} {c : Config} (h : CRun n ts .init w c) (p q : Nat) :
    (w.filterMap fun a => if a.1 = p ∧ a.2.1 = true ∧ a.2.2.1 = q then some a.2.2.2 else none) =
      (w.filterMap fun a => if a.1 = q ∧ a.2.1 = false ∧ a.2.2.1 = p then some a.2.2.2 else none) ++ c.queue p q := by
  generalize h0 : Config.init = c0 at h
  induction h with
  | nil => subst h0; simp [Config.init]
  | @snoc c2 c3 w i a _ _ hs ih =>
    cases hs with
    | @send t ht hs ho =>
      by_cases hc : i = p ∧ t.partner = q
      · obtain ⟨rfl, rfl⟩ := hc
        simp [ih]
      · have h1 : ¬ (p = i ∧ q = t.partner) := fun h => hc ⟨h.1.symm, h.2.symm⟩
        simp only [List.filterMap_append, ih, List.append_assoc, if_neg h1]
        simp [hc]
    | @recv t l ht hs ho hq =>
      by_cases hc : i = q ∧ t.partner = p
      · obtain ⟨rfl, rfl⟩ := hc
        simp [ih, hq]
      · have h1 : ¬ (p = t.partner ∧ q = i) := fun h => hc ⟨h.2.symm, h.1.symm⟩
        simp only [List.filterMap_append, ih, List.append_assoc, if_neg h1]
        simp [hc]

/-- A role that has ended has done all that it has to do, in all blocks there are. -/
theorem finished_done (hO : Ok n sites main num root G) (hR : Real n sites code num G s) {i : Nat} (hi : i < n)
    (hf : Mesh.Finished s (i + 1)) : G.gen i = G.top ∧ ∀ g ≤ G.top, G.done g i = (G.blk g i).comms := by
  obtain ⟨M, hM, hst⟩ := hf
  obtain ⟨ht, rfl⟩ := held hR hi hM
  have hcn : (G.cur i).comms = [] ∧ (G.cur i).next = none := by
    generalize G.cur i = P at hst
    obtain ⟨cs, nx⟩ := P
    cases cs with
    | cons c cs => cases hst
    | nil =>
      refine ⟨rfl, ?_⟩
      cases nx with
      | none => rfl
      | some c =>
        have h1 : partnersLast sites i (some c) = .fin := hst
        unfold partnersLast at h1
        split at h1
        · rename_i h2; cases h2
        · split at h1 <;> cases h1
  have hg : G.gen i = G.top := by
    rcases Nat.lt_or_eq_of_le (hO.le i hi) with h | h
    · obtain ⟨c, _, _, _, _, h1, _⟩ := hO.path _ h
      have h2 : (G.blk (G.gen i) i).next = none := hcn.2
      rw [h1 i hi] at h2
      cases h2
    · exact h
  refine ⟨hg, fun g hle => ?_⟩
  rcases Nat.lt_or_eq_of_le hle with h | h
  · exact done_before (by omega)
  · rw [h, ← hg]
    exact done_all hcn.1

theorem finished_left (hC : Coherent n sites main) (hO : Ok n sites main num root G) (hR : Real n sites code num G s) {p q : Nat} (hp : p < n)
    (hq : q < n) (hpq : p ≠ q) (hf : Mesh.Finished s (q + 1)) (g : Nat) : G.left g p q = [] ∧ G.label sites g p q = [] := by
  obtain ⟨h1, h2⟩ := finished_done hO hR hq hf
  constructor
  · by_cases hg : g ≤ G.top
    · exact left_earlier hO hC hp hq hpq hg (h2 g hg)
    · exact left_later q (by have := hO.le p hp; omega)
  · unfold Ghost.label
    rw [if_neg]
    rintro ⟨a, _, _, b⟩
    omega

end Verif.BottomUp
