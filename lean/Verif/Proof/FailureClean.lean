import Verif.Proof.FailureLive
/-!
# Nothing is left when all roles have failed or closed
-/
namespace Verif.Runtime
open Verif.Mesh (Sys Name Sess Stack Label upd Part Global project S others mem_others Finished CanMove)
open Verif.Types (STy)
open Verif.Heap hiding upd
open Verif.Spec Verif.SendRecv
open Verif.Gen (slot_partner partner_slot slot_range partner_role slotOf_inj partner_inj)

variable {n : Nat} {D : Global} {root : Name} {ls : List Label} {dead : Nat → Bool} {h : Heap.St Pay} {pos : Nat → Pos} {s : S} {id : Ids} {T : Nat}

/-- The session and side of an endpoint. -/
theorem Rel.name (R : Rel n D root ls dead h pos s id T) {e : Entry Pay} (he : Occ (env (project n D)) h e) :
    ∃ g p q, g ≤ T ∧ Part n p ∧ Part n q ∧ p ≠ q ∧ e.ep.sid = id g p q ∧ e.ep.side = side p q := by
  obtain ⟨g1, p1, q1, hgT, hp1, hq1, hne1, hid⟩ := R.sur _ ((reach_inv R.reach).occ e he).sid
  rcases side_pair (b := e.ep.side) hne1 with e' | e'
  · exact ⟨g1, p1, q1, hgT, hp1, hq1, hne1, hid, e'⟩
  · exact ⟨g1, q1, p1, hgT, hq1, hp1, Ne.symm hne1, by rw [hid, R.idc], e'⟩

/-- Roles that failed or closed hold nothing. -/
theorem over_pool (R : Rel n D root ls dead h pos s id T) (ho : ∀ r, Part n r → dead r = true ∨ pos r = .closed) :
    h.pool = [] := by
  have e : (List.range' 1 n).flatMap (held dead pos) = [] := by
    rw [List.flatMap_eq_nil_iff]
    intro r hr
    rw [List.mem_range'_1] at hr
    rcases ho r ⟨by omega, by omega⟩ with h1 | h1 <;> simp [held, h1, own]
  have := R.perm
  rw [e] at this
  exact this.eq_nil

/-- When all roles have failed or closed and all drops are carried out, no resource is left. -/
theorem over_clean (w : Global.Wf n D) (R : Rel n D root ls dead h pos s id T)
    (ho : ∀ r, Part n r → dead r = true ∨ pos r = .closed) (hg : h.garb = []) (t : Tok) : Heap.cnt h t = 0 := by
  have inv := reach_inv R.reach
  have none : ∀ e, ¬ Occ (env (project n D)) h e := by
    intro e he
    obtain ⟨g, p, q, hgT, hp, hq, hne, h1, h2⟩ := R.name he
    obtain ⟨t, ht⟩ : ∃ t, t ∈ e.ep.halves := by unfold EP.halves; cases e.ep.node <;> simp
    rcases (R.gone w hgT hp hq hne e he h1 h2).resolve_right fun hl => Adrift.none hg (hl t ht) with
      ⟨a1, a2⟩ | ⟨x, N, todo, old, ow, hx, hdx, hpx, -⟩
    · rcases ho p hp with h3 | h3
      · rw [h3] at a1; cases a1
      · exact a2 h3
    · rcases ho x hx with h3 | h3
      · rw [h3] at hdx; cases hdx
      · rw [h3] at hpx; cases hpx
  rcases Nat.eq_zero_or_pos (Heap.cnt h t) with h0 | h0
  · exact h0
  · exfalso
    rcases cnt_cases h0 with h1 | ⟨c, hcl, h1⟩ | h1
    · rw [over_pool R ho] at h1; cases h1
    · unfold bufToks at h1
      cases hb : (h.chan c).buf with
      | none => rw [hb] at h1; cases h1
      | some m =>
        have hrx := (inv.bufs c m hb).1
        have hcnt : 0 < Heap.cnt h (.rx c) := by rw [inv.crx, hrx]; simp
        obtain ⟨e2, he2, -⟩ := inv.held hcnt (by rw [hg]; simp) (by simp)
        exact none e2 he2
    · rw [hg] at h1; cases h1

end Verif.Runtime
