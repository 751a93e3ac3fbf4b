import Verif.Proof.TimedIdeal
import Verif.Proof.NuscrSchedule
import Verif.Proof.MeshPossible
import Verif.Prop.C53
/-!
# Straight protocols in time: all messages at given instants
-/
namespace Verif.Mesh

/-- What a role does depends only on the messages in which it takes part. -/
theorem meshOf_filter (r : Nat) (t : Tail) : ∀ cs : List Comm, meshOf r (cs.filter fun c => c.p = r ∨ c.q = r) t = meshOf r cs t
  | [] => rfl
  | c :: cs => by
    have ih := meshOf_filter r t cs
    by_cases h : c.p = r ∨ c.q = r
    · rw [List.filter_cons_of_pos (by simpa using h)]
      have e1 : ∀ q, sessOf r q (cs.filter fun c => c.p = r ∨ c.q = r) t = sessOf r q cs t := fun q => congrFun (congrArg Mesh.sess ih) q
      have e2 : stackOf r (cs.filter fun c => c.p = r ∨ c.q = r) t = stackOf r cs t := congrArg Mesh.stack ih
      simp only [meshOf, sessOf, stackOf, e1, e2]
    · rw [List.filter_cons_of_neg (by simpa using h), ih, meshOf_skip (fun e => h (.inl e)) (fun e => h (.inr e))]

end Verif.Mesh

namespace Verif.Runtime
open Verif.Mesh (Sys Name Label upd Part Global project Comm Sync S Finished)
open Verif.Types (Window)
open Verif.Timed (Clocks Fn)
open Verif.Spec Verif.Prop

variable {cl₀ : Nat → Clocks} {t₀ : Nat} {n : Nat} {D : Global} {root : Name} {V : Windows}

/-- The clocks after the exchange of a message at an instant. -/
def after (V : Windows) (cl : Nat → Clocks) (c : Comm) (m : Nat) : Nat → Clocks :=
  upd (upd cl c.p (restart (resetOf (V.msg c.m)) m (cl c.p))) c.q (restart (resetOf (V.msg c.m)) m (cl c.q))

/-- The messages can be exchanged one after the other, each at its instant. -/
def Good (V : Windows) : (Nat → Clocks) → Nat → List (Comm × Nat) → Prop
  | _, _, [] => True
  | cl, now, (c, m) :: L => now ≤ m ∧ Meets .send (V.msg c.m) (cl c.p) m ∧ Meets .recv (V.msg c.m) (cl c.q) m ∧ Good V (after V cl c m) m L

/-- The steps of these exchanges. -/
def stepsOf (L : List (Comm × Nat)) : List (RLabel × Nat) :=
  L.flatMap fun a => [(.sim (.act a.1.p (.send a.1.q a.1.m)), a.2), (.sim (.act a.1.q (.recv a.1.p a.1.m)), a.2)]

/-- The clocks after all of them. -/
def afterAll (V : Windows) (cl : Nat → Clocks) (L : List (Comm × Nat)) : Nat → Clocks := L.foldl (fun cl a => after V cl a.1 a.2) cl

theorem ideal_comms (w : Global.Wf n D) {g : Nat} {t : Mesh.Tail} : ∀ {L : List (Comm × Nat)} {ls : List (RLabel × Nat)} {st : RS} {cl noted now qs s id T},
    Ideal (project n D) V root cl₀ t₀ ls st cl noted now → Rel n D root qs nobody st.heap st.pos s id T →
    Sync n s g (L.map (·.1)) t → (∀ a ∈ L, Part n a.1.p ∧ Part n a.1.q ∧ a.1.p ≠ a.1.q) → Good V cl now L →
    ∃ st' qs' s' id' T', Ideal (project n D) V root cl₀ t₀ (ls ++ stepsOf L) st' (afterAll V cl L) noted (L.foldl (fun _ a => a.2) now) ∧
      Rel n D root qs' nobody st'.heap st'.pos s' id' T' ∧ Sync n s' g [] t
  | [], ls, st, cl, noted, now, qs, s, id, T, hI, R, hS, _, _ => by
    exact ⟨st, qs, s, id, T, by simpa [stepsOf, afterAll] using hI, R, hS⟩
  | (c, m) :: L, ls, st, cl, noted, now, qs, s, id, T, hI, R, hS, hw, hG => by
    obtain ⟨hp, hq, hne⟩ := hw (c, m) (by simp)
    obtain ⟨hm, hs1, hr1, hG'⟩ := hG
    obtain ⟨s2, hrun, hS'⟩ := Mesh.sync_comm (D := D) hS hp hq hne
    generalize hX : [Label.act c.p (.send c.q c.m), .act c.q (.recv c.p c.m)] = X at hrun
    cases hrun with
    | nil => cases hX
    | @snoc X1 s1 l2 _ hrun1 step2 =>
      obtain ⟨rfl, rfl⟩ : X1 = [Label.act c.p (.send c.q c.m)] ∧ l2 = .act c.q (.recv c.p c.m) := by
        have h : [Label.act c.p (.send c.q c.m)] ++ [.act c.q (.recv c.p c.m)] = X1 ++ [l2] := hX
        have := List.append_inj' h rfl
        exact ⟨this.1.symm, by simpa using this.2.symm⟩
      generalize hX1 : [Label.act c.p (.send c.q c.m)] = X1 at hrun1
      cases hrun1 with
      | nil => cases hX1
      | @snoc X0 s0 l1 _ hrun0 step1 =>
        obtain ⟨rfl, rfl⟩ : X0 = [] ∧ l1 = .act c.p (.send c.q c.m) := by
          have h : [] ++ [Label.act c.p (.send c.q c.m)] = X0 ++ [l1] := hX1
          have := List.append_inj' h rfl
          exact ⟨this.1.symm, by simpa using this.2.symm⟩
        obtain rfl : s0 = s := by
          generalize hX0 : ([] : List Label) = X0 at hrun0
          cases hrun0 with
          | nil => rfl
          | snoc => simp at hX0
        obtain ⟨st1, id1, T1, hR1, R1⟩ := go_step w R step1
        obtain ⟨st2, id2, T2, hR2, R2⟩ := go_step w R1 step2
        have hI1 : Ideal (project n D) V root cl₀ t₀ (ls ++ [(.sim (.act c.p (.send c.q c.m)), m)]) st1
            (upd cl c.p (restart (resetOf (V.msg c.m)) m (cl c.p))) noted m := by
          have : ∃ op, TCall (project n D) V c.p (st.pos c.p) .send (V.msg c.m) op (.sim (.act c.p (.send c.q c.m))) := by
            generalize hl : RLabel.sim (.act c.p (.send c.q c.m)) = l at hR1
            cases hR1 with
            | send a1 a2 a3 a4 a5 => cases hl; exact ⟨_, by rw [a3]; exact .send (d := 0) a4 a5⟩
            | _ => cases hl
          obtain ⟨op, hc⟩ := this
          exact .transfer hI hm hR1 rfl hc (by simp) hs1
        have hI2 : Ideal (project n D) V root cl₀ t₀ ((ls ++ [(.sim (.act c.p (.send c.q c.m)), m)]) ++ [(.sim (.act c.q (.recv c.p c.m)), m)]) st2
            (after V cl c m) noted m := by
          have : ∃ op, TCall (project n D) V c.q (st1.pos c.q) .recv (V.msg c.m) op (.sim (.act c.q (.recv c.p c.m))) := by
            generalize hl : RLabel.sim (.act c.q (.recv c.p c.m)) = l at hR2
            cases hR2 with
            | recv a1 a2 a3 a4 a5 => cases hl; exact ⟨_, by rw [a3]; exact .recv a4 a5⟩
            | _ => cases hl
          obtain ⟨op, hc⟩ := this
          have hcl : upd cl c.p (restart (resetOf (V.msg c.m)) m (cl c.p)) c.q = cl c.q := Mesh.upd_other _ _ (Ne.symm hne)
          have := Ideal.transfer (r := c.q) hI1 (Nat.le_refl m) hR2 rfl hc (by simp) (by rw [hcl]; exact hr1)
          rw [hcl] at this
          exact this
        obtain ⟨st', qs', s', id', T', k1, k2, k3⟩ := ideal_comms w hI2 R2 hS' (fun a ha => hw a (by simp [ha])) hG'
        refine ⟨st', qs', s', id', T', ?_, k2, k3⟩
        have e : ls ++ stepsOf ((c, m) :: L) = ls ++ [(.sim (.act c.p (.send c.q c.m)), m)] ++ [(.sim (.act c.q (.recv c.p c.m)), m)] ++ stepsOf L := by
          simp [stepsOf]
        rw [e]
        exact k1

/-- A protocol without choices in time: its messages in some order which is that of the protocol for each role. -/
theorem ideal_straight (w : Global.Wf n D) {L : List (Comm × Nat)} (ht : (D root).tail = .fin)
    (hL : ∀ r, Part n r → ((D root).comms.filter fun c => c.p = r ∨ c.q = r) = (L.map (·.1)).filter fun c => c.p = r ∨ c.q = r)
    (hw : ∀ a ∈ L, Part n a.1.p ∧ Part n a.1.q ∧ a.1.p ≠ a.1.q)
    (hcl : ∀ r x c, cl₀ r x = some c → c ≤ t₀) (hG : Good V cl₀ t₀ L) :
    ∃ ext st cl' noted now', Ideal (project n D) V root cl₀ t₀ (stepsOf L ++ ext) st cl' noted now' ∧ AllClosed (project n D) st ∧
      ∀ a ∈ ext, Untimed a.1 := by
  have hn : 1 ≤ n := by have := w.1; omega
  obtain ⟨st, hst⟩ := start_exists (D := D) (root := root) hn
  have hS : Sync n (S.init (project n D) root) 0 (L.map (·.1)) (D root).tail := by
    have := Mesh.sync_start (n := n) (D := D) root
    refine ⟨this.gen, fun r hr => ?_, this.queue⟩
    rw [this.pos r hr, ← Mesh.meshOf_filter r _ (D root).comms, hL r hr, Mesh.meshOf_filter]
  obtain ⟨st', qs', s', id', T', k1, k2, k3⟩ := ideal_comms w (Ideal.start (V := V) hst hcl) (start_spec hn hst) hS hw hG
  rw [ht] at k3
  generalize afterAll V cl₀ L = cl' at k1
  generalize L.foldl (fun _ a => a.2) t₀ = now' at k1
  obtain ⟨st'', ⟨ext, h1, h2⟩, h3⟩ := finish_by w
    (P := fun st => ∃ ext, Ideal (project n D) V root cl₀ t₀ (stepsOf L ++ ext) st cl' (fun _ => []) now' ∧ ∀ a ∈ ext, Untimed a.1)
    ⟨[], by simpa using k1, by simp⟩ (by
      rintro st l st' ⟨ext, h1, h2⟩ hl hs
      have hu : Untimed l := by
        cases l with
        | sim x => exact absurd rfl (hl x)
        | _ => trivial
      refine ⟨ext ++ [(l, now')], by rw [← List.append_assoc]; exact .calm h1 (Nat.le_refl _) hu hs, ?_⟩
      intro a ha
      rcases List.mem_append.1 ha with h | h
      · exact h2 a h
      · simp only [List.mem_singleton] at h; subst h; exact hu) k2 (fun r hr => ⟨_, k3.pos r hr, rfl⟩)
  exact ⟨ext, st'', cl', _, now', h1, h3, h2⟩

end Verif.Runtime
