import Verif.Proof.TimedText
import Verif.Spec.TimedExecution
/-!
# Executions in time: protocols with choices and loops
-/
namespace Verif.Runtime
open Verif.Mesh (Sys Name Label upd Part Global project Comm Sync S Finished Ev view Completes actsOf)
open Verif.Types (Window)
open Verif.Timed (Clocks Fn)
open Verif.Spec Verif.Prop

variable {cl₀ : Nat → Clocks} {t₀ : Nat} {n : Nat} {D : Global} {root : Name} {V : Windows}

theorem run_part {Y : Sys} {s s' : S} {X : List Label} (h : Mesh.Run Y s X s') {r : Nat} {a : Mesh.Act} (ha : Label.act r a ∈ X) : Part Y.n r := by
  induction h with
  | nil => cases ha
  | snoc _ h1 ih =>
    rcases List.mem_append.1 ha with h2 | h2
    · exact ih h2
    · simp only [List.mem_singleton] at h2
      subst h2
      cases h1 with
      | send h1 h2 => exact ⟨h1, h2⟩
      | recv h1 h2 => exact ⟨h1, h2⟩
      | decide h1 h2 => exact ⟨h1, h2⟩
      | heed h1 h2 => exact ⟨h1, h2⟩

theorem restart_nil (m : Nat) (cl : Clocks) : restart [] m cl = cl := by funext x; simp [restart]

theorem upd_self {β : Type} (f : Nat → β) (r : Nat) : upd f r (f r) = f := by
  funext x; unfold upd; split
  · rename_i e; rw [e]
  · rfl

/-- Making a choice known takes no time and needs no clock. -/
theorem ideal_labels (w : Global.Wf n D) (hV : FreeChoices V) {X : List Label} {s s' : S} (hrun : Mesh.Run (project n D) s X s') :
    (∀ r a, Label.act r a ∈ X → (∃ N, a = .decide N) ∨ ∃ q N, a = .heed q N) →
    ∀ {ls st cl now m qs id T}, Ideal (project n D) V root cl₀ t₀ ls st cl (fun _ => []) now → now ≤ m →
      Rel n D root qs nobody st.heap st.pos s id T →
    ∃ st' now' qs' id' T', Ideal (project n D) V root cl₀ t₀ (ls ++ X.map fun l => (.sim l, m)) st' cl (fun _ => []) now' ∧ now' ≤ m ∧
      Rel n D root qs' nobody st'.heap st'.pos s' id' T' := by
  induction hrun with
  | nil => intro _ ls st cl now m qs id T hI hm R; exact ⟨st, now, qs, id, T, by simpa using hI, hm, R⟩
  | @snoc X s1 l s2 _ step ih =>
    intro hX ls st cl now m qs id T hI hm R
    obtain ⟨st1, now1, qs1, id1, T1, hI1, hm1, R1⟩ := ih (fun r a h => hX r a (by simp [h])) hI hm R
    obtain ⟨st2, id2, T2, hR, R2⟩ := go_step w R1 step
    refine ⟨st2, m, _, id2, T2, ?_, Nat.le_refl _, R2⟩
    rw [List.map_append, List.map_cons, List.map_nil, ← List.append_assoc]
    have hR0 := hR
    generalize hL : RLabel.sim l = L at hR
    have fr : ∀ p q bs, resetOf (V.choice p q bs) = [] := fun p q bs => by rw [hV]; rfl
    have me : ∀ fn p q bs cl, Meets fn (V.choice p q bs) cl m := fun fn p q bs cl => by
      rw [hV]; exact .inl ⟨⟨⟨by simp [free], by simp [free]⟩, rfl, rfl, .inr (by simp [free])⟩, .inl rfl⟩
    cases hR with
    | send => cases hL; rcases hX _ _ (List.mem_append_right _ (List.mem_singleton.2 rfl)) with ⟨_, h⟩ | ⟨_, _, h⟩ <;> cases h
    | recv => cases hL; rcases hX _ _ (List.mem_append_right _ (List.mem_singleton.2 rfl)) with ⟨_, h⟩ | ⟨_, _, h⟩ <;> cases h
    | @decide r =>
      cases hL
      have := Ideal.decide hI1 hm1 hR0
      rwa [upd_self (fun _ => ([] : List Char)) r] at this
    | @tell r N k ms todo old own e h1 e' rest h2 a1 a2 a3 a4 a5 =>
      cases hL
      have hpos := R1.posr r ⟨a1, a2⟩
      rw [a3] at hpos
      obtain ⟨-, -, hall⟩ := hpos
      obtain ⟨-, -, -, x, bs, x1, -, -, x4, -⟩ := hall (k, ms) (by simp)
      simp only at x1 x4
      rw [a4] at x1; cases x1
      have := Ideal.tell (V := V) (r := r) hI1 hm1 hR0 rfl (by rw [a3]; exact .tell a4 x4) (me _ _ _ _ _)
      rw [fr] at this
      rwa [List.append_nil, upd_self (fun _ => ([] : List Char)) r] at this
    | @enter r =>
      cases hL
      have := Ideal.enter hI1 hm1 hR0 (by simp)
      rwa [restart_nil, upd_self] at this
    | @heed r sl q e w' x bs v h1 new e' rest sl1 h2 a1 a2 a3 a4 a5 =>
      cases hL
      have := Ideal.transfer (V := V) (r := r) (fn := .recv) hI1 hm1 hR0 rfl (by rw [a3]; exact .heed a4 a5) (by simp) (me _ _ _ _ _)
      rwa [fr, restart_nil, upd_self] at this
    | _ => cases hL

/-- What happens can happen at these instants. -/
def Timely (V : Windows) : (Nat → Clocks) → Nat → List (Ev × Nat) → Prop
  | _, _, [] => True
  | cl, now, (.comm c, m) :: L => now ≤ m ∧ Meets .send (V.msg c.m) (cl c.p) m ∧ Meets .recv (V.msg c.m) (cl c.q) m ∧ Timely V (after V cl c m) m L
  | cl, now, (.sel _ _, m) :: L => now ≤ m ∧ Timely V cl m L

theorem fine_split : ∀ {L1 : List (Comm × Nat)} {L2 : List (Ev × Nat)} {cl now}, Timely V cl now (L1.map (fun a => (.comm a.1, a.2)) ++ L2) →
    Good V cl now L1 ∧ Timely V (afterAll V cl L1) (L1.foldl (fun _ a => a.2) now) L2
  | [], _, _, _, h => ⟨trivial, h⟩
  | (c, m) :: L1, L2, cl, now, h => by
    obtain ⟨h1, h2, h3, h4⟩ := h
    obtain ⟨h5, h6⟩ := fine_split h4
    exact ⟨⟨h1, h2, h3, h5⟩, h6⟩

theorem fine_le : ∀ {L : List (Ev × Nat)} {cl now now'}, Timely V cl now L → now' ≤ now → Timely V cl now' L
  | [], _, _, _, _, _ => trivial
  | (.comm c, m) :: L, cl, now, now', h, hl => ⟨Nat.le_trans hl h.1, h.2⟩
  | (.sel _ _, m) :: L, cl, now, now', h, hl => ⟨Nat.le_trans hl h.1, h.2⟩

/-- Role `r` takes part. -/
def partOf (r : Nat) : Ev → Bool
  | .comm c => decide (c.p = r ∨ c.q = r)
  | .sel _ _ => true

/-- A choice. -/
def isSel : Ev → Bool
  | .comm _ => false
  | .sel _ _ => true

/-- Lists are equal up to and after their first choices. -/
theorem first_sel {x y : Ev} (hx : isSel x = true) (hy : isSel y = true) : ∀ {a b c d : List Ev}, (∀ e ∈ a, isSel e = false) → (∀ e ∈ b, isSel e = false) →
    a ++ x :: c = b ++ y :: d → a = b ∧ x = y ∧ c = d
  | [], [], _, _, _, _, h => by simpa using h
  | [], e :: b, _, _, _, hb, h => by
    simp only [List.nil_append, List.cons_append, List.cons.injEq] at h
    rw [← h.1] at hb
    rw [hb x (by simp)] at hx; cases hx
  | e :: a, [], _, _, ha, _, h => by
    simp only [List.nil_append, List.cons_append, List.cons.injEq] at h
    rw [h.1] at ha
    rw [ha y (by simp)] at hy; cases hy
  | e :: a, e' :: b, c, d, ha, hb, h => by
    simp only [List.cons_append, List.cons.injEq] at h
    obtain ⟨h1, h2, h3⟩ := first_sel hx hy (fun e he => ha e (by simp [he])) (fun e he => hb e (by simp [he])) h.2
    exact ⟨by rw [h.1, h1], h2, h3⟩

/-- A list up to its first choice. -/
theorem split_sel : ∀ L : List (Ev × Nat), (∃ L1 : List (Comm × Nat), L = L1.map fun a => (.comm a.1, a.2)) ∨
    ∃ (L1 : List (Comm × Nat)) (p : Nat) (N : Name) (m : Nat) (L2 : List (Ev × Nat)), L = L1.map (fun a => (.comm a.1, a.2)) ++ (.sel p N, m) :: L2
  | [] => .inl ⟨[], rfl⟩
  | (.sel p N, m) :: L => .inr ⟨[], p, N, m, L, rfl⟩
  | (.comm c, m) :: L => by
    rcases split_sel L with ⟨L1, rfl⟩ | ⟨L1, p, N, m', L2, rfl⟩
    · exact .inl ⟨(c, m) :: L1, rfl⟩
    · exact .inr ⟨(c, m) :: L1, p, N, m', L2, rfl⟩

/-- What a role does in time. -/
def timedOf (r : Nat) (ls : List (RLabel × Nat)) : List (Mesh.Act × Nat) :=
  ls.filterMap fun a => match a.1 with
    | .sim (.act q x) => if q = r then some (x, a.2) else none
    | _ => none

/-- What has to be done in time. -/
def timedView (r : Nat) (L : List (Ev × Nat)) : List (Mesh.Act × Nat) := L.filterMap fun a => (view r a.1).map fun x => (x, a.2)

theorem timed_steps (r : Nat) : ∀ {L : List (Comm × Nat)}, (∀ a ∈ L, a.1.p ≠ a.1.q) →
    timedOf r (stepsOf L) = timedView r (L.map fun a => (.comm a.1, a.2))
  | [], _ => rfl
  | (c, m) :: L, h => by
    have ih := timed_steps r (L := L) fun a ha => h a (by simp [ha])
    have hne : c.p ≠ c.q := h (c, m) (by simp)
    unfold timedOf timedView stepsOf at ih ⊢
    rw [List.flatMap_cons, List.filterMap_append, ih, List.map_cons, List.filterMap_cons]
    simp only [List.filterMap_cons, List.filterMap_nil, view]
    by_cases k1 : c.p = r
    · have k2 : c.q ≠ r := fun e => hne (k1.trans e.symm)
      simp [k1, k2]
    · by_cases k2 : c.q = r <;> simp [k1, k2]

theorem timed_labels (r m : Nat) (X : List Label) : timedOf r (X.map fun l => (.sim l, m)) = (actsOf r X).map fun x => (x, m) := by
  unfold timedOf actsOf
  rw [List.filterMap_map, List.map_filterMap]
  refine List.filterMap_congr fun l _ => ?_
  cases l with
  | act q x => by_cases e : q = r <;> simp [e]
  | _ => rfl

theorem timed_append (r : Nat) (a b : List (RLabel × Nat)) : timedOf r (a ++ b) = timedOf r a ++ timedOf r b := List.filterMap_append
theorem view_append (r : Nat) (a b : List (Ev × Nat)) : timedView r (a ++ b) = timedView r a ++ timedView r b := List.filterMap_append

/-- The same messages for each role. -/
theorem sync_filter {s : S} {g : Nat} {cs cs' : List Comm} {t : Mesh.Tail} (h : Sync n s g cs t)
    (hc : ∀ r, Part n r → (cs.filter fun c => c.p = r ∨ c.q = r) = cs'.filter fun c => c.p = r ∨ c.q = r) : Sync n s g cs' t := by
  refine ⟨h.gen, fun r hr => ?_, h.queue⟩
  rw [h.pos r hr, ← Mesh.meshOf_filter r _ cs, hc r hr, Mesh.meshOf_filter]

theorem filter_comms (r : Nat) (cs : List Comm) : (cs.map Ev.comm).filter (partOf r) = (cs.filter fun c => c.p = r ∨ c.q = r).map Ev.comm := by
  rw [List.filter_map]; rfl

theorem comm_inj : Function.Injective Ev.comm := fun a b h => by cases h; rfl

/-- An execution at given instants, from the beginning of a block on. -/
theorem ideal_completes (w : Global.Wf n D) (hV : FreeChoices V) {N : Name} {tr : List Ev} (h : Completes D N tr) :
    ∀ {L : List (Ev × Nat)} {ls st cl now qs s id T g}, Ideal (project n D) V root cl₀ t₀ ls st cl (fun _ => []) now →
      Rel n D root qs nobody st.heap st.pos s id T → Sync n s g (D N).comms (D N).tail →
      (∀ r, Part n r → (L.map (·.1)).filter (partOf r) = tr.filter (partOf r)) →
      (∀ c m, (Ev.comm c, m) ∈ L → Part n c.p ∧ Part n c.q ∧ c.p ≠ c.q) → Timely V cl now L →
      ∃ ext st' cl' now', Ideal (project n D) V root cl₀ t₀ (ls ++ ext) st' cl' (fun _ => []) now' ∧ AllClosed (project n D) st' ∧
        ∀ r, Part n r → timedOf r ext = timedView r L := by
  have hone : Part n 1 := by have := w.1; exact ⟨Nat.le_refl _, by omega⟩
  have noSel : ∀ (r : Nat) (cs : List Comm), ∀ e ∈ (cs.map Ev.comm).filter (partOf r), isSel e = false := by
    intro r cs e he
    obtain ⟨c, -, rfl⟩ := List.mem_map.1 (List.mem_filter.1 he).1
    rfl
  have mapc : ∀ L1 : List (Comm × Nat), (L1.map fun a => (Ev.comm a.1, a.2)).map (·.1) = (L1.map (·.1)).map Ev.comm := by
    intro L1; simp [Function.comp_def]
  induction h with
  | @stop N ht =>
    intro L ls st cl now qs s id T g hI R hS hL hw hF
    rcases split_sel L with ⟨L1, rfl⟩ | ⟨L1, p, N', m, L2, rfl⟩
    · have hc : ∀ r, Part n r → ((D N).comms.filter fun c => c.p = r ∨ c.q = r) = (L1.map (·.1)).filter fun c => c.p = r ∨ c.q = r := by
        intro r hr
        have := hL r hr
        rw [mapc, filter_comms, filter_comms] at this
        exact (List.map_injective_iff.2 comm_inj this).symm
      have hw1 : ∀ a ∈ L1, Part n a.1.p ∧ Part n a.1.q ∧ a.1.p ≠ a.1.q := fun a ha => hw a.1 a.2 (List.mem_map.2 ⟨a, ha, rfl⟩)
      have hG := (fine_split (L2 := []) (by simpa using hF)).1
      obtain ⟨st', qs', s', id', T', k1, k2, k3⟩ := ideal_comms w hI R (sync_filter hS hc) hw1 hG
      rw [ht] at k3
      generalize afterAll V cl L1 = cl' at k1
      generalize L1.foldl (fun _ a => a.2) now = now' at k1
      obtain ⟨st'', ⟨ext, h1, h2⟩, h3⟩ := finish_by w
        (P := fun st => ∃ ext, Ideal (project n D) V root cl₀ t₀ (ls ++ (stepsOf L1 ++ ext)) st cl' (fun _ => []) now' ∧ ∀ r, timedOf r ext = [])
        ⟨[], by simpa using k1, fun _ => rfl⟩ (by
          rintro st l st' ⟨ext, h1, h2⟩ hl hs
          have hu : Untimed l := by
            cases l with
            | sim x => exact absurd rfl (hl x)
            | _ => trivial
          refine ⟨ext ++ [(l, now')], by rw [← List.append_assoc, ← List.append_assoc, List.append_assoc ls]; exact .calm h1 (Nat.le_refl _) hu hs, ?_⟩
          intro r
          rw [timed_append, h2 r]
          cases l with
          | sim x => exact absurd rfl (hl x)
          | _ => rfl) k2 (fun r hr => ⟨_, k3.pos r hr, rfl⟩)
      refine ⟨_, st'', cl', now', h1, h3, fun r hr => ?_⟩
      rw [timed_append, h2 r, List.append_nil, timed_steps r fun a ha => (hw1 a ha).2.2]
    · exfalso
      have := hL 1 hone
      rw [List.map_append, List.filter_append] at this
      have hin : Ev.sel p N' ∈ ((D N).comms.map Ev.comm).filter (partOf 1) := by
        rw [← this]
        refine List.mem_append_right _ (List.mem_filter.2 ⟨by simp, rfl⟩)
      have := noSel 1 _ _ hin
      cases this
  | @go N p bs N' tr ht hN hc ih =>
    intro L ls st cl now qs s id T g hI R hS hL hw hF
    rcases split_sel L with ⟨L1, rfl⟩ | ⟨L1, p', N'', m, L2, rfl⟩
    · exfalso
      have := hL 1 hone
      rw [mapc] at this
      have hin : Ev.sel p N' ∈ ((L1.map (·.1)).map Ev.comm).filter (partOf 1) := by
        rw [this]
        refine List.mem_filter.2 ⟨by simp, rfl⟩
      have := noSel 1 _ _ hin
      cases this
    · have key : ∀ r, Part n r → ((L1.map (·.1)).map Ev.comm).filter (partOf r) = ((D N).comms.map Ev.comm).filter (partOf r) ∧
          Ev.sel p' N'' = Ev.sel p N' ∧ (L2.map (·.1)).filter (partOf r) = tr.filter (partOf r) := by
        intro r hr
        have := hL r hr
        rw [List.map_append, mapc, List.filter_append, List.filter_append, List.map_cons, List.filter_cons_of_pos (by rfl),
          List.filter_cons_of_pos (by rfl)] at this
        exact first_sel rfl rfl (noSel r _) (noSel r _) this
      have hsel := (key 1 hone).2.1
      cases hsel
      have hcm : ∀ r, Part n r → ((D N).comms.filter fun c => c.p = r ∨ c.q = r) = (L1.map (·.1)).filter fun c => c.p = r ∨ c.q = r := by
        intro r hr
        have := (key r hr).1
        rw [filter_comms, filter_comms] at this
        exact (List.map_injective_iff.2 comm_inj this).symm
      have hw1 : ∀ a ∈ L1, Part n a.1.p ∧ Part n a.1.q ∧ a.1.p ≠ a.1.q := fun a ha =>
        hw a.1 a.2 (List.mem_append_left _ (List.mem_map.2 ⟨a, ha, rfl⟩))
      obtain ⟨hG, hF2⟩ := fine_split hF
      obtain ⟨st1, qs1, s1, id1, T1, k1, k2, k3⟩ := ideal_comms w hI R (sync_filter hS hcm) hw1 hG
      rw [ht] at k3
      obtain ⟨X, s2, hX, hS2, hacts⟩ := Mesh.sync_choice (D := D) k3 ((w.2 N).2 p bs ht).1 hN
      obtain ⟨hm, hF3⟩ := hF2
      obtain ⟨st2, now2, qs2, id2, T2, j1, j2, j3⟩ := ideal_labels w hV hX (by
        intro r a ha
        have hr : Part n r := run_part hX ha
        have hin : a ∈ actsOf r X := by
          unfold actsOf
          exact List.mem_filterMap.2 ⟨_, ha, by simp⟩
        rw [hacts r hr] at hin
        by_cases e : p = r
        · rw [List.filterMap_cons_some (b := .decide N') (by simp [view, e])] at hin
          exact .inl ⟨_, List.mem_singleton.1 hin⟩
        · rw [List.filterMap_cons_some (b := .heed p N') (by simp [view, e])] at hin
          exact .inr ⟨_, _, List.mem_singleton.1 hin⟩) k1 hm k2
      obtain ⟨ext, st', cl', now', i1, i2, i3⟩ := ih j1 j3 hS2 (fun r hr => (key r hr).2.2) (fun c m' hcm => hw c m' (by simp [hcm])) (fine_le hF3 j2)
      refine ⟨stepsOf L1 ++ (X.map (fun l => (.sim l, m)) ++ ext), st', cl', now', by rw [← List.append_assoc, ← List.append_assoc]; exact i1, i2, fun r hr => ?_⟩
      rw [timed_append, timed_append, timed_steps r fun a ha => (hw1 a ha).2.2, timed_labels, i3 r hr, hacts r hr, view_append]
      congr 1
      by_cases e : p = r <;> simp [timedView, view, e]

/-- An execution at given instants. -/
theorem ideal_execution (w : Global.Wf n D) (hV : FreeChoices V) {tr : List Ev} (h : Completes D root tr) {L : List (Ev × Nat)}
    (hL : ∀ r, Part n r → (L.map (·.1)).filter (partOf r) = tr.filter (partOf r))
    (hw : ∀ c m, (Ev.comm c, m) ∈ L → Part n c.p ∧ Part n c.q ∧ c.p ≠ c.q) (hcl : ∀ r x c, cl₀ r x = some c → c ≤ t₀) (hF : Timely V cl₀ t₀ L) :
    ∃ ls st cl now, Ideal (project n D) V root cl₀ t₀ ls st cl (fun _ => []) now ∧ AllClosed (project n D) st ∧
      ∀ r, Part n r → timedOf r ls = timedView r L := by
  have hn : 1 ≤ n := by have := w.1; omega
  obtain ⟨st, hst⟩ := start_exists (D := D) (root := root) hn
  obtain ⟨ext, st', cl', now', h1, h2, h3⟩ := ideal_completes w hV h (Ideal.start (V := V) hst hcl) (start_spec hn hst)
    (Mesh.sync_start (n := n) (D := D) root) hL hw hF
  exact ⟨_, st', cl', now', by simpa using h1, h2, h3⟩

end Verif.Runtime
