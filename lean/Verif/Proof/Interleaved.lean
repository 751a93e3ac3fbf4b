import Verif.Spec.Interleaved
import Verif.Proof.RuntimeFair
import Verif.Prop.C44
import Mathlib.Data.List.Induction
/-!
# Protocols that share threads
-/
namespace Verif.Interleaved
open Verif.Mesh (Sys Name Global project upd Part Label)
open Verif.Runtime

theorem closed_stuck {Y : Sys} {h pos l st r} (hs : RStep Y h pos l st) (ha : l.actor = some r) : pos r ≠ .closed := by
  cases hs <;> simp only [RLabel.actor, Mesh.Label.actor, Option.some.injEq, reduceCtorEq] at ha <;> subst ha <;> simp_all

theorem actor_part {Y : Sys} {h pos l st r} (hs : RStep Y h pos l st) (ha : l.actor = some r) : 1 ≤ r ∧ r ≤ Y.n := by
  cases hs <;> simp only [RLabel.actor, Mesh.Label.actor, Option.some.injEq, reduceCtorEq] at ha <;> subst ha <;>
    exact ⟨by assumption, by assumption⟩

theorem next_exists (P : Prog) (sess : Nat → RS) (t : Nat) : ∃ a, Next P sess t a := by
  by_cases h : ∃ j r, Open P sess t j r
  · obtain ⟨j, r, h⟩ := h; exact ⟨some (j, r), h⟩
  · exact ⟨none, fun j r hx => h ⟨j, r, hx⟩⟩

theorem start_turns {P : Prog} (sess : Nat → RS) (h : ∀ j, j < P.count → Start (P.sys j) (P.root j) (sess j)) :
    ∃ s : IS, IStart P s ∧ s.sess = sess :=
  ⟨⟨sess, fun t => (next_exists P sess t).choose⟩, ⟨h, fun t => (next_exists P sess t).choose_spec⟩, rfl⟩

/-- A step of another thread does not change which meshes a thread has closed. -/
theorem open_iff {P : Prog} {s : IS} {j l st} (hs : RStep (P.sys j) (s.sess j).heap (s.sess j).pos l st) {t : Nat}
    (ht : ∀ r, l.actor = some r → P.thread j r ≠ t) (i q : Nat) : Open P (upd s.sess j st) t i q ↔ Open P s.sess t i q := by
  unfold Open
  by_cases e : i = j
  · subst e
    by_cases hq : l.actor = some q
    · constructor <;> intro hx <;> exact absurd hx.2.2.1 (ht q hq)
    · rw [show upd s.sess i st i = st by simp [upd], rstep_other hs hq]
  · rw [show upd s.sess j st i = s.sess i by simp [upd, e]]

theorem next_keep {P : Prog} {s : IS} {j l st} (hs : RStep (P.sys j) (s.sess j).heap (s.sess j).pos l st) {t : Nat}
    (ht : ∀ r, l.actor = some r → P.thread j r ≠ t) {a} (h : Next P s.sess t a) : Next P (upd s.sess j st) t a := by
  cases a with
  | none => exact fun i q hx => h i q ((open_iff hs ht i q).1 hx)
  | some x => exact (open_iff hs ht _ _).2 h

theorem next_iff {P : Prog} {s : IS} {j l st} (hs : RStep (P.sys j) (s.sess j).heap (s.sess j).pos l st) {t : Nat}
    (ht : ∀ r, l.actor = some r → P.thread j r ≠ t) {a} (h : Next P (upd s.sess j st) t a) : Next P s.sess t a := by
  cases a with
  | none => exact fun i q hx => h i q ((open_iff hs ht i q).2 hx)
  | some x => exact (open_iff hs ht _ _).1 h

theorem step_turns {P : Prog} {s s' : IS} {l} (hs : IStep P s l s') (h : ∀ t, Next P s.sess t (s.turn t)) :
    ∀ t, Next P s'.sess t (s'.turn t) := by
  intro t
  cases hs with
  | @call j l r st a h1 h2 h3 h4 h5 =>
    by_cases e : t = P.thread j r
    · subst e; simpa [upd] using h5
    · have : upd s.turn (P.thread j r) a t = s.turn t := by simp [upd, e]
      change Next P (upd s.sess j st) t (upd s.turn (P.thread j r) a t)
      rw [this]
      refine next_keep h4 (fun q hq => ?_) (h t)
      rw [h2] at hq; cases hq; exact fun hx => e hx.symm
  | @gc j st h1 h2 => exact next_keep h2 (fun q hq => by cases hq) (h t)

theorem run_turns {P : Prog} {ls s} (h : IRun P ls s) : ∀ t, Next P s.sess t (s.turn t) := by
  induction h with
  | start hs => exact hs.turn
  | snoc _ hs ih => exact step_turns hs ih

/-- A step of protocol `j` is a step of that protocol and of no other. -/
theorem step_part {P : Prog} {s s' : IS} {j l} (hs : IStep P s (j, l) s') :
    RStep (P.sys j) (s.sess j).heap (s.sess j).pos l (s'.sess j) ∧ (∀ i, i ≠ j → s'.sess i = s.sess i) := by
  cases hs with
  | call h1 h2 h3 h4 h5 => exact ⟨by simpa [upd] using h4, fun i hi => by simp [upd, hi]⟩
  | gc h1 h2 => exact ⟨by simpa [upd] using h2, fun i hi => by simp [upd, hi]⟩

theorem run_part {P : Prog} {ls s} (h : IRun P ls s) {j : Nat} (hj : j < P.count) :
    RRun (P.sys j) (P.root j) (part j ls) (s.sess j) := by
  induction h with
  | start hs => exact .start (hs.sess j hj)
  | @snoc ls s l s' _ hs ih =>
    obtain ⟨i, l⟩ := l
    obtain ⟨h1, h2⟩ := step_part hs
    by_cases e : i = j
    · subst e
      have : part i (ls ++ [(i, l)]) = part i ls ++ [l] := by simp [part]
      rw [this]
      exact .snoc ih h1
    · have : part j (ls ++ [(i, l)]) = part j ls := by simp [part, e]
      rw [this, h2 j (fun x => e x.symm)]
      exact ih

theorem run_last {Y : Sys} {root : Name} {ls : List RLabel} {l : RLabel} {s : RS} (h : RRun Y root (ls ++ [l]) s) :
    ∃ s0, RRun Y root ls s0 ∧ RStep Y s0.heap s0.pos l s := by
  generalize e : ls ++ [l] = L at h
  cases h with
  | start => simp at e
  | @snoc ls' s0 l' _ h1 h2 =>
    obtain ⟨rfl, e2⟩ := List.append_inj' e rfl
    cases e2
    exact ⟨s0, h1, h2⟩

/-- The steps of the protocols in any order are a run, for some order of the calls in the functions of the threads. -/
theorem any_order {P : Prog} {ls : List (Nat × RLabel)} : ∀ {sess : Nat → RS} {turn : Nat → Option (Nat × Nat)},
    (∀ x ∈ ls, x.1 < P.count) → (∀ j, j < P.count → RRun (P.sys j) (P.root j) (part j ls) (sess j)) →
    (∀ t, Next P sess t (turn t)) → IRun P ls ⟨sess, turn⟩ := by
  induction ls using List.reverseRecOn with
  | nil =>
    intro sess turn _ hr ht
    refine .start ⟨fun j hj => ?_, ht⟩
    have := hr j hj
    change RRun _ _ [] _ at this
    generalize e : ([] : List RLabel) = L at this
    cases this with
    | start hs => exact hs
    | snoc _ _ => simp at e
  | append_singleton ls x ih =>
    intro sess turn hc hr ht
    obtain ⟨j, l⟩ := x
    have hj : j < P.count := hc (j, l) (by simp)
    have ej : part j (ls ++ [(j, l)]) = part j ls ++ [l] := by simp [part]
    have h1 := hr j hj
    rw [ej] at h1
    obtain ⟨s0, h2, h3⟩ := run_last h1
    have hu : upd (upd sess j s0) j (sess j) = sess := by
      funext i; by_cases e : i = j
      · subst e; simp [upd]
      · simp [upd, e]
    have h3' : RStep (P.sys j) (upd sess j s0 j).heap (upd sess j s0 j).pos l (sess j) := by simpa [upd] using h3
    have hparts : ∀ i, i < P.count → RRun (P.sys i) (P.root i) (part i ls) (upd sess j s0 i) := by
      intro i hi
      by_cases e : i = j
      · subst e; simpa [upd] using h2
      · have := hr i hi
        rw [show part i (ls ++ [(j, l)]) = part i ls by
          have e' : ¬ j = i := fun x => e x.symm
          simp [part, e']] at this
        simpa [upd, e] using this
    have hc' : ∀ x ∈ ls, x.1 < P.count := fun x hx => hc x (by simp [hx])
    cases ha : l.actor with
    | none =>
      have hl : l = .gc := by cases l <;> simp_all [RLabel.actor]
      subst hl
      have hp := ih (sess := upd sess j s0) (turn := turn) hc' hparts fun t =>
        next_iff (s := ⟨upd sess j s0, turn⟩) h3' (fun r hr => by cases hr) (by rw [hu]; exact ht t)
      have hg := IStep.gc (P := P) (s := ⟨upd sess j s0, turn⟩) hj h3'
      change IStep P _ _ ⟨upd (upd sess j s0) j (sess j), turn⟩ at hg
      rw [hu] at hg
      exact .snoc hp hg
    | some r =>
      let t := P.thread j r
      have hp := ih (sess := upd sess j s0) (turn := upd turn t (some (j, r))) hc' hparts fun t' => by
        by_cases e : t' = t
        · subst e
          rw [show upd turn t (some (j, r)) t = some (j, r) by simp [upd]]
          exact ⟨hj, actor_part h3' ha, rfl, closed_stuck h3' ha⟩
        · rw [show upd turn t (some (j, r)) t' = turn t' by simp [upd, e]]
          refine next_iff (s := ⟨upd sess j s0, turn⟩) h3' (fun r' hr' => ?_) (by rw [hu]; exact ht t')
          rw [ha] at hr'; cases hr'; exact fun hx => e hx.symm
      have hg := IStep.call (P := P) (s := ⟨upd sess j s0, upd turn t (some (j, r))⟩) (a := turn t) hj ha
        (show upd turn t (some (j, r)) t = some (j, r) by simp [upd]) h3'
        (by change Next P (upd (upd sess j s0) j (sess j)) t (turn t); rw [hu]; exact ht t)
      change IStep P _ _ ⟨upd (upd sess j s0) j (sess j), upd (upd turn t (some (j, r))) t (turn t)⟩ at hg
      have hv : upd (upd turn t (some (j, r))) t (turn t) = turn := by
        funext x; by_cases e : x = t
        · subst e; simp [upd]
        · simp [upd, e]
      rw [hu, hv] at hg
      exact .snoc hp hg

section
variable {count : Nat} {n : Nat → Nat} {D : Nat → Global} {root : Nat → Name} {thread : Nat → Nat → Nat}

/-- The heart of the matter.  Every protocol with something left to do (`U`) has a role that is able to do it (`A`), and the
thread of that role has come to some mesh of a protocol with something left to do.  Then some thread has come to a mesh whose
role is able. -/
theorem forest_go (F : Forest count n thread) {turn : Nat → Option (Nat × Nat)} {U : Nat → Prop} {A : Nat → Nat → Prop}
    (able : ∀ j, j < count → U j → ∃ r, (1 ≤ r ∧ r ≤ n j) ∧ A j r)
    (come : ∀ j r, j < count → 1 ≤ r ∧ r ≤ n j → A j r → ∃ i q, turn (thread j r) = some (i, q) ∧ i < count ∧
      (1 ≤ q ∧ q ≤ n i) ∧ thread i q = thread j r ∧ U i)
    {j0 : Nat} (h0 : j0 < count) (hU : U j0) : ∃ j r, j < count ∧ (1 ≤ r ∧ r ≤ n j) ∧ A j r ∧ turn (thread j r) = some (j, r) := by
  by_contra hno
  -- an unfinished protocol has a thread that is busy elsewhere
  have away : ∀ j, j < count → U j → ∃ r i q, (1 ≤ r ∧ r ≤ n j) ∧
      turn (thread j r) = some (i, q) ∧ i ≠ j ∧ i < count ∧ (1 ≤ q ∧ q ≤ n i) ∧ thread i q = thread j r ∧ U i := by
    intro j hj hc
    obtain ⟨r, hr, hA⟩ := able j hj hc
    obtain ⟨i, q, e, h1, h2, h3, h4⟩ := come j r hj hr hA
    refine ⟨r, i, q, hr, e, ?_, h1, h2, h3, h4⟩
    rintro rfl
    have := F.apart i q r hj h2 hr h3
    subst this
    exact hno ⟨i, q, hj, hr, hA, e⟩
  -- from which one can go up for ever
  have up : ∀ j, j < count → ∀ r i q, (1 ≤ r ∧ r ≤ n j) →
      turn (thread j r) = some (i, q) → i < count → (1 ≤ q ∧ q ≤ n i) → thread i q = thread j r → U i → j < i → False := by
    intro j
    induction hd : count - j using Nat.strongRecOn generalizing j with
    | _ m ih =>
      intro hj r i q hr ht hi hq hth hci hlt
      obtain ⟨r', i', q', a1, a2, a3, a4, a5, a6, a7⟩ := away i hi hci
      rcases Nat.lt_trichotomy i i' with h | h | h
      · exact ih (count - i) (by omega) i rfl hi r' i' q' a1 a2 a4 a5 a6 a7 h
      · exact a3 h.symm
      · have e : q = r' := F.link i q r' ⟨hi, hq, j, r, hlt, hr, hth.symm⟩ ⟨hi, a1, i', q', h, a5, a6⟩
        subst e
        rw [hth, ht] at a2
        cases a2
        exact a3 rfl
  have down : ∀ j, j < count → U j → False := by
    intro j
    induction j using Nat.strongRecOn with
    | _ j ih =>
      intro hj hc
      obtain ⟨r, i, q, a1, a2, a3, a4, a5, a6, a7⟩ := away j hj hc
      rcases Nat.lt_trichotomy j i with h | h | h
      · exact up j hj r i q a1 a2 a4 a5 a6 a7 h
      · exact a3 h.symm
      · exact ih i h a4 a7
  exact down j0 h0 hU

/-- Unless everything is closed some thread can go on. -/
theorem progress (w : ∀ j, j < count → Global.Wf (n j) (D j)) (F : Forest count n thread) {s : IS}
    (hrun : ∀ j, j < count → ∃ ls, RRun (project (n j) (D j)) (root j) ls (s.sess j))
    (hturn : ∀ t, Next (together count n D root thread) s.sess t (s.turn t))
    (hnd : ¬ Done (together count n D root thread) s) : ∃ t, Goes (together count n D root thread) s t := by
  obtain ⟨j0, h0, hU⟩ : ∃ j, j < count ∧ ¬ AllClosed (project (n j) (D j)) (s.sess j) := by
    by_contra hx
    exact hnd fun j hj => by
      by_contra hc
      exact hx ⟨j, hj, hc⟩
  obtain ⟨j, r, hj, hr, ⟨l, st, ha, hs⟩, e⟩ := forest_go F (turn := s.turn) (U := fun j => ¬ AllClosed (project (n j) (D j)) (s.sess j))
    (A := fun j r => CanGo (project (n j) (D j)) (s.sess j) r) (fun j hj hc => by
      obtain ⟨ls, hr⟩ := hrun j hj
      exact Prop.C44_progress (n j) (D j) (w j hj) (root j) ls _ hr hc) (fun j r hj hr hA => by
      obtain ⟨l, st, ha, hs⟩ := hA
      have ht := hturn (thread j r)
      cases e : s.turn (thread j r) with
      | none =>
        rw [e] at ht
        exact absurd ⟨hj, hr, rfl, closed_stuck hs ha⟩ (ht j r)
      | some x =>
        obtain ⟨i, q⟩ := x
        rw [e] at ht
        obtain ⟨h1, h2, h3, h4⟩ := ht
        exact ⟨i, q, rfl, h1, h2, h3, fun hx => h4 (hx q h2.1 h2.2)⟩) h0 hU
  obtain ⟨a, ha'⟩ := next_exists (together count n D root thread) (upd s.sess j st) (thread j r)
  exact ⟨thread j r, j, l, r, _, ha, rfl, .call (P := together count n D root thread) hj ha e hs ha'⟩

end

/-! ## Steps come to an end -/

section
variable {n : Nat} {D : Global} {root : Name} {σ : Nat → RS} {lab : Nat → Option RLabel}

/-- While nobody makes a call only finitely many drops are carried out. -/
theorem drops_end (w : Global.Wf n D) (h : RSchedule (project n D) root σ lab) {k : Nat}
    (hno : ∀ i, k ≤ i → ∀ r, ¬ RMoves lab r i) : ∃ j, k ≤ j ∧ ∀ i, j ≤ i → lab i = none := by
  obtain ⟨m, hR, -⟩ := shadow w h
  obtain ⟨ls, id, T, R⟩ := hR k
  obtain ⟨hb, -⟩ := Prop.C07_drop_terminates R.reach
  by_contra hx
  have hx' : ∀ j, k ≤ j → ∃ i, j ≤ i ∧ lab i ≠ none := fun j hj => by
    by_contra hy
    exact hx ⟨j, hj, fun i hi => by by_contra hz; exact hy ⟨i, hi, hz⟩⟩
  have one : ∀ i, k ≤ i → ∀ c, Spec.Drains (env (project n D)) (σ k).heap c (σ i).heap →
      ∃ c', Spec.Drains (env (project n D)) (σ k).heap c' (σ (i + 1)).heap ∧ c ≤ c' ∧ (lab i ≠ none → c < c') := by
    intro i hi c hc
    rcases h.step i with ⟨l, h1, h2⟩ | ⟨h1, h2⟩
    · have ha : l = .gc := by
        cases e : l.actor with
        | some r => exact absurd ⟨l, h1, e⟩ (hno i hi r)
        | none => cases l <;> simp_all [RLabel.actor]
      subst ha
      have hg : ∃ x o, Heap.step (env (project n D)) (σ i).heap (.gc x) = some ((σ (i + 1)).heap, o) := by
        generalize σ (i + 1) = s' at h2
        cases h2 with
        | gc h2 => exact ⟨_, _, h2⟩
      obtain ⟨x, o, hg⟩ := hg
      exact ⟨c + 1, .step hc hg, by omega, fun _ => by omega⟩
    · exact ⟨c, by rw [h2]; exact hc, by omega, fun hx => absurd h1 hx⟩
  have many : ∀ d, ∃ c, Spec.Drains (env (project n D)) (σ k).heap c (σ (k + d)).heap := by
    intro d
    induction d with
    | zero => exact ⟨0, .refl⟩
    | succ d ih =>
      obtain ⟨c, hc⟩ := ih
      obtain ⟨c', hc', -⟩ := one (k + d) (by omega) c hc
      exact ⟨c', hc'⟩
  have later : ∀ i, k ≤ i → ∀ c, Spec.Drains (env (project n D)) (σ k).heap c (σ i).heap → ∀ d,
      ∃ c', Spec.Drains (env (project n D)) (σ k).heap c' (σ (i + d)).heap ∧ c ≤ c' := by
    intro i hi c hc d
    induction d with
    | zero => exact ⟨c, hc, Nat.le_refl _⟩
    | succ d ih =>
      obtain ⟨c', hc', hl⟩ := ih
      obtain ⟨c'', hc'', hl', -⟩ := one (i + d) (by omega) c' hc'
      exact ⟨c'', hc'', by omega⟩
  have grow : ∀ W, ∃ d c, Spec.Drains (env (project n D)) (σ k).heap c (σ (k + d)).heap ∧ W ≤ c := by
    intro W
    induction W with
    | zero => exact ⟨0, 0, .refl, Nat.le_refl _⟩
    | succ W ih =>
      obtain ⟨d, c, hc, hW⟩ := ih
      obtain ⟨i, hi, hl⟩ := hx' (k + d) (by omega)
      obtain ⟨e, rfl⟩ : ∃ e, i = k + d + e := ⟨i - (k + d), by omega⟩
      obtain ⟨c', hc', hle⟩ := later (k + d) (by omega) c hc e
      obtain ⟨c'', hc'', -, hlt⟩ := one (k + d + e) (by omega) c' hc'
      have := hlt hl
      exact ⟨d + e + 1, c'', by rw [show k + (d + e + 1) = k + d + e + 1 by omega]; exact hc'', by omega⟩
  obtain ⟨d, c, hc, hW⟩ := grow (Prop.loose (σ k).heap + 1)
  have := hb c _ hc
  omega

/-- If there is no endless sequence of choices, there is a moment after which no step is taken. -/
theorem all_quiet (w : Global.Wf n D) (h : RSchedule (project n D) root σ lab) (hacc : Ends D root) :
    ∃ k, ∀ i, k ≤ i → lab i = none := by
  obtain ⟨m, hR, hm⟩ := shadow w h
  obtain ⟨G, hG⟩ := Mesh.ghosts w hm
  obtain ⟨k0, hk0⟩ := Mesh.topped hG hacc
  obtain ⟨k1, hk1, hq⟩ := Mesh.together (n := n) (P := fun p j => ∀ i, j ≤ i → ¬ Mesh.Moves (mlab lab) p i) (k := k0)
    (fun p i j hij hp x hx => hp x (by omega)) (fun p hp => Mesh.quiet hm hG hk0 hp)
  have fin : ∀ i, k1 ≤ i → ∀ r, Part n r → RMoves lab r i → Mesh.Finished (m i) r := by
    rintro i hi r hr ⟨l, h1, h2⟩
    rcases h.step i with ⟨l', h1', hs⟩ | ⟨h1', -⟩
    · rw [h1] at h1'; cases h1'
      obtain ⟨ls, id, T, R⟩ := hR i
      refine close_finished w R hs h2 fun x hx => ?_
      subst hx
      exact hq r hr i hi ⟨x, by simp [mlab, h1], by simpa [RLabel.actor] using h2⟩
    · rw [h1] at h1'; cases h1'
  have stop : ∀ r, Part n r → ∃ j, k1 ≤ j ∧ ∀ i, j ≤ i → ¬ RMoves lab r i := by
    intro r hr
    by_contra hx
    have hx' : ∀ j, k1 ≤ j → ∃ i, j ≤ i ∧ RMoves lab r i := fun j hj => by
      by_contra hy
      exact hx ⟨j, hj, fun i hi hz => hy ⟨i, hi, hz⟩⟩
    obtain ⟨k2, hk2, hm2⟩ := hx' k1 (Nat.le_refl _)
    have hF := fin k2 hk2 r hr hm2
    have hS : ∀ j, k2 ≤ j → Mesh.Finished (m j) r := fun j hj => (Mesh.finished_stays hm hF j hj).2
    have grow : ∀ W, ∃ j, k2 ≤ j ∧ W ≤ phase n ((σ j).pos r) := by
      intro W
      induction W with
      | zero => exact ⟨k2, Nat.le_refl _, Nat.zero_le _⟩
      | succ W ih =>
        obtain ⟨j, hj, hW⟩ := ih
        obtain ⟨i, hi, l, h1, h2⟩ := hx' j (by omega)
        obtain ⟨ls, id, T, R⟩ := hR i
        rcases h.step i with ⟨l', h1', hs⟩ | ⟨h1', _⟩
        · rw [h1] at h1'; cases h1'
          have h3 := phase_step R hs (hS i (by omega))
          rw [if_pos h2] at h3
          have h4 := phase_mono h hR hm (hS j hj) hi
          exact ⟨i + 1, by omega, by omega⟩
        · rw [h1] at h1'; cases h1'
    obtain ⟨j, hj, hW⟩ := grow (2 * (n - 1) + 3)
    obtain ⟨ls, id, T, R⟩ := hR j
    have hpos := R.posr r hr
    cases e : (σ j).pos r with
    | closed => rw [e] at hW; simp only [phase] at hW; omega
    | ending i sl =>
      rw [e] at hW hpos
      obtain ⟨-, -, -, -, hi2⟩ := hpos
      simp only [phase] at hW; omega
    | mesh => rw [e] at hW; simp only [phase] at hW; omega
    | telling => rw [e] at hW; simp only [phase] at hW; omega
  obtain ⟨k3, hk3, hq3⟩ := Mesh.together (n := n) (P := fun p j => ∀ i, j ≤ i → ¬ RMoves lab p i) (k := k1)
    (fun p i j hij hp x hx => hp x (by omega)) stop
  obtain ⟨j, -, hj⟩ := drops_end w h (k := k3) (fun i hi r hm => by
    obtain ⟨l, h1, h2⟩ := hm
    rcases h.step i with ⟨l', h1', hs⟩ | ⟨h1', -⟩
    · rw [h1] at h1'; cases h1'
      exact hq3 r (actor_part hs h2) i hi ⟨l, h1, h2⟩
    · rw [h1] at h1'; cases h1')
  exact ⟨j, hj⟩

end

section
variable {count : Nat} {n : Nat → Nat} {D : Nat → Global} {root : Nat → Name} {thread : Nat → Nat → Nat}
variable {σ : Nat → IS} {lab : Nat → Option (Nat × RLabel)}

/-- The steps of protocol `j`. -/
def labOf (lab : Nat → Option (Nat × RLabel)) (j k : Nat) : Option RLabel :=
  match lab k with
  | some (i, l) => if i = j then some l else none
  | none => none

theorem schedule_part {P : Prog} (h : ISchedule P σ lab) {j : Nat} (hj : j < P.count) :
    RSchedule (P.sys j) (P.root j) (fun k => (σ k).sess j) (labOf lab j) := by
  refine ⟨h.start.sess j hj, fun k => ?_⟩
  rcases h.step k with ⟨⟨i, l⟩, h1, h2⟩ | ⟨h1, h2⟩
  · obtain ⟨h3, h4⟩ := step_part h2
    by_cases e : i = j
    · subst e
      exact .inl ⟨l, by simp [labOf, h1], h3⟩
    · exact .inr ⟨by simp [labOf, h1, e], h4 j (fun x => e x.symm)⟩
  · exact .inr ⟨by simp [labOf, h1], by simp only [h2]⟩

theorem schedule_run {P : Prog} (h : ISchedule P σ lab) (k : Nat) : ∃ ls, IRun P ls (σ k) := by
  induction k with
  | zero => exact ⟨[], .start h.start⟩
  | succ k ih =>
    obtain ⟨ls, ih⟩ := ih
    rcases h.step k with ⟨l, -, h2⟩ | ⟨-, h2⟩
    · exact ⟨_, .snoc ih h2⟩
    · exact ⟨ls, by rw [h2]; exact ih⟩

theorem still {P : Prog} (h : ISchedule P σ lab) {k : Nat} (hq : ∀ i, k ≤ i → lab i = none) (d : Nat) : σ (k + d) = σ k := by
  induction d with
  | zero => rfl
  | succ d ih =>
    rcases h.step (k + d) with ⟨l, h1, -⟩ | ⟨-, h2⟩
    · rw [hq _ (by omega)] at h1; cases h1
    · rw [← ih]; exact h2

/-- A common moment for all protocols. -/
theorem common {Q : Nat → Nat → Prop} (hmono : ∀ j a b, a ≤ b → Q j a → Q j b) (m : Nat)
    (h : ∀ j, j < m → ∃ k, Q j k) : ∃ k, ∀ j, j < m → Q j k := by
  induction m with
  | zero => exact ⟨0, fun j hj => by omega⟩
  | succ m ih =>
    obtain ⟨k, hk⟩ := ih fun j hj => h j (by omega)
    obtain ⟨k', hk'⟩ := h m (by omega)
    refine ⟨max k k', fun j hj => ?_⟩
    rcases Nat.lt_or_ge j m with h1 | h1
    · exact hmono j k _ (by omega) (hk j h1)
    · have : j = m := by omega
      subst this; exact hmono j k' _ (by omega) hk'

theorem silent {P : Prog} (h : ISchedule P σ lab) {k : Nat} (hq : ∀ j, j < P.count → ∀ i, k ≤ i → labOf lab j i = none)
    (i : Nat) (hi : k ≤ i) : lab i = none := by
  rcases h.step i with ⟨⟨j, l⟩, h1, h2⟩ | ⟨h1, -⟩
  · have hj : j < P.count := by
      generalize σ (i + 1) = s' at h2
      cases h2 <;> assumption
    have := hq j hj i hi
    simp [labOf, h1] at this
  · exact h1

/-- From a moment after which nothing happens on, everything is closed. -/
theorem still_done (w : ∀ j, j < count → Global.Wf (n j) (D j)) (F : Forest count n thread)
    (h : ISchedule (together count n D root thread) σ lab) (hf : IFair (together count n D root thread) σ lab) {k : Nat}
    (hq : ∀ i, k ≤ i → lab i = none) : Done (together count n D root thread) (σ k) := by
  by_contra hnd
  obtain ⟨ls, hrun⟩ := schedule_run h k
  obtain ⟨t, ht⟩ := progress w F (fun j hj => ⟨_, run_part hrun hj⟩) (run_turns hrun) hnd
  obtain ⟨j, hj, _, _, _, h1, -⟩ := hf t k fun j hj => by
    have := still h hq (j - k)
    rw [Nat.add_sub_of_le hj] at this
    rw [this]; exact ht
  rw [hq j hj] at h1; cases h1

/-- If the threads come back to a protocol again and again, the schedule is fair to it. -/
theorem attended_fair {P : Prog} (h : ISchedule P σ lab) (hf : IFair P σ lab) {j : Nat} (hj : j < P.count)
    (hat : ∀ r, 1 ≤ r ∧ r ≤ (P.sys j).n → Attended P σ j r) : RFair (P.sys j) (fun k => (σ k).sess j) (labOf lab j) := by
  intro r k hc
  have hr : 1 ≤ r ∧ r ≤ (P.sys j).n := by
    obtain ⟨l, st, ha, hs⟩ := hc k (Nat.le_refl _)
    exact actor_part hs ha
  obtain ⟨i, hi, hcl | ht⟩ := hat r hr k
  · obtain ⟨l, st, ha, hs⟩ := hc i hi
    exact absurd hcl (closed_stuck hs ha)
  · by_contra hno
    have moved : ∀ x, i ≤ x → (σ x).turn (P.thread j r) = some (j, r) → ¬ IMoves P lab (P.thread j r) x := by
      rintro x hx hturn ⟨j', l, r', h1, h2, h3⟩
      rcases h.step x with ⟨l', h1', hs⟩ | ⟨h1', -⟩
      · rw [h1] at h1'; cases h1'
        generalize σ (x + 1) = s' at hs
        cases hs with
        | gc => cases h2
        | call a1 a2 a3 a4 a5 =>
          rw [a2] at h2; cases h2
          rw [h3, hturn] at a3; cases a3
          exact hno ⟨x, by omega, l, by simp [labOf, h1], a2⟩
      · rw [h1] at h1'; cases h1'
    have stay : ∀ d, (σ (i + d)).turn (P.thread j r) = some (j, r) := by
      intro d
      induction d with
      | zero => exact ht
      | succ d ih =>
        have hm := moved (i + d) (by omega) ih
        rcases h.step (i + d) with ⟨⟨j', l⟩, h1, h2⟩ | ⟨-, h2⟩
        · rw [show i + (d + 1) = i + d + 1 by omega]
          generalize σ (i + d + 1) = s' at h2
          cases h2 with
          | @call _ _ r' st a a1 a2 a3 a4 a5 =>
            have : ¬ P.thread j r = P.thread j' r' := fun e => hm ⟨j', l, r', h1, a2, e.symm⟩
            simp [upd, this, ih]
          | gc => exact ih
        · rw [show i + (d + 1) = i + d + 1 by omega, h2]; exact ih
    obtain ⟨x, hx, hm⟩ := hf (P.thread j r) i fun x hx => by
      obtain ⟨l, st, ha, hs⟩ := hc x (by omega)
      have hturn := stay (x - i)
      rw [Nat.add_sub_of_le hx] at hturn
      obtain ⟨a, hn⟩ := next_exists P (upd (σ x).sess j st) (P.thread j r)
      exact ⟨j, l, r, _, ha, rfl, .call hj ha hturn hs hn⟩
    have hturn := stay (x - i)
    rw [Nat.add_sub_of_le hx] at hturn
    exact moved x hx hturn hm

end

end Verif.Interleaved
