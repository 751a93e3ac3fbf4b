import Verif.Spec.InterleavedFailure
import Verif.Proof.Interleaved
import Verif.Prop.C45
/-!
# Protocols that share threads, with failures
-/
namespace Verif.Interleaved
open Verif.Mesh (Sys Name Global project upd Part Label)
open Verif.Runtime

theorem fopen_actor {Y : Sys} {s l s' r} (hs : FStep Y s l s') (ha : l.actor = some r) :
    (1 ≤ r ∧ r ≤ Y.n) ∧ s.dead r = false ∧ s.pos r ≠ .closed := by
  obtain ⟨h1, h2⟩ := fstep_live hs ha
  refine ⟨h2, h1, ?_⟩
  cases hs with
  | step h _ => exact closed_stuck h ha
  | fail _ _ _ hc =>
    cases ha
    intro e; rw [e] at hc; cases hc
  | crash _ _ _ hc => cases ha; exact hc

theorem fnext_exists (P : Prog) (sess : Nat → FS) (t : Nat) : ∃ a, FNext P sess t a := by
  by_cases h : ∃ j r, FOpen P sess t j r
  · obtain ⟨j, r, h⟩ := h; exact ⟨some (j, r), h⟩
  · exact ⟨none, fun j r hx => h ⟨j, r, hx⟩⟩

theorem fopen_iff {P : Prog} {sess : Nat → FS} {j l st} (hs : FStep (P.sys j) (sess j) l st) {t : Nat}
    (ht : ∀ r, l.actor = some r → P.thread j r ≠ t) (i q : Nat) : FOpen P (upd sess j st) t i q ↔ FOpen P sess t i q := by
  unfold FOpen
  by_cases e : i = j
  · subst e
    by_cases hq : l.actor = some q
    · constructor <;> intro hx <;> exact absurd hx.2.2.1 (ht q hq)
    · obtain ⟨h1, h2⟩ := fstep_other hs hq
      rw [show upd sess i st i = st by simp [upd], h1, h2]
  · rw [show upd sess j st i = sess i by simp [upd, e]]

theorem fnext_keep {P : Prog} {sess : Nat → FS} {j l st} (hs : FStep (P.sys j) (sess j) l st) {t : Nat}
    (ht : ∀ r, l.actor = some r → P.thread j r ≠ t) {a} : FNext P (upd sess j st) t a ↔ FNext P sess t a := by
  cases a with
  | none =>
    exact ⟨fun h i q hx => h i q ((fopen_iff hs ht i q).2 hx), fun h i q hx => h i q ((fopen_iff hs ht i q).1 hx)⟩
  | some x => exact fopen_iff hs ht _ _

theorem fstep_turns {P : Prog} {s s' : FIS} {l} (hs : FIStep P s l s') (h : ∀ t, FNext P s.sess t (s.turn t)) :
    ∀ t, FNext P s'.sess t (s'.turn t) := by
  intro t
  have key : ∀ {j l r st a}, l.actor = some r → FStep (P.sys j) (s.sess j) l st → FNext P (upd s.sess j st) (P.thread j r) a →
      FNext P (upd s.sess j st) t (upd s.turn (P.thread j r) a t) := by
    intro j l r st a h2 h4 h5
    by_cases e : t = P.thread j r
    · subst e; simpa [upd] using h5
    · have : upd s.turn (P.thread j r) a t = s.turn t := by simp [upd, e]
      rw [this]
      refine (fnext_keep h4 (fun q hq => ?_)).2 (h t)
      rw [h2] at hq; cases hq; exact fun hx => e hx.symm
  cases hs with
  | call h1 h2 h3 h4 h5 h6 => exact key h2 h5 h6
  | drop h1 h2 h3 => exact key rfl h2 h3
  | gc h1 h2 => exact (fnext_keep h2 (fun q hq => by cases hq)).2 (h t)

theorem frun_turns {P : Prog} {ls s} (h : FIRun P ls s) : ∀ t, FNext P s.sess t (s.turn t) := by
  induction h with
  | start hs => exact hs.turn
  | snoc _ hs ih => exact fstep_turns hs ih

/-- A step of protocol `j` is a step of that protocol and of no other. -/
theorem fstep_part {P : Prog} {s s' : FIS} {j l} (hs : FIStep P s (j, l) s') :
    j < P.count ∧ FStep (P.sys j) (s.sess j) l (s'.sess j) ∧ (∀ i, i ≠ j → s'.sess i = s.sess i) := by
  cases hs with
  | call h1 h2 h3 h4 h5 => exact ⟨h1, by simpa [upd] using h5, fun i hi => by simp [upd, hi]⟩
  | drop h1 h2 => exact ⟨h1, by simpa [upd] using h2, fun i hi => by simp [upd, hi]⟩
  | gc h1 h2 => exact ⟨h1, by simpa [upd] using h2, fun i hi => by simp [upd, hi]⟩

theorem frun_start {Y : Sys} {root : Name} {s : FS} (h : Start Y root ⟨s.heap, s.pos⟩ ∧ s.dead = nobody) : FRun Y root [] s := by
  obtain ⟨a, b, c⟩ := s
  obtain ⟨h1, h2⟩ := h
  simp only at h1 h2
  subst h2
  exact .start h1

theorem frun_part {P : Prog} {ls s} (h : FIRun P ls s) {j : Nat} (hj : j < P.count) :
    FRun (P.sys j) (P.root j) (fpart j ls) (s.sess j) := by
  induction h with
  | start hs => exact frun_start (hs.sess j hj)
  | @snoc ls s l s' _ hs ih =>
    obtain ⟨i, l⟩ := l
    obtain ⟨-, h1, h2⟩ := fstep_part hs
    by_cases e : i = j
    · subst e
      have : fpart i (ls ++ [(i, l)]) = fpart i ls ++ [l] := by simp [fpart]
      rw [this]
      exact .snoc ih h1
    · have : fpart j (ls ++ [(i, l)]) = fpart j ls := by simp [fpart, e]
      rw [this, h2 j (fun x => e x.symm)]
      exact ih

theorem frun_last {Y : Sys} {root : Name} {ls : List FLabel} {l : FLabel} {s : FS} (h : FRun Y root (ls ++ [l]) s) :
    ∃ s0, FRun Y root ls s0 ∧ FStep Y s0 l s := by
  generalize e : ls ++ [l] = L at h
  cases h with
  | start => simp at e
  | @snoc ls' s0 l' _ h1 h2 =>
    obtain ⟨rfl, e2⟩ := List.append_inj' e rfl
    cases e2
    exact ⟨s0, h1, h2⟩

/-- The steps of the protocols in any order are a run, for some order of the calls in the functions of the threads. -/
theorem fany_order {P : Prog} {ls : List (Nat × FLabel)} : ∀ {sess : Nat → FS} {turn : Nat → Option (Nat × Nat)},
    (∀ x ∈ ls, x.1 < P.count) → (∀ j, j < P.count → FRun (P.sys j) (P.root j) (fpart j ls) (sess j)) →
    (∀ t, FNext P sess t (turn t)) → FIRun P ls ⟨sess, turn⟩ := by
  induction ls using List.reverseRecOn with
  | nil =>
    intro sess turn _ hr ht
    refine .start ⟨fun j hj => ?_, ht⟩
    have := hr j hj
    change FRun _ _ [] _ at this
    generalize e : ([] : List FLabel) = L at this
    change Start _ _ ⟨(sess j).heap, (sess j).pos⟩ ∧ (sess j).dead = nobody
    generalize sess j = s at this
    cases this with
    | start hs => exact ⟨hs, rfl⟩
    | snoc _ _ => simp at e
  | append_singleton ls x ih =>
    intro sess turn hc hr ht
    obtain ⟨j, l⟩ := x
    have hj : j < P.count := hc (j, l) (by simp)
    have ej : fpart j (ls ++ [(j, l)]) = fpart j ls ++ [l] := by simp [fpart]
    have h1 := hr j hj
    rw [ej] at h1
    obtain ⟨s0, h2, h3⟩ := frun_last h1
    have hu : upd (upd sess j s0) j (sess j) = sess := by
      funext i; by_cases e : i = j
      · subst e; simp [upd]
      · simp [upd, e]
    have h3' : FStep (P.sys j) (upd sess j s0 j) l (sess j) := by simpa [upd] using h3
    have hparts : ∀ i, i < P.count → FRun (P.sys i) (P.root i) (fpart i ls) (upd sess j s0 i) := by
      intro i hi
      by_cases e : i = j
      · subst e; simpa [upd] using h2
      · have := hr i hi
        rw [show fpart i (ls ++ [(j, l)]) = fpart i ls by
          have e' : ¬ j = i := fun x => e x.symm
          simp [fpart, e']] at this
        simpa [upd, e] using this
    have hc' : ∀ x ∈ ls, x.1 < P.count := fun x hx => hc x (by simp [hx])
    cases ha : l.actor with
    | none =>
      have hl : l = .step .gc := by
        cases l with
        | step l => cases l <;> simp_all [RLabel.actor, FLabel.actor]
        | fail => cases ha
        | crash => cases ha
      subst hl
      have hp := ih (sess := upd sess j s0) (turn := turn) hc' hparts fun t =>
        (fnext_keep h3' (fun r hr => by cases hr)).1 (by rw [hu]; exact ht t)
      have hg := FIStep.gc (P := P) (s := ⟨upd sess j s0, turn⟩) hj h3'
      change FIStep P _ _ ⟨upd (upd sess j s0) j (sess j), turn⟩ at hg
      rw [hu] at hg
      exact .snoc hp hg
    | some r =>
      let t := P.thread j r
      have hop := fopen_actor h3' ha
      have hp := ih (sess := upd sess j s0) (turn := upd turn t (some (j, r))) hc' hparts fun t' => by
        by_cases e : t' = t
        · subst e
          rw [show upd turn t (some (j, r)) t = some (j, r) by simp [upd]]
          exact ⟨hj, hop.1, rfl, hop.2⟩
        · rw [show upd turn t (some (j, r)) t' = turn t' by simp [upd, e]]
          refine (fnext_keep h3' (fun r' hr' => ?_)).1 (by rw [hu]; exact ht t')
          rw [ha] at hr'; cases hr'; exact fun hx => e hx.symm
      have hv : upd (upd turn t (some (j, r))) t (turn t) = turn := by
        funext x; by_cases e : x = t
        · subst e; simp [upd]
        · simp [upd, e]
      have hg : FIStep P ⟨upd sess j s0, upd turn t (some (j, r))⟩ (j, l)
          ⟨upd (upd sess j s0) j (sess j), upd (upd turn t (some (j, r))) t (turn t)⟩ := by
        have hn : FNext P (upd (upd sess j s0) j (sess j)) t (turn t) := by rw [hu]; exact ht t
        by_cases hcr : ∃ x, l = .crash x
        · obtain ⟨x, rfl⟩ := hcr
          cases ha
          exact .drop (P := P) (s := ⟨upd sess j s0, upd turn t (some (j, r))⟩) hj h3' hn
        · exact .call (P := P) (s := ⟨upd sess j s0, upd turn t (some (j, r))⟩) hj ha (fun x hx => hcr ⟨x, hx⟩)
            (show upd turn t (some (j, r)) t = some (j, r) by simp [upd]) h3' hn
      rw [hu, hv] at hg
      exact .snoc hp hg

section
variable {count : Nat} {n : Nat → Nat} {D : Nat → Global} {root : Nat → Name} {thread : Nat → Nat → Nat}

/-- Unless all protocols are over, a drop can be carried out or some thread can go on. -/
theorem fprogress' (w : ∀ j, j < count → Global.Wf (n j) (D j)) (F : Forest count n thread) {s : FIS}
    (hrun : ∀ j, j < count → ∃ ls, FRun (project (n j) (D j)) (root j) ls (s.sess j))
    (hturn : ∀ t, FNext (together count n D root thread) s.sess t (s.turn t))
    (hnd : ¬ AllOver (together count n D root thread) s) :
    (∃ j s', FIStep (together count n D root thread) s (j, .step .gc) s') ∨ ∃ t, FGoes (together count n D root thread) s t := by
  by_cases hgc : ∃ j s', FIStep (together count n D root thread) s (j, .step .gc) s'
  · exact .inl hgc
  right
  obtain ⟨j0, h0, hU⟩ : ∃ j, j < count ∧ ¬ Over (project (n j) (D j)) (s.sess j) := by
    by_contra hx
    exact hnd fun j hj => by
      by_contra hc
      exact hx ⟨j, hj, hc⟩
  obtain ⟨j, r, hj, hr, ⟨l, st, ha, hcr, hs⟩, e⟩ := forest_go F (turn := s.turn) (U := fun j => ¬ Over (project (n j) (D j)) (s.sess j))
    (A := fun j r => FGo (project (n j) (D j)) (s.sess j) r) (fun j hj hc => by
      obtain ⟨ls, hr⟩ := hrun j hj
      refine (Prop.C45_progress (n j) (D j) (w j hj) (root j) ls _ hr hc).resolve_left ?_
      rintro ⟨s', hg⟩
      exact hgc ⟨j, _, .gc (P := together count n D root thread) hj hg⟩) (fun j r hj hr hA => by
      obtain ⟨l, st, ha, -, hs⟩ := hA
      have ht := hturn (thread j r)
      cases e : s.turn (thread j r) with
      | none =>
        rw [e] at ht
        exact absurd ⟨hj, hr, rfl, (fopen_actor hs ha).2⟩ (ht j r)
      | some x =>
        obtain ⟨i, q⟩ := x
        rw [e] at ht
        obtain ⟨h1, h2, h3, h4, h5⟩ := ht
        refine ⟨i, q, rfl, h1, h2, h3, fun hx => ?_⟩
        rcases hx q h2.1 h2.2 with h | h
        · rw [h] at h4; cases h4
        · exact h5 h) h0 hU
  obtain ⟨a, ha'⟩ := fnext_exists (together count n D root thread) (upd s.sess j st) (thread j r)
  exact ⟨thread j r, j, l, r, _, ha, hcr, rfl, .call (P := together count n D root thread) hj ha hcr e hs ha'⟩

end

section
variable {σ : Nat → FIS} {lab : Nat → Option (Nat × FLabel)}

/-- The steps of protocol `j`. -/
def flabOf (lab : Nat → Option (Nat × FLabel)) (j k : Nat) : Option FLabel :=
  match lab k with
  | some (i, l) => if i = j then some l else none
  | none => none

theorem flabOf_some {j k l} : flabOf lab j k = some l ↔ lab k = some (j, l) := by
  unfold flabOf
  split
  · rename_i i l' e
    rw [e]
    by_cases h : i = j <;> simp [h]
  · rename_i e; simp [e]

theorem fschedule_part {P : Prog} (h : FISchedule P σ lab) {j : Nat} (hj : j < P.count) :
    FSchedule (P.sys j) (P.root j) (fun k => (σ k).sess j) (flabOf lab j) := by
  refine ⟨h.start.sess j hj, fun k => ?_⟩
  rcases h.step k with ⟨⟨i, l⟩, h1, h2⟩ | ⟨h1, h2⟩
  · obtain ⟨-, h3, h4⟩ := fstep_part h2
    by_cases e : i = j
    · subst e
      exact .inl ⟨l, by simp [flabOf, h1], h3⟩
    · exact .inr ⟨by simp [flabOf, h1, e], h4 j (fun x => e x.symm)⟩
  · exact .inr ⟨by simp [flabOf, h1], by simp only [h2]⟩

theorem fschedule_run {P : Prog} (h : FISchedule P σ lab) (k : Nat) : ∃ ls, FIRun P ls (σ k) := by
  induction k with
  | zero => exact ⟨[], .start h.start⟩
  | succ k ih =>
    obtain ⟨ls, ih⟩ := ih
    rcases h.step k with ⟨l, -, h2⟩ | ⟨-, h2⟩
    · exact ⟨_, .snoc ih h2⟩
    · exact ⟨ls, by rw [h2]; exact ih⟩

theorem fstill {P : Prog} (h : FISchedule P σ lab) {k : Nat} (hq : ∀ i, k ≤ i → lab i = none) (d : Nat) : σ (k + d) = σ k := by
  induction d with
  | zero => rfl
  | succ d ih =>
    rcases h.step (k + d) with ⟨l, h1, -⟩ | ⟨-, h2⟩
    · rw [hq _ (by omega)] at h1; cases h1
    · rw [← ih]; exact h2

theorem gc_empty {Y : Sys} {s s' : FS} (hs : FStep Y s (.step .gc) s') : s.heap.garb ≠ [] := by
  intro e
  cases hs with
  | step h1 _ =>
    cases h1 with
    | gc h => simp [Heap.step, e] at h

end

section
variable {count : Nat} {n : Nat → Nat} {D : Nat → Global} {root : Nat → Name} {thread : Nat → Nat → Nat}
variable {σ : Nat → FIS} {lab : Nat → Option (Nat × FLabel)}

/-- Everything comes to an end. -/
theorem fiterminates (w : ∀ j, j < count → Global.Wf (n j) (D j)) (F : Forest count n thread)
    (h : FISchedule (together count n D root thread) σ lab) (hf : FIFair (together count n D root thread) σ lab)
    (he : ∀ j, j < count → Ends (D j) (root j)) :
    ∃ k, AllOver (together count n D root thread) (σ k) ∧ (∀ j, j < count → ((σ k).sess j).heap.garb = []) ∧
      ∀ i, k ≤ i → lab i = none ∧ σ i = σ k := by
  obtain ⟨k, hk⟩ := common (Q := fun j k => ∀ i, k ≤ i → ((σ i).sess j).heap.garb = [] ∧
      ∀ r, Part (n j) r → ¬ FMoves (flabOf lab j) r i) (fun j a b hab ha i hi => ha i (by omega)) count fun j hj => by
    have hs := fschedule_part h (j := j) hj
    change FSchedule (project (n j) (D j)) (root j) _ _ at hs
    obtain ⟨m, id, T, Fm⟩ := film (w j hj) hs
    obtain ⟨k, hk⟩ := fstop (w j hj) hs Fm (he j hj)
    obtain ⟨k', hk', hg, hc⟩ := drained hs Fm (fun k t ht => hf.drops j k t hj ht) hk
    exact ⟨k', fun i hi => ⟨by rw [hc i hi]; exact hg, fun r hr => hk r hr i (by omega)⟩⟩
  have quiet : ∀ i, k ≤ i → lab i = none := by
    intro i hi
    rcases h.step i with ⟨⟨j, l⟩, h1, h2⟩ | ⟨h1, -⟩
    · exfalso
      obtain ⟨hj, h3, -⟩ := fstep_part h2
      obtain ⟨a, b⟩ := hk j hj i hi
      cases ha : l.actor with
      | some r => exact b r (fopen_actor h3 ha).1 ⟨l, flabOf_some.2 h1, ha⟩
      | none =>
        have hl : l = .step .gc := by
          cases l with
          | step l => cases l <;> simp_all [RLabel.actor, FLabel.actor]
          | fail => cases ha
          | crash => cases ha
        subst hl
        exact gc_empty h3 a
    · exact h1
  have same : ∀ i, k ≤ i → σ i = σ k := fun i hi => by
    have := fstill h quiet (i - k)
    rwa [Nat.add_sub_of_le hi] at this
  refine ⟨k, ?_, fun j hj => (hk j hj k (Nat.le_refl _)).1, fun i hi => ⟨quiet i hi, same i hi⟩⟩
  by_contra hnd
  obtain ⟨ls, hrun⟩ := fschedule_run h k
  rcases fprogress' w F (fun j hj => ⟨_, frun_part hrun hj⟩) (frun_turns hrun) hnd with ⟨j, s', hg⟩ | ⟨t, ht⟩
  · obtain ⟨hj, h3, -⟩ := fstep_part hg
    exact gc_empty h3 (hk j hj k (Nat.le_refl _)).1
  · obtain ⟨j, hj, _, _, _, h1, -⟩ := hf.threads t k fun j hj => by rw [same j hj]; exact ht
    rw [quiet j hj] at h1; cases h1

/-- A mesh of a thread that gives up stays where it is. -/
theorem gives_up {P : Prog} (h : FISchedule P σ lab) {t k : Nat} (hg : GivesUp P lab t k) {j r : Nat} (ht : P.thread j r = t) {i : Nat}
    (hi : k ≤ i) : ((σ i).sess j).pos r = ((σ k).sess j).pos r := by
  obtain ⟨d, rfl⟩ : ∃ d, i = k + d := ⟨i - k, by omega⟩
  induction d with
  | zero => rfl
  | succ d ih =>
    rw [← ih (by omega), show k + (d + 1) = k + d + 1 by omega]
    rcases h.step (k + d) with ⟨⟨j', l⟩, h1, h2⟩ | ⟨-, h2⟩
    · obtain ⟨-, h3, h4⟩ := fstep_part h2
      by_cases e : j = j'
      · subst e
        by_cases ha : l.actor = some r
        · have := hg (k + d) j l r (by omega) h1 ha ht
          subst this
          generalize (σ (k + d + 1)).sess j = s' at h3
          cases h3; rfl
        · exact (fstep_other h3 ha).1
      · rw [h4 j e]
    · rw [h2]

/-- A mesh is dropped at most once: there is a last drop. -/
theorem last_drop {P : Prog} (h : FISchedule P σ lab) : ∃ K, ∀ j r i, K ≤ i → lab i ≠ some (j, .crash r) := by
  have one : ∀ j, j < P.count → ∀ r, ∃ K, ∀ i, K ≤ i → lab i ≠ some (j, .crash r) := by
    intro j hj r
    by_cases hx : ∃ i, lab i = some (j, .crash r)
    · obtain ⟨i, hi⟩ := hx
      refine ⟨i + 1, fun x hx e => ?_⟩
      have hp := fschedule_part h hj
      have hd : ((σ (i + 1)).sess j).dead r = true := by
        rcases hp.step i with ⟨l, h1, h2⟩ | ⟨h1, -⟩
        · rw [flabOf_some, hi] at h1; cases h1
          generalize (σ (i + 1)).sess j = s' at h2
          cases h2; simp [upd]
        · rw [flabOf_some.2 hi] at h1; cases h1
      have hdx : ∀ d, ((σ (i + 1 + d)).sess j).dead r = true := by
        intro d
        induction d with
        | zero => exact hd
        | succ d ih =>
          rcases hp.step (i + 1 + d) with ⟨l, -, h2⟩ | ⟨-, h2⟩
          · exact (fstep_dead h2 ih).1
          · rw [show i + 1 + (d + 1) = i + 1 + d + 1 by omega, h2]; exact ih
      have h3 := hdx (x - (i + 1))
      rw [Nat.add_sub_of_le hx] at h3
      rcases hp.step x with ⟨l, h1, h2⟩ | ⟨h1, -⟩
      · rw [flabOf_some, e] at h1; cases h1
        have := (fopen_actor h2 rfl).2.1
        simp only [h3] at this
        cases this
      · rw [flabOf_some.2 e] at h1; cases h1
    · exact ⟨0, fun i _ e => hx ⟨i, e⟩⟩
  obtain ⟨K, hK⟩ := common (Q := fun j K => ∀ r, r ≤ (P.sys j).n → ∀ i, K ≤ i → lab i ≠ some (j, .crash r))
    (fun j a b hab ha r hr i hi => ha r hr i (by omega)) P.count fun j hj => by
      obtain ⟨K, hK⟩ := common (Q := fun r K => ∀ i, K ≤ i → lab i ≠ some (j, .crash r))
        (fun r a b hab ha i hi => ha i (by omega)) ((P.sys j).n + 1) fun r _ => one j hj r
      exact ⟨K, fun r hr i hi => hK r (by omega) i hi⟩
  refine ⟨K, fun j r i hi e => ?_⟩
  rcases h.step i with ⟨l, h1, h2⟩ | ⟨h1, -⟩
  · rw [e] at h1; cases h1
    obtain ⟨hj, h3, -⟩ := fstep_part h2
    exact hK j hj r (fopen_actor h3 rfl).1.2 i hi e
  · rw [e] at h1; cases h1

/-- If the threads come back to a protocol again and again, the schedule is fair to it. -/
theorem fattended_fair {P : Prog} (h : FISchedule P σ lab) (hf : FIFair P σ lab) {j : Nat} (hj : j < P.count)
    (hat : ∀ r, 1 ≤ r ∧ r ≤ (P.sys j).n → FAttended P σ j r) : FFair (P.sys j) (fun k => (σ k).sess j) (flabOf lab j) := by
  refine ⟨fun r k hc => ?_, fun k t ht => hf.drops j k t hj ht⟩
  have hr : 1 ≤ r ∧ r ≤ (P.sys j).n := by
    obtain ⟨l, st, ha, -, hs⟩ := hc k (Nat.le_refl _)
    exact (fopen_actor hs ha).1
  obtain ⟨K, hK⟩ := last_drop h
  obtain ⟨i, hi, hcl⟩ := hat r hr (max k K)
  have hopen : ((σ i).sess j).dead r = false ∧ ((σ i).sess j).pos r ≠ .closed := by
    obtain ⟨l, st, ha, -, hs⟩ := hc i (by omega)
    exact (fopen_actor hs ha).2
  have ht : (σ i).turn (P.thread j r) = some (j, r) := by
    rcases hcl with h1 | h1 | h1
    · rw [h1] at hopen; cases hopen.1
    · exact absurd h1 hopen.2
    · exact h1
  by_contra hno
  have moved : ∀ x, i ≤ x → (σ x).turn (P.thread j r) = some (j, r) → ¬ FIMoves P lab (P.thread j r) x := by
    rintro x hx hturn ⟨j', l, r', h1, h2, h3⟩
    rcases h.step x with ⟨l', h1', hs⟩ | ⟨h1', -⟩
    · rw [h1] at h1'; cases h1'
      generalize σ (x + 1) = s' at hs
      cases hs with
      | gc => cases h2
      | drop => exact hK _ _ x (by omega) h1
      | call a1 a2 a3 a4 a5 =>
        rw [a2] at h2; cases h2
        rw [h3, hturn] at a4; cases a4
        exact hno ⟨x, by omega, l, flabOf_some.2 h1, a2⟩
    · rw [h1] at h1'; cases h1'
  have stay : ∀ d, (σ (i + d)).turn (P.thread j r) = some (j, r) := by
    intro d
    induction d with
    | zero => exact ht
    | succ d ih =>
      have hm := moved (i + d) (by omega) ih
      rcases h.step (i + d) with ⟨⟨j', l⟩, h1, h2⟩ | ⟨-, h2⟩
      · rw [show i + (d + 1) = i + d + 1 by omega]
        generalize σ (i + d + 1) = s' at h2
        cases h2 with
        | @call _ _ r' st a a1 a2 a3 a4 a5 =>
          have : ¬ P.thread j r = P.thread j' r' := fun e => hm ⟨j', l, r', h1, a2, e.symm⟩
          simp [upd, this, ih]
        | drop => exact absurd h1 (hK _ _ _ (by omega))
        | gc => exact ih
      · rw [show i + (d + 1) = i + d + 1 by omega, h2]; exact ih
  obtain ⟨x, hx, hm⟩ := hf.threads (P.thread j r) i fun x hx => by
    obtain ⟨l, st, ha, hcr, hs⟩ := hc x (by omega)
    have hturn := stay (x - i)
    rw [Nat.add_sub_of_le hx] at hturn
    obtain ⟨a, hn⟩ := fnext_exists P (upd (σ x).sess j st) (P.thread j r)
    exact ⟨j, l, r, _, ha, hcr, rfl, .call hj ha hcr hturn hs hn⟩
  have hturn := stay (x - i)
  rw [Nat.add_sub_of_le hx] at hturn
  exact moved x hx hturn hm

end

end Verif.Interleaved
