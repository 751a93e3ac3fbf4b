import Verif.Proof.TimedExecutionStuck
/-!
# The instants of a run, seen by one role
-/
namespace Verif.Runtime
open Verif.Mesh (Sys Name Label upd)
open Verif.Types (Window)
open Verif.Timed (Fn World Clocks run)
open Verif.Spec

/-- As `step_inside`; the instant is not after the transfer. -/
theorem step_inside_now {V : Windows} {s s' : TS} {Y : Sys} {l} (hs : TStep Y V s (.go l) s') (hl : Transfers l) :
    ∃ r w, l.actor = some r ∧ WindowOf V (s.fs.pos r) l w ∧
      (Unbounded w ∨ ∃ c u, s.clocks r w.clock = some c ∧ s.last r ≤ u ∧ u ≤ s'.last r ∧ u ≤ s'.now ∧ Inside w (u - c)) := by
  have main : ∀ {fn : Fn} {W : World} {w : Window} {cl : Clocks} {last t m : Nat}, (∀ k, last ≤ W.now k ∧ W.now k ≤ m) →
      (run fn W w cl).moved = some t → Unbounded w ∨ ∃ c u, cl w.clock = some c ∧ last ≤ u ∧ u ≤ m ∧ u ≤ t ∧ Inside w (u - c) := by
    intro fn W w cl last t m hk h
    rcases Timed.run_cases fn W w cl with hq | ⟨t', h1, h2, -⟩ | ⟨t', c, k', h1, -, hc, ⟨j, k, hjk, a1, a2, a3, a4⟩, -⟩
    · rw [hq.1] at h; cases h
    · exact .inl h2
    · rw [h] at h1
      cases h1
      have m1 := W.mono (Nat.le_of_lt hjk)
      have m2 := W.now_le k
      exact .inr ⟨c, W.now j, hc, (hk j).1, (hk j).2, by omega, a3⟩
  generalize hL : TLabel.go l = L at hs
  cases hs with
  | @calm n l' f h1 h2 =>
    cases hL
    cases l <;> first | exact h2.elim | exact hl.elim
  | decide => cases hL; exact hl.elim
  | enter => cases hL; exact hl.elim
  | @call n m r fn w op l' f cl W h1 h2 h3 h4 h5 h6 h7 =>
    cases hL
    obtain ⟨a, b⟩ := tcall_window h3 h4
    exact ⟨r, w, b, a, by simpa [upd] using main h6 (by rw [h7])⟩
  | @spoiled n m r fn w op l' f cl res W h1 h2 h3 h4 h5 h6 h7 =>
    cases hL
    obtain ⟨a, b⟩ := tcall_window h3 h4
    exact ⟨r, w, b, a, by simpa [upd] using main h6 (by rw [h7])⟩
  | _ => cases hL

end Verif.Runtime

namespace Verif.EndToEnd
open Verif.Nuscr Verif.NuscrSpec Verif.NuscrText Verif.Runtime Verif.Types Verif.Spec Verif.Prop
open Verif.Mesh (actsOf Part)
open Verif.Timed (Clocks)

/-- As `Diary`, for what is done, up to clocks and an instant. -/
inductive Kept (V : Windows) : Clocks → Nat → List (Mesh.Act × Nat) → Clocks → Nat → Prop
  | nil {cl last d} : last ≤ d → Kept V cl last [] cl d
  | pause {cl last d a t L cl' e} : ¬ Moves a → last ≤ d → Kept V cl d L cl' e → Kept V cl last ((a, t) :: L) cl' e
  | move {cl cl₁ last d a c u t L cl' e} : Moves a → cl (winAct V a).clock = some c → last ≤ u → u ≤ t → u ≤ d → Inside (winAct V a) (u - c) →
      (∀ y, cl₁ y = cl y ∨ (((winAct V a).reset = y ∧ y ≠ ' ') ∧ ∃ i, cl₁ y = some i ∧ t ≤ i ∧ i ≤ d)) →
      Kept V cl₁ d L cl' e → Kept V cl last ((a, t) :: L) cl' e

theorem Kept.append {V : Windows} {cl last L cl' d L' cl'' e} (h : Kept V cl last L cl' d) (h' : Kept V cl' d L' cl'' e) :
    Kept V cl last (L ++ L') cl'' e := by
  induction h with
  | nil hle =>
    cases h' with
    | nil h1 => exact .nil (Nat.le_trans hle h1)
    | pause h1 h2 h3 => exact .pause h1 (Nat.le_trans hle h2) h3
    | move h1 h2 h3 h4 h5 h6 h7 h8 => exact .move h1 h2 (Nat.le_trans hle h3) h4 h5 h6 h7 h8
  | pause h1 h2 _ ih => exact .pause h1 h2 (ih h')
  | move h1 h2 h3 h4 h5 h6 h7 _ ih => exact .move h1 h2 h3 h4 h5 h6 h7 (ih h')

section
variable {title : Text → Text} {C : Classes} {s : Plan} {text : List Text} {prog : Program} {code : Params → Nat} {V : Windows}

/-- What one step adds. -/
theorem kept_step (h : EndToEnd.Accepted title C s text prog) (hV : AsWritten code title V s.messages) (hf : FreeChoices V) (r : Nat)
    {ls : List TLabel} {st st' : TS} {l : TLabel} (hr : TRun (system prog code title s) V 0 ls st) (hn : ∀ q, st.noted q = [])
    (hs : TStep (system prog code title s) V st l st') :
    Kept V (st.clocks r) (st.last r) (match l with
      | .go (.sim (.act q a)) => if q = r then [(a, st'.now)] else []
      | _ => []) (st'.clocks r) (st'.last r) := by
  have hlast := last_mono hs r
  -- which clocks change
  have hcl : ∀ y, st'.clocks r y = st.clocks r y ∨ ∃ a, l = .go (.sim (.act r a)) ∧ Moves a ∧ (winAct V a).reset = y ∧ y ≠ ' ' ∧
      ∃ i, st'.clocks r y = some i ∧ st'.now ≤ i ∧ i ≤ st'.last r := by
    intro y
    rcases (C68_clocks _ _ V 0 ls st hr).2 l st' hs r y with h1 | ⟨c', h1, h2, h3, ⟨L, w, rfl, h5, h6, h7, h8, h9, h10⟩ | ⟨-, h4⟩⟩
    · exact .inl h1
    · cases L with
      | sim x =>
        cases x with
        | act r' a =>
          simp only [RLabel.actor, Mesh.Label.actor, Option.some.injEq] at h5
          subst h5
          cases a with
          | heed q N =>
            obtain ⟨bs, -, rfl⟩ := h7
            rw [hf] at h8
            exact absurd h8.symm h9
          | decide N => exact h7.elim
          | send q k => cases h7; exact .inr ⟨_, rfl, trivial, h8, h9, c', h1, h10, h3⟩
          | recv q k => cases h7; exact .inr ⟨_, rfl, trivial, h8, h9, c', h1, h10, h3⟩
        | tell r' q =>
          simp only [RLabel.actor, Mesh.Label.actor, Option.some.injEq] at h5
          subst h5
          exact absurd rfl (h6 q)
        | enter => exact h7.elim
      | _ => exact h7.elim
    · rw [hn r] at h4; cases h4
  by_cases hl : ∃ a, l = .go (.sim (.act r a))
  · obtain ⟨a, rfl⟩ := hl
    simp only [if_true]
    by_cases ha : Moves a
    · obtain ⟨p', -, m, hm, hd⟩ := act_moves h hV hr hs ha
      obtain ⟨e1, -⟩ := does_winAct hV hm hd
      have hT : Transfers (.sim (.act r a)) := by
        cases a <;> first | trivial | exact ha.elim
      obtain ⟨r', w, k1, k2, k3⟩ := step_inside_now hs hT
      cases k1
      have hw : w = winAct V a := by
        cases a <;> first | exact k2 | exact ha.elim
      subst hw
      rcases k3 with k3 | ⟨c, u, k4, k5, k6, k7, k8⟩
      · rw [e1] at k3
        have := k3.1
        simp only [Params.window, written] at this
        omega
      · refine .move ha k4 k5 k7 k6 k8 (fun y => ?_) (.nil (Nat.le_refl _))
        rcases hcl y with h1 | ⟨a', e, -, h2, h3, h4⟩
        · exact .inl h1
        · cases e; exact .inr ⟨⟨h2, h3⟩, h4⟩
    · have e : st'.clocks r = st.clocks r := by
        funext y
        rcases hcl y with h1 | ⟨a', e, h2, -⟩
        · exact h1
        · cases e; exact absurd h2 ha
      rw [e]
      exact .pause ha hlast (.nil (Nat.le_refl _))
  · have e : st'.clocks r = st.clocks r := by
      funext y
      rcases hcl y with h1 | ⟨a', e, -⟩
      · exact h1
      · exact absurd ⟨a', e⟩ hl
    rw [e]
    split
    · rename_i q a _
      rw [if_neg (fun e => hl ⟨a, by rw [e]⟩)]
      exact .nil hlast
    · exact .nil hlast

theorem kept_sched (h : EndToEnd.Accepted title C s text prog) (hV : AsWritten code title V s.messages) (hf : FreeChoices V) {σ : Nat → TS}
    {lab : Nat → Option TLabel} (hs : TSchedule (system prog code title s) V 0 σ lab) (k : Nat) :
    TRun (system prog code title s) V 0 ((List.range k).filterMap lab) (σ k) ∧ (∀ q, (σ k).noted q = []) ∧
    ∀ r, Kept V ((σ 0).clocks r) ((σ 0).last r) (stamped σ lab r k) ((σ k).clocks r) ((σ k).last r) := by
  induction k with
  | zero => exact ⟨.start hs.start, hs.start.noted, fun r => .nil (Nat.le_refl _)⟩
  | succ k ih =>
    obtain ⟨h1, h2, h3⟩ := ih
    rw [List.range_succ, List.filterMap_append]
    have split : ∀ r, stamped σ lab r (k + 1) = stamped σ lab r k ++ match lab k with
        | some (.go (.sim (.act q a))) => if q = r then [(a, (σ (k + 1)).now)] else []
        | _ => [] := by
      intro r
      unfold stamped
      rw [List.range_succ, List.filterMap_append]
      congr 1
      simp only [List.filterMap_cons, List.filterMap_nil]
      cases lab k with
      | none => rfl
      | some l =>
        cases l with
        | go L =>
          cases L with
          | sim x =>
            cases x with
            | act q a => by_cases e : q = r <;> simp [e]
            | _ => rfl
          | _ => rfl
        | _ => rfl
    rcases hs.step k with ⟨l, h4, h5⟩ | ⟨h4, h5⟩
    · have e : List.filterMap lab [k] = [l] := by simp [h4]
      rw [e]
      refine ⟨.snoc h1 h5, noted_step hf h5 h2, fun r => ?_⟩
      rw [split r, h4]
      refine (h3 r).append ?_
      have := kept_step h hV hf r h1 h2 h5
      cases l with
      | go L =>
        cases L with
        | sim x =>
          cases x with
          | act q a => exact this
          | _ => exact this
        | _ => exact this
      | _ => exact this
    · have e : List.filterMap lab [k] = [] := by simp [h4]
      rw [e, List.append_nil]
      refine ⟨by rw [h5]; exact h1, by rw [h5]; exact h2, fun r => ?_⟩
      rw [split r, h4, h5]
      simpa using h3 r

theorem stamped_acts (σ : Nat → TS) (lab : Nat → Option TLabel) (r k : Nat) :
    (stamped σ lab r k).map (·.1) = actsOf r (fsims (((List.range k).filterMap lab).map TLabel.erase)) := by
  unfold stamped
  generalize List.range k = js
  induction js with
  | nil => rfl
  | cons j js ih =>
    cases hj : lab j with
    | none => simpa [hj] using ih
    | some l =>
      have e : ∀ X : List TLabel, actsOf r (fsims ((l :: X).map TLabel.erase)) = (match l with
          | .go (.sim (.act q a)) => if q = r then [a] else []
          | _ => []) ++ actsOf r (fsims (X.map TLabel.erase)) := by
        intro X
        cases l with
        | go L =>
          cases L with
          | sim x =>
            cases x with
            | act q a => by_cases e : q = r <;> simp [actsOf, fsims, TLabel.erase, e]
            | _ => simp [actsOf, fsims, TLabel.erase]
          | _ => simp [actsOf, fsims, TLabel.erase]
        | _ => simp [actsOf, fsims, TLabel.erase]
      rw [List.filterMap_cons, List.filterMap_cons, hj]
      simp only
      rw [e, ← ih]
      cases l with
      | go L =>
        cases L with
        | sim x =>
          cases x with
          | act q a => by_cases e : q = r <;> simp [e]
          | _ => rfl
        | _ => rfl
      | _ => rfl

/-- From what is done to what happens. -/
theorem kept_diary (hV : AsWritten code title V s.messages) {p : Text} : ∀ (tr : List Happening) {cl : Clocks} {last : Nat} {S : List (Mesh.Act × Nat)}
    {cl' : Clocks} {e : Nat}, Kept V cl last S cl' e → S.map (·.1) = tr.filterMap (does prog code title p) →
    (∀ m, Happening.exchange m ∈ tr → m ∈ s.messages) →
    ∃ L, L.map (·.1) = tr.filter (Happening.of p) ∧ (L.filterMap fun a => (does prog code title p a.1).map fun x => (x, a.2)) = S ∧ Diary p cl last L
  | [], cl, last, S, cl', e, _, hS, _ => by
    have : S = [] := by simpa using hS
    subst this
    exact ⟨[], rfl, rfl, .nil⟩
  | .choice x i :: tr, cl, last, S, cl', e, hK, hS, hm => by
    obtain ⟨a, ha, hna⟩ : ∃ a, does prog code title p (.choice x i) = some a ∧ ¬ Moves a := by
      simp only [does]
      split
      · exact ⟨_, rfl, id⟩
      · exact ⟨_, rfl, id⟩
    rw [List.filterMap_cons, ha] at hS
    simp only at hS
    cases hK with
    | nil => cases hS
    | move h1 =>
      simp only [List.map_cons, List.cons.injEq] at hS
      rw [hS.1] at h1
      exact absurd h1 hna
    | @pause _ _ d _ t S' _ _ h1 h2 h3 =>
      simp only [List.map_cons, List.cons.injEq] at hS
      obtain ⟨L, l1, l2, l3⟩ := kept_diary hV tr h3 hS.2 (fun m h => hm m (.tail _ h))
      refine ⟨(.choice x i, t) :: L, by rw [List.filter_cons, if_pos (show Happening.of p (.choice x i) = true from rfl), List.map_cons, l1], ?_, .choice h2 l3⟩
      rw [List.filterMap_cons, ha, l2, hS.1]
      rfl
  | .exchange m :: tr, cl, last, S, cl', e, hK, hS, hm => by
    by_cases hi : Involved p m
    · obtain ⟨a, ha⟩ : ∃ a, does prog code title p (.exchange m) = some a := by
        simp only [does]
        by_cases e : m.sender = p
        · exact ⟨_, if_pos e⟩
        · exact ⟨_, by rw [if_neg e, if_pos (hi.resolve_left e)]⟩
      obtain ⟨hw, hmv⟩ := does_winAct hV (hm m (.head _)) ha
      rw [List.filterMap_cons, ha] at hS
      simp only at hS
      cases hK with
      | nil => cases hS
      | pause h1 =>
        simp only [List.map_cons, List.cons.injEq] at hS
        rw [hS.1] at h1
        exact absurd hmv h1
      | @move _ cl₁ _ d a' c u t S' _ _ h1 h2 h3 h4 h5 h6 h7 h8 =>
        simp only [List.map_cons, List.cons.injEq] at hS
        obtain ⟨rfl, hS⟩ := hS
        obtain ⟨L, l1, l2, l3⟩ := kept_diary hV tr h8 hS (fun m h => hm m (.tail _ h))
        refine ⟨(.exchange m, t) :: L, ?_, ?_, .exchange (c := c) hi ?_ h3 h4 h5 ?_ ?_ l3⟩
        · rw [List.filter_cons, if_pos (by simpa [Happening.of, Involved] using hi), List.map_cons, l1]
        · rw [List.filterMap_cons, ha, l2]
          rfl
        · rw [hw] at h2
          exact h2
        · rw [hw] at h6
          obtain ⟨i1, i2⟩ := h6
          have i1 := i1 (by simp only [Params.window]; omega)
          have i2 := i2 (by simp only [Params.window]; omega)
          simp only [Params.window, written, decide_eq_true_eq] at i1 i2
          constructor
          · split at i1 <;> rename_i hb
            · rw [if_pos hb]; omega
            · rw [if_neg hb]; omega
          · split at i2 <;> rename_i hb
            · rw [if_pos hb]; omega
            · rw [if_neg hb]; omega
        · intro y
          rcases h7 y with h9 | ⟨⟨h9, h10⟩, h11⟩
          · exact .inl h9
          · refine .inr ⟨?_, h11⟩
            rw [hw] at h9
            simp only [Params.window, written] at h9
            unfold Resets
            cases hx : m.reset with
            | none => rw [hx] at h9; exact absurd (by simpa using h9.symm) h10
            | some x => rw [hx] at h9; exact ⟨x, rfl, h9.symm, h10⟩
    · have ha : does prog code title p (.exchange m) = none := by
        simp only [does]
        rw [if_neg (fun e => hi (.inl e)), if_neg (fun e => hi (.inr e))]
      rw [List.filterMap_cons, ha] at hS
      obtain ⟨L, l1, l2, l3⟩ := kept_diary hV tr hK hS (fun m h => hm m (.tail _ h))
      refine ⟨L, ?_, l2, l3⟩
      rw [List.filter_cons, if_neg (by simpa [Happening.of, Involved, not_or] using hi), l1]

end

/-- In a diary a clock that is not reset in between shows more and more. -/
theorem Diary.sound {p : Text} {y : Char} {b : Msg} {t : Nat} {L₂ : List (Happening × Nat)} (hb : b.clock.headD ' ' = y) :
    ∀ {L₁ : List (Happening × Nat)} {cl : Clocks} {last c : Nat}, Diary p cl last (L₁ ++ (.exchange b, t) :: L₂) → cl y = some c →
    (∀ m t, (Happening.exchange m, t) ∈ L₁ → ¬ Resets m y) → ∃ u, last ≤ u ∧ u ≤ t ∧ InInterval b (u - c) := by
  intro L₁
  induction L₁ with
  | nil =>
    intro cl last c h hc _
    cases h with
    | exchange h1 h2 h3 h4 h5 h6 =>
      rw [hb, hc] at h2
      cases h2
      exact ⟨_, h3, h4, h6⟩
  | cons x L₁ ih =>
    intro cl last c h hc hno
    cases h with
    | choice h1 h2 =>
      obtain ⟨u, a1, a2⟩ := ih h2 hc (fun m t h => hno m t (.tail _ h))
      exact ⟨u, by omega, a2⟩
    | exchange h1 h2 h3 h4 h5 h6 h7 h8 =>
      have hc' := (h7 y).resolve_right (fun h => hno _ _ (.head _) h.1)
      obtain ⟨u, a1, a2⟩ := ih h8 (hc'.trans hc) (fun m t h => hno m t (.tail _ h))
      exact ⟨u, by omega, a2⟩

/-- Two messages on a clock nobody resets from the first to the second. -/
theorem Diary.order {p : Text} {a b : Msg} {t t' : Nat} {L₁ L₂ : List (Happening × Nat)} (hab : a.clock.headD ' ' = b.clock.headD ' ')
    (hra : ¬ Resets a (b.clock.headD ' ')) (hno : ∀ m t, (Happening.exchange m, t) ∈ L₁ → ¬ Resets m (b.clock.headD ' ')) :
    ∀ {L₀ : List (Happening × Nat)} {cl : Clocks} {last : Nat}, Diary p cl last (L₀ ++ (.exchange a, t) :: (L₁ ++ (.exchange b, t') :: L₂)) →
    ∃ v v', v ≤ v' ∧ InInterval a v ∧ InInterval b v' := by
  intro L₀
  induction L₀ with
  | nil =>
    intro cl last h
    cases h with
    | exchange h1 h2 h3 h4 h5 h6 h7 h8 =>
      have hc := (h7 (b.clock.headD ' ')).resolve_right (fun h => hra h.1)
      rw [hab] at h2
      obtain ⟨u, a1, a2, a3⟩ := Diary.sound rfl h8 (hc.trans h2) hno
      exact ⟨_, _, by omega, h6, a3⟩
  | cons x L₀ ih =>
    intro cl last h
    cases h with
    | choice h1 h2 => exact ih h2
    | exchange h1 h2 h3 h4 h5 h6 h7 h8 => exact ih h8

end Verif.EndToEnd
