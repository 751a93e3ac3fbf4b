import Verif.Proof.TimedInstant
import Verif.Spec.TimedIdeal
/-!
# Programs with clocks: what can be done at given instants
-/
namespace Verif.Runtime
open Verif.Mesh (Sys Name Label upd Part Global project)
open Verif.Types (Window)
open Verif.Timed (Clocks Fn Res World run resetAll Out)
open Verif.Heap (Op)
open Verif.Spec Verif.SendRecv Verif.Prop

variable {cl₀ : Nat → Clocks} {t₀ : Nat} {n : Nat} {D : Global} {root : Name} {V : Windows} {s s' : TS}

theorem meets_run {fn : Fn} {w : Window} {cl : Clocks} {t : Nat} (h : Meets fn w cl t) :
    run fn (still t fun _ => false) w cl = ⟨.ok, if fn = .sendNoReset then cl else restart (resetOf w) t cl, some t⟩ := by
  rcases h with ⟨⟨⟨a, b⟩, c1, c2, d⟩, hr⟩ | ⟨hH, ⟨c, hc, hacc⟩, hr⟩
  · unfold run
    rw [if_neg (by rintro ⟨h1, h2⟩; rcases d with d | d <;> [exact h1 d; omega]), if_pos a, if_neg (by omega), if_pos (by simp [c1, c2])]
    simp only [still, Bool.false_eq_true, if_false]
    congr 1
    split
    · rfl
    · rename_i hne
      have := hr.resolve_right hne
      funext x; simp [restart, resetOf, this]
  · obtain ⟨r1, t', r2, -, -, r3⟩ := run_ok (W := still t fun _ => false) (cl := cl) hH hc
      (fun k _ => by simpa [still] using hacc) ⟨t, by simp [still]⟩ hr
    obtain rfl := run_still r2
    have hcl : (run fn (still t' fun _ => false) w cl).clocks = if fn = .sendNoReset then cl else restart (resetOf w) t' cl := by
      rw [r3]
      by_cases h1 : fn = .sendNoReset
      · simp [h1]
      · by_cases h2 : w.reset = ' '
        · simp only [h1, h2, ne_eq, not_true_eq_false, and_false, if_false]
          funext x; simp [restart, resetOf, h2]
        · simp only [h1, h2, ne_eq, not_false_eq_true, and_self, if_true, if_false]
          funext x; simp [restart, resetOf, h2, still]
    generalize hg : run fn (still t' fun _ => false) w cl = o at r1 r2 hcl ⊢
    obtain ⟨x, y, z⟩ := o
    simp only at r1 r2 hcl
    subst r1 r2 hcl
    rfl

theorem resetAll_still {t : Nat} : ∀ (rs : List Char) (k : Nat) (cl : Clocks), (∀ x ∈ rs, ∃ c, cl x = some c) →
    resetAll (fun _ => t) rs k cl = (.ok, restart rs t cl)
  | [], _, cl, _ => by simp only [resetAll]; congr 1
  | r :: rs, k, cl, h => by
    obtain ⟨c, hc⟩ := h r (by simp)
    unfold resetAll
    rw [hc]
    simp only
    rw [resetAll_still rs (k + 1) _ fun x hx => ?_]
    · congr 1
      funext x
      simp only [restart, List.mem_cons]
      by_cases e : x = r <;> by_cases e' : x ∈ rs <;> simp [e, e']
    · by_cases e : x = r
      · exact ⟨t, by simp [e]⟩
      · simp only [e, if_false]; exact h x (by simp [hx])

/-- The run of the program and the ideal one are at the same point. -/
structure Same (t : RS) (cl : Nat → Clocks) (N : Nat → List Char) (m : Nat) (s : TS) : Prop where
  fs : s.fs = ⟨t.heap, t.pos, nobody⟩
  clocks : s.clocks = cl
  noted : s.noted = N
  now : s.now = m
  last : ∀ r, s.last r ≤ m
  doomed : ∀ r, s.doomed r = false

theorem ideal_rrun {Y : Sys} {ls t cl noted now} (h : Ideal Y V root cl₀ t₀ ls t cl noted now) : RRun Y root (ls.map (·.1)) t := by
  induction h with
  | start h => exact .start h
  | transfer _ _ h3 _ _ _ _ ih => rw [List.map_append]; exact .snoc ih h3
  | tell _ _ h3 _ _ _ ih => rw [List.map_append]; exact .snoc ih h3
  | decide _ _ h3 ih => rw [List.map_append]; exact .snoc ih h3
  | enter _ _ h3 _ ih => rw [List.map_append]; exact .snoc ih h3
  | calm _ _ _ h3 ih => rw [List.map_append]; exact .snoc ih h3

theorem rstep_actor {Y : Sys} {h : Heap.St Pay} {pos : Nat → Pos} {l t' r} (hs : RStep Y h pos l t') (hl : l.actor = some r) : Part Y.n r := by
  cases hs <;> simp only [RLabel.actor, Mesh.Label.actor, Option.some.injEq, reduceCtorEq] at hl <;> subst hl <;> constructor <;> assumption

/-- Everything that can be done by calls that take no time can be done by the program, at the same instants. -/
theorem ideal (w : Global.Wf n D) {ls : List (RLabel × Nat)} {t cl noted now} (h : Ideal (project n D) V root cl₀ t₀ ls t cl noted now) :
    ∃ σ : Nat → TS, (TStart (project n D) root (σ 0) ∧ (σ 0).clocks = cl₀ ∧ (σ 0).now = t₀) ∧
      (∀ k l m, ls[k]? = some (l, m) → TStep (project n D) V (σ k) (.go l) (σ (k + 1)) ∧ (σ (k + 1)).now = m ∧ OnTime V (σ k) l m) ∧
      TRun (project n D) V root (ls.map fun p => .go p.1) (σ ls.length) ∧ Same t cl noted now (σ ls.length) := by
  have ext : ∀ {ls : List (RLabel × Nat)} {σ : Nat → TS} {l m s' t' cl' noted' now'}, TStart (project n D) root (σ 0) ∧ (σ 0).clocks = cl₀ ∧ (σ 0).now = t₀ →
      (∀ k l m, ls[k]? = some (l, m) → TStep (project n D) V (σ k) (.go l) (σ (k + 1)) ∧ (σ (k + 1)).now = m ∧ OnTime V (σ k) l m) →
      TRun (project n D) V root (ls.map fun p => .go p.1) (σ ls.length) →
      TStep (project n D) V (σ ls.length) (.go l) s' → s'.now = m → OnTime V (σ ls.length) l m → Same t' cl' noted' now' s' →
      ∃ σ : Nat → TS, (TStart (project n D) root (σ 0) ∧ (σ 0).clocks = cl₀ ∧ (σ 0).now = t₀) ∧
        (∀ k l' m', (ls ++ [(l, m)])[k]? = some (l', m') → TStep (project n D) V (σ k) (.go l') (σ (k + 1)) ∧ (σ (k + 1)).now = m' ∧ OnTime V (σ k) l' m') ∧
        TRun (project n D) V root ((ls ++ [(l, m)]).map fun p => .go p.1) (σ (ls ++ [(l, m)]).length) ∧
        Same t' cl' noted' now' (σ (ls ++ [(l, m)]).length) := by
    intro ls σ l m s' t' cl' noted' now' h0 h1 h2 h3 h4 hon h5
    refine ⟨fun k => if k ≤ ls.length then σ k else s', by simpa using h0, fun k l' m' e => ?_, ?_, ?_⟩
    · rcases Nat.lt_trichotomy k ls.length with hk | hk | hk
      · rw [List.getElem?_append_left hk] at e
        simp only [if_pos (Nat.le_of_lt hk), if_pos (show k + 1 ≤ ls.length from hk)]
        exact h1 k l' m' e
      · subst hk
        simp only [List.getElem?_concat_length, Option.some.injEq, Prod.mk.injEq] at e
        obtain ⟨rfl, rfl⟩ := e
        simp only [Nat.le_refl, if_true, if_neg (show ¬ ls.length + 1 ≤ ls.length by omega)]
        exact ⟨h3, h4, hon⟩
      · rw [List.getElem?_eq_none (by simp; omega)] at e; cases e
    · rw [List.map_append, List.length_append]
      simp only [List.length_cons, List.length_nil, if_neg (show ¬ ls.length + (0 + 1) ≤ ls.length by omega)]
      exact .snoc h2 h3
    · rw [List.length_append]
      simp only [List.length_cons, List.length_nil, if_neg (show ¬ ls.length + (0 + 1) ≤ ls.length by omega)]
      exact h5
  have fstep : ∀ {s : TS} {t : RS} {l} {t' : RS}, s.fs = ⟨t.heap, t.pos, nobody⟩ → RStep (project n D) t.heap t.pos l t' →
      FStep (project n D) s.fs (.step l) ⟨t'.heap, t'.pos, nobody⟩ := by
    intro s t l t' e h
    rw [e]
    exact FStep.step (s := ⟨t.heap, t.pos, nobody⟩) h (fun _ _ => rfl)
  have hgone : ∀ {s : TS} {ls r fn win op l}, TRun (project n D) V root ls s → s.fs.dead = nobody → Part n r →
      TCall (project n D) V r (s.fs.pos r) fn win op l → ¬ Gone s.fs.heap op := by
    intro s ls r fn win op l hT hd hr hc hg
    obtain ⟨_, _, _, -, R⟩ := frun_sim w (trun_frun hT)
    obtain ⟨x, -, hx⟩ := gone_dead w R hr (by rw [hd]; rfl) hc hg
    rw [hd] at hx; cases hx
  have hontime : ∀ {s : TS} {r fn win op l m f}, TCall (project n D) V r (s.fs.pos r) fn win op l → FStep (project n D) s.fs (.step l) f → Meets fn win (s.clocks r) m → OnTime V s l m := by
    intro s r fn win op l m f hc hf hm ht
    obtain ⟨a, b⟩ := tcall_window hc hf
    refine ⟨r, win, b, a, ?_⟩
    rcases hm with ⟨hf, -⟩ | ⟨-, h, -⟩
    · exact .inl hf.1
    · exact .inr h
  induction h with
  | @start t hs hc =>
    refine ⟨fun _ => ⟨⟨t.heap, t.pos, nobody⟩, cl₀, fun _ => t₀, fun _ => [], fun _ => false, t₀⟩,
      ⟨⟨hs, rfl, hc, fun _ => rfl, fun _ => rfl⟩, rfl, rfl⟩, by simp, .start ⟨hs, rfl, hc, fun _ => rfl, fun _ => rfl⟩,
      ⟨rfl, rfl, rfl, rfl, fun _ => Nat.le_refl _, fun _ => rfl⟩⟩
  | @transfer ls t cl noted now m r fn win op l t' hI hm hs hl hc hfn hme ih =>
    obtain ⟨σ, h0, h1, h2, hS⟩ := ih
    have hr := rstep_actor hs hl
    have hc' : TCall (project n D) V r ((σ ls.length).fs.pos r) fn win op l := by rw [hS.fs]; exact hc
    have hrun : run fn (still m fun _ => false) win ((σ ls.length).clocks r) = ⟨.ok, restart (resetOf win) m (cl r), some m⟩ := by
      rw [hS.clocks, meets_run hme, if_neg hfn]
    refine ext h0 h1 h2 (.call (m := m) (by rw [hS.now]; exact hm) ⟨by rw [hS.fs]; rfl, hS.doomed r⟩ hc' (fstep hS.fs hs)
      (hgone h2 (by rw [hS.fs]) hr hc') (W := still m fun _ => false) (fun k => ⟨Nat.le_trans (hS.last r) hm, Nat.le_refl _⟩) hrun) rfl (hontime hc' (fstep hS.fs hs) (by rw [hS.clocks]; exact hme)) ?_
    refine ⟨rfl, by simp only [hS.clocks], ?_, rfl, fun q => ?_, hS.doomed⟩
    · simp only
      rw [if_neg (by simp [hfn])]
      exact hS.noted
    · simp only [upd]; split
      · exact Nat.le_refl _
      · exact Nat.le_trans (hS.last q) hm
  | @tell ls t cl noted now m r win op l t' hI hm hs hl hc hme ih =>
    obtain ⟨σ, h0, h1, h2, hS⟩ := ih
    have hr := rstep_actor hs hl
    have hc' : TCall (project n D) V r ((σ ls.length).fs.pos r) .sendNoReset win op l := by rw [hS.fs]; exact hc
    have hrun : run .sendNoReset (still m fun _ => false) win ((σ ls.length).clocks r) = ⟨.ok, cl r, some m⟩ := by
      rw [hS.clocks, meets_run hme, if_pos rfl]
    refine ext h0 h1 h2 (.call (m := m) (by rw [hS.now]; exact hm) ⟨by rw [hS.fs]; rfl, hS.doomed r⟩ hc' (fstep hS.fs hs)
      (hgone h2 (by rw [hS.fs]) hr hc') (W := still m fun _ => false) (fun k => ⟨Nat.le_trans (hS.last r) hm, Nat.le_refl _⟩) hrun) rfl (hontime hc' (fstep hS.fs hs) (by rw [hS.clocks]; exact hme)) ?_
    refine ⟨rfl, ?_, ?_, rfl, fun q => ?_, hS.doomed⟩
    · simp only [hS.clocks]
      funext q; simp only [upd]; split <;> simp_all
    · simp only [hS.noted, true_and, resetOf]
      by_cases e : win.reset = ' '
      · simp only [e, ne_eq, not_true_eq_false, if_false, if_true, List.append_nil]
        funext q; simp only [upd]; split <;> simp_all
      · simp [e]
    · simp only [upd]; split
      · exact Nat.le_refl _
      · exact Nat.le_trans (hS.last q) hm
  | @decide ls t cl noted now m r N t' hI hm hs ih =>
    obtain ⟨σ, h0, h1, h2, hS⟩ := ih
    exact ext h0 h1 h2 (.decide (by rw [hS.now]; exact hm) (hS.doomed r) (fstep hS.fs hs)) rfl (fun h => h.elim)
      ⟨rfl, hS.clocks, by simp only [hS.noted], rfl, fun q => Nat.le_trans (hS.last q) hm, hS.doomed⟩
  | @enter ls t cl noted now m r t' hI hm hs hx ih =>
    obtain ⟨σ, h0, h1, h2, hS⟩ := ih
    have hres : resetAll (fun _ => m) ((σ ls.length).noted r) 0 ((σ ls.length).clocks r) = (.ok, restart (noted r) m (cl r)) := by
      rw [hS.noted, hS.clocks]; exact resetAll_still _ _ _ hx
    refine ext h0 h1 h2 (.enter (n := m) (by rw [hS.now]; exact hm) ⟨by rw [hS.fs]; rfl, hS.doomed r⟩
      (fun _ => ⟨Nat.le_trans (hS.last r) hm, Nat.le_refl _⟩) (fstep hS.fs hs) hres) rfl (fun h => h.elim)
      ⟨rfl, by simp only [hS.clocks], hS.noted, rfl, fun q => ?_, hS.doomed⟩
    simp only [upd]; split
    · exact Nat.le_refl _
    · exact Nat.le_trans (hS.last q) hm
  | @calm ls t cl noted now m l t' hI hm hu hs ih =>
    obtain ⟨σ, h0, h1, h2, hS⟩ := ih
    exact ext h0 h1 h2 (.calm (by rw [hS.now]; exact hm) hu (fun q _ => hS.doomed q) (fstep hS.fs hs)) rfl (fun h => by cases l <;> first | exact hu.elim | exact h.elim)
      ⟨rfl, hS.clocks, hS.noted, rfl, fun q => Nat.le_trans (hS.last q) hm, hS.doomed⟩

end Verif.Runtime
