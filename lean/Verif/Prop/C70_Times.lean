import Verif.Proof.TimedDiary
import Verif.Prop.C70_Loops
/-!
# C70: the instants of a run
-/
namespace Verif.Prop
open Verif.Nuscr Verif.NuscrSpec Verif.NuscrText Verif.NuscrTextSpec Verif.EndToEnd Verif.Runtime

variable {title : Text → Text} {C : Classes} {s : Plan} {text : List Text} {prog : Program} {code : Params → Nat} {V : Windows}

/-- **C70**, only at instants the clocks permit: if in any run of the program of an accepted text, with resets or not and whatever the delays and failures, somebody has
returned from `close`, then the roles have done a complete execution, and the instants at which each role had its part in it are such as its clocks, counting resets,
permit. -/
theorem C70_times (h : EndToEnd.Accepted title C s text prog) (hV : AsWritten code title V s.messages) (hf : FreeChoices V)
    (σ : Nat → TS) (lab : Nat → Option TLabel) (hs : TSchedule (system prog code title s) V 0 σ lab)
    (k : Nat) (q : Text) (hq : q ∈ s.roles) (hc : (σ k).fs.pos (number prog q) = .closed) :
    ∃ tr, Execution s true tr ∧ ∀ p ∈ s.roles, ∃ L, L.map (·.1) = tr.filter (Happening.of p) ∧
      (L.filterMap fun a => (does prog code title p a.1).map fun x => (x, a.2)) = stamped σ lab (number prog p) k ∧
      Diary p ((σ 0).clocks (number prog p)) ((σ 0).last (number prog p)) L := by
  obtain ⟨h1, -, h3⟩ := kept_sched h hV hf hs k
  obtain ⟨tr, h4, h5⟩ := C69_close h code V _ _ h1 q hq hc
  exact ⟨tr, h4, fun p hp => kept_diary hV tr (h3 _) ((stamped_acts σ lab _ k).trans (h5 p hp)) fun m hm => execution_messages h4 hm⟩

/-- **C70**, what follows for the text: if somebody returns from `close` after an execution in which a role exchanges `a` and later `b`, on one clock that it does not reset from `a`
on, then a clock value in the interval of `a` is not above one in that of `b`; in particular the lower bound of `a` is not above the upper bound of `b`. -/
theorem C70_order (h : EndToEnd.Accepted title C s text prog) (hV : AsWritten code title V s.messages) (hf : FreeChoices V)
    (σ : Nat → TS) (lab : Nat → Option TLabel) (hs : TSchedule (system prog code title s) V 0 σ lab)
    (k : Nat) (q : Text) (hq : q ∈ s.roles) (hc : (σ k).fs.pos (number prog q) = .closed) :
    ∃ tr, Execution s true tr ∧
      (∀ p ∈ s.roles, Mesh.actsOf (number prog p) (fsims (((List.range k).filterMap lab).map TLabel.erase)) = tr.filterMap (does prog code title p)) ∧
      ∀ p ∈ s.roles, ∀ t₀ a t₁ b t₂, tr.filter (Happening.of p) = t₀ ++ .exchange a :: (t₁ ++ .exchange b :: t₂) →
        a.clock.headD ' ' = b.clock.headD ' ' → (∀ m, Happening.exchange m ∈ .exchange a :: t₁ → ¬ Resets m (b.clock.headD ' ')) →
        (∃ v v', v ≤ v' ∧ InInterval a v ∧ InInterval b v') ∧ value a.leftBound ≤ value b.rightBound := by
  obtain ⟨h1, -, h3⟩ := kept_sched h hV hf hs k
  obtain ⟨tr, h4, h5⟩ := C69_close h code V _ _ h1 q hq hc
  refine ⟨tr, h4, h5, fun p hp t₀ a t₁ b t₂ he hab hno => ?_⟩
  obtain ⟨L, l1, -, l3⟩ := kept_diary hV tr (h3 _) ((stamped_acts σ lab _ k).trans (h5 p hp)) fun m hm => execution_messages h4 hm
  rw [he] at l1
  obtain ⟨L₀, R, rfl, -, e1⟩ := List.map_eq_append_iff.1 l1
  obtain ⟨⟨x, t⟩, R', rfl, e2, e3⟩ := List.map_eq_cons_iff.1 e1
  obtain ⟨L₁, R'', rfl, e4, e5⟩ := List.map_eq_append_iff.1 e3
  obtain ⟨⟨y, t'⟩, L₂, rfl, e6, -⟩ := List.map_eq_cons_iff.1 e5
  simp only at e2 e6
  subst e2 e6 e4
  obtain ⟨v, v', g1, g2, g3⟩ := l3.order hab (hno a (.head _)) fun m t hm => hno m (.tail _ (List.mem_map.2 ⟨_, hm, rfl⟩))
  refine ⟨⟨v, v', g1, g2, g3⟩, ?_⟩
  obtain ⟨g2, -⟩ := g2
  obtain ⟨-, g3⟩ := g3
  split at g2 <;> split at g3 <;> omega

/-! ## The hypotheses are met -/

/-- What is carried out is a schedule. -/
theorem carried_schedule {cl : Text → Timed.Clocks} {t₀ : Nat} {L : List (Happening × Nat)} (h : CarriedOut prog code title V s cl t₀ L) :
    ∃ σ lab k, TSchedule (system prog code title s) V 0 σ lab ∧ ∀ p ∈ s.roles, (σ k).fs.pos (number prog p) = .closed := by
  obtain ⟨ls, σ, ⟨h1, -, -⟩, h2, h3⟩ := h
  refine ⟨fun k => σ (min k ls.length), fun k => ls[k]?.map fun a => .go a.1, ls.length, ⟨by simpa using h1, fun k => ?_⟩, fun p hp => ?_⟩
  · rcases Nat.lt_or_ge k ls.length with hk | hk
    · have := (h2 k _ _ (List.getElem?_eq_getElem hk)).1
      refine .inl ⟨.go ls[k].1, by simp [hk], ?_⟩
      rw [Nat.min_eq_left (by omega), Nat.min_eq_left (by omega)]
      exact this
    · refine .inr ⟨by simp [hk], ?_⟩
      rw [Nat.min_eq_right (by omega), Nat.min_eq_right (by omega)]
  · simp only [Nat.min_self]
    exact (h3 p hp).1

/-- `rounds`, in which the clock is reset: there are runs in which everybody returns from `close`. -/
example : ∃ prog code V, EndToEnd.Accepted id ascii (.choice rounds) roundsText prog ∧ AsWritten code id V (Plan.messages (.choice rounds)) ∧ FreeChoices V ∧
    ∃ σ lab k, TSchedule (system prog code id (.choice rounds)) V 0 σ lab ∧ (σ k).fs.pos (number prog ['A']) = .closed := by
  obtain ⟨prog, code, V, h1, h2, h3, h4⟩ := rounds_carried
  obtain ⟨L, -, h5⟩ := h4 2
  obtain ⟨σ, lab, k, h6, h7⟩ := carried_schedule h5
  exact ⟨prog, code, V, h1, h2, h3, σ, lab, k, h6, h7 ['A'] (by decide)⟩

end Verif.Prop
