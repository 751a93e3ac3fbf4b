import Verif.Prop.C70_Times
/-!
# C70: branches and loops nobody can finish, with resets
-/
namespace Verif.Prop
open Verif.Nuscr Verif.NuscrSpec Verif.NuscrText Verif.NuscrTextSpec Verif.EndToEnd Verif.Runtime

section
variable {title : Text → Text} {C : Classes} {s : Plan} {text : List Text} {prog : Program} {code : Params → Nat} {V : Windows}

/-- **C70**, only what the clocks permit: if role `p` has `a` before `b` in what was done when somebody returns from `close`, both on a clock `p` never resets, then the lower bound of
`a` is not above the upper bound of `b`. -/
theorem C70_clock (h : EndToEnd.Accepted title C s text prog) (hV : AsWritten code title V s.messages) (hf : FreeChoices V)
    (σ : Nat → TS) (lab : Nat → Option TLabel) (hs : TSchedule (system prog code title s) V 0 σ lab)
    (k : Nat) (q : Text) (hq : q ∈ s.roles) (hc : (σ k).fs.pos (number prog q) = .closed) :
    ∃ tr, Execution s true tr ∧
      (∀ p ∈ s.roles, Mesh.actsOf (number prog p) (fsims (((List.range k).filterMap lab).map TLabel.erase)) = tr.filterMap (does prog code title p)) ∧
      ∀ p ∈ s.roles, ∀ a b, List.Sublist [Happening.exchange a, .exchange b] tr → Involved p a → Involved p b →
        a.clock.headD ' ' = b.clock.headD ' ' → (∀ m ∈ s.messages, Involved p m → ¬ Resets m (b.clock.headD ' ')) → value a.leftBound ≤ value b.rightBound := by
  obtain ⟨tr, h1, h2, h3⟩ := C70_order h hV hf σ lab hs k q hq hc
  refine ⟨tr, h1, h2, fun p hp a b hab ha hb hcl hno => ?_⟩
  have of : ∀ m, Happening.of p (.exchange m) = true ↔ Involved p m := by
    intro m; simp [Happening.of, Involved]
  have hsub := hab.filter (Happening.of p)
  simp only [List.filter_cons, (of a).2 ha, (of b).2 hb, List.filter_nil, if_true] at hsub
  obtain ⟨r₁, r₂, e, m1, m2⟩ := List.cons_sublist_iff.1 hsub
  obtain ⟨u, v, rfl⟩ := List.append_of_mem m1
  obtain ⟨u', v', rfl⟩ := List.append_of_mem (List.singleton_sublist.1 m2)
  refine (h3 p hp u a (v ++ u') b v' (by rw [e]; simp) hcl fun m hm => ?_).2
  have hmem : Happening.exchange m ∈ tr.filter (Happening.of p) := by
    rw [e]
    simp only [List.mem_cons, List.mem_append] at hm ⊢
    rcases hm with hm | hm | hm
    · exact .inl (.inr (.inl hm))
    · exact .inl (.inr (.inr hm))
    · exact .inr (.inl hm)
  obtain ⟨g1, g2⟩ := List.mem_filter.1 hmem
  exact hno m (execution_messages h1 g1) ((of m).1 g2)

/-- **C70**, the property fails: if in an accepted text some role has a message `a` before the choice, and in a branch a message `b` whose interval on the same clock, which the role never resets,
ends before that of `a` begins, then in no run in which a role has chosen, or has heard of, this branch any role ever returns from `close`. -/
theorem C70_clock_no_branch {P : Proto} (h : EndToEnd.Accepted title C (.choice P) text prog) (hV : AsWritten code title V (Plan.messages (.choice P)))
    (hf : FreeChoices V) (i : Nat) (br : Branch) (hbr : P.branches[i]? = some br)
    (a b : Msg) (ha : a ∈ messagesOf P.pre) (hb : b ∈ P.exchanges br)
    (p : Text) (hp : p ∈ P.roles) (hpa : Involved p a) (hpb : Involved p b) (hcl : a.clock.headD ' ' = b.clock.headD ' ')
    (hno : ∀ m ∈ Plan.messages (.choice P), Involved p m → ¬ Resets m (b.clock.headD ' ')) (hB : value b.rightBound < value a.leftBound)
    (σ : Nat → TS) (lab : Nat → Option TLabel) (hs : TSchedule (system prog code title (.choice P)) V 0 σ lab)
    (r : Text) (hr : r ∈ P.roles) (j : Nat) (x : Mesh.Act) (hx : does prog code title r (.choice P.chooser i) = some x)
    (hj : lab j = some (.go (.sim (.act (number prog r) x)))) (k : Nat) (hk : j < k) (q : Text) (hq : q ∈ P.roles) :
    (σ k).fs.pos (number prog q) ≠ .closed := by
  intro hc
  obtain ⟨tr, h1, h2, h3⟩ := C70_clock h hV hf σ lab hs k q hq hc
  have hin := acts_sublist (lab := lab) (r := number prog r) (js := [j]) (xs := [x]) (k := k) (by simp) (by simpa using hk) (.cons hj .nil)
  rw [h2 r hr] at hin
  have hch := choices_done h1 [i] [x] (.cons hx .nil) hin
  have := h3 p hp a b (before_choice h1 hbr (List.singleton_sublist.1 hch) ha hb) hpa hpb hcl hno
  omega

/-- **C70**, the property fails: if every branch has such a message, nobody ever returns from `close`. -/
theorem C70_clock_no_end {P : Proto} (h : EndToEnd.Accepted title C (.choice P) text prog) (hV : AsWritten code title V (Plan.messages (.choice P)))
    (hf : FreeChoices V) (a : Msg) (ha : a ∈ messagesOf P.pre) (p : Text) (hp : p ∈ P.roles) (hpa : Involved p a)
    (hno : ∀ m ∈ Plan.messages (.choice P), Involved p m → ¬ Resets m (a.clock.headD ' '))
    (hB : ∀ br ∈ P.branches, ∃ b ∈ P.exchanges br, Involved p b ∧ a.clock.headD ' ' = b.clock.headD ' ' ∧ value b.rightBound < value a.leftBound)
    (σ : Nat → TS) (lab : Nat → Option TLabel) (hs : TSchedule (system prog code title (.choice P)) V 0 σ lab)
    (k : Nat) (q : Text) (hq : q ∈ P.roles) : (σ k).fs.pos (number prog q) ≠ .closed := by
  intro hc
  obtain ⟨tr, h1, h2, h3⟩ := C70_clock h hV hf σ lab hs k q hq hc
  have : ∃ i br, P.branches[i]? = some br ∧ Happening.choice P.chooser i ∈ tr := by
    cases h1 with
    | choice h1 =>
      cases h1 with
      | ends e1 => exact ⟨_, _, e1, by simp⟩
      | again e1 => exact ⟨_, _, e1, by simp⟩
  obtain ⟨i, br, hbr, hi⟩ := this
  obtain ⟨b, hb, hpb, hcl, hlt⟩ := hB br (List.mem_of_getElem? hbr)
  have := h3 p hp a b (before_choice h1 hbr hi ha hb) hpa hpb hcl (hcl ▸ hno)
  omega

/-- **C70**, the property fails: the same for a message `a` of a branch that is chosen, and a message `b` of a branch that is chosen later, perhaps the same branch. -/
theorem C70_clock_no_return {P : Proto} (h : EndToEnd.Accepted title C (.choice P) text prog) (hV : AsWritten code title V (Plan.messages (.choice P)))
    (hf : FreeChoices V) (i i' : Nat) (br br' : Branch) (hbr : P.branches[i]? = some br)
    (hbr' : P.branches[i']? = some br') (a b : Msg) (ha : a ∈ P.exchanges br) (hb : b ∈ P.exchanges br')
    (p : Text) (hp : p ∈ P.roles) (hpa : Involved p a) (hpb : Involved p b) (hcl : a.clock.headD ' ' = b.clock.headD ' ')
    (hno : ∀ m ∈ Plan.messages (.choice P), Involved p m → ¬ Resets m (b.clock.headD ' ')) (hB : value b.rightBound < value a.leftBound)
    (σ : Nat → TS) (lab : Nat → Option TLabel) (hs : TSchedule (system prog code title (.choice P)) V 0 σ lab)
    (r : Text) (hr : r ∈ P.roles) (j j' : Nat) (hjj : j < j') (x x' : Mesh.Act) (hx : does prog code title r (.choice P.chooser i) = some x)
    (hx' : does prog code title r (.choice P.chooser i') = some x')
    (hj : lab j = some (.go (.sim (.act (number prog r) x)))) (hj' : lab j' = some (.go (.sim (.act (number prog r) x'))))
    (k : Nat) (hk : j' < k) (q : Text) (hq : q ∈ P.roles) :
    (σ k).fs.pos (number prog q) ≠ .closed := by
  intro hc
  obtain ⟨tr, h1, h2, h3⟩ := C70_clock h hV hf σ lab hs k q hq hc
  have hin := acts_sublist (lab := lab) (r := number prog r) (js := [j, j']) (xs := [x, x']) (k := k) (by simpa using hjj) (by simp; omega)
    (.cons hj (.cons hj' .nil))
  rw [h2 r hr] at hin
  have hch := choices_done h1 [i, i'] [x, x'] (.cons hx (.cons hx' .nil)) hin
  have := h3 p hp a b (between_choices h1 hbr hbr' hch ha hb) hpa hpb hcl hno
  omega

end

theorem again_plain : ∀ m ∈ Plan.messages (.choice again), m.reset = none := by decide

theorem tooLate_plain : ∀ m ∈ Plan.messages (.choice tooLate), m.reset = none := by decide

/-- **C70**, the property fails: the generator accepts a text with a loop nobody can go round twice: once `A` has chosen the same branch for the second time, no role ever returns from `close`,
whatever the delays and failures and whenever the clocks were created. -/
theorem C70_loop_stuck : ∃ prog, EndToEnd.Accepted id ascii (.choice again) againText prog ∧
    ∀ (code : Params → Nat) (V : Windows), AsWritten code id V (Plan.messages (.choice again)) → FreeChoices V →
      ∀ (σ : Nat → TS) (lab : Nat → Option TLabel), TSchedule (system prog code id (.choice again)) V 0 σ lab →
      ∀ j j', j < j' → lab j = some (.go (.sim (.act (number prog ['A']) (.decide 1)))) →
      lab j' = some (.go (.sim (.act (number prog ['A']) (.decide 1)))) → ∀ k, j' < k →
      ∀ q ∈ again.roles, (σ k).fs.pos (number prog q) ≠ .closed := by
  obtain ⟨prog, h⟩ := again_accepted
  refine ⟨prog, h, fun code V hV hf σ lab hs j j' hjj hj hj' k hk q hq => ?_⟩
  exact C70_clock_no_return h hV hf 0 0 again.first again.first rfl rfl (ab ['N'] '5' '6') (ab ['M'] '0' '1') (by decide) (by decide)
    ['B'] (by decide) (by unfold Involved; decide) (by unfold Involved; decide) (by decide) (fun m hm _ h => by obtain ⟨x, h, -⟩ := h; rw [again_plain m hm] at h; cases h)
    (by decide) σ lab hs ['A'] (by decide) j j' hjj (.decide 1) (.decide 1) rfl rfl hj hj' k hk q hq

/-- **C70**, the property fails: the generator accepts a text with a choice, on one clock that is never reset, whose program nobody can carry out, whichever branch is chosen. -/
theorem C70_choice_stuck : ∃ prog, EndToEnd.Accepted id ascii (.choice tooLate) tooLateText prog ∧
    ∀ (code : Params → Nat) (V : Windows), AsWritten code id V (Plan.messages (.choice tooLate)) → FreeChoices V →
      ∀ (σ : Nat → TS) (lab : Nat → Option TLabel), TSchedule (system prog code id (.choice tooLate)) V 0 σ lab →
      ∀ k, ∀ q ∈ tooLate.roles, (σ k).fs.pos (number prog q) ≠ .closed := by
  have hacc : ∃ prog, EndToEnd.Accepted id ascii (.choice tooLate) tooLateText prog := by
    obtain ⟨prog, h⟩ := (okB_iff (generator id tooLate.lines)).mp (by decide)
    refine ⟨prog, ascii_usual, tooLate_written, by decide, by decide, ?_⟩
    rw [C48_generator id ascii ascii_usual _ _ tooLate_written]
    exact h
  obtain ⟨prog, h⟩ := hacc
  refine ⟨prog, h, fun code V hV hf σ lab hs k q hq => ?_⟩
  refine C70_clock_no_end h hV hf (ab ['K'] '5' '6') (by decide) ['B'] (by decide) (by unfold Involved; decide)
    (fun m hm _ h => by obtain ⟨x, h, -⟩ := h; rw [tooLate_plain m hm] at h; cases h) ?_ σ lab hs k q hq
  intro br hbr
  simp only [tooLate, Proto.branches, List.mem_cons, List.not_mem_nil, or_false] at hbr
  rcases hbr with rfl | rfl
  · exact ⟨ab ['M'] '0' '1', by decide, by unfold Involved; decide, by decide, by decide⟩
  · exact ⟨ab ['N'] '0' '1', by decide, by unfold Involved; decide, by decide, by decide⟩

end Verif.Prop
