import Verif.Proof.TimedExecutionStuck
/-!
# C70: loops nobody can go round, and concrete cases
-/
namespace Verif.Prop
open Verif.Nuscr Verif.NuscrSpec Verif.NuscrText Verif.NuscrTextSpec Verif.EndToEnd Verif.Runtime
open Verif.Mesh (actsOf)

section
variable {title : Text → Text} {C : Classes} {s : Plan} {text : List Text} {prog : Program} {code : Params → Nat} {V : Windows}

/-- **C70**, only what the clocks permit: in a text without resets, if the windows say that `b` is exchanged before `a`, then in no run, whatever the delays and failures,
somebody returns from `close` after an execution in which one role had to exchange `a` first and `b` later.  The clocks were created during the first `B` nanoseconds. -/
theorem C70_only (h : EndToEnd.Accepted title C s text prog) (hV : AsWritten code title V s.messages) (hf : FreeChoices V)
    (hno : ∀ m ∈ s.messages, m.reset = none) (B : Nat) (σ : Nat → TS) (lab : Nat → Option TLabel)
    (hs : TSchedule (system prog code title s) V 0 σ lab) (h0 : ∀ r y c, (σ 0).clocks r y = some c → c ≤ B)
    (k : Nat) (q : Text) (hq : q ∈ s.roles) (hc : (σ k).fs.pos (number prog q) = .closed) :
    ∃ tr, Execution s true tr ∧
      (∀ p ∈ s.roles, actsOf (number prog p) (fsims (((List.range k).filterMap lab).map TLabel.erase)) = tr.filterMap (does prog code title p)) ∧
      ∀ p ∈ s.roles, ∀ a b, List.Sublist [Happening.exchange a, .exchange b] tr → Involved p a → Involved p b →
        value a.leftBound * 1000000000 ≤ value b.rightBound * 1000000000 + B := by
  have hr := fun p => passed_sched h hV hf hno p hs h0 k
  obtain ⟨tr, h1, h2⟩ := C69_close h code V _ _ (hr q).1 q hq hc
  refine ⟨tr, h1, h2, fun p hp a b hab ha hb => ?_⟩
  have hpw := (hr p).2.bounds
  rw [h2 p hp] at hpw
  have hd : ∀ {m}, Involved p m → ∃ x, does prog code title p (.exchange m) = some x := by
    intro m hm
    simp only [does]
    by_cases e : m.sender = p
    · exact ⟨_, if_pos e⟩
    · exact ⟨_, by rw [if_neg e, if_pos (hm.resolve_left e)]⟩
  obtain ⟨x, hx⟩ := hd ha
  obtain ⟨y, hy⟩ := hd hb
  have hma := execution_messages h1 (hab.subset (by simp : Happening.exchange a ∈ _))
  have hmb := execution_messages h1 (hab.subset (by simp : Happening.exchange b ∈ _))
  have := hpw.sublist (hab.filterMap (does prog code title p))
  simp only [List.filterMap_cons, hx, hy, List.filterMap_nil] at this
  have := (List.pairwise_cons.1 this).1 y (by simp) (does_winAct hV hmb hy).2
  rw [(does_winAct hV hma hx).1, (does_winAct hV hmb hy).1] at this
  simp only [Params.window, written] at this
  omega

/-- What is done at a moment of a schedule is among what the role does. -/
theorem acts_sublist {lab : Nat → Option TLabel} {r : Nat} : ∀ {js : List Nat} {xs : List Mesh.Act} {k : Nat}, js.Pairwise (· < ·) → (∀ j ∈ js, j < k) →
    List.Forall₂ (fun j x => lab j = some (.go (.sim (.act r x)))) js xs →
    xs.Sublist (actsOf r (fsims (((List.range k).filterMap lab).map TLabel.erase))) := by
  intro js xs k h1 h2 h3
  have hsub : js.Sublist (List.range k) := by
    refine List.sublist_of_subperm_of_pairwise (r := (· < ·)) (List.subperm_of_subset (h1.imp Nat.ne_of_lt) fun j hj => List.mem_range.2 (h2 j hj)) h1 List.pairwise_lt_range
  have e : actsOf r (fsims ((js.filterMap lab).map TLabel.erase)) = xs := by
    clear h1 h2 hsub
    induction h3 with
    | nil => rfl
    | @cons j x js xs h _ ih =>
      have : ((j :: js).filterMap lab).map TLabel.erase = .step (.sim (.act r x)) :: (js.filterMap lab).map TLabel.erase := by
        simp [h, TLabel.erase]
      rw [this, ← ih]
      simp [actsOf, fsims]
  rw [← e]
  unfold actsOf fsims
  exact (((hsub.filterMap lab).map TLabel.erase).filterMap _).filterMap _

/-- **C70**, the property fails: if in an accepted text without resets some role has a message `a` before the choice, and in a branch a message `b` which has to be exchanged before `a`, as
the clocks tell, then in no run in which a role has chosen, or has heard of, this branch any role ever returns from `close`. -/
theorem C70_no_branch {P : Proto} (h : EndToEnd.Accepted title C (.choice P) text prog) (hV : AsWritten code title V (Plan.messages (.choice P)))
    (hf : FreeChoices V) (hno : ∀ m ∈ Plan.messages (.choice P), m.reset = none) (i : Nat) (br : Branch) (hbr : P.branches[i]? = some br)
    (a b : Msg) (ha : a ∈ messagesOf P.pre) (hb : b ∈ P.exchanges br)
    (p : Text) (hp : p ∈ P.roles) (hpa : Involved p a) (hpb : Involved p b) (B : Nat)
    (hB : value b.rightBound * 1000000000 + B < value a.leftBound * 1000000000)
    (σ : Nat → TS) (lab : Nat → Option TLabel)
    (hs : TSchedule (system prog code title (.choice P)) V 0 σ lab) (h0 : ∀ r y c, (σ 0).clocks r y = some c → c ≤ B)
    (r : Text) (hr : r ∈ P.roles) (j : Nat) (x : Mesh.Act) (hx : does prog code title r (.choice P.chooser i) = some x)
    (hj : lab j = some (.go (.sim (.act (number prog r) x)))) (k : Nat) (hk : j < k) (q : Text) (hq : q ∈ P.roles) :
    (σ k).fs.pos (number prog q) ≠ .closed := by
  intro hc
  obtain ⟨tr, h1, h2, h3⟩ := C70_only h hV hf hno B σ lab hs h0 k q hq hc
  have hin := acts_sublist (lab := lab) (r := number prog r) (js := [j]) (xs := [x]) (k := k) (by simp) (by simpa using hk) (.cons hj .nil)
  rw [h2 r hr] at hin
  have hch := choices_done h1 [i] [x] (.cons hx .nil) hin
  have := h3 p hp a b (before_choice h1 hbr (List.singleton_sublist.1 hch) ha hb) hpa hpb
  omega

/-- **C70**, the property fails: if every branch has such a message, nobody ever returns from `close`. -/
theorem C70_no_end {P : Proto} (h : EndToEnd.Accepted title C (.choice P) text prog) (hV : AsWritten code title V (Plan.messages (.choice P)))
    (hf : FreeChoices V) (hno : ∀ m ∈ Plan.messages (.choice P), m.reset = none) (a : Msg) (ha : a ∈ messagesOf P.pre)
    (p : Text) (hp : p ∈ P.roles) (hpa : Involved p a) (B : Nat)
    (hB : ∀ br ∈ P.branches, ∃ b ∈ P.exchanges br, Involved p b ∧ value b.rightBound * 1000000000 + B < value a.leftBound * 1000000000)
    (σ : Nat → TS) (lab : Nat → Option TLabel)
    (hs : TSchedule (system prog code title (.choice P)) V 0 σ lab) (h0 : ∀ r y c, (σ 0).clocks r y = some c → c ≤ B)
    (k : Nat) (q : Text) (hq : q ∈ P.roles) : (σ k).fs.pos (number prog q) ≠ .closed := by
  intro hc
  obtain ⟨tr, h1, h2, h3⟩ := C70_only h hV hf hno B σ lab hs h0 k q hq hc
  have : ∃ i br, P.branches[i]? = some br ∧ Happening.choice P.chooser i ∈ tr := by
    cases h1 with
    | choice h1 =>
      cases h1 with
      | ends e1 => exact ⟨_, _, e1, by simp⟩
      | again e1 => exact ⟨_, _, e1, by simp⟩
  obtain ⟨i, br, hbr, hi⟩ := this
  obtain ⟨b, hb, hpb, hlt⟩ := hB br (List.mem_of_getElem? hbr)
  have := h3 p hp a b (before_choice h1 hbr hi ha hb) hpa hpb
  omega

/-- **C70**, the property fails: the same for a message `a` of a branch that is chosen, and a message `b` of a branch that is chosen later, perhaps the same branch. -/
theorem C70_no_return {P : Proto} (h : EndToEnd.Accepted title C (.choice P) text prog) (hV : AsWritten code title V (Plan.messages (.choice P)))
    (hf : FreeChoices V) (hno : ∀ m ∈ Plan.messages (.choice P), m.reset = none) (i i' : Nat) (br br' : Branch) (hbr : P.branches[i]? = some br)
    (hbr' : P.branches[i']? = some br') (a b : Msg) (ha : a ∈ P.exchanges br) (hb : b ∈ P.exchanges br')
    (p : Text) (hp : p ∈ P.roles) (hpa : Involved p a) (hpb : Involved p b) (B : Nat)
    (hB : value b.rightBound * 1000000000 + B < value a.leftBound * 1000000000)
    (σ : Nat → TS) (lab : Nat → Option TLabel)
    (hs : TSchedule (system prog code title (.choice P)) V 0 σ lab) (h0 : ∀ r y c, (σ 0).clocks r y = some c → c ≤ B)
    (r : Text) (hr : r ∈ P.roles) (j j' : Nat) (hjj : j < j') (x x' : Mesh.Act) (hx : does prog code title r (.choice P.chooser i) = some x)
    (hx' : does prog code title r (.choice P.chooser i') = some x')
    (hj : lab j = some (.go (.sim (.act (number prog r) x)))) (hj' : lab j' = some (.go (.sim (.act (number prog r) x'))))
    (k : Nat) (hk : j' < k) (q : Text) (hq : q ∈ P.roles) :
    (σ k).fs.pos (number prog q) ≠ .closed := by
  intro hc
  obtain ⟨tr, h1, h2, h3⟩ := C70_only h hV hf hno B σ lab hs h0 k q hq hc
  have hin := acts_sublist (lab := lab) (r := number prog r) (js := [j, j']) (xs := [x, x']) (k := k) (by simpa using hjj) (by simp; omega)
    (.cons hj (.cons hj' .nil))
  rw [h2 r hr] at hin
  have hch := choices_done h1 [i, i'] [x, x'] (.cons hx (.cons hx' .nil)) hin
  have := h3 p hp a b (between_choices h1 hbr hbr' hch ha hb) hpa hpb
  omega

end

/-- Payload types and windows can always be chosen as the generator writes them. -/
theorem asGenerated_exists (title : Text → Text) (msgs : List Msg) : ∃ code V, AsWritten code title V msgs ∧ FreeChoices V := by
  obtain ⟨code, V, h⟩ := asWritten_exists title msgs
  exact ⟨code, ⟨V.msg, fun _ _ _ => free⟩, h, fun _ _ _ => rfl⟩

/-! ## A text whose loop nobody can go round -/

/-- `A` tells `B` something in the first second and something else after the fifth, again and again, or stops. -/
def again : Proto :=
  ⟨['P'], [['A'], ['B']], [.loop ['L']], ['A'], ⟨[ab ['M'] '0' '1', ab ['N'] '5' '6'], some ['L']⟩, [⟨[], none⟩]⟩

/-- Its text. -/
def againText : List Text :=
  [headerText one ['P'] [(['A'], 0, 1), (['B'], 0, 0)], loopText one ['L'],
    choiceText one ['A'], messageText one none (ab ['M'] '0' '1'), messageText one none (ab ['N'] '5' '6'), jumpText one ['L'], orText one,
    closeText one, closeText one, closeText one]

theorem again_written : IsText ascii again.lines againText := by
  have m : ∀ label l r, IsWord ascii label → l.isDigit = true → r.isDigit = true →
      Written ascii ⟨0, 0, false, .message (ab label l r)⟩ (messageText one none (ab label l r)) :=
    fun label l r h1 h2 h3 => .message _ _ _ (ab_written none (by simp) label h1 l r h2 h3)
  have w : ∀ c : Char, ascii.word c = true → IsWord ascii [c] := fun c h => ⟨by simp, by simpa using h⟩
  refine .cons (.header ['P'] [(['A'], 0, 1), (['B'], 0, 0)] one (w _ (by decide)) (by simp) ?_)
    (.cons (.loop _ _ (w _ (by decide)))
    (.cons (.choice _ _ (w _ (by decide)))
    (.cons (m _ _ _ (w _ (by decide)) (by decide) (by decide))
    (.cons (m _ _ _ (w _ (by decide)) (by decide) (by decide))
    (.cons (.jump _ _ (w _ (by decide)))
    (.cons (.or _)
    (.cons (.close _) (.cons (.close _) (.cons (.close _) .nil)))))))))
  intro r hr
  simp only [List.mem_cons, List.not_mem_nil, or_false] at hr
  rcases hr with rfl | rfl <;> exact w _ (by decide)

theorem again_accepted : ∃ prog, EndToEnd.Accepted id ascii (.choice again) againText prog := by
  obtain ⟨prog, h⟩ := (okB_iff (generator id again.lines)).mp (by decide)
  refine ⟨prog, ascii_usual, again_written, by decide, by decide, ?_⟩
  rw [C48_generator id ascii ascii_usual _ _ again_written]
  exact h

/-- `C70_no_return` for this text, see also `C70_loop_stuck`. -/
example : ∃ prog, EndToEnd.Accepted id ascii (.choice again) againText prog ∧
    ∀ (code : Params → Nat) (V : Windows), AsWritten code id V (Plan.messages (.choice again)) → FreeChoices V →
      ∀ (σ : Nat → TS) (lab : Nat → Option TLabel), TSchedule (system prog code id (.choice again)) V 0 σ lab →
      (∀ r y c, (σ 0).clocks r y = some c → c ≤ 1000000000) →
      ∀ j j', j < j' → lab j = some (.go (.sim (.act (number prog ['A']) (.decide 1)))) →
      lab j' = some (.go (.sim (.act (number prog ['A']) (.decide 1)))) → ∀ k, j' < k →
      ∀ q ∈ again.roles, (σ k).fs.pos (number prog q) ≠ .closed := by
  obtain ⟨prog, h⟩ := again_accepted
  refine ⟨prog, h, fun code V hV hf σ lab hs h0 j j' hjj hj hj' k hk q hq => ?_⟩
  exact C70_no_return h hV hf (by decide) 0 0 again.first again.first rfl rfl (ab ['N'] '5' '6') (ab ['M'] '0' '1') (by decide) (by decide)
    ['B'] (by decide) (by unfold Involved; decide) (by unfold Involved; decide) 1000000000 (by decide) σ lab hs h0 ['A'] (by decide) j j' hjj (.decide 1) (.decide 1)
    rfl rfl hj hj' k hk q hq

/-- `A` tells `B` something after the fifth second, and then one of two things in the first second. -/
def tooLate : Proto :=
  ⟨['P'], [['A'], ['B']], [.msg (ab ['K'] '5' '6')], ['A'], ⟨[ab ['M'] '0' '1'], none⟩, [⟨[ab ['N'] '0' '1'], none⟩]⟩

/-- Its text. -/
def tooLateText : List Text :=
  [headerText one ['P'] [(['A'], 0, 1), (['B'], 0, 0)], messageText one none (ab ['K'] '5' '6'),
    choiceText one ['A'], messageText one none (ab ['M'] '0' '1'), orText one, messageText one none (ab ['N'] '0' '1'),
    closeText one, closeText one]

theorem tooLate_written : IsText ascii tooLate.lines tooLateText := by
  have m : ∀ label l r, IsWord ascii label → l.isDigit = true → r.isDigit = true →
      Written ascii ⟨0, 0, false, .message (ab label l r)⟩ (messageText one none (ab label l r)) :=
    fun label l r h1 h2 h3 => .message _ _ _ (ab_written none (by simp) label h1 l r h2 h3)
  have w : ∀ c : Char, ascii.word c = true → IsWord ascii [c] := fun c h => ⟨by simp, by simpa using h⟩
  refine .cons (.header ['P'] [(['A'], 0, 1), (['B'], 0, 0)] one (w _ (by decide)) (by simp) ?_)
    (.cons (m _ _ _ (w _ (by decide)) (by decide) (by decide))
    (.cons (.choice _ _ (w _ (by decide)))
    (.cons (m _ _ _ (w _ (by decide)) (by decide) (by decide))
    (.cons (.or _)
    (.cons (m _ _ _ (w _ (by decide)) (by decide) (by decide))
    (.cons (.close _) (.cons (.close _) .nil)))))))
  intro r hr
  simp only [List.mem_cons, List.not_mem_nil, or_false] at hr
  rcases hr with rfl | rfl <;> exact w _ (by decide)

/-- `C70_no_end` for this text, see also `C70_choice_stuck`. -/
example : ∃ prog, EndToEnd.Accepted id ascii (.choice tooLate) tooLateText prog ∧
    ∀ (code : Params → Nat) (V : Windows), AsWritten code id V (Plan.messages (.choice tooLate)) → FreeChoices V →
      ∀ (σ : Nat → TS) (lab : Nat → Option TLabel), TSchedule (system prog code id (.choice tooLate)) V 0 σ lab →
      (∀ r y c, (σ 0).clocks r y = some c → c ≤ 1000000000) →
      ∀ k, ∀ q ∈ tooLate.roles, (σ k).fs.pos (number prog q) ≠ .closed := by
  have hacc : ∃ prog, EndToEnd.Accepted id ascii (.choice tooLate) tooLateText prog := by
    obtain ⟨prog, h⟩ := (okB_iff (generator id tooLate.lines)).mp (by decide)
    refine ⟨prog, ascii_usual, tooLate_written, by decide, by decide, ?_⟩
    rw [C48_generator id ascii ascii_usual _ _ tooLate_written]
    exact h
  obtain ⟨prog, h⟩ := hacc
  refine ⟨prog, h, fun code V hV hf σ lab hs h0 k q hq => ?_⟩
  refine C70_no_end h hV hf (by decide) (ab ['K'] '5' '6') (by decide) ['B'] (by decide) (by unfold Involved; decide) 1000000000 ?_ σ lab hs h0 k q hq
  intro br hbr
  simp only [tooLate, Proto.branches, List.mem_cons, List.not_mem_nil, or_false] at hbr
  rcases hbr with rfl | rfl
  · exact ⟨ab ['M'] '0' '1', by decide, by unfold Involved; decide, by decide⟩
  · exact ⟨ab ['N'] '0' '1', by decide, by unfold Involved; decide, by decide⟩

/-! ## The hypotheses are met -/

/-- The execution of `greet` in which the greeting is repeated, at the seconds 1, 2, .. of clocks created at 0. -/
theorem greet_permitted : Permitted (fun _ _ => some 0) 0
    [(.exchange (ab ['H'] '0' '1'), 1000000000), (.exchange (ab ['K'] '0' '9'), 2000000000), (.choice ['A'] 0, 2500000000),
      (.exchange (ab ['M'] '0' '9'), 3000000000), (.exchange (ab ['K'] '0' '9'), 4000000000), (.choice ['A'] 1, 4000000000),
      (.exchange (ab ['N'] '0' '9'), 9000000000)] := by
  have may : ∀ label (r : Char) t, t ≤ value [r] * 1000000000 → MayExchange (fun _ => some 0) (ab label '0' r) t := by
    intro label r t ht
    refine ⟨⟨0, rfl, ?_⟩, by intro x hx; cases hx⟩
    have e : value ['0'] = 0 := by decide
    simp only [InBounds, ab, if_true, e]
    omega
  have keep : ∀ label l r t, (fun p : Text => if p = (ab label l r).sender ∨ p = (ab label l r).receiver then
      resetBy (ab label l r) t ((fun _ _ => some 0 : Text → Timed.Clocks) p) else (fun _ _ => some 0 : Text → Timed.Clocks) p) =
        (fun _ _ => some 0 : Text → Timed.Clocks) := by
    intro label l r t
    funext p y
    simp only
    split <;> rfl
  refine .exchange (by decide) (may _ _ _ (by decide)) (may _ _ _ (by decide)) ?_
  rw [keep]
  refine .exchange (by decide) (may _ _ _ (by decide)) (may _ _ _ (by decide)) ?_
  rw [keep]
  refine .choice (by decide) (.exchange (by decide) (may _ _ _ (by decide)) (may _ _ _ (by decide)) ?_)
  rw [keep]
  refine .exchange (by decide) (may _ _ _ (by decide)) (may _ _ _ (by decide)) ?_
  rw [keep]
  refine .choice (by decide) (.exchange (by decide) (may _ _ _ (by decide)) (may _ _ _ (by decide)) ?_)
  rw [keep]
  exact .nil

/-- It is carried out at these instants. -/
example : ∃ prog code V, EndToEnd.Accepted id ascii (.choice greet) greetText prog ∧ AsWritten code id V (Plan.messages (.choice greet)) ∧ FreeChoices V ∧
    ∃ (ls : List (RLabel × Nat)) (σ : Nat → TS),
      (∀ k l m, ls[k]? = some (l, m) → TStep (system prog code id (.choice greet)) V (σ k) (.go l) (σ (k + 1)) ∧ (σ (k + 1)).now = m ∧ OnTime V (σ k) l m) ∧
      (∀ p ∈ greet.roles, (σ ls.length).fs.pos (number prog p) = .closed) ∧
      (timedActs (number prog ['C']) ls).map (·.2) = [2500000000, 4000000000] := by
  obtain ⟨prog, h⟩ := greet_accepted
  obtain ⟨code, V, hV, hf⟩ := asGenerated_exists id (Plan.messages (.choice greet))
  obtain ⟨ls, σ, -, h2, h3⟩ := C70_carried_out_partial h hV hf (by decide) _ greet_execution _ ⟨.refl _, fun _ _ => rfl⟩ _ 0 (by
    intro p y c hc; cases hc; exact Nat.le_refl _) greet_permitted
  refine ⟨prog, code, V, h, hV, hf, ls, σ, h2, fun p hp => (h3 p hp).1, ?_⟩
  rw [(h3 ['C'] (by decide)).2]
  simp [does, ab]

end Verif.Prop
