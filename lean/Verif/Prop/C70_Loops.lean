import Verif.Prop.C70_Cases
import Mathlib.Data.List.Chain
/-!
# C70: texts all of whose executions can be carried out
-/
namespace Verif.Prop
open Verif.Nuscr Verif.NuscrSpec Verif.NuscrText Verif.NuscrTextSpec Verif.EndToEnd Verif.Runtime
open Verif.Timed (Clocks)

/-- The next message is not over before this one, unless this one resets the clock. -/
def NotBefore (m m' : Msg) : Prop := m.reset = none → lastIn m ≤ lastIn m'

/-- The instants at which everything happens as late as possible, from the instant `now` on, with clocks set at `base`. -/
def latest (base now : Nat) : List Happening → List (Happening × Nat)
  | [] => []
  | .exchange m :: l =>
    (.exchange m, base + lastIn m * 1000000000) ::
      latest (if m.reset = none then base else base + lastIn m * 1000000000) (base + lastIn m * 1000000000) l
  | .choice x i :: l => (.choice x i, now) :: latest base now l

theorem latest_map (base now : Nat) (l : List Happening) : (latest base now l).map (·.1) = l := by
  induction l generalizing base now with
  | nil => rfl
  | cons e l ih => cases e <;> simp [latest, ih]

theorem inBounds_last {m : Msg} (h : ∃ t, NuscrSpec.Fits m t) : InBounds m (lastIn m * 1000000000) := by
  obtain ⟨t, h1, h2⟩ := h
  unfold InBounds lastIn
  split at h1 <;> split at h2 <;> simp only [*, if_true, if_false, reduceCtorEq] <;> omega

section
variable {roles : List Text} {x : Char}

theorem latest_permitted (l : List Happening) (hx : OneClock x (exchanged l)) (hw : ∀ m ∈ exchanged l, ∃ t, NuscrSpec.Fits m t)
    (hv : ∀ m ∈ exchanged l, Valid roles m) (hr : ∀ m ∈ exchanged l, m.reset ≠ none → ∀ p ∈ roles, Involved p m)
    (hc : (exchanged l).IsChain NotBefore) : ∀ {base now : Nat} {cl : Text → Clocks}, (∀ p ∈ roles, cl p x = some base) →
      (∀ m ∈ (exchanged l).head?, now ≤ base + lastIn m * 1000000000) → Permitted cl now (latest base now l) := by
  induction l with
  | nil => intro _ _ _ _ _; exact .nil
  | cons e l ih =>
    intro base now cl hcl hn
    cases e with
    | choice y i => exact .choice (Nat.le_refl _) (ih hx hw hv hr hc hcl hn)
    | exchange m =>
      have e : exchanged (.exchange m :: l) = m :: exchanged l := by simp [exchanged]
      rw [e] at hx hw hv hr hc hn
      have hm := hx.2 m (by simp)
      have hvm := hv m (by simp)
      have may : ∀ p ∈ roles, MayExchange (cl p) m (base + lastIn m * 1000000000) := by
        intro p hp
        refine ⟨⟨base, by rw [hm.1]; exact hcl p hp, ?_⟩, ?_⟩
        · rw [Nat.add_sub_cancel_left]
          exact inBounds_last (hw m (by simp))
        · intro y hy _
          rcases hm.2 with h | h
          · rw [h] at hy; cases hy
          · rw [h] at hy; cases hy; exact ⟨base, hcl p hp⟩
      refine .exchange (hn m (by simp)) (may _ hvm.1) (may _ hvm.2.1)
        (ih ⟨hx.1, fun a ha => hx.2 a (by simp [ha])⟩ (fun a ha => hw a (by simp [ha])) (fun a ha => hv a (by simp [ha]))
          (fun a ha => hr a (by simp [ha])) hc.of_cons ?_ ?_)
      · intro p hp
        rcases hm.2 with h | h
        · rw [if_pos h]
          split
          · simp only [resetBy, h]; exact hcl p hp
          · exact hcl p hp
        · have hi := hr m (by simp) (by simp [h]) p hp
          rw [if_pos (hi.imp Eq.symm Eq.symm)]
          simp only [resetBy, h]
          rw [if_pos ⟨rfl, hx.1⟩, if_neg (by simp)]
      · intro a ha
        cases hl : exchanged l with
        | nil => rw [hl] at ha; cases ha
        | cons b l' =>
          rw [hl] at ha hc
          cases ha
          have := (List.isChain_cons_cons.1 hc).1
          by_cases h : m.reset = none
          · rw [if_pos h]
            have := this h
            omega
          · rw [if_neg h]; omega

end

section
variable {title : Text → Text} {C : Classes} {s : Plan} {text : List Text} {prog : Program} {code : Params → Nat} {V : Windows}

theorem execution_valid (h : EndToEnd.Accepted title C s text prog) {tr : List Happening} (he : Execution s true tr) {m : Msg} (hm : .exchange m ∈ tr) :
    Valid s.roles m := by
  have hk := known_execution (accepted_valid h).1 he _ hm
  refine ⟨(accepted_mem h _).1 hk.1, (accepted_mem h _).1 hk.2, fun e => ?_⟩
  have := completes_comms (accepted_wf h fun _ => 0) (execution_completes (prog := prog) (code := fun _ => 0) (title := title) he)
    (comm prog (fun _ => 0) title m) (List.mem_map.2 ⟨_, hm, rfl⟩)
  exact this.2.2 (by simp [EndToEnd.comm, e])

/-- **C70**, as late as possible: an execution of an accepted text on one clock, in which only messages in which all roles take part reset it and each window ends not before the one of the message
before it, if that does not reset the clock, can be carried out: every message in the last second of its window.  The windows hold a whole second. -/
theorem C70_latest_partial (h : EndToEnd.Accepted title C s text prog) (hV : AsWritten code title V s.messages) (hf : FreeChoices V)
    (hb : ∀ m ∈ s.messages, value m.rightBound < 18446744073709551616) (x : Char) (hx : OneClock x s.messages)
    (hw : ∀ m ∈ s.messages, ∃ t, NuscrSpec.Fits m t) (tr : List Happening) (he : Execution s true tr)
    (hr : ∀ m ∈ exchanged tr, m.reset ≠ none → ∀ p ∈ s.roles, Involved p m) (hc : (exchanged tr).IsChain NotBefore) (t₀ : Nat) :
    CarriedOut prog code title V s (fun _ _ => some t₀) t₀ (latest t₀ t₀ tr) := by
  have hm : ∀ m ∈ exchanged tr, Happening.exchange m ∈ tr := by
    intro m hm
    obtain ⟨e, he, h⟩ := List.mem_filterMap.1 hm
    cases e with
    | exchange => cases h; exact he
    | choice => cases h
  have hs : ∀ m ∈ exchanged tr, m ∈ s.messages := fun m h => execution_messages he (hm m h)
  refine C70_carried_out_partial h hV hf hb tr he _ ?_ _ t₀ (by intro p y c hc; cases hc; exact Nat.le_refl _)
    (latest_permitted (roles := s.roles) (x := x) tr ⟨hx.1, fun m h => hx.2 m (hs m h)⟩ (fun m h => hw m (hs m h)) ?_ hr hc (fun _ _ => rfl) (by intros; omega))
  · rw [latest_map]; exact ⟨.refl _, fun _ _ => rfl⟩
  · exact fun m h' => execution_valid h he (hm m h')

theorem two_involved {roles : List Text} (h2 : roles.length = 2) {m : Msg} (hv : Valid roles m) {p : Text} (hp : p ∈ roles) : Involved p m := by
  obtain ⟨a, b, rfl⟩ := List.length_eq_two.1 h2
  obtain ⟨h3, h4, h5⟩ := hv
  simp only [List.mem_cons, List.not_mem_nil, or_false] at h3 h4 hp
  unfold Involved
  rcases h3 with h3 | h3 <;> rcases h4 with h4 | h4 <;> rcases hp with hp | hp <;> simp_all

/-- What the generator accepts, with two roles and one clock. -/
theorem accepted_chain {name : Text} {roles : List Text} {msgs : List Msg} {x : Char} (ha : Prop.Accepted title name roles msgs) (hx : OneClock x msgs)
    (hw : ∀ m ∈ msgs, ∃ t, NuscrSpec.Fits m t) (h2 : roles.length = 2) : msgs.IsChain NotBefore := by
  have hv := ((accepted_iff title name roles msgs).1 ha).1
  have hw' : ∀ m ∈ msgs, Wide (2 * 0) m := by
    intro m hm
    obtain ⟨t, ht⟩ := hw m hm
    exact ⟨t, t, ht, ht, by omega⟩
  obtain ⟨p, q, rfl⟩ := List.length_eq_two.1 h2
  refine List.isChain_iff_getElem.2 fun i hi hn => ?_
  have inv : ∀ {m}, m ∈ msgs → Involved p m := fun hm => two_involved h2 (hv _ hm) (by simp)
  refine NuscrSpec.last_mono ha hx hw' p (i + 1) i _ _ (by omega) (List.getElem?_eq_getElem _) (List.getElem?_eq_getElem _)
    (inv (List.getElem_mem _)) (inv (List.getElem_mem _)) fun k a h1 h2 h3 _ => ?_
  have : k = i := by omega
  subst this
  rw [List.getElem?_eq_getElem (by omega)] at h3
  cases h3
  exact hn

/-- The execution is made of the parts the text has between its choices. -/
theorem execution_chain {P : Proto} {R : Msg → Msg → Prop} (h1 : ∀ b ∈ P.branches, (messagesOf P.pre ++ P.exchanges b).IsChain R)
    (h2 : ∀ b ∈ P.branches, b.back ≠ none → ∀ b' ∈ P.branches, (P.exchanges b ++ P.exchanges b').IsChain R) {c : Bool} {tr : List Happening}
    (he : Execution (.choice P) c tr) : (exchanged tr).IsChain R := by
  have msgs : ∀ l : List Msg, exchanged (l.map .exchange) = l := by
    intro l; induction l <;> simp_all [exchanged]
  have app : ∀ l l', exchanged (l ++ l') = exchanged l ++ exchanged l' := by
    intro l l'; simp [exchanged]
  have ch : ∀ x i l, exchanged (.choice x i :: l) = exchanged l := by
    intro x i l; simp [exchanged]
  have key : ∀ {c tr}, After P c tr → ∀ l : List Msg, l.IsChain R → (∀ b ∈ P.branches, (l ++ P.exchanges b).IsChain R) → (l ++ exchanged tr).IsChain R := by
    intro c tr h
    induction h with
    | wait => intro l hl _; simpa [exchanged] using hl
    | @ends i b e1 e2 =>
      intro l _ h
      have := h b (List.mem_of_getElem? e1)
      rw [ch, msgs]
      simpa [Proto.exchanges, e2] using this
    | @again i b l' body c tr e1 e2 e3 _ ih =>
      intro l hl h
      have hb := List.mem_of_getElem? e1
      have e : exchanged (.choice P.chooser i :: (b.msgs.map .exchange ++ (body.map .exchange ++ tr))) = P.exchanges b ++ exchanged tr := by
        rw [ch, app, app, msgs, msgs]
        simp [Proto.exchanges, e2, e3]
      rw [e]
      by_cases h0 : P.exchanges b = []
      · rw [h0]; exact ih l hl h
      · have h4 := h b hb
        rw [← List.append_assoc]
        exact h4.append_overlap (ih _ h4.right_of_append (h2 b hb (by simp [e2]))) h0
  cases he with
  | choice he =>
    rw [app, msgs]
    refine key he _ ?_ h1
    exact (h1 P.first (by simp [Proto.branches])).left_of_append

/-- **C70**, loops: an accepted text with two roles and one clock, perhaps reset.  If the generator accepts also, as protocols without choices, the messages before the choice followed by
those of each branch, and those of each branch that goes back followed by those of each branch, then every execution of the text, with any number of turns, can be carried out.  The windows
hold a whole second. -/
theorem C70_loops_partial {P : Proto} (h : EndToEnd.Accepted title C (.choice P) text prog) (hV : AsWritten code title V (Plan.messages (.choice P))) (hf : FreeChoices V)
    (hb : ∀ m ∈ Plan.messages (.choice P), value m.rightBound < 18446744073709551616) (x : Char) (hx : OneClock x (Plan.messages (.choice P)))
    (hw : ∀ m ∈ Plan.messages (.choice P), ∃ t, NuscrSpec.Fits m t) (h2 : P.roles.length = 2)
    (ha : ∀ b ∈ P.branches, Prop.Accepted title P.name P.roles (messagesOf P.pre ++ P.exchanges b))
    (ha' : ∀ b ∈ P.branches, b.back ≠ none → ∀ b' ∈ P.branches, Prop.Accepted title P.name P.roles (P.exchanges b ++ P.exchanges b'))
    (tr : List Happening) (he : Execution (.choice P) true tr) (t₀ : Nat) :
    ∃ L, L.map (·.1) = tr ∧ CarriedOut prog code title V (.choice P) (fun _ _ => some t₀) t₀ L := by
  have hpre : ∀ m ∈ messagesOf P.pre, m ∈ Plan.messages (.choice P) := fun m hm => List.mem_append_left _ hm
  have hmem : ∀ b ∈ P.branches, ∀ m ∈ P.exchanges b, m ∈ Plan.messages (.choice P) := by
    intro b hb m hm
    unfold Proto.exchanges at hm
    rcases List.mem_append.1 hm with h | h
    · exact List.mem_append_right _ (List.mem_flatMap.2 ⟨b, hb, h⟩)
    · refine hpre m ?_
      cases hl : b.back with
      | none => rw [hl] at h; cases h
      | some l =>
        rw [hl] at h
        cases hlb : loopBody l P.pre with
        | none => simp [hlb] at h
        | some body => exact loopBody_messages hlb (by simpa [hlb] using h)
  have chain : ∀ l : List Msg, Prop.Accepted title P.name P.roles l → (∀ m ∈ l, m ∈ Plan.messages (.choice P)) → l.IsChain NotBefore :=
    fun l hl hm => accepted_chain hl ⟨hx.1, fun m h => hx.2 m (hm m h)⟩ (fun m h => hw m (hm m h)) h2
  refine ⟨latest t₀ t₀ tr, latest_map _ _ _, C70_latest_partial h hV hf hb x hx hw tr he ?_ ?_ t₀⟩
  · intro m hm _ p hp
    obtain ⟨e, he', h'⟩ := List.mem_filterMap.1 hm
    cases e with
    | choice => cases h'
    | exchange m' =>
      cases h'
      exact two_involved h2 (execution_valid h he he') hp
  · refine execution_chain (fun b hb => chain _ (ha b hb) ?_) (fun b hb hn b' hb' => chain _ (ha' b hb hn b' hb') ?_) he
    · intro m hm
      rcases List.mem_append.1 hm with h | h
      · exact hpre m h
      · exact hmem b hb m h
    · intro m hm
      rcases List.mem_append.1 hm with h | h
      · exact hmem b hb m h
      · exact hmem b' hb' m h

end

/-! ## The hypotheses are met -/

/-- `A` asks `B` in the first second and `B` is told more between the fifth and the sixth, which resets the clock; again and again, until `A` stops. -/
def rounds : Proto :=
  ⟨['P'], [['A'], ['B']], [.loop ['L']], ['A'],
    ⟨[ab ['M'] '0' '1', { ab ['N'] '5' '6' with reset := some ['a'] }], some ['L']⟩, [⟨[ab ['S'] '0' '1'], none⟩]⟩

/-- Its text. -/
def roundsText : List Text :=
  [headerText one ['P'] [(['A'], 0, 1), (['B'], 0, 0)], loopText one ['L'],
    choiceText one ['A'], messageText one none (ab ['M'] '0' '1'), messageText one none { ab ['N'] '5' '6' with reset := some ['a'] }, jumpText one ['L'], orText one,
    messageText one none (ab ['S'] '0' '1'), closeText one, closeText one, closeText one]

theorem rounds_accepted : ∃ prog, EndToEnd.Accepted id ascii (.choice rounds) roundsText prog := by
  have w : ∀ c : Char, ascii.word c = true → IsWord ascii [c] := fun c h => ⟨by simp, by simpa using h⟩
  have m : ∀ m ∈ [ab ['M'] '0' '1', { ab ['N'] '5' '6' with reset := some ['a'] }, ab ['S'] '0' '1'],
      Written ascii ⟨0, 0, false, .message m⟩ (messageText one none m) :=
    fun m hm => .message _ _ _ (well_written (by decide) m hm)
  have ht : IsText ascii rounds.lines roundsText := by
    refine .cons (.header ['P'] [(['A'], 0, 1), (['B'], 0, 0)] one (w _ (by decide)) (by simp) ?_)
      (.cons (.loop _ _ (w _ (by decide)))
      (.cons (.choice _ _ (w _ (by decide)))
      (.cons (m _ (by decide))
      (.cons (m _ (by decide))
      (.cons (.jump _ _ (w _ (by decide)))
      (.cons (.or _)
      (.cons (m _ (by decide))
      (.cons (.close _) (.cons (.close _) (.cons (.close _) .nil))))))))))
    intro r hr
    simp only [List.mem_cons, List.not_mem_nil, or_false] at hr
    rcases hr with rfl | rfl <;> exact w _ (by decide)
  obtain ⟨prog, h⟩ := (okB_iff (generator id rounds.lines)).mp (by decide)
  refine ⟨prog, ascii_usual, ht, by decide, by decide, ?_⟩
  rw [C48_generator id ascii ascii_usual _ _ ht]
  exact h

/-- Any number of rounds. -/
def turns : Nat → List Happening
  | 0 => [.choice ['A'] 1, .exchange (ab ['S'] '0' '1')]
  | n + 1 => .choice ['A'] 0 :: .exchange (ab ['M'] '0' '1') :: .exchange { ab ['N'] '5' '6' with reset := some ['a'] } :: turns n

theorem turns_execution (n : Nat) : Execution (.choice rounds) true (turns n) := by
  have : ∀ n, After rounds true (turns n) := by
    intro n
    induction n with
    | zero => exact .ends (P := rounds) (i := 1) (b := ⟨[ab ['S'] '0' '1'], none⟩) rfl rfl
    | succ n ih => exact .again (P := rounds) (i := 0) (b := rounds.first) (l := ['L']) (body := []) rfl rfl rfl ih
  exact .choice (P := rounds) (this n)

/-- However often `A` goes on, the program can be carried out to its end, each message in its window. -/
theorem rounds_carried : ∃ prog code V, EndToEnd.Accepted id ascii (.choice rounds) roundsText prog ∧ AsWritten code id V (Plan.messages (.choice rounds)) ∧ FreeChoices V ∧
    ∀ n, ∃ L, L.map (·.1) = turns n ∧ CarriedOut prog code id V (.choice rounds) (fun _ _ => some 7) 7 L := by
  obtain ⟨prog, h⟩ := rounds_accepted
  obtain ⟨code, V, hV, hf⟩ := asGenerated_exists id (Plan.messages (.choice rounds))
  refine ⟨prog, code, V, h, hV, hf, fun n => C70_loops_partial h hV hf (by decide) 'a' ⟨by decide, by decide⟩ ?_ rfl ?_ ?_ _ (turns_execution n) 7⟩
  · intro m hm
    have : m ∈ [ab ['M'] '0' '1', { ab ['N'] '5' '6' with reset := some ['a'] }, ab ['S'] '0' '1'] := hm
    simp only [List.mem_cons, List.not_mem_nil, or_false] at this
    rcases this with rfl | rfl | rfl
    · exact ⟨0, by decide, by decide⟩
    · exact ⟨5, by decide, by decide⟩
    · exact ⟨0, by decide, by decide⟩
  · intro b hb
    refine (okB_iff _).mp ?_
    revert b
    decide
  · intro b hb hn b' hb'
    refine (okB_iff _).mp ?_
    simp only [rounds, Proto.branches, List.mem_cons, List.not_mem_nil, or_false] at hb hb'
    rcases hb with rfl | rfl
    · rcases hb' with rfl | rfl <;> decide
    · exact absurd rfl hn

end Verif.Prop
