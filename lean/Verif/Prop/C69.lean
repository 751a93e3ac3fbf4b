import Verif.Proof.TimedTextSchedule
import Verif.Prop.C62
import Verif.Prop.C68
/-!
# C69: from the text of a timed protocol to a run of its program in time

The text of a timed global protocol is given to the generator (C53); the program with the generated types runs on timed
channels (C68).
-/
namespace Verif.Prop
open Verif.Nuscr Verif.NuscrSpec Verif.NuscrText Verif.EndToEnd Verif.Runtime
open Verif.Mesh (actsOf)
open Verif.Timed (Clocks)

section
variable {title : Text → Text} {C : Classes} {s : Plan} {text : List Text} {prog : Program}

theorem execution_messages {c : Bool} {tr : List Happening} (h : Execution s c tr) {m : Msg} (hm : .exchange m ∈ tr) : m ∈ s.messages := by
  have key : ∀ {P : Proto} {c tr}, After P c tr → .exchange m ∈ tr → m ∈ (Plan.choice P).messages := by
    intro P c tr h
    induction h with
    | wait => intro h; cases h
    | @ends i b h1 _ =>
      intro h
      simp only [List.mem_cons, reduceCtorEq, List.mem_map, Happening.exchange.injEq, exists_eq_right, false_or] at h
      exact List.mem_append_right _ (List.mem_flatMap.2 ⟨b, List.mem_of_getElem? h1, h⟩)
    | @again i b l body c tr h1 _ h3 _ ih =>
      intro h
      simp only [List.mem_cons, reduceCtorEq, List.mem_append, List.mem_map, Happening.exchange.injEq, exists_eq_right, false_or] at h
      rcases h with h | h | h
      · exact List.mem_append_right _ (List.mem_flatMap.2 ⟨b, List.mem_of_getElem? h1, h⟩)
      · exact List.mem_append_left _ (loopBody_messages h3 h)
      · exact ih h
  cases h with
  | straight => simpa [Plan.messages] using hm
  | @choice P c tr h =>
    rcases List.mem_append.1 hm with h' | h'
    · exact List.mem_append_left _ (by simpa using h')
    · exact key h h'

theorem execution_choices {c : Bool} {tr : List Happening} (h : Execution s c tr) {x : Text} {i : Nat} (hm : .choice x i ∈ tr) :
    ∃ P, s = .choice P ∧ x = P.chooser ∧ i < P.branches.length := by
  have key : ∀ {P : Proto} {c tr}, After P c tr → .choice x i ∈ tr → x = P.chooser ∧ i < P.branches.length := by
    intro P c tr h
    induction h with
    | wait => intro h; cases h
    | @ends i' b h1 _ =>
      intro h
      simp only [List.mem_cons, Happening.choice.injEq, List.mem_map, reduceCtorEq, and_false, exists_false, or_false] at h
      obtain ⟨rfl, rfl⟩ := h
      exact ⟨rfl, (List.getElem?_eq_some_iff.1 h1).1⟩
    | @again i' b l body c tr h1 _ h3 _ ih =>
      intro h
      simp only [List.mem_cons, Happening.choice.injEq, List.mem_append, List.mem_map, reduceCtorEq, and_false, exists_false, false_or] at h
      rcases h with ⟨rfl, rfl⟩ | h
      · exact ⟨rfl, (List.getElem?_eq_some_iff.1 h1).1⟩
      · exact ih h
  cases h with
  | straight => simp at hm
  | @choice P c tr h =>
    rcases List.mem_append.1 hm with h' | h'
    · simp at h'
    · exact ⟨P, rfl, key h h'⟩

/-- **C69**, windows: whatever has happened before, who sends or receives something in the program of an accepted text sends or receives a message of the
text, addressed as written there, and does so within the window written there (in the sense of C68), or makes or hears of the choice of the text.
Missing, as in C19: with an exclusive upper bound the transfer may happen exactly at the bound. -/
theorem C69_window_partial (h : EndToEnd.Accepted title C s text prog) (code : Params → Nat) (V : Windows) (hV : AsWritten code title V s.messages)
    (ls : List TLabel) (st st' : TS) (hr : TRun (system prog code title s) V 0 ls st) (p : Text) (hp : p ∈ s.roles) (a : Mesh.Act)
    (hs : TStep (system prog code title s) V st (.go (.sim (.act (number prog p) a))) st') :
    (∃ m ∈ s.messages, does prog code title p (.exchange m) = some a ∧
      InTime (Params.window (written title m)) (st.clocks (number prog p)) (st.last (number prog p)) st'.now) ∨
    ∃ P, s = .choice P ∧ ∃ i < P.branches.length, does prog code title p (.choice P.chooser i) = some a := by
  obtain ⟨⟨c, tr, h1, h2⟩, -⟩ := C53_failure h code _ _ (trun_frun (.snoc hr hs))
  have h2 := h2 p hp
  have hmem : a ∈ actsOf (number prog p) (fsims ((ls ++ [TLabel.go (.sim (.act (number prog p) a))]).map TLabel.erase)) := by
    simp [actsOf, fsims, TLabel.erase]
  obtain ⟨e, he, hd⟩ := List.mem_filterMap.1 (h2.subset hmem)
  cases e with
  | choice x i =>
    obtain ⟨P, h3, rfl, h5⟩ := execution_choices h1 he
    exact .inr ⟨P, h3, i, h5, hd⟩
  | exchange m =>
    have hm := execution_messages h1 he
    refine .inl ⟨m, hm, hd, ?_⟩
    simp only [does] at hd
    have key : ∀ {q k}, (a = .send q k ∨ a = .recv q k) → k = code (written title m) →
        InTime (Params.window (written title m)) (st.clocks (number prog p)) (st.last (number prog p)) st'.now := by
      rintro q k ha rfl
      rcases ha with rfl | rfl <;>
      · obtain ⟨r, w, e1, e2, e3⟩ := C68_window_partial _ _ V st st' _ hs trivial
        cases e1
        simp only [WindowOf] at e2
        rw [hV m hm] at e2
        rw [e2] at e3
        exact e3
    split at hd
    · cases hd; exact key (.inl rfl) rfl
    · split at hd
      · cases hd; exact key (.inr rfl) rfl
      · cases hd

/-- **C69**, `close` vouches for the others: if one role has returned from `close`, then together the roles have done exactly what one complete
execution of the protocol asks of them, whoever was late. -/
theorem C69_close (h : EndToEnd.Accepted title C s text prog) (code : Params → Nat) (V : Windows) (ls : List TLabel) (st : TS)
    (hr : TRun (system prog code title s) V 0 ls st) (p : Text) (hp : p ∈ s.roles) (hc : st.fs.pos (number prog p) = .closed) :
    ∃ tr, Execution s true tr ∧
      ∀ q ∈ s.roles, actsOf (number prog q) (fsims (ls.map TLabel.erase)) = tr.filterMap (does prog code title q) :=
  C53_close h code _ _ (trun_frun hr) p hp hc

/-- **C69**, termination: the program of an accepted text without jumps comes to an end under every fair schedule, whatever the clocks and whoever is late, and
then every channel has been freed. -/
theorem C69_terminates (h : EndToEnd.Accepted title C s text prog) (code : Params → Nat)
    (hj : ∀ P, s = .choice P → ∀ b ∈ P.branches, b.back = none) (V : Windows) (σ : Nat → TS) (lab : Nat → Option TLabel)
    (hs : TSchedule (system prog code title s) V 0 σ lab) (hf : TFair (system prog code title s) V σ lab) :
    ∃ j, Over (system prog code title s) (σ j).fs ∧ (∀ i, j ≤ i → (σ i).fs = (σ j).fs) ∧ ∀ c,
      ((σ j).fs.heap.chan c).tx = false ∧ ((σ j).fs.heap.chan c).rx = false ∧ ((σ j).fs.heap.chan c).buf = none :=
  C68_terminates _ _ (accepted_wf h code) V 0 σ lab hs hf (plan_acc prog code title hj)

end

/-- **C69**, in time: the program of an accepted text without choices, on one clock which two roles that exchange a message have reset together, and
whose windows have a whole second in them, can be carried out: with all clocks created at the instant 0, message number `i` is sent and received at the instant
`time i`, in its window, by the roles the text names, everybody in the order of the text, and all roles return from `close`.
Missing from the full property: several clocks (`C69_clocks_stuck`) and roles that do not reset together, for which it fails. -/
theorem C69_carried_out_partial (title : Text → Text) (C : Classes) (name : Text) (roles : List Text) (msgs : List Msg) (text : List Text)
    (prog : Program) (h : EndToEnd.Accepted title C (.straight name roles msgs) text prog) (x : Char) (hx : OneClock x msgs) (ht : Together msgs)
    (hw : ∀ m ∈ msgs, ∃ t, NuscrSpec.Fits m t) (hb : ∀ m ∈ msgs, value m.rightBound < 18446744073709551616)
    (code : Params → Nat) (V : Windows) (hV : AsWritten code title V msgs) :
    ∃ (time : Nat → Nat) (ls : List (RLabel × Nat)) (σ : Nat → TS),
      (TStart (system prog code title (.straight name roles msgs)) 0 (σ 0) ∧ (∀ r y, (σ 0).clocks r y = some 0) ∧ (σ 0).now = 0) ∧
      (∀ k l m, ls[k]? = some (l, m) →
        TStep (system prog code title (.straight name roles msgs)) V (σ k) (.go l) (σ (k + 1)) ∧ (σ (k + 1)).now = m ∧ OnTime V (σ k) l m) ∧
      (∀ p ∈ roles, (σ ls.length).fs.pos (number prog p) = .closed ∧
        timedActs (number prog p) ls = timetable prog code title p msgs time) := by
  have hw' : ∀ m ∈ msgs, Wide (2 * 0) m := by
    intro m hm
    obtain ⟨t, ht⟩ := hw m hm
    exact ⟨t, t, ht, ht, by omega⟩
  obtain ⟨ls, st, cl, noted, now, h1, h2, h3⟩ := text_run h hx ht hw' hb code hV
  obtain ⟨σ, ⟨k1, k2, k3⟩, k4, k5, -⟩ := C68_ideal _ _ (accepted_wf h code) V 0 ls st _ cl noted _ now h1
  refine ⟨due msgs 0, ls, σ, ⟨k1, fun r y => by rw [k2], k3⟩, k4, fun p hp => ⟨?_, h3 p hp⟩⟩
  rw [k5]
  have := number_pos ((accepted_mem h p).mpr hp)
  exact h2 _ this.1 this.2

end Verif.Prop
