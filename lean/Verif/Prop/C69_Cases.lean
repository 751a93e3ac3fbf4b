import Verif.Proof.TimedTextStuck
import Verif.Prop.C53_Cases
/-!
# C69: texts nobody can carry out, and concrete cases
-/
namespace Verif.Prop
open Verif.Nuscr Verif.NuscrSpec Verif.NuscrText Verif.NuscrTextSpec Verif.EndToEnd Verif.Runtime
open Verif.Mesh (actsOf)

/-- **C69**, the property fails: if in an accepted text without choices and resets some role has a message `i` and later a message `j` which has to be exchanged before `i`, as
the clocks tell, then in no run of the program, whatever the delays and failures, any role ever returns from `close`.  The clocks were created during the first `B` nanoseconds. -/
theorem C69_impossible (title : Text → Text) (C : Classes) (name : Text) (roles : List Text) (msgs : List Msg) (text : List Text)
    (prog : Program) (h : EndToEnd.Accepted title C (.straight name roles msgs) text prog) (code : Params → Nat) (V : Windows)
    (hV : AsWritten code title V msgs) (hno : ∀ m ∈ msgs, m.reset = none) (p : Text) (i j : Nat) (a b : Msg) (hij : i < j)
    (hi : msgs[i]? = some a) (hj : msgs[j]? = some b) (hpa : Involved p a) (hpb : Involved p b) (B : Nat)
    (hB : value b.rightBound * 1000000000 + B < value a.leftBound * 1000000000)
    (σ : Nat → TS) (lab : Nat → Option TLabel)
    (hs : TSchedule (system prog code title (.straight name roles msgs)) V 0 σ lab) (h0 : ∀ r y c, (σ 0).clocks r y = some c → c ≤ B)
    (k : Nat) (q : Text) (hq : q ∈ roles) : (σ k).fs.pos (number prog q) ≠ .closed := by
  intro hc
  obtain ⟨ls, hr, hP⟩ := past_sched h hV hno p hs h0 k
  obtain ⟨tr, h1, h2⟩ := C69_close h code V ls _ hr q hq hc
  cases h1
  have hv := (accepted_valid h).1
  have hmem := List.mem_of_getElem? hi
  have hpr : p ∈ roles := by
    have := hv a hmem
    rcases hpa with e | e
    · rw [← e]; exact (accepted_mem h _).1 this.1
    · rw [← e]; exact (accepted_mem h _).1 this.2.1
  have hpw := hP.bounds
  rw [h2 p hpr, List.pairwise_filterMap, List.pairwise_map] at hpw
  obtain ⟨hi', rfl⟩ := List.getElem?_eq_some_iff.1 hi
  obtain ⟨hj', rfl⟩ := List.getElem?_eq_some_iff.1 hj
  have hd : ∀ {m}, Involved p m → ∃ x, does prog code title p (.exchange m) = some x := by
    intro m hm
    simp only [does]
    by_cases e : m.sender = p
    · exact ⟨_, if_pos e⟩
    · exact ⟨_, by rw [if_neg e, if_pos (hm.resolve_left e)]⟩
  obtain ⟨x, hx⟩ := hd hpa
  obtain ⟨y, hy⟩ := hd hpb
  have := List.pairwise_iff_getElem.1 hpw i j hi' hj' hij x hx y hy
  rw [(does_window hV hmem hx).1, (does_window hV (List.mem_of_getElem? hj) hy).1] at this
  simp only [Params.window, written] at this
  omega

/-! ## Texts of the examples of C62 -/

/-- Payload types and windows can always be chosen as written. -/
theorem asWritten_exists (title : Text → Text) (msgs : List Msg) : ∃ code V, AsWritten code title V msgs := by
  classical
  refine ⟨fun x => (msgs.map (written title)).idxOf x,
    ⟨fun k => match (msgs.map (written title))[k]? with | some x => Params.window x | none => ⟨'a', 0, true, 0, true, ' '⟩,
      fun _ _ _ => ⟨'a', 0, true, 0, true, ' '⟩⟩, fun m hm => ?_⟩
  have hin : written title m ∈ msgs.map (written title) := List.mem_map_of_mem hm
  simp only [List.getElem?_eq_getElem (List.idxOf_lt_length_of_mem hin), List.getElem_idxOf]

/-- A protocol without choices, each message on its line. -/
def straightText (name : Text) (roles : List Text) (msgs : List Msg) : List Text :=
  headerText one name (roles.map fun r => (r, 0, 1)) :: (msgs.map (messageText one none) ++ [closeText one])

theorem straight_accepted {name : Text} {roles : List Text} {msgs : List Msg} (h1 : IsWord ascii name) (h2 : ∀ r ∈ roles, IsWord ascii r)
    (h3 : ∀ m ∈ msgs, Wellwritten ascii none m) (h4 : roles.Nodup) (h5 : 2 ≤ roles.length) (h : Prop.Accepted id name roles msgs) :
    ∃ prog, EndToEnd.Accepted id ascii (.straight name roles msgs) (straightText name roles msgs) prog := by
  have ht : IsText ascii (protocol name roles msgs) (straightText name roles msgs) := by
    unfold protocol straightText IsText
    refine .cons ?_ ?_
    · have := Written.header (C := ascii) name (roles.map fun r => (r, 0, 1)) one h1 (by
        intro e; rw [List.map_eq_nil_iff] at e; subst e; simp at h5) (by
        intro r hr; obtain ⟨x, hx, rfl⟩ := List.mem_map.1 hr; exact h2 x hx)
      simpa [Function.comp_def] using this
    · refine List.rel_append ?_ (.cons (.close one) .nil)
      clear h h4 h5
      induction msgs with
      | nil => exact .nil
      | cons m ms ih => exact .cons (.message _ _ _ (h3 m (by simp))) (ih fun x hx => h3 x (by simp [hx]))
  obtain ⟨prog, h⟩ := h
  refine ⟨prog, ascii_usual, ht, h4, h5, ?_⟩
  rw [C48_generator id ascii ascii_usual _ _ ht]
  exact h

theorem well_written {msgs : List Msg} (h : ∀ m ∈ msgs, m.payload = [] ∧ (m.message ≠ [] ∧ ∀ c ∈ m.message, ascii.word c = true) ∧
    (m.sender ≠ [] ∧ ∀ c ∈ m.sender, ascii.word c = true) ∧ (m.receiver ≠ [] ∧ ∀ c ∈ m.receiver, ascii.word c = true) ∧
    (m.leftBound ≠ [] ∧ ∀ c ∈ m.leftBound, ascii.digit c = true) ∧ (m.rightBound ≠ [] ∧ ∀ c ∈ m.rightBound, ascii.digit c = true) ∧
    (m.clock ≠ [] ∧ ∀ c ∈ m.clock, ascii.word c = true) ∧ ∀ x ∈ m.reset, x ≠ [] ∧ ∀ c ∈ x, ascii.word c = true) :
    ∀ m ∈ msgs, Wellwritten ascii none m := by
  intro m hm
  obtain ⟨h1, h2, h3, h4, h5, h6, h7, h8⟩ := h m hm
  exact ⟨h1, h2, by simp, h3, h4, h5, h6, h7, fun x hx => h8 x hx⟩

/-- The text of the protocol with two clocks. -/
theorem clocks_text : ∃ prog, EndToEnd.Accepted id ascii (.straight ['P'] C62.rolesABC C62.clocks) (straightText ['P'] C62.rolesABC C62.clocks) prog :=
  straight_accepted ⟨by decide, by decide⟩ (by unfold IsWord; decide) (well_written (by decide)) (by decide) (by decide) C62_clocks_stuck.1

/-- The text of the protocol with one clock. -/
theorem plain_text : ∃ prog, EndToEnd.Accepted id ascii (.straight ['P'] C62.rolesABC C62.plain) (straightText ['P'] C62.rolesABC C62.plain) prog :=
  straight_accepted ⟨by decide, by decide⟩ (by unfold IsWord; decide) (well_written (by decide)) (by decide) (by decide) C62.plain_accepted

/-- **C69**, the property fails: the generator accepts a text with two clocks, each of its windows a second wide, whose program nobody can
carry out: with all clocks created during the first second, no role ever returns from `close`. -/
theorem C69_clocks_stuck : ∃ prog,
    EndToEnd.Accepted id ascii (.straight ['P'] C62.rolesABC C62.clocks) (straightText ['P'] C62.rolesABC C62.clocks) prog ∧
    (∀ m ∈ C62.clocks, Wide 1000000000 m) ∧
    ∀ (code : Params → Nat) (V : Windows), AsWritten code id V C62.clocks → ∀ (σ : Nat → TS) (lab : Nat → Option TLabel),
      TSchedule (system prog code id (.straight ['P'] C62.rolesABC C62.clocks)) V 0 σ lab →
      (∀ r y c, (σ 0).clocks r y = some c → c ≤ 1000000000) →
      ∀ k, ∀ q ∈ C62.rolesABC, (σ k).fs.pos (number prog q) ≠ .closed := by
  obtain ⟨prog, h⟩ := clocks_text
  refine ⟨prog, h, ?_, fun code V hV σ lab hs h0 k q hq => ?_⟩
  · intro m hm
    simp only [C62.clocks, List.mem_cons, List.not_mem_nil, or_false] at hm
    rcases hm with rfl | rfl
    · exact ⟨5, 6, ⟨by decide, by decide⟩, ⟨by decide, by decide⟩, by decide⟩
    · exact ⟨0, 1, ⟨by decide, by decide⟩, ⟨by decide, by decide⟩, by decide⟩
  · exact C69_impossible id ascii _ _ _ _ prog h code V hV (by decide) ['B'] 0 1 _ _ (by decide) rfl rfl (by unfold Involved; decide)
      (by unfold Involved; decide) 1000000000 (by decide) σ lab hs h0 k q hq

/-! ## The hypotheses are met -/

/-- Messages at the instants the windows ask for: the text of `C62.plain` is carried out. -/
example : ∃ prog, EndToEnd.Accepted id ascii (.straight ['P'] C62.rolesABC C62.plain) (straightText ['P'] C62.rolesABC C62.plain) prog ∧
    ∃ code V, AsWritten code id V C62.plain ∧
    ∃ (time : Nat → Nat) (ls : List (RLabel × Nat)) (σ : Nat → TS),
      (TStart (system prog code id (.straight ['P'] C62.rolesABC C62.plain)) 0 (σ 0) ∧ (∀ r y, (σ 0).clocks r y = some 0) ∧ (σ 0).now = 0) ∧
      (∀ k l m, ls[k]? = some (l, m) →
        TStep (system prog code id (.straight ['P'] C62.rolesABC C62.plain)) V (σ k) (.go l) (σ (k + 1)) ∧ (σ (k + 1)).now = m ∧ OnTime V (σ k) l m) ∧
      (∀ p ∈ C62.rolesABC, (σ ls.length).fs.pos (number prog p) = .closed ∧
        timedActs (number prog p) ls = timetable prog code id p C62.plain time) := by
  obtain ⟨prog, h⟩ := plain_text
  obtain ⟨code, V, hV⟩ := asWritten_exists id C62.plain
  refine ⟨prog, h, code, V, hV, ?_⟩
  exact C69_carried_out_partial id ascii _ _ _ _ prog h 'a' C62.plain_clock C62.plain_together
    (fun m hm => (C62.plain_wide m hm).imp fun t ht => ht.choose_spec.1) (by decide) code V hV

/-- What `C` has to do by the timetable: two messages received, one sent. -/
example (prog : Program) (code : Params → Nat) (time : Nat → Nat) : (timetable prog code id ['C'] C62.plain time).map (·.2) = [time 1, time 2, time 3] := by
  simp [timetable, does, C62.plain, List.zipIdx]

/-- A run as `C69_close` and `C69_window_partial` ask for. -/
example : ∃ (prog : Program) (code : Params → Nat) (V : Windows) (ls : List TLabel) (st : TS),
    TRun (system prog code id (.straight ['P'] C62.rolesABC C62.plain)) V 0 ls st ∧ st.fs.pos (number prog ['C']) = .closed := by
  obtain ⟨prog, h⟩ := plain_text
  obtain ⟨code, V, hV⟩ := asWritten_exists id C62.plain
  obtain ⟨time, ls, σ, h1, h2, h3⟩ := C69_carried_out_partial id ascii _ _ _ _ prog h 'a' C62.plain_clock C62.plain_together
    (fun m hm => (C62.plain_wide m hm).imp fun t ht => ht.choose_spec.1) (by decide) code V hV
  have key : ∀ n, n ≤ ls.length → ∃ ls', TRun (system prog code id (.straight ['P'] C62.rolesABC C62.plain)) V 0 ls' (σ n) := by
    intro n hn
    induction n with
    | zero => exact ⟨[], .start h1.1⟩
    | succ n ih =>
      obtain ⟨ls', hr⟩ := ih (by omega)
      have hl := List.getElem?_eq_getElem (l := ls) (i := n) (by omega)
      exact ⟨_, .snoc hr (h2 n ls[n].1 ls[n].2 hl).1⟩
  obtain ⟨ls', hr⟩ := key _ (Nat.le_refl _)
  exact ⟨prog, code, V, ls', _, hr, (h3 ['C'] (by decide)).1⟩

end Verif.Prop
