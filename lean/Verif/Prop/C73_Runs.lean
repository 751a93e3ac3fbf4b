import Verif.Prop.C53
import Verif.Prop.C73

/-!
# C73: what the programs of texts in another layout do
-/
namespace Verif.Prop
open Verif.Nuscr Verif.NuscrSpec Verif.NuscrText Verif.NuscrTextSpec Verif.NuscrLayout Verif.EndToEnd
open Verif.Nuscr Verif.NuscrSpec Verif.NuscrText Verif.EndToEnd
open Verif.Runtime
open Verif.Mesh (project actsOf)

theorem text_exists {C : Classes} : ∀ {ls : List Line}, (∀ l ∈ ls, ∃ t, Written C l t) → ∃ text, IsText C ls text
  | [], _ => ⟨[], .nil⟩
  | l :: ls, h => by
    obtain ⟨t, ht⟩ := h l (List.mem_cons_self ..)
    obtain ⟨text, hx⟩ := text_exists (ls := ls) fun k hk => h k (List.mem_cons_of_mem _ hk)
    exact ⟨t :: text, .cons ht hx⟩

/-- C73, and then: if a text differs in layout only from a protocol that can be written, its program is that of a text
accepted in the usual layout, of which C53 and the properties that follow from it speak. -/
theorem C73_accepted {title : Text → Text} {C : Classes} (hC : Usual C) {s : Plan} (hw : ∀ l ∈ s.lines, ∃ t, Written C l t)
    (hd : s.roles.Nodup) (h2 : 2 ≤ s.roles.length) {text : List Text}
    (h : Layout 0 false s.lines (text.map (lineOf C))) {prog : Program} (hok : generatorText title C text = .ok prog) :
    ∃ usual, EndToEnd.Accepted title C s usual prog := by
  obtain ⟨usual, hu⟩ := text_exists hw
  refine ⟨usual, hC, hu, hd, h2, ?_⟩
  rw [C48_generator title C hC _ usual hu]
  exact (C73_layout_partial title _ _ h prog).mpr hok

/-- C73, runs: so the types of its program are those of a system every run of which follows the protocol, and is at the
end or can go on. -/
theorem C73_runs_partial {title : Text → Text} {C : Classes} (hC : Usual C) {s : Plan}
    (hw : ∀ l ∈ s.lines, ∃ t, Written C l t) (hd : s.roles.Nodup) (h2 : 2 ≤ s.roles.length) {text : List Text}
    (h : Layout 0 false s.lines (text.map (lineOf C))) {prog : Program} (hok : generatorText title C text = .ok prog)
    (code : Params → Nat) :
    Reads prog code (system prog code title s) ∧
    ∀ ls st, RRun (system prog code title s) 0 ls st →
      (∃ c tr, Execution s c tr ∧
        ∀ p ∈ s.roles, actsOf (number prog p) (sims ls) <+: tr.filterMap (does prog code title p)) ∧
      (¬ AllClosed (system prog code title s) st → ∃ p ∈ s.roles, CanGo (system prog code title s) st (number prog p)) := by
  obtain ⟨usual, ha⟩ := C73_accepted hC hw hd h2 h hok
  exact ⟨C53_types ha code, fun ls st hr => ⟨C53_order ha code ls st hr, C53_progress ha code ls st hr⟩⟩

/-! Lines that can be written. -/

def wordB (t : Text) : Bool := !t.isEmpty && t.all ascii.word
def numberB (t : Text) : Bool := !t.isEmpty && t.all ascii.digit

theorem word_of {t : Text} (h : wordB t = true) : IsWord ascii t := by
  simp only [wordB, Bool.and_eq_true, Bool.not_eq_true', List.isEmpty_eq_false_iff, List.all_eq_true] at h
  exact ⟨h.1, h.2⟩

theorem number_of {t : Text} (h : numberB t = true) : IsNumber ascii t := by
  simp only [numberB, Bool.and_eq_true, Bool.not_eq_true', List.isEmpty_eq_false_iff, List.all_eq_true] at h
  exact ⟨h.1, h.2⟩

def writtenB (l : Line) : Bool :=
  !l.empty &&
  match l.kind with
  | .global n rs => decide (l.opens = 1) && decide (l.closes = 0) && wordB n && !rs.isEmpty && rs.all wordB
  | .message m => decide (l.opens = 0) && decide (l.closes = 0) && wordB m.message &&
      (m.payload.isEmpty || wordB m.payload) && wordB m.sender && wordB m.receiver && numberB m.leftBound &&
      numberB m.rightBound && wordB m.clock && m.reset.all wordB
  | .choice x => decide (l.opens = 1) && decide (l.closes = 0) && wordB x
  | .or => decide (l.opens = 1) && decide (l.closes = 1)
  | .loop x => decide (l.opens = 1) && decide (l.closes = 0) && wordB x
  | .jump x => decide (l.opens = 0) && decide (l.closes = 0) && wordB x
  | .other => decide (l.opens = 0) && decide (l.closes = 1)

theorem written_of {l : Line} (h : writtenB l = true) : ∃ t, Written ascii l t := by
  obtain ⟨o, c, e, k⟩ := l
  unfold writtenB at h
  cases k with
  | «global» n rs =>
    simp only [Bool.and_eq_true, Bool.not_eq_true', decide_eq_true_eq, List.isEmpty_eq_false_iff, List.all_eq_true] at h
    obtain ⟨rfl, ⟨⟨⟨rfl, rfl⟩, h1⟩, h2⟩, h3⟩ := h
    have := Written.header (C := ascii) n (rs.map fun r => (r, 0, 0)) one (word_of h1) (by simpa using h2)
      (by intro r hr; obtain ⟨x, hx, rfl⟩ := List.mem_map.mp hr; exact word_of (h3 x hx))
    simp only [List.map_map, Function.comp_def, List.map_id'] at this
    exact ⟨_, this⟩
  | message m =>
    simp only [Bool.and_eq_true, Bool.not_eq_true', decide_eq_true_eq, Bool.or_eq_true, List.isEmpty_iff] at h
    obtain ⟨rfl, ⟨⟨⟨⟨⟨⟨⟨⟨⟨rfl, rfl⟩, h1⟩, h2⟩, h3⟩, h4⟩, h5⟩, h6⟩, h7⟩, h8⟩⟩ := h
    refine ⟨_, .message m (if m.payload = [] then none else some m.payload) one
      ⟨?_, word_of h1, ?_, word_of h3, word_of h4, number_of h5, number_of h6, word_of h7, ?_⟩⟩
    · split <;> simp_all
    · intro x hx
      split at hx
      · cases hx
      · rename_i hne
        simp only [Option.some.injEq] at hx
        subst hx
        exact word_of (h2.resolve_left hne)
    · intro x hx
      rw [hx] at h8
      exact word_of h8
  | choice x =>
    simp only [Bool.and_eq_true, Bool.not_eq_true', decide_eq_true_eq] at h
    obtain ⟨rfl, ⟨rfl, rfl⟩, h1⟩ := h
    exact ⟨_, .choice x one (word_of h1)⟩
  | or =>
    simp only [Bool.and_eq_true, Bool.not_eq_true', decide_eq_true_eq] at h
    obtain ⟨rfl, rfl, rfl⟩ := h
    exact ⟨_, .or one⟩
  | loop x =>
    simp only [Bool.and_eq_true, Bool.not_eq_true', decide_eq_true_eq] at h
    obtain ⟨rfl, ⟨rfl, rfl⟩, h1⟩ := h
    exact ⟨_, .loop x one (word_of h1)⟩
  | jump x =>
    simp only [Bool.and_eq_true, Bool.not_eq_true', decide_eq_true_eq] at h
    obtain ⟨rfl, ⟨rfl, rfl⟩, h1⟩ := h
    exact ⟨_, .jump x one (word_of h1)⟩
  | other =>
    simp only [Bool.and_eq_true, Bool.not_eq_true', decide_eq_true_eq] at h
    obtain ⟨rfl, rfl, rfl⟩ := h
    exact ⟨_, .close one⟩

theorem written_all {ls : List Line} (h : ls.all writtenB = true) : ∀ l ∈ ls, ∃ t, Written ascii l t :=
  fun l hl => written_of (List.all_eq_true.mp h l hl)

/-! The protocols that come with the project. -/

/-- The program of `three_buyers.nuscr` is accepted as the protocol it says. -/
theorem C73_three_buyers_accepted : ∃ prog, generatorText id ascii threeBuyers = .ok prog ∧
    ∃ usual, EndToEnd.Accepted id ascii (.choice threeBuyersPlan) usual prog := by
  obtain ⟨prog, h⟩ := (okB_iff (generator id threeBuyersPlan.lines)).mp (by decide +kernel)
  have hok := (C73_three_buyers id prog).mp h
  refine ⟨prog, hok, C73_accepted ascii_usual (written_all (by decide +kernel)) (by decide +kernel) (by decide +kernel) ?_ hok⟩
  rw [threeBuyers_read]
  exact layout_of_check 40 0 false _ _ threeBuyers_lines

/-- The program of `video_stream.nuscr` is accepted, as the protocol in which nobody goes back. -/
theorem C73_video_stream_accepted : ∃ prog, generatorText id ascii videoStream = .ok prog ∧
    ∃ usual, EndToEnd.Accepted id ascii (.choice (Proto.once videoStreamPlan)) usual prog := by
  obtain ⟨prog, h⟩ := (okB_iff (generator id (Proto.once videoStreamPlan).lines)).mp (by decide +kernel)
  obtain ⟨usual, hu⟩ := text_exists (C := ascii) (ls := (Proto.once videoStreamPlan).lines) (written_all (by decide +kernel))
  refine ⟨prog, (C73_video_stream id prog).mpr h, usual, ascii_usual, hu, by decide +kernel, by decide +kernel, ?_⟩
  rw [C48_generator id ascii ascii_usual _ usual hu]
  exact h

/-- So every complete execution of it has exactly one choice in it. -/
theorem once_execution {P : Proto} {tr : List Happening} (h : Execution (.choice (Proto.once P)) true tr) :
    ∃ i b, P.branches[i]? = some b ∧
      tr = (messagesOf P.pre).map .exchange ++ .choice P.chooser i :: b.msgs.map .exchange := by
  have hb : (Proto.once P).branches = P.branches.map Branch.once := rfl
  cases h with
  | choice h =>
    cases h with
    | @ends i b h1 h2 =>
      rw [hb, List.getElem?_map] at h1
      obtain ⟨b', hb', rfl⟩ := Option.map_eq_some_iff.mp h1
      exact ⟨i, b', hb', rfl⟩
    | @again i b l body _ tr h1 h2 =>
      rw [hb, List.getElem?_map] at h1
      obtain ⟨b', hb', rfl⟩ := Option.map_eq_some_iff.mp h1
      simp [Branch.once] at h2

/-- C73, the loop of the video stream: it cannot be run a second time.  When all roles of its program are at the end, what
they have done is the two messages before the loop, one choice, and the messages of the branch chosen. -/
theorem C73_video_stream_once : ∃ prog, generatorText id ascii videoStream = .ok prog ∧ ∀ code : Params → Nat,
    Reads prog code (system prog code id (.choice (Proto.once videoStreamPlan))) ∧
    ∀ ls st, RRun (system prog code id (.choice (Proto.once videoStreamPlan))) 0 ls st →
      AllClosed (system prog code id (.choice (Proto.once videoStreamPlan))) st →
      ∃ (i : Nat) (b : Branch), videoStreamPlan.branches[i]? = some b ∧ ∀ p ∈ videoStreamPlan.roles, actsOf (number prog p) (sims ls) =
        ((messagesOf videoStreamPlan.pre).map Happening.exchange ++
          Happening.choice videoStreamPlan.chooser i :: b.msgs.map .exchange).filterMap (does prog code id p) := by
  obtain ⟨prog, hok, usual, ha⟩ := C73_video_stream_accepted
  refine ⟨prog, hok, fun code => ⟨C53_types ha code, fun ls st hr hc => ?_⟩⟩
  obtain ⟨⟨tr, he, hx⟩, _⟩ := C53_done ha code ls st hr hc
  obtain ⟨i, b, hb, rfl⟩ := once_execution he
  exact ⟨i, b, hb, hx⟩

/-- What the protocol says is otherwise: the video may be asked for twice. -/
theorem C73_video_stream_meant : ∃ tr, Execution (.choice videoStreamPlan) true tr ∧
    2 ≤ (tr.filter fun h => match h with | .choice _ _ => true | .exchange _ => false).length := by
  refine ⟨_, .choice (P := videoStreamPlan) (.again (P := videoStreamPlan) (i := 0) (b := videoStreamPlan.first)
    (l := "Loop".toList) (body := []) rfl rfl (by decide +kernel) (.ends (P := videoStreamPlan) (i := 1)
      (b := ⟨[step "Client" "Auth" "Close" "", step "Auth" "Server" "Close" ""], none⟩) rfl rfl)), ?_⟩
  decide +kernel

end Verif.Prop
