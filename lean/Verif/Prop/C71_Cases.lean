import Verif.Prop.C71
/-!
# C71: the hypotheses are met
-/
namespace Verif.Prop
open Verif.Nuscr Verif.NuscrSpec Verif.NuscrText Verif.NuscrTextSpec Verif.EndToEnd Verif.Runtime
open Verif.Mesh (actsOf Part)
open Verif.Types (Window)

/-- `A` tells `B` two things in the first nine seconds. -/
def twoWords : Plan := .straight ['P'] [['A'], ['B']] [ab ['H'] '0' '9', ab ['K'] '0' '9']

theorem twoWords_text : ∃ prog, EndToEnd.Accepted id ascii twoWords (straightText ['P'] [['A'], ['B']] [ab ['H'] '0' '9', ab ['K'] '0' '9']) prog :=
  straight_accepted ⟨by decide, by decide⟩ (by unfold IsWord; decide) (well_written (by decide)) (by decide) (by decide) ((accepted?_iff _ _).1 (by decide))

/-- The windows of `twoWords`. -/
def nine : Windows := ⟨fun _ => ⟨'a', 0, true, 9, true, ' '⟩, fun _ _ _ => free⟩

theorem nine_written (code : Params → Nat) : AsWritten code id nine twoWords.messages := by
  intro m hm
  simp only [twoWords, Plan.messages, List.mem_cons, List.not_mem_nil, or_false] at hm
  rcases hm with rfl | rfl <;> rfl

/-- Clocks are not reset. -/
theorem nine_clocks {n : Nat} {D : Mesh.Global} {root : Mesh.Name} {ls : List TLabel} {st st' : TS} {l : TLabel} (hr : TRun (Mesh.project n D) nine root ls st)
    (hn : ∀ r, st.noted r = []) (hs : TStep (Mesh.project n D) nine st l st') : st'.clocks = st.clocks := by
  funext r x
  rcases (C68_clocks _ _ _ _ _ _ hr).2 l st' hs r x with e | ⟨c, -, -, -, ⟨L, w, -, -, -, hw, rfl, hx, -⟩ | ⟨-, hx⟩⟩
  · exact e
  · exfalso
    have hm : ∀ m, (nine.msg m).reset = ' ' := fun _ => rfl
    have hc : ∀ p q bs, (nine.choice p q bs).reset = ' ' := fun _ _ _ => rfl
    unfold WindowOf at hw
    split at hw
    all_goals first
      | exact hw.elim
      | (obtain ⟨_, _, _, _, _, _, _, rfl⟩ := hw; exact hx rfl)
  · rw [hn] at hx; cases hx

/-- A fair schedule in which everybody is punctual: both messages of `twoWords` are exchanged one second after the start. -/
theorem twoWords_schedule {prog : Program} (h : EndToEnd.Accepted id ascii twoWords (straightText ['P'] [['A'], ['B']] [ab ['H'] '0' '9', ab ['K'] '0' '9']) prog) (code : Params → Nat) :
    ∃ σ lab, TSchedule (system prog code id twoWords) nine 0 σ lab ∧ HasClocks prog twoWords (σ 0) ∧ (∀ k x, lab k ≠ some (.crash x)) ∧
      (∀ k, Punctual prog code id twoWords nine σ lab k) ∧ TFair (system prog code id twoWords) nine σ lab := by
  obtain ⟨ls, st, h1, -, h2⟩ := C53_possible h code true _ .straight
  obtain ⟨s, h3, h4, h5⟩ := instant (V := nine) (v := 1000000000) (accepted_wf h code) h1
    (fun m => (⟨.inr rfl, .inr ⟨by decide, by decide, by decide, ⟨fun _ => by decide, fun _ => by decide⟩, fun _ h => by cases h⟩⟩ :
      Fits 1000000000 ⟨'a', 0, true, 9, true, ' '⟩))
    (fun p q bs => (⟨.inr rfl, .inl ⟨⟨by decide, by decide⟩, rfl, rfl, by decide⟩⟩ : Fits 1000000000 free))
  obtain ⟨σ, lab, hs, hf, h6, h7, h8⟩ := tfair_exists (accepted_wf h code) h3
  have run : ∀ k, TRun (system prog code id twoWords) nine 0 ((List.range k).filterMap lab) (σ k) ∧ (∀ r, (σ k).noted r = []) ∧ (σ k).clocks = (σ 0).clocks := by
    intro k
    induction k with
    | zero => exact ⟨.start hs.start, hs.start.noted, rfl⟩
    | succ k ih =>
      obtain ⟨a1, a2, a3⟩ := ih
      rw [List.range_succ, List.filterMap_append]
      rcases hs.step k with ⟨l, b1, b2⟩ | ⟨b1, b2⟩
      · have e : List.filterMap lab [k] = [l] := by simp [b1]
        rw [e]
        exact ⟨.snoc a1 b2, noted_step (fun _ _ _ => rfl) b2 a2, (nine_clocks a1 a2 b2).trans a3⟩
      · have e : List.filterMap lab [k] = [] := by simp [b1]
        rw [e, List.append_nil, b2]
        exact ⟨a1, a2, a3⟩
  have hcl : ∀ r x, (σ 0).clocks r x = some 0 := by
    intro r x
    rw [← (run (ls.map TLabel.go).length).2.2, h6, h5.clocks]
  have mono : ∀ j k, k ≤ j → (σ k).now ≤ (σ j).now := by
    intro j
    induction j with
    | zero => intro k hk; rw [Nat.le_zero.1 hk]
    | succ j ih =>
      intro k hk
      rcases Nat.lt_or_ge k (j + 1) with hlt | hge
      · refine Nat.le_trans (ih k (by omega)) ?_
        rcases hs.step j with ⟨l, b1, b2⟩ | ⟨b1, b2⟩
        · generalize σ (j + 1) = st' at b2
          cases b2 <;> assumption
        · rw [b2]
      · rw [show k = j + 1 by omega]
  refine ⟨σ, lab, hs, fun m _ p _ _ => ⟨⟨0, hcl _ _⟩, fun x _ _ => ⟨0, hcl _ _⟩⟩, ?_, ?_, hf⟩
  · intro k x e
    rcases Nat.lt_or_ge k (ls.map TLabel.go).length with hk | hk
    · have h9 := h7 k _ (List.getElem?_eq_getElem hk)
      rw [e] at h9
      simp at h9
    · exact h8 k hk x e
  · intro k p hp _ m hm hcall c hc u hu1 hu2
    rcases Nat.lt_or_ge k (ls.map TLabel.go).length with hk | hk
    · have := mono (ls.map TLabel.go).length (k + 1) hk
      rw [h6, h5.now] at this
      have hu : u - c < 9000000000 := by omega
      simp only [twoWords, Plan.messages, List.mem_cons, List.not_mem_nil, or_false] at hm
      have e0 : value ['0'] = 0 := by decide
      have e9 : value ['9'] = 9 := by decide
      rcases hm with rfl | rfl <;> simp only [InBounds, ab, if_true, e0, e9] <;> omega
    · exfalso
      obtain ⟨fn, op, a, hcall, -⟩ := hcall
      have hcl := closed_stays (tsched_fsched hs) hk (r := number prog p) (by
        rw [h6, h4]; exact h2 rfl _ (number_pos ((accepted_mem h p).2 hp)).1 (number_pos ((accepted_mem h p).2 hp)).2)
      rw [hcl] at hcall
      cases hcall

/-- As `C71_finishes_partial` says, both have done their part. -/
example : ∃ prog, EndToEnd.Accepted id ascii twoWords (straightText ['P'] [['A'], ['B']] [ab ['H'] '0' '9', ab ['K'] '0' '9']) prog ∧ ∀ code, ∃ σ lab,
    TSchedule (system prog code id twoWords) nine 0 σ lab ∧ ∃ j, ∀ p ∈ twoWords.roles, (σ j).fs.pos (number prog p) = .closed := by
  obtain ⟨prog, h⟩ := twoWords_text
  refine ⟨prog, h, fun code => ?_⟩
  obtain ⟨σ, lab, h1, h2, h3, h4, h5⟩ := twoWords_schedule h code
  obtain ⟨j, h6, -⟩ := C71_finishes_partial h (nine_written code) (fun _ _ _ => rfl) (by intro P e; cases e) (by decide) σ lab h1 h2 h3 h4 h5
  exact ⟨σ, lab, h1, j, h6⟩

/-- The text of `C69_clocks_stuck`: under every fair schedule, if nobody disappears of itself, somebody is the first to fail, as `C71_reason_partial` asks, and was late. -/
theorem clocks_late {prog : Program}
    (h : EndToEnd.Accepted id ascii (.straight ['P'] C62.rolesABC C62.clocks) (straightText ['P'] C62.rolesABC C62.clocks) prog)
    (code : Params → Nat) (V : Windows) (hV : AsWritten code id V C62.clocks) (hf : FreeChoices V) :
    ∃ σ lab, TSchedule (system prog code id (.straight ['P'] C62.rolesABC C62.clocks)) V 0 σ lab ∧ HasClocks prog (.straight ['P'] C62.rolesABC C62.clocks) (σ 0) ∧
      ∃ k, AllAlive prog (.straight ['P'] C62.rolesABC C62.clocks) (σ k) ∧ ∃ p ∈ C62.rolesABC, (σ (k + 1)).fs.dead (number prog p) = true ∧
        lab k = some (.late (number prog p)) := by
  have hw := accepted_wf h code
  obtain ⟨st, hst⟩ := start_exists (n := prog.roles.length) (D := globalOf prog code id (.straight ['P'] C62.rolesABC C62.clocks)) (root := 0)
    (by have := (number_pos ((accepted_mem h ['A']).2 (by decide))); omega)
  have h0 : TStart (system prog code id (.straight ['P'] C62.rolesABC C62.clocks)) 0
      ⟨⟨st.heap, st.pos, nobody⟩, fun _ _ => some 0, fun _ => 0, fun _ => [], fun _ => false, 0⟩ :=
    ⟨hst, rfl, by intro r x c e; cases e; exact Nat.le_refl _, fun _ => rfl, fun _ => rfl⟩
  obtain ⟨σ, lab, hs, hfair, h1, -, h2⟩ := tfair_exists (V := V) hw (.start h0)
  have h1 : σ 0 = _ := h1
  have hc0 : HasClocks prog (.straight ['P'] C62.rolesABC C62.clocks) (σ 0) := by
    rw [h1]; exact fun m _ p _ _ => ⟨⟨0, rfl⟩, fun x _ _ => ⟨0, rfl⟩⟩
  refine ⟨σ, lab, hs, hc0, ?_⟩
  obtain ⟨j, hov, -⟩ := C69_terminates h code (by intro P e; cases e) V σ lab hs hfair
  have hnc := C69_impossible id ascii _ _ _ _ prog h code V hV (by decide) ['B'] 0 1 _ _ (by decide) rfl rfl (by unfold Involved; decide)
      (by unfold Involved; decide) 1000000000 (by decide) σ lab hs (by rw [h1]; intro r y c e; cases e; decide) j
  have hdead : ¬ AllAlive prog (.straight ['P'] C62.rolesABC C62.clocks) (σ j) := by
    intro ha
    have hp := number_pos ((accepted_mem h ['A']).2 (by decide))
    rcases hov _ hp.1 hp.2 with e | e
    · rw [ha ['A'] (by decide)] at e; cases e
    · exact hnc ['A'] (by decide) e
  clear hov hnc
  induction j with
  | zero => exact absurd (by intro p _; rw [h1]; rfl) hdead
  | succ j ih =>
    by_cases ha : AllAlive prog (.straight ['P'] C62.rolesABC C62.clocks) (σ j)
    · unfold AllAlive at hdead
      simp only [not_forall] at hdead
      obtain ⟨p, hp, hd⟩ := hdead
      have hd : (σ (j + 1)).fs.dead (number prog p) = true := by
        cases e : (σ (j + 1)).fs.dead (number prog p) <;> simp_all
      refine ⟨j, ha, p, hp, hd, ?_⟩
      rcases C71_reason_partial h hV hf (by decide) σ lab hs hc0 j ha p hp hd with e | ⟨e, -⟩
      · exact absurd e (h2 j (Nat.zero_le _) _)
      · exact e
    · exact ih ha

/-- **C71**, with the interval of the text the property fails: in every accepted text without choices whose first message has an exclusive lower bound, the sender can be the
first to fail although its clock is above the lower bound and not above the upper one at every instant from before the call to its failure. -/
theorem C71_exclusive_start {title : Text → Text} {C : Classes} {name : Text} {roles : List Text} {m : Msg} {msgs : List Msg} {text : List Text} {prog : Program}
    (h : EndToEnd.Accepted title C (.straight name roles (m :: msgs)) text prog) (code : Params → Nat) (V : Windows) (hV : AsWritten code title V (m :: msgs))
    (hm : m.leftBracket ≠ .opening) (hlt : value m.leftBound < value m.rightBound) :
    ∃ st st', TStart (system prog code title (.straight name roles (m :: msgs))) 0 st ∧ HasClocks prog (.straight name roles (m :: msgs)) st ∧
      TStep (system prog code title (.straight name roles (m :: msgs))) V st (.late (number prog m.sender)) st' ∧
      ∃ c, st.clocks (number prog m.sender) (m.clock.headD ' ') = some c ∧ ∀ u, st.last (number prog m.sender) ≤ u → u ≤ st'.now →
        value m.leftBound * 1000000000 < u - c ∧ u - c ≤ value m.rightBound * 1000000000 := by
  have hw := accepted_wf h code
  obtain ⟨hA, hB, hne⟩ := Mesh.wf_comms hw 0 (comm prog code title m) (.head _)
  have hA : Part prog.roles.length (number prog m.sender) := hA
  have hne : number prog m.sender ≠ number prog m.receiver := hne
  obtain ⟨st, hst⟩ := start_exists (n := prog.roles.length) (D := globalOf prog code title (.straight name roles (m :: msgs))) (root := 0) (Nat.le_trans hA.1 hA.2)
  obtain ⟨v, hv1, hv2⟩ : ∃ v, v = value m.leftBound * 1000000000 + 500000000 ∧ True := ⟨_, rfl, trivial⟩
  have h0 : TStart (system prog code title (.straight name roles (m :: msgs))) 0
      ⟨⟨st.heap, st.pos, nobody⟩, fun _ _ => some 0, fun _ => v, fun _ => [], fun _ => false, v⟩ :=
    ⟨hst, rfl, by intro r x c e; cases e; exact Nat.zero_le _, fun _ => rfl, fun _ => rfl⟩
  have R := start_spec (Nat.le_trans hA.1 hA.2) hst
  have hpos : ∃ sl k, st.pos (number prog m.sender) = .mesh sl (.role (number prog m.receiver) k) := by
    have hstk : ((Mesh.project prog.roles.length (globalOf prog code title (.straight name roles (m :: msgs)))).types 0 (number prog m.sender)).stack =
        .role (number prog m.receiver) (Mesh.stackOf (number prog m.sender) (msgs.map (comm prog code title)) .fin) := by
      simp [Mesh.project, globalOf, Mesh.meshOf, Mesh.stackOf, EndToEnd.comm]
    have := R.posr _ hA
    cases e : st.pos (number prog m.sender) with
    | mesh sl k =>
      rw [e] at this
      obtain ⟨M, h1, h2, -⟩ := this
      cases h1
      rw [h2, hstk]
      exact ⟨_, _, rfl⟩
    | ending i sl =>
      rw [e] at this
      obtain ⟨M, h1, h2, -⟩ := this
      cases h1
      rw [hstk] at h2; cases h2
    | closed =>
      rw [e] at this
      obtain ⟨M, h1, h2⟩ := this
      cases h1
      rw [hstk] at h2; cases h2
    | telling => rw [e] at this; cases this.1
  obtain ⟨sl, k, hp⟩ := hpos
  obtain ⟨M, e, hM, -, -, -, -, hu, f1, -, -, f4, -⟩ := R.at_role hw hA rfl hp
  cases hM
  have hty : e.ty = .send none (.data (code (written title m))) (enc (number prog m.sender) (number prog m.receiver)
      (Mesh.sessOf (number prog m.sender) (number prog m.receiver) (msgs.map (comm prog code title)) .fin)) := by
    rw [f4]
    simp [Mesh.project, globalOf, Mesh.meshOf, Mesh.sessOf, EndToEnd.comm, enc]
  have hcall : TCall (system prog code title (.straight name roles (m :: msgs))) V (number prog m.sender) (st.pos (number prog m.sender)) .send
      (V.msg (code (written title m))) (.send e ⟨0, 0, []⟩) (.sim (.act (number prog m.sender) (.send (number prog m.receiver) (code (written title m))))) := by
    rw [hp]
    refine .send (w := none) ?_ hty
    change sl[(SendRecv.sendImpl prog.roles.length (number prog m.sender) (number prog m.receiver)).used - 1]? = some e
    rw [show SendRecv.sendImpl prog.roles.length (number prog m.sender) (number prog m.receiver) =
      SendRecv.emit prog.roles.length (number prog m.sender) (number prog m.receiver) from rfl, hu, f1]
  obtain ⟨f, hf⟩ := C45_crash _ _ hw 0 [] ⟨st.heap, st.pos, nobody⟩ (.start hst) _ hA rfl (by simp only; rw [hp]; exact Pos.noConfusion)
  rw [hV m (.head _)] at hcall
  have hrej := C19_exclusive_start_rejected .send (still v fun _ => false) (Params.window (written title m)) (fun _ => some 0) 0
    (by simp only [Params.window, written]; omega) (by simp [Params.window, written, hm]) rfl (by
      intro k
      simp only [Params.window, written, still]
      omega)
  refine ⟨_, _, h0, fun m _ p _ _ => ⟨⟨0, rfl⟩, fun x _ _ => ⟨0, rfl⟩⟩, .late (n := v) (W := still v fun _ => false) (Nat.le_refl _) ⟨rfl, rfl⟩ hcall
    (fun k => ⟨Nat.le_refl _, Nat.le_refl _⟩) ?_ (res := (Timed.run .send (still v fun _ => false) (Params.window (written title m)) fun _ => some 0).res)
    (cl := (Timed.run .send (still v fun _ => false) (Params.window (written title m)) fun _ => some 0).clocks) ?_ hf, 0, rfl, ?_⟩
  · intro k d hx; simp [still] at hx
  · generalize hr : Timed.run .send (still v fun _ => false) (Params.window (written title m)) (fun _ => some 0) = o at hrej ⊢
    obtain ⟨a, b, c⟩ := o
    simp only at hrej
    obtain ⟨-, rfl⟩ := hrej
    rfl
  · intro u h1 h2
    simp only at h1 h2
    omega

/-- A text as `C71_exclusive_start` asks for: `C62.plain` from its second message on. -/
example : ∃ prog, EndToEnd.Accepted id ascii (.straight ['P'] C62.rolesABC (C62.plain.drop 1)) (straightText ['P'] C62.rolesABC (C62.plain.drop 1)) prog ∧
    ∃ m msgs, C62.plain.drop 1 = m :: msgs ∧ m.leftBracket ≠ .opening ∧ value m.leftBound < value m.rightBound := by
  obtain ⟨prog, h⟩ := straight_accepted (name := ['P']) (roles := C62.rolesABC) (msgs := C62.plain.drop 1) ⟨by decide, by decide⟩ (by unfold IsWord; decide)
    (well_written (by decide)) (by decide) (by decide) ((accepted?_iff _ _).1 (by decide))
  exact ⟨prog, h, _, _, rfl, by decide, by decide⟩

end Verif.Prop
