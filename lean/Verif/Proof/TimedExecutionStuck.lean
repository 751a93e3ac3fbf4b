import Verif.Prop.C70
/-!
# Loops nobody can go round
-/
namespace Verif.EndToEnd
open Verif.Nuscr Verif.NuscrSpec Verif.NuscrText Verif.Runtime Verif.Types Verif.Spec Verif.Prop
open Verif.Mesh (actsOf Part)

/-- What is done is the transfer of a message. -/
def Moves : Mesh.Act → Prop
  | .send _ _ => True
  | .recv _ _ => True
  | _ => False

/-- The window of what is done; choices are free. -/
def winAct (V : Windows) : Mesh.Act → Window
  | .send _ k => V.msg k
  | .recv _ k => V.msg k
  | _ => free

section
variable {title : Text → Text} {C : Classes} {s : Plan} {text : List Text} {prog : Program}
variable {code : Params → Nat} {V : Windows}

theorem does_winAct (hV : AsWritten code title V s.messages) {p : Text} {m : Msg} (hm : m ∈ s.messages) {a : Mesh.Act}
    (h : does prog code title p (.exchange m) = some a) : winAct V a = Params.window (written title m) ∧ Moves a := by
  simp only [does] at h
  split at h
  · cases h; exact ⟨hV m hm, trivial⟩
  · split at h
    · cases h; exact ⟨hV m hm, trivial⟩
    · cases h

theorem act_moves (h : EndToEnd.Accepted title C s text prog) (hV : AsWritten code title V s.messages)
    {ls : List TLabel} {st st' : TS} (hr : TRun (system prog code title s) V 0 ls st) {r : Nat} {a : Mesh.Act}
    (hs : TStep (system prog code title s) V st (.go (.sim (.act r a))) st') (ha : Moves a) :
    ∃ p ∈ s.roles, ∃ m ∈ s.messages, does prog code title p (.exchange m) = some a := by
  have hp : Part prog.roles.length r := by
    have := tstep_fstep hs
    generalize st'.fs = f at this
    cases this with
    | step h1 _ => exact rstep_actor h1 rfl
  obtain ⟨p, hp', rfl⟩ := number_surj h r hp
  rcases C69_window_partial h code V hV ls st st' hr p hp' a hs with ⟨m, h1, h2, -⟩ | ⟨P, rfl, i, h1, h2⟩
  · exact ⟨p, hp', m, h1, h2⟩
  · simp only [does] at h2
    split at h2 <;> (cases h2; exact ha.elim)

/-- What is true of a role in every run without resets: it has not been called since before the lower bounds of what it has done, and the bounds are as they
have to be for that. -/
structure Passed (prog : Program) (V : Windows) (B : Nat) (p : Text) (ls : List TLabel) (st : TS) : Prop where
  noted : ∀ r, st.noted r = []
  clocks : ∀ r y c, st.clocks r y = some c → c ≤ B
  did : ∀ a ∈ actsOf (number prog p) (fsims (ls.map TLabel.erase)), (winAct V a).start * 1000000000 ≤ (st.last (number prog p) : Int)
  bounds : (actsOf (number prog p) (fsims (ls.map TLabel.erase))).Pairwise fun a b =>
    Moves b → (winAct V a).start * 1000000000 ≤ (winAct V b).stop * 1000000000 + B

theorem noted_step (hc : FreeChoices V) {st st' : TS} {l : TLabel} (hs : TStep (system prog code title s) V st l st')
    (hq : ∀ r, st.noted r = []) (r : Nat) : st'.noted r = [] := by
  cases hs with
  | @call n m r' fn w op L f cl W h1 h2 h3 h4 =>
    simp only
    split
    · rename_i e
      exfalso
      generalize st.fs.pos r' = P at h3
      cases h3 with
      | tell => rw [hc] at e; exact e.2 rfl
      | _ => cases e.1
    · exact hq r
  | @decide _ r' =>
    simp only [Mesh.upd]; split
    · rfl
    · exact hq r
  | _ => exact hq r

theorem passed_step (h : EndToEnd.Accepted title C s text prog) (hV : AsWritten code title V s.messages) (hf : FreeChoices V)
    (hno : ∀ m ∈ s.messages, m.reset = none) {B : Nat} {p : Text}
    {ls : List TLabel} {st st' : TS} {l : TLabel}
    (hr : TRun (system prog code title s) V 0 ls st)
    (hs : TStep (system prog code title s) V st l st') (hq : Passed prog V B p ls st) : Passed prog V B p (ls ++ [l]) st' := by
  have hlast := last_mono hs (number prog p)
  have e : actsOf (number prog p) (fsims ((ls ++ [l]).map TLabel.erase)) =
      actsOf (number prog p) (fsims (ls.map TLabel.erase)) ++ match l with
        | .go (.sim (.act r a)) => if r = number prog p then [a] else []
        | _ => [] := by
    rw [List.map_append, fsims, List.filterMap_append, Mesh.actsOf_append]
    congr 1
    cases l with
    | go rl =>
      cases rl with
      | sim x =>
        cases x with
        | act r a => by_cases e : r = number prog p <;> simp [actsOf, TLabel.erase, e]
        | _ => simp [actsOf, TLabel.erase]
      | _ => simp [actsOf, TLabel.erase]
    | _ => simp [actsOf, TLabel.erase]
  have new : ∀ a, Moves a → l = .go (.sim (.act (number prog p) a)) → (winAct V a).start * 1000000000 ≤ (st'.last (number prog p) : Int) ∧
      (st.last (number prog p) : Int) ≤ (winAct V a).stop * 1000000000 + B := by
    rintro a ha rfl
    obtain ⟨p', -, m, hm, hd⟩ := act_moves h hV hr hs ha
    obtain ⟨e1, -⟩ := does_winAct hV hm hd
    have hT : Transfers (.sim (.act (number prog p) a)) := by
      cases a <;> first | trivial | exact ha.elim
    obtain ⟨r, w, k1, k2, k3⟩ := step_inside hs hT
    cases k1
    have hw : w = winAct V a := by
      cases a <;> first | exact k2 | exact ha.elim
    rw [← hw] at e1 ⊢
    have s0 : 0 ≤ w.start ∧ 0 ≤ w.stop := by
      rw [e1]; simp only [Params.window, written]; omega
    rcases k3 with k3 | ⟨c, u, k4, k5, k6, k7, k8⟩
    · exact absurd k3.1 (by omega)
    · have k7 := k7 s0.1
      have k8 := k8 s0.2
      have hc := hq.clocks _ _ _ k4
      simp only [Mesh.Label.actor] at k5 k6
      constructor
      · split at k7 <;> omega
      · split at k8 <;> omega
  refine ⟨noted_step hf hs hq.noted, ?_, ?_, ?_⟩
  · intro r y c hc
    rcases (C68_clocks _ _ V 0 ls st hr).2 l st' hs r y with h1 | ⟨c', h1, h2, h3, ⟨L, w, rfl, h5, h6, h7, h8, h9, -⟩ | ⟨-, h4⟩⟩
    · rw [h1] at hc; exact hq.clocks _ _ _ hc
    · exfalso
      cases L with
      | sim x =>
        cases x with
        | act r' a =>
          by_cases ha : Moves a
          · obtain ⟨p', -, m, hm, hd⟩ := act_moves h hV hr hs ha
            obtain ⟨e1, -⟩ := does_winAct hV hm hd
            have : w = winAct V a := by
              cases a <;> first | exact h7 | exact ha.elim
            rw [this, e1] at h8
            simp only [Params.window, written, hno m hm] at h8
            exact h9 (by simpa using h8.symm)
          · cases a with
            | heed q N =>
              obtain ⟨bs, -, rfl⟩ := h7
              rw [hf] at h8
              exact h9 h8.symm
            | decide N => exact h7.elim
            | _ => exact ha trivial
        | tell r' q =>
          simp only [RLabel.actor, Mesh.Label.actor, Option.some.injEq] at h5
          subst h5
          exact h6 q rfl
        | enter => exact h7.elim
      | _ => exact h7.elim
    · rw [hq.noted r] at h4; cases h4
  · rw [e]
    intro a ha
    rcases List.mem_append.1 ha with h1 | h1
    · exact Int.le_trans (hq.did a h1) (by exact_mod_cast hlast)
    · split at h1
      · split at h1
        · rename_i hrp
          simp only [List.mem_singleton] at h1
          subst h1 hrp
          by_cases hm : Moves a
          · exact (new _ hm rfl).1
          · cases a <;> first | exact absurd trivial hm | (simp only [winAct, free]; omega)
        · cases h1
      · cases h1
  · rw [e]
    refine List.pairwise_append.2 ⟨hq.bounds, ?_, ?_⟩
    · split
      · split <;> simp
      · simp
    · intro a ha b hb hm
      split at hb
      · split at hb
        · rename_i hrp
          simp only [List.mem_singleton] at hb
          subst hb hrp
          exact Int.le_trans (hq.did a ha) (new _ hm rfl).2
        · cases hb
      · cases hb

theorem passed_sched (h : EndToEnd.Accepted title C s text prog) (hV : AsWritten code title V s.messages) (hf : FreeChoices V)
    (hno : ∀ m ∈ s.messages, m.reset = none) {B : Nat} (p : Text) {σ : Nat → TS} {lab : Nat → Option TLabel}
    (hs : TSchedule (system prog code title s) V 0 σ lab) (hB : ∀ r y c, (σ 0).clocks r y = some c → c ≤ B) (k : Nat) :
    TRun (system prog code title s) V 0 ((List.range k).filterMap lab) (σ k) ∧ Passed prog V B p ((List.range k).filterMap lab) (σ k) := by
  induction k with
  | zero => exact ⟨.start hs.start, hs.start.noted, hB, by simp [actsOf, fsims], by simp [actsOf, fsims]⟩
  | succ k ih =>
    obtain ⟨h1, h2⟩ := ih
    rw [List.range_succ, List.filterMap_append]
    rcases hs.step k with ⟨l, h4, h3⟩ | ⟨h4, h3⟩
    · have e : List.filterMap lab [k] = [l] := by simp [h4]
      rw [e]
      exact ⟨.snoc h1 h3, passed_step h hV hf hno h1 h3 h2⟩
    · have e : List.filterMap lab [k] = [] := by simp [h4]
      rw [e, List.append_nil, h3]
      exact ⟨h1, h2⟩

theorem exchanges_prefix {x : Text} {i : Nat} {v tr : List Happening} : ∀ {ms : List Msg} {u : List Happening},
    ms.map Happening.exchange ++ tr = u ++ .choice x i :: v → ∃ u', u = ms.map Happening.exchange ++ u' ∧ tr = u' ++ .choice x i :: v := by
  intro ms
  induction ms with
  | nil => intro u h; exact ⟨u, rfl, h⟩
  | cons m ms ih =>
    intro u h
    cases u with
    | nil => cases h
    | cons y u =>
      simp only [List.map_cons, List.cons_append, List.cons.injEq] at h
      obtain ⟨u', h1, h2⟩ := ih h.2
      exact ⟨u', by rw [h1, ← h.1]; rfl, h2⟩

/-- What follows a choice. -/
theorem after_choice {P : Proto} {c : Bool} {tr : List Happening} (h : After P c tr) : ∀ {u v : List Happening} {i : Nat},
    tr = u ++ .choice P.chooser i :: v → ∃ b, P.branches[i]? = some b ∧ ∃ v', v = (P.exchanges b).map Happening.exchange ++ v' := by
  induction h with
  | wait => intro u v i h; cases u <;> cases h
  | @ends j b h1 h2 =>
    intro u v i h
    cases u with
    | nil => cases h; exact ⟨b, h1, [], by simp [Proto.exchanges, h2]⟩
    | cons y u =>
      simp only [List.cons_append, List.cons.injEq] at h
      obtain ⟨u', -, h4⟩ := exchanges_prefix (tr := []) (by rw [List.append_nil]; exact h.2)
      cases u' <;> cases h4
  | @again j b l body c tr h1 h2 h3 h4 ih =>
    intro u v i h
    cases u with
    | nil =>
      cases h
      exact ⟨b, h1, tr, by simp [Proto.exchanges, h2, h3]⟩
    | cons y u =>
      simp only [List.cons_append, List.cons.injEq] at h
      obtain ⟨u', -, h5⟩ := exchanges_prefix h.2
      obtain ⟨u'', -, h6⟩ := exchanges_prefix h5
      exact ih h6

/-- The messages before the choices come before those of each branch chosen. -/
theorem before_choice {P : Proto} {c : Bool} {tr : List Happening} (h : Execution (.choice P) c tr) {i : Nat} {br : Branch}
    (hb : P.branches[i]? = some br) (hi : Happening.choice P.chooser i ∈ tr) {a b : Msg} (ha : a ∈ messagesOf P.pre) (hb' : b ∈ P.exchanges br) :
    List.Sublist [Happening.exchange a, .exchange b] tr := by
  cases h with
  | @choice _ _ tr h =>
    obtain ⟨u, v, hs⟩ := List.append_of_mem hi
    obtain ⟨u', -, h2⟩ := exchanges_prefix hs
    obtain ⟨b', h3, v', rfl⟩ := after_choice h h2
    rw [hb] at h3; cases h3
    refine List.cons_sublist_iff.2 ⟨_, _, rfl, List.mem_map_of_mem ha, List.singleton_sublist.2 ?_⟩
    rw [h2]
    exact List.mem_append_right _ (.tail _ (List.mem_append_left _ (List.mem_map_of_mem hb')))

/-- The messages of a branch chosen before come before those of one chosen later. -/
theorem between_choices {P : Proto} {c : Bool} {tr : List Happening} (h : Execution (.choice P) c tr) {i j : Nat} {br br' : Branch}
    (hb : P.branches[i]? = some br) (hb' : P.branches[j]? = some br') (hij : List.Sublist [Happening.choice P.chooser i, .choice P.chooser j] tr)
    {a b : Msg} (ha : a ∈ P.exchanges br) (hb'' : b ∈ P.exchanges br') : List.Sublist [Happening.exchange a, .exchange b] tr := by
  obtain ⟨r₁, r₂, hr, h1, h2⟩ := List.cons_sublist_iff.1 hij
  obtain ⟨s₁, t₁, rfl⟩ := List.append_of_mem h1
  obtain ⟨s₂, t₂, rfl⟩ := List.append_of_mem (List.singleton_sublist.1 h2)
  have key : ∀ {tr u v k b'}, Execution (.choice P) c tr → tr = u ++ Happening.choice P.chooser k :: v → P.branches[k]? = some b' →
      ∃ v', v = (P.exchanges b').map Happening.exchange ++ v' := by
    intro tr u v k b' he hs hk
    cases he with
    | choice he =>
      obtain ⟨u', -, h2⟩ := exchanges_prefix hs
      obtain ⟨b', h3, h4⟩ := after_choice he h2
      rw [hk] at h3; cases h3
      exact h4
  obtain ⟨v₁, e1⟩ := key h (u := s₁) (v := t₁ ++ (s₂ ++ .choice P.chooser j :: t₂)) (by rw [hr]; simp) hb
  obtain ⟨v₂, e2⟩ := key h (u := s₁ ++ .choice P.chooser i :: (t₁ ++ s₂)) (v := t₂) (by rw [hr]; simp) hb'
  rw [← List.append_assoc] at e1
  obtain ⟨w, e3, -⟩ := exchanges_prefix e1.symm
  refine List.cons_sublist_iff.2 ⟨s₁ ++ .choice P.chooser i :: (t₁ ++ s₂), .choice P.chooser j :: t₂, by rw [hr]; simp, ?_, List.singleton_sublist.2 ?_⟩
  · rw [e3]
    exact List.mem_append_right _ (.tail _ (List.mem_append_left _ (List.mem_map_of_mem ha)))
  · rw [e2]
    exact .tail _ (List.mem_append_left _ (List.mem_map_of_mem hb''))

/-- From what a role does of choices to the choices. -/
theorem choices_done {P : Proto} {c : Bool} {tr : List Happening} (h : Execution (.choice P) c tr) {r : Text} (is : List Nat) (xs : List Mesh.Act)
    (hx : List.Forall₂ (fun i x => does prog code title r (.choice P.chooser i) = some x) is xs)
    (hs : xs.Sublist (tr.filterMap (does prog code title r))) : List.Sublist (is.map (Happening.choice P.chooser)) tr := by
  obtain ⟨l, h1, h2⟩ := List.sublist_filterMap_iff.1 hs
  refine .trans ?_ h1
  have hl : ∀ e ∈ l, e ∈ tr := fun e he => h1.subset he
  clear hs h1
  induction hx generalizing l with
  | nil => exact List.nil_sublist _
  | @cons i x is xs hx _ ih =>
    obtain ⟨l₁, e, l₂, rfl, -, h4, h5⟩ := List.filterMap_eq_cons_iff.1 h2.symm
    have he : e = .choice P.chooser i := by
      cases e with
      | exchange m =>
        exfalso
        simp only [does] at h4 hx
        split at hx <;> cases hx <;> (split at h4 <;> first | cases h4 | (split at h4 <;> cases h4))
      | choice y n =>
        obtain ⟨P', e1, e2, -⟩ := execution_choices h (x := y) (i := n) (hl _ (List.mem_append_right _ (.head _)))
        cases e1
        subst e2
        simp only [does] at h4 hx
        have : n = i := by
          split at hx <;> cases hx <;> split at h4 <;> cases h4 <;> first | rfl | contradiction
        rw [this]
    subst he
    exact (List.Sublist.cons_cons _ (ih l₂ h5.symm fun e he => hl e (by simp [he]))).trans (List.sublist_append_right _ _)

end

end Verif.EndToEnd
