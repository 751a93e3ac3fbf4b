import Verif.Proof.TimedExecution
import Verif.Prop.C69_Cases
/-!
# C70: every execution of a text at the instants its clocks permit

The text of a timed protocol with choices and loops, several clocks and resets; the program with the generated types on timed channels.
-/
namespace Verif.Prop
open Verif.Nuscr Verif.NuscrSpec Verif.NuscrText Verif.EndToEnd Verif.Runtime
open Verif.Mesh (actsOf Part Ev)
open Verif.Timed (Clocks)

section
variable {title : Text → Text} {C : Classes} {s : Plan} {text : List Text} {prog : Program} {code : Params → Nat} {V : Windows}

theorem completes_comms {n : Nat} {D : Mesh.Global} (w : Mesh.Global.Wf n D) {N : Mesh.Name} {tr : List Ev} (h : Mesh.Completes D N tr) :
    ∀ c, Ev.comm c ∈ tr → Part n c.p ∧ Part n c.q ∧ c.p ≠ c.q := by
  have key : ∀ N c, Ev.comm c ∈ (D N).comms.map Ev.comm → Part n c.p ∧ Part n c.q ∧ c.p ≠ c.q := by
    intro N c h
    obtain ⟨c', h1, h2⟩ := List.mem_map.1 h
    cases h2
    exact Mesh.wf_comms w N c h1
  induction h with
  | stop _ => exact key _
  | go _ _ _ ih =>
    intro c hc
    rcases List.mem_append.1 hc with h | h
    · exact key _ c h
    · rcases List.mem_cons.1 h with h | h
      · cases h
      · exact ih c h

/-- The clocks, by the numbers of the roles. -/
def byNumber (prog : Program) (cl : Text → Clocks) (r : Nat) : Clocks :=
  match prog.roles[r - 1]? with
  | some p => cl p
  | none => fun _ => none

theorem byNumber_eq {cl : Text → Clocks} {p : Text} (hp : p ∈ prog.roles) : byNumber prog cl (number prog p) = cl p := by
  unfold byNumber EndToEnd.number
  rw [Nat.add_sub_cancel, List.getElem?_eq_getElem (List.idxOf_lt_length_of_mem hp), List.getElem_idxOf]

theorem may_meets {m : Msg} (hs : value m.rightBound < 18446744073709551616) (fn : Timed.Fn) {cl : Clocks} {t : Nat}
    (h : MayExchange cl m t) : Meets fn (Params.window (written title m)) cl t := by
  obtain ⟨⟨c, h1, h2, h3⟩, h4⟩ := h
  have hle : value m.leftBound ≤ value m.rightBound := by
    split at h2 <;> split at h3 <;> omega
  refine .inr ⟨⟨?_, ?_, ?_, .inl ?_⟩, ⟨c, h1, ⟨?_, ?_⟩, ?_⟩, ?_⟩
  · simp only [Params.window, written]; omega
  · simp only [Params.window, written]; omega
  · unfold Spec.Unbounded; simp only [Params.window, written]; omega
  · simp only [Params.window, written]; omega
  · intro _
    simp only [Params.window, written, decide_eq_true_eq]
    split <;> rename_i h
    · rw [if_pos h] at h2; omega
    · rw [if_neg h] at h2; omega
  · intro _
    simp only [Params.window, written, decide_eq_true_eq]
    split <;> rename_i h
    · rw [if_pos h] at h3; omega
    · rw [if_neg h] at h3; omega
  · intro _ h
    simp only [Params.window, written, decide_eq_false_iff_not] at h ⊢
    rw [if_neg h] at h2
    omega
  · simp only [Params.window, written]
    cases hm : m.reset with
    | none => exact .inl (by simp)
    | some x =>
      by_cases e : x.headD ' ' = ' '
      · exact .inl (by simpa using e)
      · exact .inr (.inr (by simpa using h4 x hm e))

theorem restart_resetBy {m : Msg} {t : Nat} {cl : Clocks} : restart (Runtime.resetOf (Params.window (written title m))) t cl = resetBy m t cl := by
  funext y
  unfold restart Runtime.resetOf resetBy
  have e : (Params.window (written title m)).reset = match m.reset with | some x => x.headD ' ' | none => ' ' := by
    simp only [Params.window, written]
    cases m with
    | mk a b c d e f g h r p => cases r <;> rfl
  rw [e]
  clear e
  generalize m.reset = o
  cases o with
  | none => simp
  | some x =>
    simp only
    generalize x.headD ' ' = z
    by_cases e : z = ' '
    · subst e; simp
    · by_cases e' : y = z <;> simp_all

theorem permitted_timely (hV : AsWritten code title V s.messages) (hb : ∀ m ∈ s.messages, value m.rightBound < 18446744073709551616)
    {cl : Text → Clocks} {now : Nat} {L : List (Happening × Nat)} (h : Permitted cl now L) :
    ∀ {cl' : Nat → Clocks}, (∀ p ∈ prog.roles, cl' (number prog p) = cl p) →
      (∀ m t, (Happening.exchange m, t) ∈ L → m ∈ s.messages ∧ m.sender ∈ prog.roles ∧ m.receiver ∈ prog.roles ∧ m.sender ≠ m.receiver) →
      Timely V cl' now (L.map fun a => (ev prog code title a.1, a.2)) := by
  induction h with
  | nil => intro _ _ _; trivial
  | @choice cl now x i t L h1 _ ih =>
    intro cl' h2 h3
    exact ⟨h1, ih h2 fun m t hm => h3 m t (by simp [hm])⟩
  | @exchange cl now m t L h1 h2 h3 _ ih =>
    intro cl' h4 h5
    obtain ⟨k1, k2, k3, k4⟩ := h5 m t (by simp)
    refine ⟨h1, ?_, ?_, ih (fun p hp => ?_) fun m t hm => h5 m t (by simp [hm])⟩
    · simp only [EndToEnd.comm]
      rw [hV m k1, h4 _ k2]
      exact may_meets (hb m k1) _ h2
    · simp only [EndToEnd.comm]
      rw [hV m k1, h4 _ k3]
      exact may_meets (hb m k1) _ h3
    · unfold after
      simp only [EndToEnd.comm]
      rw [hV m k1, restart_resetBy, restart_resetBy, h4 _ k2, h4 _ k3]
      by_cases e2 : m.receiver = p
      · rw [e2, Mesh.upd_same, if_pos (.inr rfl)]
      · rw [Mesh.upd_other _ _ (fun e => e2 (number_inj k3 e.symm))]
        by_cases e1 : m.sender = p
        · rw [e1, Mesh.upd_same, if_pos (.inl rfl)]
        · rw [Mesh.upd_other _ _ (fun e => e1 (number_inj k2 e.symm)), h4 p hp, if_neg]
          rintro (h | h)
          · exact e1 h.symm
          · exact e2 h.symm

/-- **C70**, executions in time: take any complete execution of an accepted text, with choices and any number of turns of its loops, the same things ordered in any way that keeps the
order of each role, and instants for them which the windows and the clocks of the roles permit.  Then the program with the generated types
can be carried out so: every role sends, receives, chooses and hears of choices exactly at these instants, each transfer in its window, and all roles return
from `close`.  Missing, as in C19: instants less than a second above an exclusive lower bound. -/
theorem C70_carried_out_partial (h : EndToEnd.Accepted title C s text prog) (hV : AsWritten code title V s.messages) (hc : FreeChoices V)
    (hb : ∀ m ∈ s.messages, value m.rightBound < 18446744073709551616) (tr : List Happening) (he : Execution s true tr)
    (L : List (Happening × Nat)) (hL : SameFor s.roles (L.map (·.1)) tr) (cl : Text → Clocks) (t₀ : Nat) (hcl : ∀ p y c, cl p y = some c → c ≤ t₀)
    (hP : Permitted cl t₀ L) :
    CarriedOut prog code title V s cl t₀ L := by
  have hw := accepted_wf h code
  have hcp := execution_completes (prog := prog) (code := code) (title := title) he
  have hk := known_execution (accepted_valid h).1 he
  have hmem : ∀ e t, (e, t) ∈ L → e ∈ tr := fun e t h => hL.1.mem_iff.1 (List.mem_map.2 ⟨_, h, rfl⟩)
  have hmsg : ∀ m t, (Happening.exchange m, t) ∈ L → m ∈ s.messages ∧ m.sender ∈ prog.roles ∧ m.receiver ∈ prog.roles ∧ m.sender ≠ m.receiver := by
    intro m t hm
    have h1 := hmem _ _ hm
    have h2 := hk _ h1
    refine ⟨execution_messages he h1, h2.1, h2.2, fun e => ?_⟩
    have := completes_comms hw hcp (comm prog code title m) (List.mem_map.2 ⟨_, h1, rfl⟩)
    exact this.2.2 (by simp [EndToEnd.comm, e])
  have hT := permitted_timely (prog := prog) hV hb hP (fun p hp => byNumber_eq hp) hmsg
  have hpart : ∀ p e, Known prog e → partOf (number prog p) (ev prog code title e) = Happening.of p e := by
    intro p e hk
    cases e with
    | choice => rfl
    | exchange m =>
      simp only [ev, partOf, EndToEnd.comm, Happening.of]
      refine decide_eq_decide.2 ⟨Or.imp (number_inj hk.1) (number_inj hk.2), Or.imp (fun e => by rw [e]) (fun e => by rw [e])⟩
  obtain ⟨ls, st, cl', now, h1, h2, h3⟩ := ideal_execution (V := V) hw hc hcp (L := L.map fun a => (ev prog code title a.1, a.2)) (by
      intro r hr
      obtain ⟨p, hp, rfl⟩ := number_surj h r hr
      have e1 : (L.map fun a => (ev prog code title a.1, a.2)).map (·.1) = (L.map (·.1)).map (ev prog code title) := by simp [Function.comp_def]
      have hL1 := hL.1
      have hL2 := hL.2 p hp
      rw [e1]
      generalize L.map (·.1) = L' at hL1 hL2
      rw [List.filter_map, List.filter_map]
      have e2 : ∀ l : List Happening, (∀ e ∈ l, e ∈ tr) → l.filter (partOf (number prog p) ∘ ev prog code title) = l.filter (Happening.of p) :=
        fun l hl => List.filter_congr fun e he => hpart p e (hk e (hl e he))
      rw [e2 _ (fun e he => hL1.mem_iff.1 he), e2 _ (fun e he => he), hL2]) (by
      intro c m hc
      obtain ⟨a, ha, he⟩ := List.mem_map.1 hc
      simp only [Prod.mk.injEq] at he
      exact completes_comms hw hcp c (List.mem_map.2 ⟨a.1, hmem a.1 a.2 ha, he.1⟩)) (cl₀ := byNumber prog cl) (t₀ := t₀) (by
      intro r x c hc
      unfold byNumber at hc
      cases ho : prog.roles[r - 1]? with
      | none => rw [ho] at hc; cases hc
      | some p => rw [ho] at hc; exact hcl _ _ _ hc) hT
  obtain ⟨σ, ⟨k1, k2, k3⟩, k4, k5, -⟩ := C68_ideal _ _ hw V 0 ls st _ cl' _ t₀ now h1
  refine ⟨ls, σ, ⟨k1, fun p hp => by rw [k2, byNumber_eq ((accepted_mem h p).2 hp)], k3⟩, k4, fun p hp => ⟨?_, ?_⟩⟩
  · rw [k5]
    have := number_pos ((accepted_mem h p).mpr hp)
    exact h2 _ this.1 this.2
  · have := h3 _ (number_pos ((accepted_mem h p).mpr hp))
    have e : timedActs (number prog p) ls = timedOf (number prog p) ls := rfl
    rw [e, this]
    unfold timedView
    rw [List.filterMap_map]
    refine List.filterMap_congr fun a ha => ?_
    simp only [Function.comp]
    rw [view_ev a.1 (by have := hk _ (hmem a.1 a.2 ha); generalize a.1 = x at this ⊢; cases x <;> exact this)]

end

end Verif.Prop
