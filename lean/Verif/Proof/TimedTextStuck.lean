import Verif.Prop.C69
/-!
# Texts whose programs nobody can carry out
-/
namespace Verif.EndToEnd
open Verif.Nuscr Verif.NuscrSpec Verif.NuscrText Verif.Runtime Verif.Types Verif.Spec Verif.Prop
open Verif.Mesh (actsOf Part)

/-- The window of what is done. -/
def winOf (V : Windows) : Mesh.Act → Window
  | .send _ k => V.msg k
  | .recv _ k => V.msg k
  | _ => V.msg 0

section
variable {title : Text → Text} {C : Classes} {name : Text} {roles : List Text} {msgs : List Msg} {text : List Text} {prog : Program}
variable {code : Params → Nat} {V : Windows}

theorem does_window (hV : AsWritten code title V msgs) {p : Text} {m : Msg} (hm : m ∈ msgs) {a : Mesh.Act}
    (h : does prog code title p (.exchange m) = some a) :
    winOf V a = Params.window (written title m) ∧ (∀ N, a ≠ .decide N) ∧ (∀ q N, a ≠ .heed q N) := by
  simp only [does] at h
  split at h
  · cases h; exact ⟨hV m hm, by simp, by simp⟩
  · split at h
    · cases h; exact ⟨hV m hm, by simp, by simp⟩
    · cases h

theorem act_message (h : EndToEnd.Accepted title C (.straight name roles msgs) text prog) (hV : AsWritten code title V msgs)
    {ls : List TLabel} {st st' : TS}
    (hr : TRun (system prog code title (.straight name roles msgs)) V 0 ls st) {r : Nat} {a : Mesh.Act}
    (hs : TStep (system prog code title (.straight name roles msgs)) V st (.go (.sim (.act r a))) st') :
    ∃ p ∈ roles, r = number prog p ∧ ∃ m ∈ msgs, does prog code title p (.exchange m) = some a := by
  have hp : Part prog.roles.length r := by
    have := tstep_fstep hs
    generalize st'.fs = f at this
    cases this with
    | step h1 _ => exact rstep_actor h1 rfl
  obtain ⟨p, hp', rfl⟩ := number_surj h r hp
  rcases C69_window_partial h code V hV ls st st' hr p hp' a hs with ⟨m, h1, h2, -⟩ | ⟨P, h1, -⟩
  · exact ⟨p, hp', rfl, m, h1, h2⟩
  · cases h1

/-- Nobody is in the middle of a choice. -/
def Quiet (n : Nat) (st : TS) : Prop :=
  (∀ r, Part n r → ∀ N todo old own, st.fs.pos r ≠ .telling N todo old own) ∧ ∀ r, st.noted r = []

theorem quiet_step (h : EndToEnd.Accepted title C (.straight name roles msgs) text prog) (hV : AsWritten code title V msgs)
    {ls : List TLabel} {st st' : TS} {l : TLabel}
    (hr : TRun (system prog code title (.straight name roles msgs)) V 0 ls st)
    (hs : TStep (system prog code title (.straight name roles msgs)) V st l st') (hq : Quiet prog.roles.length st) : Quiet prog.roles.length st' := by
  constructor
  · intro r hrp N todo old own
    have hf := tstep_fstep hs
    generalize hl : l.erase = fl at hf
    generalize st'.fs = f at hf
    cases hf with
    | fail => exact hq.1 r hrp N todo old own
    | crash => exact hq.1 r hrp N todo old own
    | @step rl t h1 h2 =>
      have hgo : l = .go rl := by cases l <;> simp_all [TLabel.erase]
      subst hgo
      have old' := hq.1 r hrp N todo old own
      cases h1 with
      | decide =>
        obtain ⟨_, _, _, m, hm, hd⟩ := act_message h hV hr hs
        exact absurd rfl ((does_window hV hm hd).2.1 _)
      | @tell r' _ _ _ _ _ _ _ _ _ _ _ a1 a2 a3 => exact absurd a3 (hq.1 r' ⟨a1, a2⟩ _ _ _ _)
      | gc => exact old'
      | _ =>
        simp only [Mesh.upd]
        split
        · simp
        · exact old'
  · intro r
    cases hs with
    | @call n m r' fn w op L f cl W h1 h2 h3 h4 =>
      simp only
      split
      · rename_i e
        exfalso
        have hp' : Part prog.roles.length r' := by
          have hact := (tcall_window h3 h4).2
          cases h4 with
          | step h5 _ => exact rstep_actor h5 hact
        have := hq.1 r' hp'
        generalize st.fs.pos r' = P at h3 this
        cases h3 with
        | tell => exact this _ _ _ _ rfl
        | _ => cases e.1
      · exact hq.2 r
    | @decide _ r' =>
      simp only [Mesh.upd]; split
      · rfl
      · exact hq.2 r
    | _ => exact hq.2 r

/-- What is true of a role in every run without resets: it has not been called since before the lower bounds of what it has done, and the bounds are as they
have to be for that. -/
structure Past (prog : Program) (V : Windows) (B : Nat) (p : Text) (ls : List TLabel) (st : TS) : Prop where
  quiet : Quiet prog.roles.length st
  clocks : ∀ r y c, st.clocks r y = some c → c ≤ B
  did : ∀ a ∈ actsOf (number prog p) (fsims (ls.map TLabel.erase)), (winOf V a).start * 1000000000 ≤ (st.last (number prog p) : Int)
  bounds : (actsOf (number prog p) (fsims (ls.map TLabel.erase))).Pairwise fun a b =>
    (winOf V a).start * 1000000000 ≤ (winOf V b).stop * 1000000000 + B

theorem past_step (h : EndToEnd.Accepted title C (.straight name roles msgs) text prog) (hV : AsWritten code title V msgs)
    (hno : ∀ m ∈ msgs, m.reset = none) {B : Nat} {p : Text}
    {ls : List TLabel} {st st' : TS} {l : TLabel}
    (hr : TRun (system prog code title (.straight name roles msgs)) V 0 ls st)
    (hs : TStep (system prog code title (.straight name roles msgs)) V st l st') (hq : Past prog V B p ls st) : Past prog V B p (ls ++ [l]) st' := by
  have hlast := last_mono hs (number prog p)
  have e : actsOf (number prog p) (fsims ((ls ++ [l]).map TLabel.erase)) =
      actsOf (number prog p) (fsims (ls.map TLabel.erase)) ++ match l with
        | .go (.sim (.act r a)) => if r = number prog p then [a] else []
        | _ => [] := by
    rw [List.map_append, fsims, List.filterMap_append, Mesh.actsOf_append]
    congr 1
    cases l with
    | go rl =>
      cases rl with
      | sim x =>
        cases x with
        | act r a => by_cases e : r = number prog p <;> simp [actsOf, TLabel.erase, e]
        | _ => simp [actsOf, TLabel.erase]
      | _ => simp [actsOf, TLabel.erase]
    | _ => simp [actsOf, TLabel.erase]
  have new : ∀ a, l = .go (.sim (.act (number prog p) a)) → (winOf V a).start * 1000000000 ≤ (st'.last (number prog p) : Int) ∧
      (st.last (number prog p) : Int) ≤ (winOf V a).stop * 1000000000 + B := by
    rintro a rfl
    obtain ⟨p', -, -, m, hm, hd⟩ := act_message h hV hr hs
    obtain ⟨e1, e2, e3⟩ := does_window hV hm hd
    have hT : Transfers (.sim (.act (number prog p) a)) := by
      cases a with
      | decide N => exact absurd rfl (e2 N)
      | _ => trivial
    obtain ⟨r, w, k1, k2, k3⟩ := step_inside hs hT
    cases k1
    have hw : w = winOf V a := by
      cases a with
      | send q k => exact k2
      | recv q k => exact k2
      | heed q N => exact absurd rfl (e3 q N)
      | decide N => exact absurd rfl (e2 N)
    rw [← hw] at e1 ⊢
    have s0 : 0 ≤ w.start ∧ 0 ≤ w.stop := by
      rw [e1]; simp only [Params.window, written]; omega
    rcases k3 with k3 | ⟨c, u, k4, k5, k6, k7, k8⟩
    · exact absurd k3.1 (by omega)
    · have k7 := k7 s0.1
      have k8 := k8 s0.2
      have hc := hq.clocks _ _ _ k4
      simp only [Mesh.Label.actor] at k5 k6
      constructor
      · split at k7 <;> omega
      · split at k8 <;> omega
  refine ⟨quiet_step h hV hr hs hq.quiet, ?_, ?_, ?_⟩
  · intro r y c hc
    rcases (C68_clocks _ _ V 0 ls st hr).2 l st' hs r y with h1 | ⟨c', h1, h2, h3, ⟨L, w, rfl, h5, h6, h7, h8, h9, -⟩ | ⟨-, h4⟩⟩
    · rw [h1] at hc; exact hq.clocks _ _ _ hc
    · exfalso
      cases L with
      | sim x =>
        cases x with
        | act r' a =>
          obtain ⟨p', -, rfl, m, hm, hd⟩ := act_message h hV hr hs
          obtain ⟨e1, e2, e3⟩ := does_window hV hm hd
          have : w = winOf V a := by
            cases a with
            | send q k => exact h7
            | recv q k => exact h7
            | heed q N => exact absurd rfl (e3 q N)
            | decide N => exact absurd rfl (e2 N)
          rw [this, e1] at h8
          simp only [Params.window, written, hno m hm] at h8
          exact h9 (by simpa using h8.symm)
        | tell r' q =>
          simp only [RLabel.actor, Mesh.Label.actor, Option.some.injEq] at h5
          subst h5
          exact h6 q rfl
        | enter => exact h7.elim
      | _ => exact h7.elim
    · rw [hq.quiet.2 r] at h4; cases h4
  · rw [e]
    intro a ha
    rcases List.mem_append.1 ha with h1 | h1
    · exact Int.le_trans (hq.did a h1) (by exact_mod_cast hlast)
    · split at h1
      · split at h1
        · rename_i hrp
          simp only [List.mem_singleton] at h1
          subst h1 hrp
          exact (new _ rfl).1
        · cases h1
      · cases h1
  · rw [e]
    refine List.pairwise_append.2 ⟨hq.bounds, ?_, ?_⟩
    · split
      · split <;> simp
      · simp
    · intro a ha b hb
      split at hb
      · split at hb
        · rename_i hrp
          simp only [List.mem_singleton] at hb
          subst hb hrp
          exact Int.le_trans (hq.did a ha) (new _ rfl).2
        · cases hb
      · cases hb


theorem past_sched (h : EndToEnd.Accepted title C (.straight name roles msgs) text prog) (hV : AsWritten code title V msgs)
    (hno : ∀ m ∈ msgs, m.reset = none) {B : Nat} (p : Text) {σ : Nat → TS} {lab : Nat → Option TLabel}
    (hs : TSchedule (system prog code title (.straight name roles msgs)) V 0 σ lab) (hB : ∀ r y c, (σ 0).clocks r y = some c → c ≤ B) (k : Nat) :
    ∃ ls, TRun (system prog code title (.straight name roles msgs)) V 0 ls (σ k) ∧ Past prog V B p ls (σ k) := by
  induction k with
  | zero =>
    refine ⟨[], .start hs.start, ⟨⟨?_, hs.start.noted⟩, hB, by simp [actsOf, fsims], by simp [actsOf, fsims]⟩⟩
    intro r hr N todo old own e
    have := hs.start.start
    generalize hS : (⟨(σ 0).fs.heap, (σ 0).fs.pos⟩ : RS) = S at this
    cases this with
    | mk h1 h2 h3 h4 =>
      cases hS
      obtain ⟨_, _, -, -, h5⟩ := h4 r hr.1 hr.2
      rw [h5] at e; cases e
  | succ k ih =>
    obtain ⟨ls, h1, h2⟩ := ih
    rcases hs.step k with ⟨l, -, h3⟩ | ⟨-, h3⟩
    · exact ⟨_, .snoc h1 h3, past_step h hV hno h1 h3 h2⟩
    · exact ⟨ls, by rw [h3]; exact h1, by rw [h3]; exact h2⟩

end

end Verif.EndToEnd
