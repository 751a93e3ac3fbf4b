import Verif.Prop.C70_Loops
import Verif.Proof.TimedGone
/-!
# C71: why a program of an accepted text fails
-/
namespace Verif.Prop
open Verif.Nuscr Verif.NuscrSpec Verif.NuscrText Verif.EndToEnd Verif.Runtime
open Verif.Mesh (actsOf Part)
open Verif.Timed (Fn)
open Verif.Types (Window)
open Verif.SendRecv

section
variable {title : Text → Text} {C : Classes} {s : Plan} {text : List Text} {prog : Program} {code : Params → Nat} {V : Windows}

theorem sess_send {r q m : Nat} {S : Mesh.Sess} {t : Mesh.Tail} : ∀ {cs : List Mesh.Comm}, Mesh.sessOf r q cs t = .send m S → (⟨r, q, m⟩ : Mesh.Comm) ∈ cs
  | [], h => by
    cases t with
    | fin => cases h
    | choice p bs => simp only [Mesh.sessOf] at h; split at h <;> first | cases h | (split at h <;> cases h)
  | c :: cs, h => by
    simp only [Mesh.sessOf] at h
    split at h
    · rename_i e
      cases h
      obtain ⟨a, b, k⟩ := c
      simp only at e
      rw [e.1, e.2]
      exact .head _
    · split at h
      · cases h
      · exact .tail _ (sess_send h)

theorem sess_recv {r q m : Nat} {S : Mesh.Sess} {t : Mesh.Tail} : ∀ {cs : List Mesh.Comm}, Mesh.sessOf r q cs t = .recv m S → (⟨q, r, m⟩ : Mesh.Comm) ∈ cs
  | [], h => by
    cases t with
    | fin => cases h
    | choice p bs => simp only [Mesh.sessOf] at h; split at h <;> first | cases h | (split at h <;> cases h)
  | c :: cs, h => by
    simp only [Mesh.sessOf] at h
    split at h
    · cases h
    · split at h
      · rename_i e
        cases h
        obtain ⟨a, b, k⟩ := c
        simp only at e
        rw [e.1, e.2]
        exact .head _
      · exact .tail _ (sess_recv h)

theorem exchanges_messages {P : Proto} {b : Branch} (hb : b ∈ P.branches) {m : Msg} (hm : m ∈ P.exchanges b) : m ∈ Plan.messages (.choice P) := by
  unfold Proto.exchanges at hm
  rcases List.mem_append.1 hm with h | h
  · exact List.mem_append_right _ (List.mem_flatMap.2 ⟨b, hb, h⟩)
  · refine List.mem_append_left _ ?_
    cases hl : b.back with
    | none => rw [hl] at h; cases h
    | some l =>
      rw [hl] at h
      cases hlb : loopBody l P.pre with
      | none => simp [hlb] at h
      | some body => exact loopBody_messages hlb (by simpa [hlb] using h)

theorem block_messages {N : Nat} {c : Mesh.Comm} (hc : c ∈ (globalOf prog code title s N).comms) : ∃ m ∈ s.messages, comm prog code title m = c := by
  cases s with
  | straight name roles msgs => obtain ⟨m, h1, h2⟩ := List.mem_map.1 hc; exact ⟨m, h1, h2⟩
  | choice P =>
    cases N with
    | zero => obtain ⟨m, h1, h2⟩ := List.mem_map.1 hc; exact ⟨m, List.mem_append_left _ h1, h2⟩
    | succ i =>
      simp only [globalOf] at hc
      split at hc
      · rename_i b hb
        obtain ⟨m, h1, h2⟩ := List.mem_map.1 hc
        exact ⟨m, exchanges_messages (List.mem_of_getElem? hb) h1, h2⟩
      · cases hc

theorem message_valid (h : EndToEnd.Accepted title C s text prog) {N : Nat} {m : Msg} (hm : comm prog code title m ∈ (globalOf prog code title s N).comms) :
    number prog m.sender ≠ number prog m.receiver :=
  (Mesh.wf_comms (accepted_wf h code) N _ hm).2.2

/-- What a role tries to do in a timed call: it exchanges a message of the text, in its window, or it tells or hears of a choice. -/
theorem call_message (h : EndToEnd.Accepted title C s text prog) (hV : AsWritten code title V s.messages) (hf : FreeChoices V) {ls : List TLabel} {st : TS}
    (hr : TRun (system prog code title s) V 0 ls st) {p : Text} (hp : p ∈ s.roles) (hd : st.fs.dead (number prog p) = false) {fn : Fn} {win : Window} {op : Heap.Op Pay} {l : RLabel}
    (hc : TCall (system prog code title s) V (number prog p) (st.fs.pos (number prog p)) fn win op l) :
    (∃ m ∈ s.messages, ∃ a, l = .sim (.act (number prog p) a) ∧ does prog code title p (.exchange m) = some a ∧ win = Params.window (written title m) ∧
      ((m.sender = p ∧ ∀ e, op ≠ .recv e) ∨ (m.receiver = p ∧ fn = .recv ∧ ∃ e, op = .recv e))) ∨ win = free := by
  have hw := accepted_wf h code
  have hpr := (accepted_mem h p).2 hp
  have hpart := number_pos hpr
  obtain ⟨S, id, T, -, R⟩ := frun_sim hw (trun_frun hr)
  generalize hP : st.fs.pos (number prog p) = P at hc
  cases hc with
  | heed => exact .inr (hf _ _ _)
  | tell => exact .inr (hf _ _ _)
  | @send sl q k e w' m K d h4 h5 =>
    obtain ⟨M', f, hM', hk, hq, hne, hok, hu, f1, f2, f3, f4, f5, f6⟩ := R.at_role hw hpart hd hP
    have : f = e := by
      change sl[(sendImpl prog.roles.length (number prog p) q).used - 1]? = some e at h4
      rw [show sendImpl prog.roles.length (number prog p) q = emit prog.roles.length (number prog p) q from rfl, hu, f1] at h4; cases h4; rfl
    subst this
    obtain ⟨S', e1, -⟩ := enc_send_data (f4.symm.trans h5)
    obtain ⟨G, hI, -⟩ := R.inv
    obtain ⟨-, -, hM⟩ := hI.mesh _ hpart _ hM'
    rw [hM] at e1
    have hin := List.mem_of_mem_drop (sess_send e1)
    obtain ⟨msg, h6, h7⟩ := block_messages hin
    simp only [EndToEnd.comm, Mesh.Comm.mk.injEq] at h7
    obtain ⟨h8, h9, h10⟩ := h7
    have hs : msg.sender = p := (number_inj hpr h8.symm).symm
    refine .inl ⟨msg, h6, .send q m, rfl, ?_, ?_, .inl ⟨hs, fun _ e => by cases e⟩⟩
    · simp only [does]; rw [if_pos hs, h9, h10]
    · rw [← h10]; exact hV msg h6
  | @recv sl q k e w' m K h4 h5 =>
    obtain ⟨M', f, hM', hk, hq, hne, hok, hu, f1, f2, f3, f4, f5, f6⟩ := R.at_role hw hpart hd hP
    have : f = e := by
      change sl[(recvImpl prog.roles.length q (number prog p)).used - 1]? = some e at h4
      rw [show recvImpl prog.roles.length q (number prog p) = emit prog.roles.length (number prog p) q from rfl, hu, f1] at h4; cases h4; rfl
    subst this
    obtain ⟨S', e1, -⟩ := enc_recv_data (f4.symm.trans h5)
    obtain ⟨G, hI, -⟩ := R.inv
    obtain ⟨-, -, hM⟩ := hI.mesh _ hpart _ hM'
    rw [hM] at e1
    have hin := List.mem_of_mem_drop (sess_recv e1)
    obtain ⟨msg, h6, h7⟩ := block_messages hin
    simp only [EndToEnd.comm, Mesh.Comm.mk.injEq] at h7
    obtain ⟨h8, h9, h10⟩ := h7
    have hs : msg.receiver = p := (number_inj hpr h9.symm).symm
    have hs' : msg.sender ≠ p := by
      intro e
      rw [e] at h8
      exact hne h8.symm
    refine .inl ⟨msg, h6, .recv q m, rfl, ?_, ?_, .inr ⟨hs, rfl, _, rfl⟩⟩
    · simp only [does]; rw [if_neg hs', if_pos hs, h8, h10]
    · rw [← h10]; exact hV msg h6

/-- Every role has the clocks of its messages, those that they read and those that they reset. -/
def HasClocks (prog : Program) (s : Plan) (st : TS) : Prop :=
  ∀ m ∈ s.messages, ∀ p ∈ s.roles, Involved p m → (∃ c, st.clocks (number prog p) (m.clock.headD ' ') = some c) ∧
    ∀ x, m.reset = some x → x.headD ' ' ≠ ' ' → ∃ c, st.clocks (number prog p) (x.headD ' ') = some c

/-- Nobody is dead. -/
def AllAlive (prog : Program) (s : Plan) (st : TS) : Prop := ∀ p ∈ s.roles, st.fs.dead (number prog p) = false

theorem alive_not (h : EndToEnd.Accepted title C s text prog) {st : TS} (ha : AllAlive prog s st) : ¬ SomeDead (system prog code title s) st.fs := by
  rintro ⟨r, h1, h2, h3⟩
  obtain ⟨p, hp, rfl⟩ := number_surj h r ⟨h1, h2⟩
  rw [ha p hp] at h3
  cases h3

theorem hasClocks_step {ls : List TLabel} {st st' : TS} {l : TLabel} (hr : TRun (system prog code title s) V 0 ls st)
    (hs : TStep (system prog code title s) V st l st') (hc : HasClocks prog s st) : HasClocks prog s st' := by
  have key : ∀ r x, (∃ c, st.clocks r x = some c) → ∃ c, st'.clocks r x = some c := by
    rintro r x ⟨c, e⟩
    rcases (C68_clocks _ _ V 0 ls st hr).2 l st' hs r x with h | ⟨c', h, -⟩
    · exact ⟨c, h.trans e⟩
    · exact ⟨c', h⟩
  intro m hm p hp hi
  obtain ⟨h1, h2⟩ := hc m hm p hp hi
  exact ⟨key _ _ h1, fun x hx hb => key _ _ (h2 x hx hb)⟩

theorem written_reset {m : Msg} {p : Text} {st : TS} (hm : m ∈ s.messages) (hp : p ∈ s.roles) (hi : Involved p m) (hc : HasClocks prog s st)
    (h : (Params.window (written title m)).reset ≠ ' ') : ∃ c, st.clocks (number prog p) (Params.window (written title m)).reset = some c := by
  simp only [Params.window, written] at h ⊢
  cases e : m.reset with
  | none => rw [e] at h; simp at h
  | some x => rw [e] at h; exact (hc m hm p hp hi).2 x e h

theorem text_doomed (h : EndToEnd.Accepted title C s text prog) (hV : AsWritten code title V s.messages) (hf : FreeChoices V) {ls : List TLabel} {st st' : TS} {l : TLabel}
    (hr : TRun (system prog code title s) V 0 ls st) (hs : TStep (system prog code title s) V st l st') (hc : HasClocks prog s st)
    (hd : ∀ r, st.doomed r = false) (r : Nat) : st'.doomed r = false := by
  cases hs with
  | @spoiled n' m r' fn win op L f cl res W b1 b2 b3 b4 b5 b6 b7 b8 =>
    exfalso
    have hpart : Part prog.roles.length r' := by
      have hh := (tcall_window b3 b4).2
      cases b4 with
      | step h1 _ => exact rstep_actor h1 hh
    obtain ⟨p, hp, rfl⟩ := number_surj h r' hpart
    have key : win.reset ≠ ' ' ∧ st.clocks (number prog p) win.reset = none := by
      rcases Timed.run_cases fn W win (st.clocks (number prog p)) with hq | ⟨_, _, _, h9, _⟩ | ⟨_, _, _, _, _, _, _, _, _, he⟩
      · rw [b7] at hq; cases hq.1
      · rw [b7] at h9; exact absurd h9 b8
      · rw [b7] at he
        rcases he with ⟨x, -⟩ | ⟨-, x, y, -⟩ | ⟨-, -, -, x, -⟩
        · exact absurd x b8
        · exact ⟨x, y⟩
        · exact absurd x b8
    rcases call_message h hV hf hr hp b2.1 b3 with ⟨m, h1, a, -, -, rfl, h2⟩ | rfl
    · obtain ⟨c, e⟩ := written_reset h1 hp (by rcases h2 with h2 | h2 <;> [exact .inl h2.1; exact .inr h2.1]) hc key.1
      rw [key.2] at e
      cases e
    · exact key.1 rfl
  | _ => exact hd r

/-- The run that the schedule makes up to moment `k`, with what stays true on the way. -/
theorem sched_keeps (h : EndToEnd.Accepted title C s text prog) (hV : AsWritten code title V s.messages) (hf : FreeChoices V) {σ : Nat → TS} {lab : Nat → Option TLabel}
    (hs : TSchedule (system prog code title s) V 0 σ lab) (h0 : HasClocks prog s (σ 0)) (k : Nat) :
    TRun (system prog code title s) V 0 ((List.range k).filterMap lab) (σ k) ∧ HasClocks prog s (σ k) ∧ (∀ r, (σ k).noted r = []) ∧ ∀ r, (σ k).doomed r = false := by
  induction k with
  | zero => exact ⟨.start hs.start, h0, hs.start.noted, hs.start.doomed⟩
  | succ k ih =>
    obtain ⟨h1, h2, h3, h4⟩ := ih
    rw [List.range_succ, List.filterMap_append]
    rcases hs.step k with ⟨l, h5, h6⟩ | ⟨h5, h6⟩
    · have e : List.filterMap lab [k] = [l] := by simp [h5]
      rw [e]
      exact ⟨.snoc h1 h6, hasClocks_step h1 h6 h2, noted_step hf h6 h3, text_doomed h hV hf h1 h6 h2 h4⟩
    · have e : List.filterMap lab [k] = [] := by simp [h5]
      rw [e, List.append_nil, h6]
      exact ⟨h1, h2, h3, h4⟩

theorem written_accepted {m : Msg} {v : Nat} (h : InBounds m v) : Spec.Accepted (Params.window (written title m)) v := by
  obtain ⟨h2, h3⟩ := h
  refine ⟨⟨?_, ?_⟩, ?_⟩
  · intro _
    simp only [Params.window, written, decide_eq_true_eq]
    split <;> rename_i h
    · rw [if_pos h] at h2; omega
    · rw [if_neg h] at h2; omega
  · intro _
    simp only [Params.window, written, decide_eq_true_eq]
    split <;> rename_i h
    · rw [if_pos h] at h3; omega
    · rw [if_neg h] at h3; omega
  · intro _ h
    simp only [Params.window, written, decide_eq_false_iff_not] at h ⊢
    rw [if_neg h] at h2
    omega

/-- **C71**, the first to fail was late: the program of an accepted text, with the clocks that it names, is carried out in any way whatever.  If everybody is alive
and then `p` is not, then it disappeared of itself, or it was in a call that exchanges a message of the text, with the window that is written there, and at some instant
since its last call its clock was outside the window, or nothing had come and the upper bound was reached.  Nobody fails first in a choice, in `close`, or because a clock is
missing. -/
theorem C71_reason_partial (h : EndToEnd.Accepted title C s text prog) (hV : AsWritten code title V s.messages) (hf : FreeChoices V)
    (hb : ∀ m ∈ s.messages, value m.leftBound < 18446744073709551616 ∧ value m.rightBound < 18446744073709551616)
    (σ : Nat → TS) (lab : Nat → Option TLabel) (hs : TSchedule (system prog code title s) V 0 σ lab) (h0 : HasClocks prog s (σ 0)) (k : Nat)
    (ha : AllAlive prog s (σ k)) (p : Text) (hp : p ∈ s.roles) (hd : (σ (k + 1)).fs.dead (number prog p) = true) :
    lab k = some (.crash (number prog p)) ∨
    (lab k = some (.late (number prog p)) ∧ ∃ m ∈ s.messages, Involved p m ∧
      (∃ fn op a, TCall (system prog code title s) V (number prog p) ((σ k).fs.pos (number prog p)) fn (Params.window (written title m)) op (.sim (.act (number prog p) a)) ∧
        does prog code title p (.exchange m) = some a) ∧
      ∃ c, (σ k).clocks (number prog p) (m.clock.headD ' ') = some c ∧
        ((∃ u, (σ k).last (number prog p) ≤ u ∧ u ≤ (σ (k + 1)).now ∧ ¬ InBounds m (u - c)) ∨
         (m.receiver = p ∧ (∃ e, Empty (σ k).fs.heap (.recv e)) ∧ value m.rightBound * 1000000000 ≤ (σ (k + 1)).now - c))) := by
  obtain ⟨hr, hc, hn, hdo⟩ := sched_keeps h hV hf hs h0 k
  have hno := alive_not (code := code) h ha
  have hw := accepted_wf h code
  rcases hs.step k with ⟨l, h5, h6⟩ | ⟨h5, h6⟩
  swap
  · rw [h6, ha p hp] at hd; cases hd
  rw [h5]
  have hl : l = .crash (number prog p) ∨ l = .late (number prog p) ∨ l = .fail (number prog p) ∨ l = .down (number prog p) := by
    have h7 := tstep_fstep h6
    have other : ∀ r, Mesh.upd (σ k).fs.dead r true (number prog p) = true → r = number prog p := by
      intro r e
      simp only [Mesh.upd] at e
      split at e
      · rename_i e'; exact e'.symm
      · rw [ha p hp] at e; cases e
    generalize (σ (k + 1)).fs = f at h7 hd
    cases l with
    | go L =>
      cases h7 with
      | step => rw [ha p hp] at hd; cases hd
    | late r =>
      cases h7 with
      | crash => rw [other r hd]; exact .inr (.inl rfl)
    | fail r =>
      cases h7 with
      | fail => rw [other r hd]; exact .inr (.inr (.inl rfl))
    | down r =>
      cases h7 with
      | crash => rw [other r hd]; exact .inr (.inr (.inr rfl))
    | crash r =>
      cases h7 with
      | crash => rw [other r hd]; exact .inl rfl
  rcases hl with rfl | rfl | rfl | rfl
  · exact .inl rfl
  · refine .inr ⟨rfl, ?_⟩
    rcases C68_late _ _ hw V 0 _ _ hr _ _ h6 with hx | ⟨fn, win, op, l, hcall, hx⟩ | ⟨x, hx, -⟩
    · exact absurd hx hno
    · rcases call_message h hV hf hr hp (ha p hp) hcall with ⟨m, h1, a, rfl, h2, rfl, h3⟩ | rfl
      · have hi : Involved p m := by rcases h3 with h3 | h3 <;> [exact .inl h3.1; exact .inr h3.1]
        refine ⟨m, h1, hi, ⟨fn, op, a, hcall, h2⟩, ?_⟩
        have hh : Handled fn (Params.window (written title m)) := by
          refine ⟨?_, ?_, ?_, .inl ?_⟩
          · have := (hb m h1).1; simp only [Params.window, written]; omega
          · have := (hb m h1).2; simp only [Params.window, written]; omega
          · unfold Spec.Unbounded; simp only [Params.window, written]; omega
          · simp only [Params.window, written]; omega
        rcases hx with hx | ⟨-, hx | ⟨hx, hx'⟩ | ⟨c, hx, hx'⟩⟩
        · exact absurd (.inl hh) hx
        · obtain ⟨c, e⟩ := (hc m h1 p hp hi).1
          exact absurd (e.symm.trans hx) (by simp)
        · obtain ⟨c, e⟩ := written_reset h1 hp hi hc hx
          rw [hx'] at e; cases e
        · refine ⟨c, hx, ?_⟩
          rcases hx' with ⟨u, h7, h8, h9⟩ | ⟨h7, -, h9⟩
          · exact .inl ⟨u, h7, h8, fun hin => h9 (written_accepted hin)⟩
          · have : value m.rightBound * 1000000000 ≤ (σ (k + 1)).now - c := by
              simp only [Params.window, written] at h9
              omega
            refine .inr ?_
            rcases h3 with ⟨-, h3⟩ | ⟨h3, -, e, rfl⟩
            · exfalso
              cases op with
              | recv e => exact h3 e rfl
              | _ => exact h7
            · exact ⟨h3, ⟨e, h7⟩, this⟩
      · exfalso
        rcases hx with hx | ⟨hx, -⟩
        · exact hx (.inr ⟨⟨by decide, by decide⟩, rfl, rfl, .inr (by decide)⟩)
        · exact hx.2.2.1 ⟨by decide, by decide⟩
    · rw [hn] at hx; cases hx
  · exact absurd ((C68_down _ _ hw V 0 _ _ hr _ _ h6 _).2 rfl) hno
  · exfalso
    generalize σ (k + 1) = st' at h6
    cases h6 with
    | down _ h7 _ => rw [hdo] at h7; cases h7

/-- Whoever takes a step at moment `k`, and has to exchange a message of the text next, has had its clock in the window, and below the upper bound, ever since its last call. -/
def Punctual (prog : Program) (code : Params → Nat) (title : Text → Text) (s : Plan) (V : Windows) (σ : Nat → TS) (lab : Nat → Option TLabel) (k : Nat) : Prop :=
  ∀ p ∈ s.roles, TMoves lab (number prog p) k → ∀ m ∈ s.messages,
    (∃ fn op a, TCall (system prog code title s) V (number prog p) ((σ k).fs.pos (number prog p)) fn (Params.window (written title m)) op (.sim (.act (number prog p) a)) ∧
      does prog code title p (.exchange m) = some a) →
    ∀ c, (σ k).clocks (number prog p) (m.clock.headD ' ') = some c → ∀ u, (σ k).last (number prog p) ≤ u → u ≤ (σ (k + 1)).now →
      InBounds m (u - c) ∧ u - c < value m.rightBound * 1000000000

/-- **C71**, whoever is on time does not fail: if everybody is always punctual and nobody disappears of itself, then everybody stays alive. -/
theorem C71_on_time_partial (h : EndToEnd.Accepted title C s text prog) (hV : AsWritten code title V s.messages) (hf : FreeChoices V)
    (hb : ∀ m ∈ s.messages, value m.leftBound < 18446744073709551616 ∧ value m.rightBound < 18446744073709551616)
    (σ : Nat → TS) (lab : Nat → Option TLabel) (hs : TSchedule (system prog code title s) V 0 σ lab) (h0 : HasClocks prog s (σ 0))
    (hl : ∀ k x, lab k ≠ some (.crash x)) (hp : ∀ k, Punctual prog code title s V σ lab k) (k : Nat) : AllAlive prog s (σ k) := by
  induction k with
  | zero => intro p _; rw [hs.start.alive]; rfl
  | succ k ih =>
    intro p hpr
    cases hd : (σ (k + 1)).fs.dead (number prog p) with
    | false => rfl
    | true =>
      exfalso
      rcases C71_reason_partial h hV hf hb σ lab hs h0 k ih p hpr hd with h1 | ⟨h1, m, h2, -, h3, c, h4, h5⟩
      · exact hl k _ h1
      · have key := hp k p hpr ⟨_, h1, rfl⟩ m h2 h3 c h4
        obtain ⟨hr, -⟩ := sched_keeps h hV hf hs h0 k
        rcases h5 with ⟨u, h6, h7, h8⟩ | ⟨-, -, h6⟩
        · exact h8 (key u h6 h7).1
        · have hle : (σ k).last (number prog p) ≤ (σ (k + 1)).now := by
            rcases hs.step k with ⟨l, e1, e2⟩ | ⟨e1, -⟩
            · rw [h1] at e1; cases e1
              generalize σ (k + 1) = st' at e2
              cases e2 with
              | @missing n r f cl now a1 a2 a3 a4 a5 a6 => exact Nat.le_trans (a3 0).1 (a3 0).2
              | @late n r fn w op l f cl res W a1 a2 a3 a4 a5 a6 a7 => exact Nat.le_trans (a4 0).1 (a4 0).2
            · rw [h1] at e1; cases e1
          have := (key _ hle (Nat.le_refl _)).2
          omega

/-- **C71**, and everybody finishes: if moreover the text has no jumps and the schedule is fair, then some day everybody has returned from `close`, having done exactly its part of one
execution of the text. -/
theorem C71_finishes_partial (h : EndToEnd.Accepted title C s text prog) (hV : AsWritten code title V s.messages) (hf : FreeChoices V)
    (hj : ∀ P, s = .choice P → ∀ b ∈ P.branches, b.back = none)
    (hb : ∀ m ∈ s.messages, value m.leftBound < 18446744073709551616 ∧ value m.rightBound < 18446744073709551616)
    (σ : Nat → TS) (lab : Nat → Option TLabel) (hs : TSchedule (system prog code title s) V 0 σ lab) (h0 : HasClocks prog s (σ 0))
    (hl : ∀ k x, lab k ≠ some (.crash x)) (hp : ∀ k, Punctual prog code title s V σ lab k) (hfair : TFair (system prog code title s) V σ lab) :
    ∃ j, (∀ p ∈ s.roles, (σ j).fs.pos (number prog p) = .closed) ∧ ∃ tr, Execution s true tr ∧ ∀ p ∈ s.roles,
      actsOf (number prog p) (fsims (((List.range j).filterMap lab).map TLabel.erase)) = tr.filterMap (does prog code title p) := by
  obtain ⟨j, hov, -⟩ := C69_terminates h code hj V σ lab hs hfair
  have hall := C71_on_time_partial h hV hf hb σ lab hs h0 hl hp j
  have hc : ∀ p ∈ s.roles, (σ j).fs.pos (number prog p) = .closed := by
    intro p hpr
    have hpart := number_pos ((accepted_mem h p).2 hpr)
    rcases hov _ hpart.1 hpart.2 with e | e
    · rw [hall p hpr] at e; cases e
    · exact e
  obtain ⟨hr, -⟩ := sched_keeps h hV hf hs h0 j
  obtain ⟨p, hpr⟩ : ∃ p, p ∈ s.roles := by
    have := h.two
    match e : s.roles, this with
    | p :: _, _ => exact ⟨p, .head _⟩
  exact ⟨j, hc, C69_close h code V _ _ hr p hpr (hc p hpr)⟩

end

end Verif.Prop
