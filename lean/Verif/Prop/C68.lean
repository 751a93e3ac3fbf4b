import Verif.Proof.TimedInstant
import Verif.Proof.TimedIdeal
/-!
# C68: whole timed programs

The programs of C44 and C45, generated for timed sessions (`Model/TimedRuntime.lean`): every transfer is made by one of the timed
functions of C19, every role has its clocks, and time passes.  `Spec/TimedRuntime.lean` says what a user relies on.
-/
namespace Verif.Prop
open Verif.Mesh (Name Global project Follows Completes actsOf view)
open Verif.Types (Window)
open Verif.Timed (Fn Clocks)
open Verif.Spec Verif.Runtime

/-- **C68**, windows: whenever a message or choice is transferred, in any program and whatever has happened before, it
respects its window: the clock of the role was inside it during the call, and is neither before its lower bound nor past its upper
bound at the instant of the transfer, up to the delay of C19.
Missing, as in C19: with an exclusive upper bound the transfer may happen exactly at the bound. -/
theorem C68_window_partial (n : Nat) (D : Global) (V : Windows) (s s' : TS) (l : RLabel)
    (hs : TStep (project n D) V s (.go l) s') (hl : Transfers l) :
    ∃ r w, l.actor = some r ∧ WindowOf V (s.fs.pos r) l w ∧ InTime w (s.clocks r) (s.last r) s'.now :=
  step_inTime hs hl

/-- **C68**, clocks: a clock is never ahead of the last call of its role, and only two things change it: the transfer of a message
whose window names it, or the end of a choice one of whose windows names it; and then it is set to an instant of that call, after the
transfer. -/
theorem C68_clocks (n : Nat) (D : Global) (V : Windows) (root : Name) (ls : List TLabel) (s : TS)
    (h : TRun (project n D) V root ls s) :
    (∀ r x c, s.clocks r x = some c → c ≤ s.last r) ∧
    ∀ l s', TStep (project n D) V s l s' → ∀ r x, s'.clocks r x = s.clocks r x ∨
      ∃ c, s'.clocks r x = some c ∧ s.last r ≤ c ∧ c ≤ s'.last r ∧
        ((∃ L w, l = .go L ∧ L.actor = some r ∧ (∀ q, L ≠ .sim (.tell r q)) ∧ WindowOf V (s.fs.pos r) L w ∧ w.reset = x ∧ x ≠ ' ' ∧ s'.now ≤ c) ∨
         (l = .go (.sim (.enter r)) ∧ x ∈ s.noted r)) := by
  refine ⟨clocks_le h, fun l s' hs r x => ?_⟩
  have notell : ∀ {r fn w op L}, TCall (project n D) V r (s.fs.pos r) fn w op L → fn ≠ .sendNoReset → ∀ q, L ≠ .sim (.tell r q) := by
    intro r fn w op L hc hn q e
    generalize s.fs.pos r = P at hc
    cases hc <;> simp_all
  cases hs with
  | @call n' m r' fn w op L f cl W h1 h2 h3 h4 h5 h6 h7 =>
    by_cases e : r = r'
    · subst e
      simp only [Mesh.upd, if_true]
      obtain ⟨a, b⟩ := tcall_window h3 h4
      rcases run_clocks h6 h7 x with h8 | ⟨e1, e2, e3, c, e4, e5, e6, e7⟩
      · exact .inl h8
      · exact .inr ⟨c, e4, e6, e7, .inl ⟨L, w, rfl, b, notell h3 e1, a, e2, e3, e5⟩⟩
    · exact .inl (by simp [Mesh.upd, e])
  | @spoiled n' m r' fn w op L f cl res W h1 h2 h3 h4 h5 h6 h7 =>
    by_cases e : r = r'
    · subst e
      simp only [Mesh.upd, if_true]
      obtain ⟨a, b⟩ := tcall_window h3 h4
      rcases run_clocks h6 h7 x with h8 | ⟨e1, e2, e3, c, e4, e5, e6, e7⟩
      · exact .inl h8
      · exact .inr ⟨c, e4, e6, e7, .inl ⟨L, w, rfl, b, notell h3 e1, a, e2, e3, e5⟩⟩
    · exact .inl (by simp [Mesh.upd, e])
  | @enter n' r' f cl now h1 h2 h3 h4 h5 =>
    by_cases e : r = r'
    · subst e
      simp only [Mesh.upd, if_true]
      have := (resetAll_clocks h3 (s.noted r) 0 (s.clocks r)).1 x
      rw [h5] at this
      rcases this with h8 | ⟨e1, c, e2, e3, e4⟩
      · exact .inl h8
      · exact .inr ⟨c, e2, e3, e4, .inr ⟨trivial, e1⟩⟩
    · exact .inl (by simp [Mesh.upd, e])
  | _ => exact .inl rfl

/-- **C68**, the clocks of a choice: it begins with nothing noted; telling a role the choice changes no clock, and notes the clock
which the window names; at the end all clocks noted are set to instants of the end of the choice. -/
theorem C68_choice (n : Nat) (D : Global) (V : Windows) (s s' : TS) (r : Nat) :
    (∀ N, TStep (project n D) V s (.go (.sim (.act r (.decide N)))) s' → s'.noted r = [] ∧ s'.clocks = s.clocks) ∧
    (∀ q, TStep (project n D) V s (.go (.sim (.tell r q))) s' → s'.clocks r = s.clocks r ∧
      ∃ w, WindowOf V (s.fs.pos r) (.sim (.tell r q)) w ∧ s'.noted r = s.noted r ++ if w.reset = ' ' then [] else [w.reset]) ∧
    (TStep (project n D) V s (.go (.sim (.enter r))) s' → ∀ x ∈ s.noted r, ∃ c, s'.clocks r x = some c ∧ s.last r ≤ c ∧ c ≤ s'.last r) := by
  have nr : ∀ {fn w op P q}, TCall (project n D) V r P fn w op (.sim (.tell r q)) → fn = .sendNoReset := by
    intro fn w op P q hc
    cases hc; rfl
  have who : ∀ {r' fn w op P q}, TCall (project n D) V r' P fn w op (.sim (.tell r q)) → r' = r := by
    intro r' fn w op P q hc
    generalize hL : RLabel.sim (.tell r q) = L at hc
    cases hc <;> simp at hL
    exact hL.1.symm
  refine ⟨fun N h => ?_, fun q h => ?_, fun h x hx => ?_⟩
  · generalize hL : TLabel.go (.sim (.act r (.decide N))) = L at h
    cases h with
    | decide => cases hL; exact ⟨by simp [Mesh.upd], rfl⟩
    | calm _ h2 => cases hL; exact h2.elim
    | call _ _ h3 => cases hL; exfalso; generalize s.fs.pos _ = P at h3; cases h3
    | spoiled _ _ h3 => cases hL; exfalso; generalize s.fs.pos _ = P at h3; cases h3
    | _ => cases hL
  · generalize hL : TLabel.go (.sim (.tell r q)) = L at h
    cases h with
    | calm _ h2 => cases hL; exact h2.elim
    | decide => cases hL
    | enter => cases hL
    | @call n' m r' fn w op L f cl W h1 h2 h3 h4 h5 h6 h7 =>
      cases hL
      obtain rfl := who h3
      obtain rfl := nr h3
      obtain ⟨a, -⟩ := tcall_window h3 h4
      have hcl := noReset_clocks W w (s.clocks r')
      rw [h7] at hcl
      refine ⟨by simp only [Mesh.upd, if_true]; exact hcl, w, a, ?_⟩
      by_cases e : w.reset = ' '
      · simp [e]
      · simp [e, Mesh.upd]
    | @spoiled n' m r' fn w op L f cl res W h1 h2 h3 h4 h5 h6 h7 h8 =>
      cases hL
      obtain rfl := who h3
      obtain rfl := nr h3
      exfalso
      rcases Timed.run_cases .sendNoReset W w (s.clocks r') with hq | ⟨_, _, _, h9, _⟩ | ⟨_, _, _, _, _, _, _, _, _, he⟩
      · rw [h7] at hq; cases hq.1
      · rw [h7] at h9; exact h8 h9
      · rw [h7] at he
        rcases he with ⟨x, -⟩ | ⟨x, -⟩ | ⟨x, -⟩
        · exact h8 x
        · exact x rfl
        · exact x rfl
    | _ => cases hL
  · generalize hL : TLabel.go (.sim (.enter r)) = L at h
    cases h with
    | calm _ h2 => cases hL; exact h2.elim
    | call _ _ h3 => cases hL; exfalso; generalize s.fs.pos _ = P at h3; cases h3
    | spoiled _ _ h3 => cases hL; exfalso; generalize s.fs.pos _ = P at h3; cases h3
    | @enter n' r' f cl now h1 h2 h3 h4 h5 =>
      cases hL
      have := (resetAll_clocks h3 (s.noted r) 0 (s.clocks r)).2.1
      rw [h5] at this
      simp only [Mesh.upd, if_true]
      exact this rfl x hx
    | _ => cases hL

/-- **C68**, reasons: a role whose call transfers nothing has an excuse, or some role has failed before.  So as long as nobody has failed
and nobody disappears of itself, only the time, or a clock or window the program got wrong, makes a role fail. -/
theorem C68_late (n : Nat) (D : Global) (w : Global.Wf n D) (V : Windows) (root : Name) (ls : List TLabel) (s : TS)
    (h : TRun (project n D) V root ls s) (r : Nat) (s' : TS) (hs : TStep (project n D) V s (.late r) s') :
    SomeDead (project n D) s.fs ∨
    (∃ fn win op l, TCall (project n D) V r (s.fs.pos r) fn win op l ∧ Excuse s r s'.now fn win op) ∨
    ∃ x ∈ s.noted r, s.clocks r x = none := by
  cases hs with
  | @missing n' r' f cl now h1 h2 h3 h4 h5 h6 =>
    have := (resetAll_clocks h3 (s.noted r) 0 (s.clocks r)).2.2
    rw [h5] at this
    exact .inr (.inr (this rfl))
  | @late n' r' fn win op l f cl res W h1 h2 h3 h4 h5 h6 h7 =>
    by_cases hg : Gone s.fs.heap op
    · obtain ⟨_, _, _, -, R⟩ := frun_sim w (trun_frun h)
      have hr : Mesh.Part n r := by cases h7; exact ⟨by assumption, by assumption⟩
      obtain ⟨x, hx, hd⟩ := gone_dead w R hr h2.1 h3 hg
      exact .inl ⟨x, hx.1, hx.2, hd⟩
    · exact .inr (.inl ⟨fn, win, op, l, h3, late_excuse (fun x c => clocks_le h r x c) h4 hg h5 h6⟩)

/-- **C68**, reasons: a role that goes down after a transfer had a window that names a clock to reset which the role does not have; and `close` returns an error only if some role has failed. -/
theorem C68_down (n : Nat) (D : Global) (w : Global.Wf n D) (V : Windows) (root : Name) (ls : List TLabel) (s : TS)
    (h : TRun (project n D) V root ls s) (l : TLabel) (s' : TS) (hs : TStep (project n D) V s l s') (r : Nat) :
    (s.doomed r = false → s'.doomed r = true →
      ∃ L win, l = .go L ∧ L.actor = some r ∧ WindowOf V (s.fs.pos r) L win ∧ win.reset ≠ ' ' ∧ s.clocks r win.reset = none) ∧
    (l = .fail r → SomeDead (project n D) s.fs) := by
  constructor
  · intro h0 h1
    cases hs with
    | @spoiled n' m r' fn win op L f cl res W b1 b2 b3 b4 b5 b6 b7 b8 =>
      by_cases e : r = r'
      · subst e
        obtain ⟨a, b⟩ := tcall_window b3 b4
        refine ⟨L, win, rfl, b, a, ?_⟩
        rcases Timed.run_cases fn W win (s.clocks r) with hq | ⟨_, _, _, h9, _⟩ | ⟨_, _, _, _, _, _, _, _, _, he⟩
        · rw [b7] at hq; cases hq.1
        · rw [b7] at h9; exact absurd h9 b8
        · rw [b7] at he
          rcases he with ⟨x, -⟩ | ⟨-, x, y, -⟩ | ⟨-, -, -, x, -⟩
          · exact absurd x b8
          · exact ⟨x, y⟩
          · exact absurd x b8
      · simp [Mesh.upd, e, h0] at h1
    | _ => rw [h0] at h1; cases h1
  · rintro rfl
    cases hs with
    | fail b1 b2 b3 b4 =>
      cases b4 with
      | @fail _ op h1 h2 c1 c2 c3 c4 c5 c6 =>
        obtain ⟨h', o, d1, -, d2⟩ := C45_safe n D w root _ _ (trun_frun h) r ⟨c1, c2⟩ c3 op c4
        rw [c5] at d1; cases d1
        exact d2 rfl

/-- **C68**, safety, order, `close` and the end, as in C45: time changes only who fails and when. -/
theorem C68_safe (n : Nat) (D : Global) (w : Global.Wf n D) (V : Windows) (root : Name) (ls : List TLabel) (s : TS)
    (h : TRun (project n D) V root ls s) :
    FRun (project n D) root (ls.map TLabel.erase) s.fs ∧
    (∃ tr, Follows D root tr ∧ ∀ r, 1 ≤ r ∧ r ≤ n → actsOf r (fsims (ls.map TLabel.erase)) <+: tr.filterMap (view r)) ∧
    ((∃ r, (1 ≤ r ∧ r ≤ n) ∧ s.fs.pos r = .closed) →
      ∃ tr, Completes D root tr ∧ ∀ q, 1 ≤ q ∧ q ≤ n → actsOf q (fsims (ls.map TLabel.erase)) = tr.filterMap (view q)) ∧
    (Over (project n D) s.fs → s.fs.heap.pool = [] ∧ (s.fs.heap.garb = [] → ∀ c,
      (s.fs.heap.chan c).tx = false ∧ (s.fs.heap.chan c).rx = false ∧ (s.fs.heap.chan c).buf = none)) := by
  have hF := trun_frun h
  refine ⟨hF, C45_order n D w root _ _ hF, ?_, fun ho => ?_⟩
  · rintro ⟨r, hr, hc⟩
    exact (C45_close n D w root _ _ hF r hr hc).2
  · obtain ⟨h1, -, h2⟩ := C45_clean n D w root _ _ hF ho
    exact ⟨h1, h2⟩

/-- **C68**, waiting: a living role that has not returned from `close` can go on or give up if one waits long enough, unless it waits in `close`, or
in a receive whose window has no bounds. -/
theorem C68_next (n : Nat) (D : Global) (w : Global.Wf n D) (V : Windows) (root : Name) (ls : List TLabel) (s : TS)
    (h : TRun (project n D) V root ls s) (r : Nat) (hr : 1 ≤ r ∧ r ≤ n) (hd : s.fs.dead r = false) :
    s.fs.pos r = .closed ∨ TGo (project n D) V s r ∨ (FWaits (project n D) s.fs r ∧
      ((∃ i sl, s.fs.pos r = .ending i sl) ∨
        ∃ win e l, TCall (project n D) V r (s.fs.pos r) .recv win (.recv e) l ∧ Unbounded win)) :=
  tnext w h hr hd

/-- **C68**, a role needs nobody: if all windows have bounds, then a living role that is not at its end takes another step some day, if only
to give up, whatever the others do: also if they hang for ever, and pending drops are never carried out. -/
theorem C68_alone (n : Nat) (D : Global) (w : Global.Wf n D) (V : Windows) (root : Name) (σ : Nat → TS) (lab : Nat → Option TLabel)
    (h : TSchedule (project n D) V root σ lab) (r : Nat) (hr : 1 ≤ r ∧ r ≤ n)
    (hf : ∀ k, (∀ j, k ≤ j → TGo (project n D) V (σ j) r) → ∃ j, k ≤ j ∧ TMoves lab r j)
    (hm : ∀ m, ¬ Unbounded (V.msg m)) (hc : ∀ p q bs, ¬ Unbounded (V.choice p q bs)) (k : Nat)
    (hd : (σ k).fs.dead r = false) (he : ¬ FAtEnd (σ k).fs r) : ∃ j, k ≤ j ∧ TMoves lab r j :=
  talone w h hr hf hm hc hd he

/-- **C68**, nobody hangs: whatever the windows, under every fair schedule a living role that has not returned from `close` takes another step some day. -/
theorem C68_live (n : Nat) (D : Global) (w : Global.Wf n D) (V : Windows) (root : Name) (σ : Nat → TS) (lab : Nat → Option TLabel)
    (h : TSchedule (project n D) V root σ lab) (hf : TFair (project n D) V σ lab) (r : Nat) (hr : 1 ≤ r ∧ r ≤ n) (k : Nat)
    (hd : (σ k).fs.dead r = false) (hc : (σ k).fs.pos r ≠ .closed) : ∃ j, k ≤ j ∧ TMoves lab r j := by
  obtain ⟨j, hj, l, h1, h2⟩ := C45_live n D w root _ _ (tsched_fsched h) (tfair_ffair w h hf) r hr k hd hc
  simp only [Option.map_eq_some_iff] at h1
  obtain ⟨L, e1, e2⟩ := h1
  exact ⟨j, hj, L, e1, by rw [← h2, ← e2]; rfl⟩

/-- **C68**, termination: if the protocol has no endless sequence of choices, then under every fair schedule, whatever the windows and clocks and
whoever fails and whenever, there comes a moment at which every role has failed or returned from `close` and every channel is freed, and nothing happens to them after it. -/
theorem C68_terminates (n : Nat) (D : Global) (w : Global.Wf n D) (V : Windows) (root : Name) (σ : Nat → TS) (lab : Nat → Option TLabel)
    (h : TSchedule (project n D) V root σ lab) (hf : TFair (project n D) V σ lab)
    (hacc : Acc (fun N' N => ∃ p bs, (D N).tail = .choice p bs ∧ N' ∈ bs) root) :
    ∃ j, Over (project n D) (σ j).fs ∧ (∀ i, j ≤ i → (σ i).fs = (σ j).fs) ∧ ∀ c,
      ((σ j).fs.heap.chan c).tx = false ∧ ((σ j).fs.heap.chan c).rx = false ∧ ((σ j).fs.heap.chan c).buf = none :=
  C45_terminates n D w root _ _ (tsched_fsched h) (tfair_ffair w h hf) hacc

/-- **C68**, a failure is not overlooked: a role that is late before the end of its part lets nobody return from `close`, and, if the protocol has no endless
sequence of choices, under every fair schedule all others come to fail. -/
theorem C68_fate (n : Nat) (D : Global) (w : Global.Wf n D) (V : Windows) (root : Name) (σ : Nat → TS) (lab : Nat → Option TLabel)
    (h : TSchedule (project n D) V root σ lab) (k p : Nat) (hp : 1 ≤ p ∧ p ≤ n) (hd : (σ k).fs.dead p = true) (he : ¬ FAtEnd (σ k).fs p) :
    (∀ j r, 1 ≤ r ∧ r ≤ n → (σ j).fs.pos r ≠ .closed) ∧
    (TFair (project n D) V σ lab → Acc (fun N' N => ∃ p bs, (D N).tail = .choice p bs ∧ N' ∈ bs) root →
      ∃ j, ∀ i, j ≤ i → ∀ r, 1 ≤ r ∧ r ≤ n → (σ i).fs.dead r = true) := by
  obtain ⟨h1, h2⟩ := C45_fate n D w root _ _ (tsched_fsched h) k p hp hd he
  exact ⟨h1, fun hf hacc => h2 (tfair_ffair w h hf) hacc⟩

/-- **C68**, fast enough programs meet every window: if every window accepts the clock value `v` (and either `v` is 0 or nothing is reset), everything
the program can do without clocks it can do with them, at the instant `v`. -/
theorem C68_instant (n : Nat) (D : Global) (w : Global.Wf n D) (V : Windows) (root : Name) (ls : List RLabel) (t : RS)
    (h : RRun (project n D) root ls t) (v : Nat) (hm : ∀ m, Fits v (V.msg m)) (hc : ∀ p q bs, Fits v (V.choice p q bs)) :
    ∃ s, TRun (project n D) V root (ls.map .go) s ∧ s.fs = ⟨t.heap, t.pos, nobody⟩ ∧ s.now = v := by
  obtain ⟨s, h1, h2, h3⟩ := instant w h hm hc
  exact ⟨s, h1, h2, h3.now⟩

/-- **C68**, communicating timed automata: what the roles can do if calls take no time (`Spec/TimedIdeal.lean`), the program can do, at
the same instants and with the same clocks, without any failure, and at every transfer the clock is in the window. -/
theorem C68_ideal (n : Nat) (D : Global) (w : Global.Wf n D) (V : Windows) (root : Name) (ls : List (RLabel × Nat)) (t : RS)
    (cl₀ cl : Nat → Clocks) (noted : Nat → List Char) (t₀ now : Nat) (h : Ideal (project n D) V root cl₀ t₀ ls t cl noted now) :
    ∃ σ : Nat → TS, (TStart (project n D) root (σ 0) ∧ (σ 0).clocks = cl₀ ∧ (σ 0).now = t₀) ∧
      (∀ k l m, ls[k]? = some (l, m) → TStep (project n D) V (σ k) (.go l) (σ (k + 1)) ∧ (σ (k + 1)).now = m ∧ OnTime V (σ k) l m) ∧
      (σ ls.length).fs = ⟨t.heap, t.pos, nobody⟩ ∧ (σ ls.length).clocks = cl := by
  obtain ⟨σ, h1, h2, -, h3⟩ := ideal w h
  exact ⟨σ, h1, h2, h3.fs, h3.clocks⟩

/-- **C68**, the assumption of fairness can always be met: every run can be continued by a fair schedule in which nobody disappears of itself. -/
theorem C68_fair (n : Nat) (D : Global) (w : Global.Wf n D) (V : Windows) (root : Name) (ls : List TLabel) (s : TS)
    (h : TRun (project n D) V root ls s) : ∃ σ lab, TSchedule (project n D) V root σ lab ∧ TFair (project n D) V σ lab ∧
      σ ls.length = s ∧ (∀ k l, ls[k]? = some l → lab k = some l) ∧ ∀ k, ls.length ≤ k → ∀ x, lab k ≠ some (.crash x) :=
  tfair_exists w h

/-! ## The hypotheses can be met -/

/-- All messages between one and ten seconds. -/
def exV : Windows := ⟨fun _ => ⟨'a', 1, true, 10, true, ' '⟩, fun _ _ _ => ⟨'a', 0, true, 10, false, ' '⟩⟩

/-- All roles may return from `close`, five seconds after the start; 12 transfers have been made. -/
example : ∃ ls s, TRun (project 3 exD) exV 0 ls s ∧ s.now = 5000000000 ∧ (∀ r, 1 ≤ r → r ≤ 3 → s.fs.pos r = .closed) ∧
    Over (project 3 exD) s.fs ∧ s.fs.heap.garb = [] := by
  obtain ⟨ls, t, h1, h2, h3, -⟩ := exClosed
  obtain ⟨s, e1, e2, e3⟩ := C68_instant 3 exD exD_wf exV 0 ls t h1 5000000000
    (fun _ => ⟨.inr rfl, .inr (by simp [exV, Accepted, Inside, AfterStart, BeforeStop])⟩)
    (fun _ _ _ => ⟨.inr rfl, .inr (by simp [exV, Accepted, Inside, AfterStart, BeforeStop])⟩)
  refine ⟨_, s, e1, e3, fun r a b => by rw [e2]; exact h2 r a b, fun r a b => .inr (by rw [e2]; exact h2 r a b), by rw [e2]; exact h3⟩

/-- Role 1 of `exT` has no clocks: its first call panics (`C68_late`), and in a fair schedule from there (`C68_live`, `C68_terminates`, `C68_fate`, `C68_alone`)
all roles come to fail. -/
example : ∃ σ lab, TSchedule (project 3 exT) exV 0 σ lab ∧ TFair (project 3 exT) exV σ lab ∧ lab 0 = some (.late 1) ∧
    (σ 1).fs.dead 1 = true ∧ ¬ FAtEnd (σ 1).fs 1 ∧ (σ 1).fs.dead 2 = false ∧ ¬ FAtEnd (σ 1).fs 2 ∧
    ∃ j, ∀ r, 1 ≤ r ∧ r ≤ 3 → (σ j).fs.dead r = true := by
  obtain ⟨t, ht⟩ := start_exists (n := 3) (D := exT) (root := 0) (by omega)
  let s : TS := ⟨⟨t.heap, t.pos, nobody⟩, fun _ _ => none, fun _ => 0, fun _ => [], fun _ => false, 0⟩
  have hT : TRun (project 3 exT) exV 0 [] s := .start ⟨ht, rfl, by simp [s], fun _ => rfl, fun _ => rfl⟩
  have hpos : (∃ sl, t.pos 2 = .mesh sl (((project 3 exT).types 0 2).stack)) ∧ ∃ sl, t.pos 1 = .mesh sl (((project 3 exT).types 0 1).stack) := by
    cases ht with
    | mk h1 h2 h3 h4 =>
      obtain ⟨m, sl, -, -, h5⟩ := h4 2 (by decide) (by decide)
      obtain ⟨m', sl', -, -, h6⟩ := h4 1 (by decide) (by decide)
      exact ⟨⟨sl, h5⟩, sl', h6⟩
  obtain ⟨⟨sl, hp2⟩, sl', hp1⟩ := hpos
  obtain ⟨f, hf⟩ := C45_crash 3 exT exT_wf 0 _ _ (trun_frun hT) 1 (by decide) rfl (by simp [s, hp1])
  have hstack : ∃ q k, s.fs.pos 1 = .mesh sl' (.role q k) := by
    rw [show s.fs.pos 1 = t.pos 1 from rfl, hp1]
    simp [project, Mesh.meshOf, exT, Mesh.stackOf]
  obtain ⟨q, k, hq⟩ := hstack
  obtain ⟨fn, win, op, l, hfn, hc⟩ := tcall_exists exT_wf hT (r := 1) ⟨by omega, by omega⟩ rfl hq
  have hwin : ¬ Unbounded win ∧ win.clock = 'a' := by
    generalize s.fs.pos 1 = P at hc
    cases hc <;> simp [exV, Unbounded]
  have hrun : ∃ res cl, Timed.run fn (still 0 fun _ => false) win (s.clocks 1) = ⟨res, cl, none⟩ := by
    rcases Timed.run_cases fn (still 0 fun _ => false) win (s.clocks 1) with h | ⟨_, _, h, _⟩ | ⟨_, _, _, _, _, h, _⟩
    · exact ⟨(Timed.run fn (still 0 fun _ => false) win (s.clocks 1)).res, (Timed.run fn (still 0 fun _ => false) win (s.clocks 1)).clocks,
        by rw [← h.1]⟩
    · exact absurd h hwin.1
    · cases h
  obtain ⟨res, cl, hrun⟩ := hrun
  have hlate : TStep (project 3 exT) exV s (.late 1) { s with fs := f, now := 0 } :=
    .late (Nat.le_refl _) ⟨rfl, rfl⟩ hc (fun _ => ⟨Nat.le_refl _, Nat.le_refl _⟩) (fun k d h => by simp [still] at h) hrun hf
  obtain ⟨σ, lab, hS, hF, hL, hlab, -⟩ := C68_fair 3 exT exT_wf exV 0 _ _ (TRun.snoc hT hlate)
  have hσ : (σ 1).fs = f := by
    have : σ 1 = { s with fs := f, now := 0 } := hL
    rw [this]
  have hd : f.dead 1 = true ∧ f.dead 2 = false ∧ f.pos = t.pos := by
    cases hf; simp [Mesh.upd, s, nobody]
  have hne : ∀ r sl, (r = 1 ∨ r = 2) → t.pos r = .mesh sl (((project 3 exT).types 0 r).stack) → ¬ FAtEnd (σ 1).fs r := by
    rintro r sl (rfl | rfl) hp <;>
      simp [FAtEnd, AtEnd, hσ, hd.2.2, hp, project, Mesh.meshOf, exT, Mesh.stackOf]
  obtain ⟨j, hj⟩ := (C68_fate 3 exT exT_wf exV 0 σ lab hS 1 1 (by decide) (by rw [hσ]; exact hd.1) (hne 1 sl' (.inl rfl) hp1)).2 hF exT_acc
  exact ⟨σ, lab, hS, hF, hlab 0 _ rfl, by rw [hσ]; exact hd.1, hne 1 sl' (.inl rfl) hp1, by rw [hσ]; exact hd.2.1,
    hne 2 sl (.inr rfl) hp2, j, hj j (Nat.le_refl _)⟩

end Verif.Prop
