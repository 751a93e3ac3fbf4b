import Verif.Proof.TimedRuntime
/-!
# Programs with clocks: windows, clocks, reasons
-/
namespace Verif.Runtime
open Verif.Mesh (Sys Name Label upd Part Global project)
open Verif.Types (Window)
open Verif.Timed (Clocks Fn Res World run resetAll Out)
open Verif.Heap (Op)
open Verif.Spec Verif.SendRecv Verif.Prop

variable {n : Nat} {D : Global} {root : Name} {V : Windows} {s s' : TS}

/-! ## Windows -/

theorem run_inTime {fn : Fn} {W : World} {w : Window} {cl : Clocks} {last t : Nat} (hl : ∀ k, last ≤ W.now k)
    (h : (run fn W w cl).moved = some t) : InTime w cl last t := by
  rcases Timed.run_cases fn W w cl with hq | ⟨t', h1, h2, -⟩ | ⟨t', c, k', h1, -, hc, ⟨j, k, hjk, a1, a2, a3, a4⟩, -⟩
  · rw [hq.1] at h; cases h
  · exact .inl h2
  · rw [h] at h1
    cases h1
    have m1 := W.mono (Nat.le_of_lt hjk)
    have m2 := W.now_le k
    refine .inr ⟨c, W.now j, W.now k, W.start k, hc, hl j, by omega, a3, ?_, hl k, m2, a1, ?_⟩
    · intro h0
      have := a3.1 h0
      cases hi : w.inclStart <;> simp only [hi, if_true, Bool.false_eq_true, if_false] at this ⊢ <;> omega
    · intro h0
      obtain ⟨h1, h2⟩ := a4 h0
      omega

theorem recv_tag {Y : Sys} {h h' : Heap.St Pay} {e v w t k} (hs : Heap.step (env Y) h (.recv e) = some (h', .value v))
    (ht : e.ty = .recv w t k) : ∃ tys, env Y t v.tag = some tys := by
  simp only [Heap.step, Heap.recvStep, ht] at hs
  split at hs
  · rename_i heq hn
    cases heq
    split at hs
    · cases hs
    · split at hs
      · rename_i v' there hb
        split at hs
        · cases hs
        · rename_i tys hG
          split at hs
          · cases hs; exact ⟨tys, hG⟩
          · cases hs
      · cases hs
      · split at hs <;> cases hs
  · cases hs

theorem send_tag {Y : Sys} {h h' : Heap.St Pay} {e v w t k o} (hs : Heap.step (env Y) h (.send e v) = some (h', o))
    (ht : e.ty = .send w t k) : ∃ tys, env Y t v.tag = some tys := by
  simp only [Heap.step, Heap.sendStep, ht] at hs
  split at hs
  · rename_i heq hn
    cases heq
    split at hs
    · cases hs
    · rename_i tys hG
      exact ⟨tys, hG⟩
  · cases hs

/-- The window of a call is that of its step. -/
theorem tcall_window {Y : Sys} {r fn w op l f} (hc : TCall Y V r (s.fs.pos r) fn w op l) (hs : FStep Y s.fs (.step l) f) :
    WindowOf V (s.fs.pos r) l w ∧ l.actor = some r := by
  generalize hp : s.fs.pos r = P at hc
  cases hc with
  | send => exact ⟨rfl, rfl⟩
  | recv => exact ⟨rfl, rfl⟩
  | @heed sl q k e w x bs T N h1 h2 =>
    refine ⟨⟨bs, ?_, rfl⟩, rfl⟩
    cases hs with
    | step h3 =>
      generalize hN : RLabel.sim (Label.act r (Mesh.Act.heed q N)) = L at h3
      cases h3 with
      | @heed r' sl' q' e' w' x' bs' v h1' new e'' rest sl1 h2' b1 b2 b3 b4 b5 b6 =>
        simp only [RLabel.sim.injEq, Label.act.injEq, Mesh.Act.heed.injEq] at hN
        obtain ⟨rfl, rfl, rfl⟩ := hN
        rw [hp] at b3; cases b3
        rw [h1] at b4; cases b4
        obtain ⟨tys, h⟩ := recv_tag b6 h2
        simp only [env] at h
        split at h
        · assumption
        · cases h
      | _ => cases hN
  | @tell N k ms todo old own e w x bs T h1 h2 =>
    refine ⟨⟨N, _, _, _, bs, rfl, ?_, rfl⟩, rfl⟩
    cases hs with
    | step h3 =>
      generalize hN : RLabel.sim (Label.tell r (partner r k)) = L at h3
      cases h3 with
      | @tell r' N' k' ms' todo' old' own' e' h1' e'' rest h2' b1 b2 b3 b4 b5 =>
        simp only [RLabel.sim.injEq, Label.tell.injEq] at hN
        obtain ⟨rfl, -⟩ := hN
        rw [hp] at b3; cases b3
        rw [h1] at b4; cases b4
        obtain ⟨tys, h⟩ := send_tag b5 h2
        simp only [env] at h
        split at h
        · assumption
        · cases h
      | _ => cases hN

/-- Every transfer respects its window. -/
theorem step_inTime {Y : Sys} {l} (hs : TStep Y V s (.go l) s') (hl : Transfers l) :
    ∃ r w, l.actor = some r ∧ WindowOf V (s.fs.pos r) l w ∧ InTime w (s.clocks r) (s.last r) s'.now := by
  generalize hL : TLabel.go l = L at hs
  cases hs with
  | @calm n l' f h1 h2 =>
    cases hL
    cases l <;> first | exact h2.elim | exact hl.elim
  | decide => cases hL; exact hl.elim
  | enter => cases hL; exact hl.elim
  | @call n m r fn w op l' f cl W h1 h2 h3 h4 h5 h6 h7 =>
    cases hL
    obtain ⟨a, b⟩ := tcall_window h3 h4
    exact ⟨r, w, b, a, run_inTime (fun k => (h6 k).1) (by rw [h7])⟩
  | @spoiled n m r fn w op l' f cl res W h1 h2 h3 h4 h5 h6 h7 =>
    cases hL
    obtain ⟨a, b⟩ := tcall_window h3 h4
    exact ⟨r, w, b, a, run_inTime (fun k => (h6 k).1) (by rw [h7])⟩
  | _ => cases hL

/-! ## Clocks -/

/-- What a call that transferred a message did to the clocks. -/
theorem run_clocks {fn : Fn} {W : World} {w : Window} {cl cl' : Clocks} {res last m t}
    (hk : ∀ k, last ≤ W.now k ∧ W.now k ≤ m) (h : run fn W w cl = ⟨res, cl', some t⟩) (x : Char) :
    cl' x = cl x ∨ (fn ≠ .sendNoReset ∧ w.reset = x ∧ x ≠ ' ' ∧ ∃ c, cl' x = some c ∧ t ≤ c ∧ last ≤ c ∧ c ≤ m) := by
  rcases Timed.run_cases fn W w cl with hq | ⟨t', h1, h2, h3, h4⟩ | ⟨t', c, k', h1, -, hc, -, a1, a2, he⟩
  · rw [h] at hq; cases hq.1
  · rw [h] at h4; simp only at h4; rw [h4]; exact .inl rfl
  · rw [h] at h1 he
    simp only [Timed.Effect, Option.some.injEq] at he h1
    subst h1
    rcases he with ⟨-, e⟩ | ⟨-, -, -, -, e⟩ | ⟨e1, e2, -, -, e⟩
    · exact .inl (by rw [e])
    · exact .inl (by rw [e])
    · by_cases hx : x = w.reset
      · subst hx
        exact .inr ⟨e1, rfl, e2, _, by rw [e]; simp, a2, (hk _).1, (hk _).2⟩
      · exact .inl (by rw [e]; simp [hx])

theorem resetAll_clocks {now : Nat → Nat} {last n : Nat} (hk : ∀ k, last ≤ now k ∧ now k ≤ n) : ∀ (rs : List Char) (k : Nat) (cl : Clocks),
    (∀ x, (resetAll now rs k cl).2 x = cl x ∨ (x ∈ rs ∧ ∃ c, (resetAll now rs k cl).2 x = some c ∧ last ≤ c ∧ c ≤ n)) ∧
    ((resetAll now rs k cl).1 = .ok → ∀ x ∈ rs, ∃ c, (resetAll now rs k cl).2 x = some c ∧ last ≤ c ∧ c ≤ n) ∧
    ((resetAll now rs k cl).1 = .panic → ∃ x ∈ rs, cl x = none)
  | [], k, cl => ⟨fun x => .inl rfl, by simp, by simp [resetAll]⟩
  | r :: rs, k, cl => by
    unfold resetAll
    cases hr : cl r with
    | none => exact ⟨fun x => .inl rfl, by simp, fun _ => ⟨r, by simp, hr⟩⟩
    | some c0 =>
      simp only
      obtain ⟨i1, i2, i3⟩ := resetAll_clocks hk rs (k + 1) (fun x => if x = r then some (now k) else cl x)
      refine ⟨fun x => ?_, fun h x hx => ?_, fun h => ?_⟩
      · rcases i1 x with e | ⟨e1, e2⟩
        · by_cases hx : x = r
          · subst hx
            exact .inr ⟨by simp, now k, by rw [e]; simp, hk k⟩
          · exact .inl (by rw [e]; simp [hx])
        · exact .inr ⟨by simp [e1], e2⟩
      · by_cases hm : x ∈ rs
        · exact i2 h x hm
        · have hx' : x = r := by simpa [hm] using hx
          subst hx'
          rcases i1 x with e | ⟨e1, -⟩
          · exact ⟨now k, by rw [e]; simp, hk k⟩
          · exact absurd e1 hm
      · obtain ⟨x, hx, hn⟩ := i3 h
        refine ⟨x, by simp [hx], ?_⟩
        split at hn
        · cases hn
        · exact hn

theorem world_span {W : World} {last m : Nat} (hk : ∀ k, last ≤ W.now k ∧ W.now k ≤ m) : last ≤ m :=
  Nat.le_trans (hk 0).1 (hk 0).2

/-- No clock is ahead of the last call of its role. -/
theorem clocks_le {Y : Sys} {ls} (h : TRun Y V root ls s) : ∀ r x c, s.clocks r x = some c → c ≤ s.last r := by
  induction h with
  | start hs => exact hs.clocks
  | @snoc ls s l s' _ hs ih =>
    have one : ∀ {r : Nat} {cl : Clocks} {m : Nat}, s.last r ≤ m → (∀ x, cl x = s.clocks r x ∨ ∃ c, cl x = some c ∧ c ≤ m) →
        ∀ q x c, upd s.clocks r cl q x = some c → c ≤ upd s.last r m q := by
      intro r cl m hm hcl q x c hq
      by_cases e : q = r
      · subst e
        simp only [upd, if_true] at hq ⊢
        rcases hcl x with h1 | ⟨c', h1, h2⟩
        · rw [h1] at hq; exact Nat.le_trans (ih _ _ _ hq) hm
        · rw [h1] at hq; cases hq; exact h2
      · simp only [upd, e, if_false] at hq ⊢
        exact ih _ _ _ hq
    cases hs with
    | call h1 h2 h3 h4 h5 h6 h7 =>
      exact one (world_span h6) fun x => (run_clocks h6 h7 x).imp id fun ⟨_, _, _, c, a, _, _, b⟩ => ⟨c, a, b⟩
    | spoiled h1 h2 h3 h4 h5 h6 h7 =>
      exact one (world_span h6) fun x => (run_clocks h6 h7 x).imp id fun ⟨_, _, _, c, a, _, _, b⟩ => ⟨c, a, b⟩
    | @enter n r f cl now h1 h2 h3 h4 h5 =>
      refine one (Nat.le_trans (h3 0).1 (h3 0).2) fun x => ?_
      have := (resetAll_clocks h3 (s.noted r) 0 (s.clocks r)).1 x
      rw [h5] at this
      exact this.imp id fun ⟨_, c, a, _, b⟩ => ⟨c, a, b⟩
    | _ => exact ih

/-- Calls return after they are made. -/
theorem last_mono {Y : Sys} {l} (hs : TStep Y V s l s') (r : Nat) : s.last r ≤ s'.last r := by
  have one : ∀ {q m}, s.last q ≤ m → s.last r ≤ upd s.last q m r := by
    intro q m h
    simp only [upd]; split
    · rename_i e; subst e; exact h
    · exact Nat.le_refl _
  cases hs with
  | call h1 h2 h3 h4 h5 h6 h7 => exact one (world_span h6)
  | spoiled h1 h2 h3 h4 h5 h6 h7 => exact one (world_span h6)
  | enter h1 h2 h3 h4 h5 => exact one (Nat.le_trans (h3 0).1 (h3 0).2)
  | _ => exact Nat.le_refl _

/-- During the call of a transfer the clock was in the window. -/
theorem step_inside {Y : Sys} {l} (hs : TStep Y V s (.go l) s') (hl : Transfers l) :
    ∃ r w, l.actor = some r ∧ WindowOf V (s.fs.pos r) l w ∧
      (Unbounded w ∨ ∃ c u, s.clocks r w.clock = some c ∧ s.last r ≤ u ∧ u ≤ s'.last r ∧ Inside w (u - c)) := by
  have main : ∀ {fn : Fn} {W : World} {w : Window} {cl : Clocks} {last t m : Nat}, (∀ k, last ≤ W.now k ∧ W.now k ≤ m) →
      (run fn W w cl).moved = some t → Unbounded w ∨ ∃ c u, cl w.clock = some c ∧ last ≤ u ∧ u ≤ m ∧ Inside w (u - c) := by
    intro fn W w cl last t m hk h
    rcases Timed.run_cases fn W w cl with hq | ⟨t', h1, h2, -⟩ | ⟨t', c, k', h1, -, hc, ⟨j, k, hjk, a1, a2, a3, a4⟩, -⟩
    · rw [hq.1] at h; cases h
    · exact .inl h2
    · exact .inr ⟨c, W.now j, hc, (hk j).1, (hk j).2, a3⟩
  generalize hL : TLabel.go l = L at hs
  cases hs with
  | @calm n l' f h1 h2 =>
    cases hL
    cases l <;> first | exact h2.elim | exact hl.elim
  | decide => cases hL; exact hl.elim
  | enter => cases hL; exact hl.elim
  | @call n m r fn w op l' f cl W h1 h2 h3 h4 h5 h6 h7 =>
    cases hL
    obtain ⟨a, b⟩ := tcall_window h3 h4
    exact ⟨r, w, b, a, by simpa [upd] using main h6 (by rw [h7])⟩
  | @spoiled n m r fn w op l' f cl res W h1 h2 h3 h4 h5 h6 h7 =>
    cases hL
    obtain ⟨a, b⟩ := tcall_window h3 h4
    exact ⟨r, w, b, a, by simpa [upd] using main h6 (by rw [h7])⟩
  | _ => cases hL

/-! ## Why a role gives up -/

theorem late_excuse {fn : Fn} {W : World} {w : Window} {r n op res cl} (hcl : ∀ x c, s.clocks r x = some c → c ≤ s.last r)
    (hk : ∀ k, s.last r ≤ W.now k ∧ W.now k ≤ n) (hg : ¬ Gone s.fs.heap op)
    (hx : ∀ k d, W.xfer k d = none → Refused s.fs.heap op (W.start k) d n) (h : run fn W w (s.clocks r) = ⟨res, cl, none⟩) :
    Excuse s r n fn w op := by
  by_contra hcon
  simp only [Excuse, not_or, not_and, not_not] at hcon
  obtain ⟨h1, hcon⟩ := hcon
  have h1' : Handled fn w := by
    by_contra hH
    obtain ⟨⟨a, b⟩, c1, c2, d⟩ := h1 hH
    have e : run fn W w (s.clocks r) = match W.xfer 0 none with
        | none => ⟨.panic, s.clocks r, none⟩
        | some t => ⟨.ok, s.clocks r, some t⟩ := by
      unfold run
      rw [if_neg (by rintro ⟨x, y⟩; rcases d with d | d; exact x d; omega), if_pos a, if_neg (by omega), if_pos (by simp [c1, c2])]
      cases W.xfer 0 none <;> rfl
    cases hx0 : W.xfer 0 none with
    | none =>
      rcases hx _ _ hx0 with g | ⟨-, x, e, -⟩
      · exact hg g
      · cases e
    | some t => rw [hx0, h] at e; cases e
  obtain ⟨h2, h3, h4⟩ := hcon h1'
  cases hc : s.clocks r w.clock with
  | none => exact h2 hc
  | some c =>
    have h5 := not_exists.1 h4 c
    simp only [hc, true_and, not_or, not_exists, not_and, not_not] at h5
    obtain ⟨h6, h7⟩ := h5
    have hok := C19_not_rejected_partial fn W w (s.clocks r) c h1' hc (fun k _ => h6 _ (hk k).1 (hk k).2) ?_ ?_
    · obtain ⟨-, t, ht⟩ := hok
      rw [h] at ht; cases ht
    · cases hxf : W.xfer (readings fn w) (timeLeft w (W.now (readings fn w) - c)) with
      | some t => exact ⟨t, rfl⟩
      | none =>
        exfalso
        rcases hx _ _ hxf with h8 | ⟨h8, x, hd, hle⟩
        · exact hg h8
        · unfold timeLeft at hd
          split at hd
          · rename_i h0
            cases hd
            refine h7 h8 h0 ?_
            have := hcl _ _ hc
            have := (hk (readings fn w)).1
            have := W.now_le (readings fn w)
            omega
          · cases hd
    · by_cases hr : w.reset = ' '
      · exact .inl hr
      · right; right
        cases e : s.clocks r w.reset with
        | some c => exact ⟨c, rfl⟩
        | none => exact absurd e (h3 hr)

/-! ## Going on -/

/-- A living role that cannot take a step, however long one waits, is in `close`, or receives without an upper bound. -/
theorem tnext (w : Global.Wf n D) {ls} (h : TRun (project n D) V root ls s) {r} (hr : Part n r) (hd : s.fs.dead r = false) :
    s.fs.pos r = .closed ∨ TGo (project n D) V s r ∨ (FWaits (project n D) s.fs r ∧
      ((∃ i sl, s.fs.pos r = .ending i sl) ∨ ∃ win e l, TCall (project n D) V r (s.fs.pos r) .recv win (.recv e) l ∧ Unbounded win)) := by
  rcases C45_next n D w root _ _ (trun_frun h) r hr hd with h1 | h1 | h1
  · exact .inl h1
  · exact .inr (.inl (fgo_tgo w h hr h1))
  · by_cases hcl : s.fs.pos r = .closed
    · exact .inl hcl
    obtain ⟨f', hf⟩ := C45_crash n D w root _ _ (trun_frun h) r hr hd hcl
    cases hdo : s.doomed r with
    | true => exact .inr (.inl (doomed_go hdo hf))
    | false =>
      have hu : s.up r := ⟨hd, hdo⟩
      have h1' := h1
      obtain ⟨op, hc, hb⟩ := h1
      simp only at hc hb
      have recv : ∀ {win e l}, TCall (project n D) V r (s.fs.pos r) .recv win (.recv e) l → op = .recv e →
          TGo (project n D) V s r ∨ ∃ win e l, TCall (project n D) V r (s.fs.pos r) .recv win (.recv e) l ∧ Unbounded win := by
        intro win e l ht e1
        by_cases hw : Unbounded win
        · exact .inr ⟨win, e, l, ht, hw⟩
        · subst e1
          exact .inl (wait_go hu ht hw (recv_blocked hb) hf)
      have send : ∀ {e v}, op = .send e v → False := by
        intro e v e1
        subst e1
        obtain ⟨h', o, h2, h3, -⟩ := C45_safe n D w root _ _ (trun_frun h) r hr hd _ hc
        rw [hb] at h2
        cases h2
        cases h3
      generalize hp : s.fs.pos r = P at *
      cases hc with
      | send => exact (send rfl).elim
      | tell => exact (send rfl).elim
      | @recv sl q k e w' t K b1 b2 =>
        cases t with
        | data m =>
          rcases recv (.recv b1 b2) rfl with x | x
          · exact .inr (.inl x)
          · exact .inr (.inr ⟨h1', .inr x⟩)
        | enum x bs =>
          rcases recv (.heed (N := 0) b1 b2) rfl with x | x
          · exact .inr (.inl x)
          · exact .inr (.inr ⟨h1', .inr x⟩)
      | stop => exact .inr (.inr ⟨h1', .inl ⟨_, _, rfl⟩⟩)
      | wait => exact .inr (.inr ⟨h1', .inl ⟨_, _, rfl⟩⟩)

/-- What a step does not change. -/
theorem other_keeps {Y : Sys} {l} (hs : TStep Y V s l s') {r} (hl : l.actor ≠ some r) :
    s'.fs.pos r = s.fs.pos r ∧ s'.fs.dead r = s.fs.dead r := by
  have h := tstep_fstep hs
  change l.erase.actor ≠ some r at hl
  generalize l.erase = L at h hl
  generalize s'.fs = f at h
  cases h with
  | step h1 h2 =>
    refine ⟨?_, rfl⟩
    cases h1 <;> first
      | rfl
      | (simp only [FLabel.actor, RLabel.actor, Mesh.Label.actor, ne_eq, Option.some.injEq] at hl
         simp [upd, Ne.symm hl])
  | fail =>
    simp only [FLabel.actor, ne_eq, Option.some.injEq] at hl
    exact ⟨rfl, by simp [upd, Ne.symm hl]⟩
  | crash =>
    simp only [FLabel.actor, ne_eq, Option.some.injEq] at hl
    exact ⟨rfl, by simp [upd, Ne.symm hl]⟩

/-- A role whose windows have upper bounds needs nobody in order to go on. -/
theorem talone (w : Global.Wf n D) {σ : Nat → TS} {lab} (h : TSchedule (project n D) V root σ lab) {r} (hr : Part n r)
    (hf : ∀ k, (∀ j, k ≤ j → TGo (project n D) V (σ j) r) → ∃ j, k ≤ j ∧ TMoves lab r j)
    (hm : ∀ m, ¬ Unbounded (V.msg m)) (hc : ∀ p q bs, ¬ Unbounded (V.choice p q bs)) {k} (hd : (σ k).fs.dead r = false)
    (he : ¬ FAtEnd (σ k).fs r) : ∃ j, k ≤ j ∧ TMoves lab r j := by
  by_contra hno
  have still : ∀ d, (σ (k + d)).fs.pos r = (σ k).fs.pos r ∧ (σ (k + d)).fs.dead r = (σ k).fs.dead r := by
    intro d
    induction d with
    | zero => exact ⟨rfl, rfl⟩
    | succ d ih =>
      rcases h.step (k + d) with ⟨l, h1, h2⟩ | ⟨-, h2⟩
      · have := other_keeps h2 (r := r) fun e => hno ⟨k + d, by omega, l, h1, e⟩
        exact ⟨this.1.trans ih.1, this.2.trans ih.2⟩
      · rw [← Nat.add_assoc, h2]; exact ih
  refine hno (hf k fun j hj => ?_)
  obtain ⟨d, rfl⟩ : ∃ d, j = k + d := ⟨j - k, by omega⟩
  obtain ⟨e1, e2⟩ := still d
  obtain ⟨ls, hrun⟩ := tsched_run h (k + d)
  rcases tnext w hrun hr (e2.trans hd) with h1 | h1 | ⟨-, ⟨i, sl, h1⟩ | ⟨win, e, l, h1, h2⟩⟩
  · rw [e1] at h1; exact absurd (.inr (.inr h1)) he
  · exact h1
  · rw [e1] at h1; exact absurd (.inr (.inl ⟨_, _, h1⟩)) he
  · exfalso
    generalize (σ (k + d)).fs.pos r = P at h1
    cases h1 with
    | recv => exact hm _ h2
    | heed => exact hc _ _ _ h2

end Verif.Runtime
