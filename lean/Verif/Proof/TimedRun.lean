import Verif.Spec.Schedule
import Verif.Prop.C19_C21

/-! # Lemmas on the runs of timed protocols -/
namespace Verif.TimedRun
open Verif.Types Verif.Timed Verif.Spec Verif.Prop

/-- A call during which no time passes, on a channel that is always ready. -/
def still (n : Nat) : World where
  now _ := n
  start _ := n
  xfer _ _ := some n
  now_le _ := Nat.le_refl _
  start_le _ := Nat.le_refl _
  xfer_le _ _ t h := by cases h; exact ⟨Nat.le_refl _, Nat.le_refl _⟩
  xfer_timeout _ x t h := by cases h; exact Nat.le_add_right _ _

theorem readings_le (fn : Fn) (w : Window) : readings fn w ≤ 4 := by
  unfold readings bounds
  repeat' split
  all_goals omega

/-- A call with a supported window succeeds if its clock is accepted and the channel serves it in time. -/
theorem run_supported {fn : Fn} {W : World} {w : Window} {cl : Clocks} (hw : Supported w)
    (hc : Unbounded w ∨ ∃ c, cl w.clock = some c ∧ (∀ k, k ≤ 4 → Accepted w (W.now k - c)) ∧
      ∃ t, W.xfer (readings fn w) (timeLeft w (W.now (readings fn w) - c)) = some t)
    (hx : Unbounded w → ∃ t, W.xfer (readings fn w) none = some t)
    (hr : w.reset = ' ' ∨ ∃ c, cl w.reset = some c) :
    (run fn W w cl).res = .ok ∧
    ∃ t, (run fn W w cl).moved = some t ∧ W.start (readings fn w) ≤ t ∧ t ≤ W.now (readings fn w + 1) ∧
      (run fn W w cl).clocks =
        if fn ≠ .sendNoReset ∧ w.reset ≠ ' ' then
          (fun x => if x = w.reset then some (W.now (readings fn w + 1)) else cl x)
        else cl := by
  rcases hw with ⟨hu, hle', h1, h2, h3⟩ | ⟨h0, h1, h2⟩
  · obtain ⟨t, ht⟩ := hx hu
    have hz : readings fn w = 0 := by
      have hb : bounds w = 0 := by
        unfold bounds
        rw [if_neg (by have := hu.1; omega), if_neg (by have := hu.2; omega)]
      unfold readings
      rw [hb]
      split <;> rfl
    rw [hz] at ht ⊢
    obtain ⟨hge, hle⟩ := W.xfer_le _ _ _ ht
    have hcl : (run fn W w cl).clocks = cl := Prop.C40_unbounded_no_reset fn W w cl hu
    have key : (run fn W w cl).res = .ok ∧ (run fn W w cl).moved = some t := by
      unfold run
      rw [if_neg (fun h => by have := h.2; omega), if_pos hu.1, if_neg (by have := hu.2; omega)]
      simp only [h1, h2, Bool.not_false, Bool.and_self, if_true, ht]
      exact ⟨trivial, trivial⟩
    refine ⟨key.1, t, key.2, hge, hle, ?_⟩
    rw [if_neg (by simp [h3])]
    exact hcl
  · have hnu : ¬ Unbounded w := fun h => by have := h.2; omega
    rcases hc with h | ⟨c, hc, hin, hx⟩
    · exact absurd h hnu
    · exact run_ok ⟨h2, h1, hnu, Or.inl h0⟩ hc (fun k hk => hin k (Nat.le_trans hk (readings_le fn w))) hx
        (hr.imp id Or.inr)

/-- The clocks of a role are where the schedule says. -/
def Placed (S : Schedule) (evs : Nat → Event) (cl0 : Nat → Clocks) (r m : Nat) (cl : Clocks) : Prop :=
  ∀ x c0, cl0 r x = some c0 → ∃ c, cl x = some c ∧ (S.since evs r x m).1 ≤ c ∧ c ≤ (S.since evs r x m).2

/-- What is needed of one part of a step for its call to succeed. -/
theorem part_ok {S : Schedule} {evs : Nat → Event} {cl0 : Nat → Clocks} {r m : Nat} {w : Window} {cl : Clocks}
    {fn : Fn} {W : World} (hs : Supported w) (hf : Fits S evs cl0 r m w) (hp : Placed S evs cl0 r m cl)
    (hW : ∀ k, k ≤ 5 → (S.slot r m).1 ≤ W.now k ∧ W.now k ≤ (S.slot r m).2)
    (hx : ∀ c, cl w.clock = some c → c ≤ W.now (readings fn w) →
      (0 ≤ w.stop → (S.slot r m).2 - c ≤ w.stop.toNat * 1000000000) →
      ∃ t, W.xfer (readings fn w) (timeLeft w (W.now (readings fn w) - c)) = some t)
    (hu : Unbounded w → ∃ t, W.xfer (readings fn w) none = some t) :
    (run fn W w cl).res = .ok ∧
    ∃ t, (run fn W w cl).moved = some t ∧ W.start (readings fn w) ≤ t ∧ t ≤ W.now (readings fn w + 1) ∧
      (run fn W w cl).clocks =
        if fn ≠ .sendNoReset ∧ w.reset ≠ ' ' then
          (fun x => if x = w.reset then some (W.now (readings fn w + 1)) else cl x)
        else cl := by
  have hle := readings_le fn w
  refine run_supported hs ?_ hu ?_
  · rcases hf.clock with h | ⟨c0, hc0⟩
    · exact Or.inl h
    · obtain ⟨c, hc, h1, h2⟩ := hp _ _ hc0
      have ha := hf.after
      refine Or.inr ⟨c, hc, ?_, ?_⟩
      · intro k hk
        have := hW k (by omega)
        exact hf.values _ (by omega) (by omega)
      · have hw := hW _ (Nat.le_trans hle (by omega))
        refine hx c hc (by omega) ?_
        intro h0
        have := (hf.values ((S.slot r m).2 - (S.since evs r w.clock m).1) (by omega) (Nat.le_refl _)).1.2 h0
        have : ((S.slot r m).2 - (S.since evs r w.clock m).1 : Nat) ≤ w.stop * 1000000000 := by
          split at this <;> omega
        omega
  · rcases hf.reset with h | ⟨c0, hc0⟩
    · exact Or.inl h
    · obtain ⟨c, hc, -⟩ := hp _ _ hc0
      exact Or.inr ⟨c, hc⟩

theorem lookup_map {α : Type} {f : Nat × α → Option Nat} : ∀ {l : List (Nat × α)} {x : Nat × α},
    (l.map fun x => x.1).Nodup → x ∈ l → (l.map fun x => (x.1, f x)).lookup x.1 = some (f x)
  | [], _, _, h => by cases h
  | y :: l, x, hn, h => by
    rw [List.map_cons, List.nodup_cons] at hn
    rw [List.map_cons, List.lookup_cons]
    rcases List.mem_cons.1 h with h | h
    · subst h; simp
    · have : (x.1 == y.1) = false := by
        simp only [beq_eq_false_iff_ne, ne_eq]
        intro e
        exact hn.1 (e ▸ List.mem_map_of_mem h)
      rw [this]
      exact lookup_map hn.2 h

theorem key_inj {α : Type} : ∀ {l : List (Nat × α)} {x y : Nat × α},
    (l.map fun x => x.1).Nodup → x ∈ l → y ∈ l → x.1 = y.1 → x = y
  | [], _, _, _, h, _, _ => by cases h
  | z :: l, x, y, hn, hx, hy, he => by
    rw [List.map_cons, List.nodup_cons] at hn
    rcases List.mem_cons.1 hx with h1 | h1 <;> rcases List.mem_cons.1 hy with h2 | h2
    · rw [h1, h2]
    · exact absurd (List.mem_map.2 ⟨y, h2, by rw [← he, h1]⟩) hn.1
    · exact absurd (List.mem_map.2 ⟨x, h1, by rw [he, h2]⟩) hn.1
    · exact key_inj hn.2 h1 h2 he

section
variable {S : Schedule} {E : Env} {evs : Nat → Event} {cl0 : Nat → Clocks} {gone : Nat → Nat → Nat → Prop} {N : Nat}
variable (hT : Delivers E evs cl0 gone) (hF : FitsSchedule S evs cl0 N) (hO : OnTime S E evs cl0 N)
include hT hF hO

theorem not_gone {m p q : Nat} {w : Window} (hm : m < N) (he : (p, q, w) ∈ messages (evs m)) {cl : Clocks}
    (hc : clocksAt E evs cl0 q m = some cl) (hp : Placed S evs cl0 q m cl) :
    ¬ gone m q ((E.world p m q).start (readings (sendFn (evs m)) w)) := by
  intro hg
  obtain ⟨hs, hord, -, hfq⟩ := (hF m hm).2 p q w he
  rcases hT.drop m p q w _ he hg with h | ⟨cl', h1, h2⟩
  · rw [hc] at h; cases h
  · rw [hc] at h1
    cases h1
    rcases h2 with h2 | ⟨c, x, h2, h3, h4⟩
    · refine h2 (part_ok (W := ready (E.world q m p)) hs hfq hp (hO.receiver m p q w · hm he) ?_ ?_).1
      · exact fun c _ _ _ => ⟨_, rfl⟩
      · exact fun _ => ⟨_, rfl⟩
    · have h5 := hO.sender m p q w (readings (sendFn (evs m)) w + 1) hm he
        (by have := readings_le (sendFn (evs m)) w; omega)
      have h6 := (E.world p m q).start_le (readings (sendFn (evs m)) w)
      have h7 := (E.world q m p).now_le (readings .recv w)
      have h8 := hO.receiver m p q w (readings .recv w) hm he (by have := readings_le .recv w; omega)
      rcases hfq.clock with hu | ⟨c0, hc0⟩
      · simp only [timeLeft] at h3
        rw [if_neg (by have := hu.2; omega)] at h3
        cases h3
      · obtain ⟨c', hc', h9, h10⟩ := hp _ _ hc0
        rw [h2] at hc'
        cases hc'
        have ha := hfq.after
        simp only [timeLeft] at h3
        split at h3
        · rename_i h0
          cases h3
          have := (hfq.values ((S.slot q m).2 - (S.since evs q w.clock m).1) (by omega) (Nat.le_refl _)).1.2 h0
          have : ((S.slot q m).2 - (S.since evs q w.clock m).1 : Nat) ≤ w.stop * 1000000000 := by
            split at this <;> omega
          omega
        · cases h3

theorem sender_part {m p q : Nat} {w : Window} (hm : m < N) (he : (p, q, w) ∈ messages (evs m)) {cl cq : Clocks}
    (hp : Placed S evs cl0 p m cl) (hq : clocksAt E evs cl0 q m = some cq) (hpq : Placed S evs cl0 q m cq) :
    (run (sendFn (evs m)) (E.world p m q) w cl).res = .ok ∧
    ∃ t k, (run (sendFn (evs m)) (E.world p m q) w cl).moved = some t ∧
      (S.slot p m).1 ≤ t ∧ t ≤ (S.slot p m).2 ∧ k ≤ 5 ∧
      (run (sendFn (evs m)) (E.world p m q) w cl).clocks =
        if sendFn (evs m) ≠ .sendNoReset ∧ w.reset ≠ ' ' then
          (fun x => if x = w.reset then some ((E.world p m q).now k) else cl x)
        else cl := by
  obtain ⟨hs, hord, hfp, -⟩ := (hF m hm).2 p q w he
  have hng := not_gone hT hF hO hm he hq hpq
  have hle := readings_le (sendFn (evs m)) w
  obtain ⟨h1, t, h2, h3, h4, h5⟩ := part_ok hs hfp hp (hO.sender m p q w · hm he)
    (fun c _ _ _ => hT.put m p q w he _ hng) (fun _ => hT.put m p q w he _ hng)
  refine ⟨h1, t, _, h2, ?_, ?_, ?_, h5⟩
  · have := hO.sender m p q w (readings (sendFn (evs m)) w) hm he (by omega)
    have := (E.world p m q).now_le (readings (sendFn (evs m)) w)
    omega
  · have := hO.sender m p q w (readings (sendFn (evs m)) w + 1) hm he (by omega)
    omega
  · omega

theorem moved_sender {m p q : Nat} {w : Window} (hm : m < N) (he : (p, q, w) ∈ messages (evs m))
    (inv : ∀ r, ∃ cl, clocksAt E evs cl0 r m = some cl ∧ Placed S evs cl0 r m cl) :
    ∃ t, movedAt E evs cl0 p m q = some t ∧ (S.slot p m).1 ≤ t ∧ t ≤ (S.slot p m).2 := by
  obtain ⟨cl, hc, hp⟩ := inv p
  obtain ⟨cq, hq, hpq⟩ := inv q
  obtain ⟨h1, t, k, h2, h3, h4, -⟩ := sender_part hT hF hO hm he hp hq hpq
  have hwf := (hF m hm).1
  refine ⟨t, ?_, h3, h4⟩
  unfold movedAt
  simp only [hc]
  cases hev : evs m with
  | msg p' q' w' =>
    rw [hev] at he h2
    simp only [messages, List.mem_singleton, Prod.mk.injEq] at he
    obtain ⟨rfl, rfl, rfl⟩ := he
    simp only [sendFn] at h2
    simp [op, h2]
  | choice p' to =>
    have hok : ∀ x ∈ to, (run .sendNoReset (E.world p m x.1) x.2 cl).res = .ok := by
      intro x hx
      have he' : (p', x.1, x.2) ∈ messages (evs m) := by
        rw [hev]; exact List.mem_map.2 ⟨x, hx, rfl⟩
      have hpp : p' = p := by
        rw [hev] at he
        obtain ⟨y, -, hy⟩ := List.mem_map.1 he
        simpa using congrArg Prod.fst hy
      subst hpp
      obtain ⟨cx, hcx, hpx⟩ := inv x.1
      have := (sender_part hT hF hO hm he' hp hcx hpx).1
      rwa [hev] at this
    rw [hev] at he h2 hwf
    obtain ⟨y, hy, hye⟩ := List.mem_map.1 he
    simp only [Prod.mk.injEq] at hye
    obtain ⟨rfl, rfl, rfl⟩ := hye
    have hcs := chooseSends_ok (cl := cl) (steps := to.map fun x => (E.world p' m x.1, x.2)) (by
      intro z hz
      obtain ⟨x, hx, rfl⟩ := List.mem_map.1 hz
      exact hok x hx)
    simp only [op, if_true, choose, hcs, List.map_map]
    have hz : (to.map fun x => x.1).zip (to.map ((fun p => (run .sendNoReset p.1 p.2 cl).moved) ∘
        fun x => (E.world p' m x.1, x.2))) =
        to.map fun x => (x.1, (run .sendNoReset (E.world p' m x.1) x.2 cl).moved) := by
      rw [List.zip_map']; rfl
    have hn : (to.map fun x => x.1).Nodup := by
      have := hwf.2
      simpa [messages, List.map_map, Function.comp_def] using this
    rw [hz, lookup_map (f := fun x => (run .sendNoReset (E.world p' m x.1) x.2 cl).moved) hn hy]
    exact h2

theorem receiver_part {m p q : Nat} {w : Window} (hm : m < N) (he : (p, q, w) ∈ messages (evs m)) {cl : Clocks}
    (inv : ∀ r, ∃ cl, clocksAt E evs cl0 r m = some cl ∧ Placed S evs cl0 r m cl)
    (hp : Placed S evs cl0 q m cl) :
    (run .recv (E.world q m p) w cl).res = .ok ∧
    ∃ t k, (run .recv (E.world q m p) w cl).moved = some t ∧
      (S.slot q m).1 ≤ t ∧ t ≤ (S.slot q m).2 ∧ k ≤ 5 ∧
      (run .recv (E.world q m p) w cl).clocks =
        if w.reset ≠ ' ' then
          (fun x => if x = w.reset then some ((E.world q m p).now k) else cl x)
        else cl := by
  obtain ⟨hs, hord, -, hfq⟩ := (hF m hm).2 p q w he
  obtain ⟨ts, hts, ht1, ht2⟩ := moved_sender hT hF hO hm he inv
  have hle := readings_le .recv w
  have hst := (E.world q m p).now_le (readings .recv w)
  obtain ⟨h1, t, h2, h3, h4, h5⟩ := part_ok (fn := .recv) (W := E.world q m p) hs hfq hp
    (hO.receiver m p q w · hm he)
    (fun c hc hcn hst' => by
      refine hT.get m p q w ts he hts _ fun x hx => ?_
      simp only [timeLeft] at hx
      split at hx
      · rename_i h0
        cases hx
        have := hst' h0
        omega
      · cases hx)
    (fun _ => hT.get m p q w ts he hts _ fun x hx => by cases hx)
  refine ⟨h1, t, _, h2, ?_, ?_, ?_, by simpa using h5⟩
  · have := hO.receiver m p q w (readings .recv w) hm he (by omega)
    omega
  · have := hO.receiver m p q w (readings .recv w + 1) hm he (by omega)
    omega
  · omega

theorem step_ok {m : Nat} (hm : m < N)
    (inv : ∀ r, ∃ cl, clocksAt E evs cl0 r m = some cl ∧ Placed S evs cl0 r m cl) (r : Nat) :
    ∃ cl, clocksAt E evs cl0 r (m + 1) = some cl ∧ Placed S evs cl0 r (m + 1) cl := by
  obtain ⟨cl, hc, hp⟩ := inv r
  -- the two ways in which the clocks can change
  have keep : resets (evs m) r = (fun _ => false) → Placed S evs cl0 r (m + 1) cl := by
    intro h x c0 hx
    simp only [Schedule.since, h, Bool.false_eq_true, if_false]
    exact hp x c0 hx
  have upd : ∀ (w : Window) (n : Nat) (cl' : Clocks), (∀ x, resets (evs m) r x = (x != ' ' && w.reset == x)) →
      (S.slot r m).1 ≤ n → n ≤ (S.slot r m).2 →
      cl' = (if w.reset ≠ ' ' then (fun x => if x = w.reset then some n else cl x) else cl) →
      Placed S evs cl0 r (m + 1) cl' := by
    intro w n cl' h h1 h2 h3 x c0 hx
    subst h3
    simp only [Schedule.since, h]
    by_cases he : w.reset = ' '
    · simp only [he, ne_eq, not_true, if_false]
      rw [if_neg]
      · exact hp x c0 hx
      · simp only [Bool.and_eq_true, bne_iff_ne, ne_eq, beq_iff_eq, not_and]
        exact fun h' h'' => h' h''.symm
    · simp only [ne_eq, he, not_false_eq_true, if_true]
      by_cases hxr : x = w.reset
      · subst hxr
        simp only [bne_iff_ne, ne_eq, he, not_false_eq_true, Bool.and_eq_true, beq_self_eq_true, and_self, if_true]
        exact ⟨n, rfl, h1, h2⟩
      · have : (w.reset == x) = false := by simpa using fun e => hxr e.symm
        simp only [this, Bool.and_false, Bool.false_eq_true, if_false, hxr]
        exact hp x c0 hx
  have fin : ∀ (cl' : Clocks), (op E r m (evs m) cl).1 = .ok → (op E r m (evs m) cl).2.1 = cl' →
      clocksAt E evs cl0 r (m + 1) = some cl' := by
    intro cl' h1 h2
    simp only [clocksAt, hc]
    rcases ho : op E r m (evs m) cl with ⟨a, b, d⟩
    rw [ho] at h1 h2
    simp only at h1 h2
    subst h1 h2
    rfl
  have hwf := (hF m hm).1
  cases hev : evs m with
  | msg p q w =>
    have he : (p, q, w) ∈ messages (evs m) := by rw [hev]; exact List.mem_singleton_self _
    have hpq : p ≠ q := hwf.1 p q w he
    by_cases hr : r = p
    · subst hr
      obtain ⟨cq, hq, hpq'⟩ := inv q
      obtain ⟨h1, t, k, h2, h3, h4, hk, h5⟩ := sender_part hT hF hO hm he hp hq hpq'
      rw [hev] at h1 h5
      simp only [sendFn] at h1 h5
      refine ⟨_, fin _ (by rw [hev]; simp only [op, if_true]; exact h1) rfl, ?_⟩
      have hk' := hO.sender m r q w k hm he hk
      refine upd w _ _ ?_ hk'.1 hk'.2 ?_
      · intro x; rw [hev]; simp [resets, messages]
      · rw [hev]; simp only [op, if_true]; rw [h5]; simp
    · by_cases hr' : r = q
      · subst hr'
        obtain ⟨h1, t, k, h2, h3, h4, hk, h5⟩ := receiver_part hT hF hO hm he inv hp
        refine ⟨_, fin _ (by rw [hev]; simp only [op, if_neg hr, if_true]; exact h1) rfl, ?_⟩
        have hk' := hO.receiver m p r w k hm he hk
        refine upd w _ _ ?_ hk'.1 hk'.2 ?_
        · intro x; rw [hev]; simp [resets, messages]
        · rw [hev]; simp only [op, if_neg hr, if_true]; exact h5
      · refine ⟨cl, fin _ ?_ ?_, keep ?_⟩
        · rw [hev]; simp only [op, if_neg hr, if_neg hr']
        · rw [hev]; simp only [op, if_neg hr, if_neg hr']
        · funext x
          rw [hev]
          simp only [resets, messages, List.any_cons, List.any_nil, Bool.or_false]
          have e1 : (p == r) = false := by simpa using fun e => hr e.symm
          have e2 : (q == r) = false := by simpa using fun e => hr' e.symm
          simp [e1, e2]
  | choice p to =>
    have hmem : ∀ x ∈ to, (p, x.1, x.2) ∈ messages (evs m) := by
      intro x hx; rw [hev]; exact List.mem_map.2 ⟨x, hx, rfl⟩
    by_cases hr : r = p
    · subst hr
      have hok : ∀ z ∈ to.map (fun x => (E.world r m x.1, x.2)), (run .sendNoReset z.1 z.2 cl).res = .ok := by
        intro z hz
        obtain ⟨x, hx, rfl⟩ := List.mem_map.1 hz
        obtain ⟨cx, hcx, hpx⟩ := inv x.1
        have := (sender_part hT hF hO hm (hmem x hx) hp hcx hpx).1
        rwa [hev] at this
      obtain ⟨h1, -, h2, h3⟩ := C41_choice_resets (to.map fun x => (E.world r m x.1, x.2)) (E.fin r m) cl hok (by
        intro z hz hzr
        obtain ⟨x, hx, rfl⟩ := List.mem_map.1 hz
        obtain ⟨-, -, hfp, -⟩ := (hF m hm).2 _ _ _ (hmem x hx)
        rcases hfp.reset with h | ⟨c0, hc0⟩
        · exact absurd h hzr
        · obtain ⟨c, hc, -⟩ := hp _ _ hc0
          exact ⟨c, hc⟩)
      refine ⟨_, fin _ (by rw [hev]; simp only [op, if_true]; exact h1) rfl, ?_⟩
      rw [hev]
      simp only [op, if_true]
      intro x c0 hx
      simp only [Schedule.since, hev]
      cases hres : resets (.choice r to) r x with
      | true =>
        simp only [resets, messages, Bool.and_eq_true, List.any_map, List.any_eq_true, Function.comp,
          bne_iff_ne, ne_eq, beq_iff_eq] at hres
        obtain ⟨hx', y, hy, -, hyr⟩ := hres
        obtain ⟨k, hk⟩ := h2 (E.world r m y.1, y.2) (List.mem_map.2 ⟨y, hy, rfl⟩) (by rw [hyr]; exact hx')
        simp only [hyr] at hk
        have := hO.chooser m r to k hm hev
        exact ⟨_, hk, this.1, this.2⟩
      | false =>
        simp only [Bool.false_eq_true, if_false]
        rw [h3 x]
        · exact hp x c0 hx
        · intro z hz hzr e
          obtain ⟨y, hy, rfl⟩ := List.mem_map.1 hz
          have : resets (.choice r to) r x = true := by
            simp only [resets, messages, Bool.and_eq_true, List.any_map, List.any_eq_true, Function.comp,
              bne_iff_ne, ne_eq, beq_iff_eq]
            exact ⟨by rw [← e]; exact hzr, y, hy, by simp, e⟩
          rw [hres] at this
          cases this
    · cases hf : to.find? fun x => x.1 == r with
      | none =>
        refine ⟨cl, fin _ ?_ ?_, keep ?_⟩
        · rw [hev]; simp only [op, if_neg hr, hf]
        · rw [hev]; simp only [op, if_neg hr, hf]
        · funext x
          rw [hev]
          rw [List.find?_eq_none] at hf
          have e1 : (p == r) = false := by simpa using fun e => hr e.symm
          simp only [resets, messages, List.any_map, e1, Bool.false_or, Bool.and_eq_false_iff]
          right
          rw [List.any_eq_false]
          intro y hy
          have := hf y hy
          simp only [Bool.not_eq_true] at this
          simp only [Function.comp, e1, this, Bool.or_false, Bool.false_and, Bool.false_eq_true, not_false_eq_true]
      | some y =>
        have hy := List.mem_of_find?_eq_some hf
        have hyr : y.1 = r := by simpa using List.find?_some hf
        have he := hmem y hy
        subst hyr
        obtain ⟨h1, t, k, h2, h3, h4, hk, h5⟩ := receiver_part hT hF hO hm he inv hp
        refine ⟨_, fin _ (by rw [hev]; simp only [op, if_neg hr, hf]; exact h1) rfl, ?_⟩
        have hk' := hO.receiver m p y.1 y.2 k hm he hk
        refine upd y.2 _ _ ?_ hk'.1 hk'.2 ?_
        · intro x
          rw [hev]
          have e1 : (p == y.1) = false := by simpa using fun e => hr e.symm
          simp only [resets, messages, List.any_map, Function.comp_def, e1, Bool.false_or]
          congr 1
          have hn : (to.map fun x => x.1).Nodup := by
            have := hwf.2
            rw [hev] at this
            simpa [messages, List.map_map, Function.comp_def] using this
          rw [Bool.eq_iff_iff, List.any_eq_true]
          constructor
          · rintro ⟨z, hz, hz'⟩
            simp only [Bool.and_eq_true, beq_iff_eq] at hz'
            have : z = y := by
              exact key_inj hn hz hy hz'.1
            subst this
            simpa using hz'.2
          · intro h
            exact ⟨y, hy, by simpa using h⟩
        · rw [hev]; simp only [op, if_neg hr, hf]; exact h5

/-- All the roles reach all the steps, with clocks set on schedule. -/
theorem all_reach (m : Nat) (hm : m ≤ N) (r : Nat) :
    ∃ cl, clocksAt E evs cl0 r m = some cl ∧ Placed S evs cl0 r m cl := by
  induction m generalizing r with
  | zero => exact ⟨_, rfl, fun x c hx => ⟨c, hx, hO.origin r x c hx⟩⟩
  | succ m ih => exact step_ok hT hF hO (by omega) (ih (by omega)) r

end

theorem finish_xfer {fn : Fn} {W : World} {reset : Char} {cl : Clocks} {b : Bool} {k t : Nat} {o : Option Nat}
    (h : (finish fn W reset cl b k o).moved = some t) : o = some t := by
  cases o with
  | none => simp [finish] at h
  | some u =>
    simp only [finish] at h
    split at h
    · split at h <;> exact h
    · exact h

theorem transfer_xfer {fn : Fn} {W : World} {reset : Char} {cl : Clocks} {c : Nat} {b : Bool} {k t : Nat}
    {e : Option Int} (h : (transfer fn W reset cl c b k e).moved = some t) : ∃ j d, W.xfer j d = some t := by
  cases e with
  | none => exact ⟨_, _, finish_xfer h⟩
  | some x =>
    simp only [transfer] at h
    split at h
    · cases h
    · split at h
      · cases h
      · exact ⟨_, _, finish_xfer h⟩

theorem guarded_xfer {fn : Fn} {W : World} {reset : Char} {cl : Clocks} {c : Nat} {cond : Nat → Check} {t : Nat}
    {e : Option Int} (h : (guarded fn W reset cl c cond e).moved = some t) : ∃ j d, W.xfer j d = some t := by
  simp only [guarded] at h
  repeat' split at h
  all_goals first
    | exact transfer_xfer h
    | cases h

/-- A call that transferred a message got it from the channel. -/
theorem run_xfer {fn : Fn} {W : World} {w : Window} {cl : Clocks} {t : Nat}
    (h : (run fn W w cl).moved = some t) : ∃ j d, W.xfer j d = some t := by
  unfold run at h
  repeat' split at h
  all_goals first
    | exact guarded_xfer h
    | (cases h; done)
    | (rename_i hx; simp only at h; cases h; exact ⟨_, _, hx⟩)

/-- A role reaches a step only if it completed the one before. -/
theorem clocksAt_succ {E : Env} {evs : Nat → Event} {cl0 : Nat → Clocks} {r m : Nat} {cl' : Clocks}
    (h : clocksAt E evs cl0 r (m + 1) = some cl') :
    ∃ cl, clocksAt E evs cl0 r m = some cl ∧ (op E r m (evs m) cl).1 = .ok ∧
      (op E r m (evs m) cl).2.1 = cl' := by
  simp only [clocksAt] at h
  split at h
  · cases h
  · rename_i cl hc
    refine ⟨cl, hc, ?_⟩
    split at h
    · rename_i cl'' ms ho
      cases h
      rw [ho]
      exact ⟨rfl, rfl⟩
    · cases h

/-- What the receiver of a message does. -/
theorem op_receiver {E : Env} {m p q : Nat} {w : Window} {ev : Event} (hwf : WellFormed ev)
    (he : (p, q, w) ∈ messages ev) (cl : Clocks) :
    op E q m ev cl = ((run .recv (E.world q m p) w cl).res, (run .recv (E.world q m p) w cl).clocks,
      [(p, (run .recv (E.world q m p) w cl).moved)]) := by
  have hpq := hwf.1 p q w he
  cases ev with
  | msg p' q' w' =>
    simp only [messages, List.mem_singleton, Prod.mk.injEq] at he
    obtain ⟨rfl, rfl, rfl⟩ := he
    simp only [op, if_neg (Ne.symm hpq), if_true]
  | choice p' to =>
    obtain ⟨y, hy, hye⟩ := List.mem_map.1 he
    simp only [Prod.mk.injEq] at hye
    obtain ⟨rfl, rfl, rfl⟩ := hye
    have hn : (to.map fun x => x.1).Nodup := by
      have := hwf.2
      simpa [messages, List.map_map, Function.comp_def] using this
    simp only [op, if_neg (Ne.symm hpq)]
    cases hf : to.find? fun x => x.1 == y.1 with
    | none =>
      rw [List.find?_eq_none] at hf
      exact absurd (by simp) (hf y hy)
    | some z =>
      have hz : z = y := key_inj hn (List.mem_of_find?_eq_some hf) hy (by simpa using List.find?_some hf)
      subst hz
      rfl

/-- What the sender of a message does in it: it calls the sending function of the step with its clocks as they were
when it reached the step. -/
theorem op_sender {E : Env} {m p q : Nat} {w : Window} {ev : Event} (hwf : WellFormed ev)
    (he : (p, q, w) ∈ messages ev) (cl : Clocks) (hok : (op E p m ev cl).1 = .ok) :
    (run (sendFn ev) (E.world p m q) w cl).res = .ok ∧
    ((op E p m ev cl).2.2.lookup q).join = (run (sendFn ev) (E.world p m q) w cl).moved := by
  cases ev with
  | msg p' q' w' =>
    simp only [messages, List.mem_singleton, Prod.mk.injEq] at he
    obtain ⟨rfl, rfl, rfl⟩ := he
    simp only [op, if_true] at hok ⊢
    exact ⟨hok, by simp [sendFn]⟩
  | choice p' to =>
    obtain ⟨y, hy, hye⟩ := List.mem_map.1 he
    simp only [Prod.mk.injEq] at hye
    obtain ⟨rfl, rfl, rfl⟩ := hye
    have hn : (to.map fun x => x.1).Nodup := by
      have := hwf.2
      simpa [messages, List.map_map, Function.comp_def] using this
    simp only [op, if_true] at hok ⊢
    have hall : ∀ z ∈ to.map (fun x => (E.world p' m x.1, x.2)), (run .sendNoReset z.1 z.2 cl).res = .ok := by
      have gen : ∀ (steps : List (World × Window)), (chooseSends steps cl).1 = .ok →
          ∀ z ∈ steps, (run .sendNoReset z.1 z.2 cl).res = .ok := by
        intro steps
        induction steps with
        | nil => intro _ z hz; cases hz
        | cons a steps ih =>
          obtain ⟨W, w⟩ := a
          intro h z hz
          have h2 := noReset_clocks W w cl
          unfold chooseSends at h
          rcases hr : run .sendNoReset W w cl with ⟨r, c', mv⟩
          rw [hr] at h h2
          simp only at h2
          subst h2
          cases r with
          | ok =>
            simp only at h
            rcases List.mem_cons.1 hz with hz | hz
            · subst hz; simp only [hr]
            · exact ih h z hz
          | err => simp at h
          | panic => simp at h
      refine gen _ ?_
      unfold choose at hok
      rcases hcs : chooseSends (to.map fun x => (E.world p' m x.1, x.2)) cl with ⟨r, c', ms, rs⟩
      rw [hcs] at hok
      cases r with
      | ok => rw [hcs]
      | err => simp at hok
      | panic => simp at hok
    refine ⟨hall _ (List.mem_map.2 ⟨y, hy, rfl⟩), ?_⟩
    have hcs := chooseSends_ok hall
    simp only [choose, hcs, List.map_map]
    have hz : (to.map fun x => x.1).zip (to.map ((fun p => (run .sendNoReset p.1 p.2 cl).moved) ∘
        fun x => (E.world p' m x.1, x.2))) =
        to.map fun x => (x.1, (run .sendNoReset (E.world p' m x.1) x.2 cl).moved) := by
      rw [List.zip_map']; rfl
    rw [hz, lookup_map (f := fun x => (run .sendNoReset (E.world p' m x.1) x.2 cl).moved) hn hy]
    rfl

theorem run_clock {fn : Fn} {W : World} {w : Window} {cl : Clocks} (x : Char) :
    (run fn W w cl).clocks x = cl x ∨
    (x ≠ ' ' ∧ w.reset = x ∧ ∃ k, (run fn W w cl).clocks x = some (W.now k)) := by
  rcases run_cases fn W w cl with hq | ⟨t, -, -, -, h⟩ | ⟨t, c, k, -, -, -, -, -, -, hE⟩
  · exact Or.inl (by rw [hq.2.2])
  · exact Or.inl (by rw [h])
  · rcases hE with ⟨-, h⟩ | ⟨-, -, -, -, h⟩ | ⟨-, h1, -, -, h⟩
    · exact Or.inl (by rw [h])
    · exact Or.inl (by rw [h])
    · by_cases hx : x = w.reset
      · exact Or.inr ⟨hx ▸ h1, hx.symm, k + 1, by rw [h]; exact if_pos hx⟩
      · exact Or.inl (by rw [h]; exact if_neg hx)

/-- A step changes a clock only by resetting it to the time of the step. -/
theorem op_clock {E : Env} {r m : Nat} {ev : Event} {cl : Clocks} (x : Char) (hwf : WellFormed ev)
    (hok : (op E r m ev cl).1 = .ok) :
    (op E r m ev cl).2.1 x = cl x ∨
    (resets ev r x = true ∧ ∃ n, ReadAt E r m n ∧ (op E r m ev cl).2.1 x = some n) := by
  have recv : ∀ p w, (p, r, w) ∈ messages ev → (op E r m ev cl).2.1 x = cl x ∨
      (resets ev r x = true ∧ ∃ n, ReadAt E r m n ∧ (op E r m ev cl).2.1 x = some n) := by
    intro p w he
    rw [op_receiver hwf he cl]
    rcases run_clock (fn := .recv) (W := E.world r m p) (w := w) (cl := cl) x with h | ⟨h1, h2, k, h3⟩
    · exact Or.inl h
    · refine Or.inr ⟨?_, _, Or.inl ⟨p, k, rfl⟩, h3⟩
      simp only [resets, Bool.and_eq_true, bne_iff_ne, ne_eq, List.any_eq_true]
      exact ⟨h1, _, he, by simp [h2]⟩
  cases ev with
  | msg p q w =>
    by_cases hr : r = p
    · subst hr
      simp only [op, if_true]
      rcases run_clock (fn := .send) (W := E.world r m q) (w := w) (cl := cl) x with h | ⟨h1, h2, k, h3⟩
      · exact Or.inl h
      · refine Or.inr ⟨?_, _, Or.inl ⟨q, k, rfl⟩, h3⟩
        simp [resets, messages, h1, h2]
    · by_cases hr' : r = q
      · subst hr'
        exact recv p w (List.mem_singleton_self _)
      · simp only [op, if_neg hr, if_neg hr']
        exact Or.inl trivial
  | choice p to =>
    by_cases hr : r = p
    · subst hr
      simp only [op, if_true] at hok ⊢
      unfold choose at hok ⊢
      have hall := fun y hy => (op_sender (E := E) (m := m) hwf
        (show (r, y.1, y.2) ∈ messages (.choice r to) from List.mem_map.2 ⟨y, hy, rfl⟩) cl
        (by simp only [op, if_true]; exact hok)).1
      have hcs := chooseSends_ok (cl := cl) (steps := to.map fun y => (E.world r m y.1, y.2)) (by
        intro z hz
        obtain ⟨y, hy, rfl⟩ := List.mem_map.1 hz
        exact hall y hy)
      rw [hcs] at hok ⊢
      simp only at hok ⊢
      have gen : ∀ (rs : List Char) (k : Nat) (cl : Clocks), (resetAll (E.fin r m) rs k cl).2 x = cl x ∨
          (x ∈ rs ∧ ∃ j, (resetAll (E.fin r m) rs k cl).2 x = some (E.fin r m j)) := by
        intro rs
        induction rs with
        | nil => intro k cl; exact Or.inl rfl
        | cons a rs ih =>
          intro k cl
          unfold resetAll
          split
          · exact Or.inl rfl
          · rcases ih (k + 1) (fun x => if x = a then some (E.fin r m k) else cl x) with h | ⟨h1, j, h2⟩
            · by_cases hx : x = a
              · right
                exact ⟨by simp [hx], k, by rw [h]; exact if_pos hx⟩
              · left
                rw [h]; exact if_neg hx
            · exact Or.inr ⟨List.mem_cons_of_mem _ h1, j, h2⟩
      rcases gen (resetsOf (to.map fun y => (E.world r m y.1, y.2))) 0 cl with h | ⟨h1, j, h2⟩
      · exact Or.inl h
      · refine Or.inr ⟨?_, _, Or.inr ⟨j, rfl⟩, h2⟩
        simp only [resetsOf, List.map_map, List.mem_filter, List.mem_map, Function.comp, decide_eq_true_eq] at h1
        obtain ⟨⟨y, hy, h3⟩, h4⟩ := h1
        simp only [resets, messages, Bool.and_eq_true, bne_iff_ne, ne_eq, List.any_map, List.any_eq_true,
          Function.comp]
        exact ⟨h4, y, hy, by simp [h3]⟩
    · cases hf : to.find? fun x => x.1 == r with
      | none =>
        simp only [op, if_neg hr, hf]
        exact Or.inl trivial
      | some y =>
        have hyr : y.1 = r := by simpa using List.find?_some hf
        exact recv p y.2 (List.mem_map.2 ⟨y, List.mem_of_find?_eq_some hf, by rw [hyr]⟩)

end Verif.TimedRun
