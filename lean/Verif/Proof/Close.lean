import Verif.Spec.Closing
/-!
# Invariant, progress and termination of the close protocol
-/
namespace Verif.Close

/-- Statements not completed at a control point. -/
def leftOf (code : List Act) : PC → List (Bool × E)
  | .idle => code.map Act.id
  | .gone => code.map Act.id
  | .run r => r.map Act.id
  | .fin _ r => r.map Act.id

def left (Y : Sys) (s : S) (t : Nat) : List (Bool × E) := leftOf (Y.code t) (s.pc t)

/-- Order in which statements must be arranged: by rank, sends first. -/
def key (r : E → Nat) (p : Bool × E) : Nat := 2 * r p.2 + (if p.1 then 1 else 0)

/-- Well-formed systems: every thread sends and receives once on each of its endpoints, endpoints are connected
in pairs, and statements are in the order of a rank shared by connected endpoints, sends first. -/
structure WF (Y : Sys) : Prop where
  nd : Y.ths.Nodup
  own : ∀ t ∈ Y.ths, ∀ x ∈ Y.eps t, Y.owner x = t
  mem : ∀ t ∈ Y.ths, ∀ a ∈ Y.code t, a.id.2 ∈ Y.eps t
  has : ∀ t ∈ Y.ths, ∀ x ∈ Y.eps t, ∀ b, (b, x) ∈ (Y.code t).map Act.id
  nodup : ∀ t ∈ Y.ths, ((Y.code t).map Act.id).Nodup
  epsNd : ∀ t ∈ Y.ths, (Y.eps t).Nodup
  peerIn : ∀ t ∈ Y.ths, ∀ x ∈ Y.eps t, Y.owner (Y.peer x) ∈ Y.ths ∧ Y.peer x ∈ Y.eps (Y.owner (Y.peer x))
  invol : ∀ t ∈ Y.ths, ∀ x ∈ Y.eps t, Y.peer (Y.peer x) = x
  rank : ∃ r : E → Nat, (∀ t ∈ Y.ths, ∀ x ∈ Y.eps t, r (Y.peer x) = r x) ∧
    ∀ t ∈ Y.ths, ((Y.code t).map Act.id).Pairwise (fun a b => key r a ≤ key r b)

/-- `x` is an endpoint of the system. -/
def Has (Y : Sys) (x : E) : Prop := Y.owner x ∈ Y.ths ∧ x ∈ Y.eps (Y.owner x)

theorem WF.hasOf {Y} (w : WF Y) {t x} (ht : t ∈ Y.ths) (hx : x ∈ Y.eps t) : Has Y x ∧ Y.owner x = t := by
  have := w.own t ht x hx
  exact ⟨⟨by rw [this]; exact ht, by rw [this]; exact hx⟩, this⟩

theorem WF.hasPeer {Y} (w : WF Y) {x} (h : Has Y x) : Has Y (Y.peer x) := w.peerIn _ h.1 x h.2

theorem WF.inv {Y} (w : WF Y) {x} (h : Has Y x) : Y.peer (Y.peer x) = x := w.invol _ h.1 x h.2

theorem WF.act {Y} (w : WF Y) {t a} (ht : t ∈ Y.ths) (ha : a ∈ (Y.code t).map Act.id) :
    Has Y a.2 ∧ Y.owner a.2 = t := by
  obtain ⟨b, hb, rfl⟩ := List.mem_map.1 ha
  exact w.hasOf ht (w.mem t ht b hb)

/-- The invariant of runs in which nobody sends anything but through close. -/
structure Inv (Y : Sys) (s : S) : Prop where
  suf : ∀ t ∈ Y.ths, left Y s t <:+ (Y.code t).map Act.id
  b1 : ∀ x g, Has Y x → s.buf x = some g → g = .stop ∧ (false, Y.peer x) ∉ left Y s (Y.owner (Y.peer x)) ∧
    (true, x) ∈ left Y s (Y.owner x)
  b2 : ∀ x, Has Y x → (false, Y.peer x) ∉ left Y s (Y.owner (Y.peer x)) → (true, x) ∈ left Y s (Y.owner x) →
    s.buf x = some .stop ∨ s.rx x = false
  ord : ∀ x, Has Y x → (true, x) ∉ left Y s (Y.owner x) → (false, Y.peer x) ∉ left Y s (Y.owner (Y.peer x))
  aT : ∀ x, Has Y x → s.tx x = false → (s.pc (Y.owner x)).stopped = true
  aR : ∀ x, Has Y x → s.rx x = false → (s.pc (Y.owner x)).stopped = true
  okn : ∀ t ∈ Y.ths, ∀ r, s.pc t = .fin .ok r → r = []
  fail : ∀ t ∈ Y.ths, ∀ r q, s.pc t = .fin r q → r ≠ .ok → ∃ u ∈ Y.ths, s.pc u = .gone

theorem left_upd (Y : Sys) (s : S) (t : Nat) (p : PC) (b tx rx) (u : Nat) :
    left Y ⟨upd s.pc t p, b, tx, rx⟩ u = if u = t then leftOf (Y.code t) p else left Y s u := by
  unfold left upd
  by_cases h : u = t
  · subst h; simp
  · simp [h]

theorem inv_init {Y : Sys} (w : WF Y) : Inv Y .init := by
  have hl : ∀ t, left Y .init t = (Y.code t).map Act.id := fun t => rfl
  refine ⟨?_, ?_, ?_, ?_, ?_, ?_, ?_, ?_⟩
  · intro t _; rw [hl]; exact List.suffix_refl _
  · intro x g _ h; simp [S.init] at h
  · intro x hx h; rw [hl] at h
    exact absurd (w.has _ (w.hasPeer hx).1 _ (w.hasPeer hx).2 false) h
  · intro x hx h; rw [hl] at h
    exact absurd (w.has _ hx.1 _ hx.2 true) h
  · intro x _ h; simp [S.init] at h
  · intro x _ h; simp [S.init] at h
  · intro t _ r h; simp [S.init] at h
  · intro t _ r q h; simp [S.init] at h

/-- Changing a control point without completing a statement. -/
theorem inv_pc {Y : Sys} {s : S} (i : Inv Y s) {t : Nat} {p : PC}
    (hl : leftOf (Y.code t) p = left Y s t) (hs : (s.pc t).stopped = true → p.stopped = true)
    (hok : ∀ r, p = .fin .ok r → r = []) (hg : s.pc t = .gone → p = .gone)
    (hf : t ∈ Y.ths → ∀ r q, p = .fin r q → r ≠ .ok → ∃ u ∈ Y.ths, upd s.pc t p u = .gone) :
    Inv Y { s with pc := upd s.pc t p } := by
  have hL : ∀ u, left Y { s with pc := upd s.pc t p } u = left Y s u := by
    intro u; rw [left_upd]; split
    · next h => rw [h, hl]
    · rfl
  have hS : ∀ u, (s.pc u).stopped = true → (upd s.pc t p u).stopped = true := by
    intro u h; unfold upd; split
    · next h' => subst h'; exact hs h
    · exact h
  refine ⟨?_, ?_, ?_, ?_, ?_, ?_, ?_, ?_⟩
  · intro u hu; rw [hL]; exact i.suf u hu
  · intro x g hx hb; rw [hL, hL]; exact i.b1 x g hx hb
  · intro x hx; rw [hL, hL]; exact i.b2 x hx
  · intro x hx; rw [hL, hL]; exact i.ord x hx
  · intro x hx h; exact hS _ (i.aT x hx h)
  · intro x hx h; exact hS _ (i.aR x hx h)
  · intro u hu r h
    simp only [upd] at h
    split at h
    · exact hok r h
    · exact i.okn u hu r h
  · intro u hu r q h hr
    simp only [upd] at h
    split at h
    · next h' => subst h'; exact hf hu r q h hr
    · obtain ⟨v, hv, hgv⟩ := i.fail u hu r q h hr
      refine ⟨v, hv, ?_⟩
      simp only [upd]; split
      · next h' => subst h'; exact hg hgv
      · exact hgv

theorem head_notin {Y : Sys} (w : WF Y) {t : Nat} (ht : t ∈ Y.ths) {a L}
    (h : a :: L <:+ (Y.code t).map Act.id) : a ∉ L := by
  have := (w.nodup t ht).sublist h.sublist
  exact (List.nodup_cons.1 this).1

/-- Completing a send. -/
theorem inv_sent {Y : Sys} (w : WF Y) {s : S} (i : Inv Y s) {t : Nat} (ht : t ∈ Y.ths) {m x rest}
    (hp : s.pc t = .run (.send m x :: rest)) (s' : S) (hpc : s'.pc = upd s.pc t (.run rest))
    (htx : s'.tx = s.tx) (hrx : s'.rx = s.rx)
    (hb : (s.rx (Y.peer x) = false ∧ s'.buf = s.buf) ∨ s'.buf = upd s.buf (Y.peer x) (some .stop)) :
    Inv Y s' := by
  have hlt : left Y s t = (false, x) :: rest.map Act.id := by unfold left; rw [hp]; rfl
  have hsuf := i.suf t ht
  rw [hlt] at hsuf
  have hxc : (false, x) ∈ (Y.code t).map Act.id := hsuf.subset List.mem_cons_self
  obtain ⟨hx, hxo⟩ := w.act ht hxc
  simp only at hx hxo
  have hni := head_notin w ht hsuf
  have hL : ∀ u, left Y s' u = if u = t then rest.map Act.id else left Y s u := by
    intro u; unfold left; rw [hpc]; unfold upd
    by_cases h : u = t
    · subst h; simp [leftOf]
    · simp [h]
  have hsub : ∀ u a, a ∈ left Y s' u → a ∈ left Y s u := by
    intro u a h; rw [hL] at h; split at h
    · next h' => rw [h', hlt]; exact List.mem_cons_of_mem _ h
    · exact h
  have hT : ∀ u y, (true, y) ∈ left Y s u → (true, y) ∈ left Y s' u := by
    intro u y h; rw [hL]; split
    · next h' => rw [h', hlt] at h; simpa using h
    · exact h
  have hF : ∀ u y, y ≠ x → (false, y) ∈ left Y s u → (false, y) ∈ left Y s' u := by
    intro u y hy h; rw [hL]; split
    · next h' => rw [h', hlt] at h; simpa [hy] using h
    · exact h
  have hxn : (false, x) ∉ left Y s' (Y.owner x) := by rw [hL, hxo, if_pos rfl]; exact hni
  have hS : ∀ u, (s.pc u).stopped = true → (s'.pc u).stopped = true := by
    intro u h; rw [hpc]; unfold upd; split
    · next h' => rw [h', hp] at h; simp [PC.stopped] at h
    · exact h
  refine ⟨?_, ?_, ?_, ?_, ?_, ?_, ?_, ?_⟩
  · intro u hu; rw [hL]; split
    · next h' => rw [h']; exact (List.suffix_cons _ _).trans hsuf
    · exact i.suf u hu
  · intro y g hy hbuf
    have key : s.buf y = some g ∨ (y = Y.peer x ∧ g = .stop) := by
      rcases hb with ⟨_, hb⟩ | hb
      · left; rw [hb] at hbuf; exact hbuf
      · rw [hb] at hbuf; unfold upd at hbuf; split at hbuf
        · next h' => right; exact ⟨h', by injection hbuf with h; exact h.symm⟩
        · left; exact hbuf
    rcases key with h | ⟨rfl, rfl⟩
    · obtain ⟨h1, h2, h3⟩ := i.b1 y g hy h
      exact ⟨h1, fun h => h2 (hsub _ _ h), hT _ _ h3⟩
    · refine ⟨rfl, ?_, ?_⟩
      · rw [w.inv hx]; exact hxn
      · apply hT
        refine Classical.byContradiction fun hc => ?_
        have := i.ord _ hy hc
        rw [w.inv hx, hxo, hlt] at this
        exact this List.mem_cons_self
  · intro y hy h1 h2
    have h2' := hsub _ _ h2
    by_cases hyx : Y.peer y = x
    · have : y = Y.peer x := by rw [← hyx, w.inv hy]
      subst this
      rcases hb with ⟨hr, hb⟩ | hb
      · right; rw [hrx]; exact hr
      · left; rw [hb]; simp [upd]
    · have := i.b2 y hy (fun h => h1 (hF _ _ hyx h)) h2'
      rcases this with h | h
      · left
        rcases hb with ⟨hr, hb⟩ | hb
        · rw [hb]; exact h
        · rw [hb]; unfold upd; split
          · rfl
          · exact h
      · right; rw [hrx]; exact h
  · intro y hy h h'
    exact i.ord y hy (fun h => by exact absurd (hT _ _ h) (by assumption)) (hsub _ _ h')
  · intro y hy h; rw [htx] at h; exact hS _ (i.aT y hy h)
  · intro y hy h; rw [hrx] at h; exact hS _ (i.aR y hy h)
  · intro u hu r h
    rw [hpc] at h; unfold upd at h; split at h
    · cases h
    · exact i.okn u hu r h
  · intro u hu r q h hr
    rw [hpc] at h; unfold upd at h; split at h
    · cases h
    · obtain ⟨v, hv, hgv⟩ := i.fail u hu r q h hr
      refine ⟨v, hv, ?_⟩
      rw [hpc]; unfold upd; split
      · next h' => rw [h', hp] at hgv; cases hgv
      · exact hgv

/-- Completing a receive. -/
theorem inv_rcvd {Y : Sys} (w : WF Y) {s : S} (i : Inv Y s) {t : Nat} (ht : t ∈ Y.ths) {m x rest g}
    (hp : s.pc t = .run (.recv m x :: rest)) (hg : s.buf x = some g) :
    Inv Y { s with buf := upd s.buf x none, pc := upd s.pc t (.run rest) } := by
  have hlt : left Y s t = (true, x) :: rest.map Act.id := by unfold left; rw [hp]; rfl
  have hsuf := i.suf t ht
  rw [hlt] at hsuf
  have hxc : (true, x) ∈ (Y.code t).map Act.id := hsuf.subset List.mem_cons_self
  obtain ⟨hx, hxo⟩ := w.act ht hxc
  simp only at hx hxo
  have hni := head_notin w ht hsuf
  have hL : ∀ u, left Y { s with buf := upd s.buf x none, pc := upd s.pc t (.run rest) } u =
      if u = t then rest.map Act.id else left Y s u := by
    intro u; rw [left_upd]; rfl
  have hsub : ∀ u a, a ∈ left Y { s with buf := upd s.buf x none, pc := upd s.pc t (.run rest) } u →
      a ∈ left Y s u := by
    intro u a h; rw [hL] at h; split at h
    · next h' => rw [h', hlt]; exact List.mem_cons_of_mem _ h
    · exact h
  have hT : ∀ u y, y ≠ x → (true, y) ∈ left Y s u →
      (true, y) ∈ left Y { s with buf := upd s.buf x none, pc := upd s.pc t (.run rest) } u := by
    intro u y hy h; rw [hL]; split
    · next h' => rw [h', hlt] at h; simpa [hy] using h
    · exact h
  have hF : ∀ u y, (false, y) ∈ left Y s u →
      (false, y) ∈ left Y { s with buf := upd s.buf x none, pc := upd s.pc t (.run rest) } u := by
    intro u y h; rw [hL]; split
    · next h' => rw [h', hlt] at h; simpa using h
    · exact h
  have hxn : (true, x) ∉ left Y { s with buf := upd s.buf x none, pc := upd s.pc t (.run rest) } (Y.owner x) := by
    rw [hL, hxo, if_pos rfl]; exact hni
  have hS : ∀ u, (s.pc u).stopped = true → ((upd s.pc t (.run rest)) u).stopped = true := by
    intro u h; unfold upd; split
    · next h' => rw [h', hp] at h; simp [PC.stopped] at h
    · exact h
  refine ⟨?_, ?_, ?_, ?_, ?_, ?_, ?_, ?_⟩
  · intro u hu; rw [hL]; split
    · next h' => rw [h']; exact (List.suffix_cons _ _).trans hsuf
    · exact i.suf u hu
  · intro y g' hy hbuf
    simp only [upd] at hbuf; split at hbuf
    · cases hbuf
    · next hyx =>
      obtain ⟨h1, h2, h3⟩ := i.b1 y g' hy hbuf
      exact ⟨h1, fun h => h2 (hsub _ _ h), hT _ _ hyx h3⟩
  · intro y hy h1 h2
    have hyx : y ≠ x := by rintro rfl; exact hxn h2
    rcases i.b2 y hy (fun h => h1 (hF _ _ h)) (hsub _ _ h2) with h | h
    · left; simp only [upd, if_neg hyx]; exact h
    · right; exact h
  · intro y hy h h'
    by_cases hyx : y = x
    · subst hyx
      exact (i.b1 y g hy hg).2.1 (hsub _ _ h')
    · exact i.ord y hy (fun h2 => h (hT _ _ hyx h2)) (hsub _ _ h')
  · intro y hy h; exact hS _ (i.aT y hy h)
  · intro y hy h; exact hS _ (i.aR y hy h)
  · intro u hu r h
    simp only [upd] at h; split at h
    · cases h
    · exact i.okn u hu r h
  · intro u hu r q h hr
    simp only [upd] at h; split at h
    · cases h
    · obtain ⟨v, hv, hgv⟩ := i.fail u hu r q h hr
      refine ⟨v, hv, ?_⟩
      simp only [upd]; split
      · next h' => rw [h', hp] at hgv; cases hgv
      · exact hgv

/-- A thread that sees the partner of `x` disconnected: somebody cancelled. -/
theorem someone_gone {Y : Sys} (w : WF Y) {s : S} (i : Inv Y s) {x} (hx : Has Y x) {b : Bool}
    (hst : (s.pc (Y.owner (Y.peer x))).stopped = true)
    (hleft : (b, x) ∈ left Y s (Y.owner x))
    (hrun : (s.pc (Y.owner x)).stopped = false)
    (hb : b = true → s.buf x = none) :
    ∃ u ∈ Y.ths, s.pc u = .gone := by
  have hp := w.hasPeer hx
  cases hq : s.pc (Y.owner (Y.peer x)) with
  | idle => rw [hq] at hst; simp [PC.stopped] at hst
  | run r => rw [hq] at hst; simp [PC.stopped] at hst
  | gone => exact ⟨_, hp.1, hq⟩
  | fin r q =>
    by_cases hr : r = .ok
    · subst hr
      have hnil := i.okn _ hp.1 _ hq
      subst hnil
      have hl : left Y s (Y.owner (Y.peer x)) = [] := by unfold left; rw [hq]; rfl
      cases b with
      | false =>
        have := i.ord (Y.peer x) hp (by rw [hl]; simp)
        rw [w.inv hx] at this
        exact absurd hleft this
      | true =>
        have := i.b2 x hx (by rw [hl]; simp) hleft
        rcases this with h | h
        · rw [hb rfl] at h; cases h
        · have := i.aR x hx h; rw [hrun] at this; cases this
    · exact i.fail _ hp.1 _ _ hq hr

theorem inv_step {Y : Sys} (w : WF Y) {canc : Nat → Prop} {s s' : S} {l : Label} (i : Inv Y s)
    (hl : Plays Y canc l) (h : step Y s l = some s') : Inv Y s' := by
  cases l with
  | call t =>
    simp only [step] at h; split at h
    · next hi =>
      cases h
      refine inv_pc i ?_ ?_ ?_ ?_ ?_
      · unfold left; rw [hi]; rfl
      · rw [hi]; simp [PC.stopped]
      · intro r h; cases h
      · rw [hi]; intro h; cases h
      · intro _ r q h; cases h
    · cases h
  | quit t =>
    simp only [step] at h; split at h
    · next hi =>
      cases h
      refine inv_pc i ?_ ?_ ?_ ?_ ?_
      · unfold left; rw [hi]; rfl
      · simp [PC.stopped]
      · intro r h; cases h
      · intro _; rfl
      · intro _ r q h; cases h
    · cases h
  | emit x g => exact absurd hl id
  | act t =>
    have ht : t ∈ Y.ths := hl
    simp only [step, exec] at h
    split at h
    · next hp =>
      cases h
      refine inv_pc i ?_ ?_ ?_ ?_ ?_
      · unfold left; rw [hp]; rfl
      · simp [PC.stopped]
      · intro r h; injection h with _ h; exact h.symm
      · rw [hp]; intro h; cases h
      · intro _ r q h hr; injection h with h _; exact absurd h.symm hr
    · next m x rest hp =>
      have hlt : left Y s t = (false, x) :: rest.map Act.id := by unfold left; rw [hp]; rfl
      have hxc : (false, x) ∈ (Y.code t).map Act.id :=
        (by have := i.suf t ht; rw [hlt] at this; exact this.subset List.mem_cons_self)
      obtain ⟨hx, hxo⟩ := w.act ht hxc
      simp only at hx hxo
      split at h
      · next hr =>
        cases m with
        | strict =>
          simp only at h; cases h
          obtain ⟨u, hu, hgu⟩ := someone_gone w i hx (b := false) (i.aR _ (w.hasPeer hx) hr)
            (by rw [hxo, hlt]; exact List.mem_cons_self) (by rw [hxo, hp]; rfl) (by simp)
          refine inv_pc i ?_ ?_ ?_ ?_ ?_
          · unfold left; rw [hp]; rfl
          · simp [PC.stopped]
          · intro r h; cases h
          · rw [hp]; intro h; cases h
          · intro _ r q _ _
            refine ⟨u, hu, ?_⟩
            unfold upd; split
            · next h' => rw [h', hp] at hgu; cases hgu
            · exact hgu
        | lenient =>
          simp only at h; cases h
          exact inv_sent w i ht hp _ rfl rfl rfl (.inl ⟨hr, rfl⟩)
      · split at h
        · cases h
        · cases h
          exact inv_sent w i ht hp _ rfl rfl rfl (.inr rfl)
    · next m x rest hp =>
      have hlt : left Y s t = (true, x) :: rest.map Act.id := by unfold left; rw [hp]; rfl
      have hxc : (true, x) ∈ (Y.code t).map Act.id :=
        (by have := i.suf t ht; rw [hlt] at this; exact this.subset List.mem_cons_self)
      obtain ⟨hx, hxo⟩ := w.act ht hxc
      simp only at hx hxo
      split at h
      · next g hg =>
        have hgs := (i.b1 x g hx hg).1
        subst hgs
        have ha : accepts m .stop = true := by cases m <;> rfl
        rw [ha] at h
        simp only [if_true] at h
        cases h
        exact inv_rcvd w i ht hp hg
      · next hg =>
        split at h
        · cases h
        · next hr =>
          cases h
          obtain ⟨u, hu, hgu⟩ := someone_gone w i hx (b := true) (i.aT _ (w.hasPeer hx) (by simpa using hr))
            (by rw [hxo, hlt]; exact List.mem_cons_self) (by rw [hxo, hp]; rfl) (fun _ => hg)
          refine inv_pc i ?_ ?_ ?_ ?_ ?_
          · unfold left; rw [hp]; rfl
          · simp [PC.stopped]
          · intro r h; cases m <;> cases h
          · rw [hp]; intro h; cases h
          · intro _ r q _ _
            refine ⟨u, hu, ?_⟩
            unfold upd; split
            · next h' => rw [h', hp] at hgu; cases hgu
            · exact hgu
    · cases h
  | dropTx x =>
    simp only [step] at h; split at h
    · next hi =>
      cases h
      refine ⟨i.suf, i.b1, i.b2, i.ord, ?_, i.aR, i.okn, i.fail⟩
      intro y hy h
      simp only [upd] at h; split at h
      · next h' => subst h'; exact hi.1
      · exact i.aT y hy h
    · cases h
  | dropRx x =>
    simp only [step] at h; split at h
    · next hi =>
      cases h
      refine ⟨i.suf, ?_, ?_, i.ord, i.aT, ?_, i.okn, i.fail⟩
      · intro y g hy h
        simp only [upd] at h; split at h
        · cases h
        · exact i.b1 y g hy h
      · intro y hy h1 h2
        by_cases hyx : y = x
        · right; simp [upd, hyx]
        · rcases i.b2 y hy h1 h2 with h | h
          · left; simp only [upd, if_neg hyx]; exact h
          · right; simp only [upd, if_neg hyx]; exact h
      · intro y hy h
        simp only [upd] at h; split at h
        · next h' => subst h'; exact hi.1
        · exact i.aR y hy h
    · cases h

theorem reaches_inv {Y : Sys} (w : WF Y) {canc ls s} (h : Reaches Y canc ls s) : Inv Y s := by
  obtain ⟨hr, hp⟩ := h
  induction hr with
  | nil => exact inv_init w
  | snoc hr hst ih =>
    exact inv_step w (ih (fun l hl => hp l (by simp [hl])) ) (hp _ (by simp)) hst

/-! ## Progress -/

/-- A send never blocks. -/
theorem send_enabled {Y : Sys} (w : WF Y) {s : S} (i : Inv Y s) {t m x rest} (ht : t ∈ Y.ths)
    (hp : s.pc t = .run (.send m x :: rest)) : ∃ s', exec Y t s = some s' := by
  have hlt : left Y s t = (false, x) :: rest.map Act.id := by unfold left; rw [hp]; rfl
  have hxc : (false, x) ∈ (Y.code t).map Act.id :=
    (by have := i.suf t ht; rw [hlt] at this; exact this.subset List.mem_cons_self)
  obtain ⟨hx, hxo⟩ := w.act ht hxc
  simp only at hx hxo
  unfold exec; rw [hp]; simp only
  split
  · cases m <;> exact ⟨_, rfl⟩
  · cases hb : s.buf (Y.peer x) with
    | none => exact ⟨_, rfl⟩
    | some g =>
      have := (i.b1 _ g (w.hasPeer hx) hb).2.1
      rw [w.inv hx, hxo, hlt] at this
      exact absurd List.mem_cons_self this

/-- If a receive blocks then the partner has not sent yet. -/
theorem recv_blocked {Y : Sys} (w : WF Y) {s : S} (i : Inv Y s) {t m x rest} (ht : t ∈ Y.ths)
    (hp : s.pc t = .run (.recv m x :: rest)) (hb : exec Y t s = none) :
    Has Y x ∧ (false, Y.peer x) ∈ left Y s (Y.owner (Y.peer x)) ∧ s.tx (Y.peer x) = true := by
  have hlt : left Y s t = (true, x) :: rest.map Act.id := by unfold left; rw [hp]; rfl
  have hxc : (true, x) ∈ (Y.code t).map Act.id :=
    (by have := i.suf t ht; rw [hlt] at this; exact this.subset List.mem_cons_self)
  obtain ⟨hx, hxo⟩ := w.act ht hxc
  simp only at hx hxo
  unfold exec at hb; rw [hp] at hb; simp only at hb
  split at hb
  · cases hb
  · next hbuf =>
    split at hb
    · next htx =>
      refine ⟨hx, ?_, htx⟩
      refine Classical.byContradiction fun hc => ?_
      rcases i.b2 x hx hc (by rw [hxo, hlt]; exact List.mem_cons_self) with h | h
      · rw [hbuf] at h; cases h
      · have := i.aR x hx h; rw [hxo, hp] at this; cases this
    · cases hb

theorem progress_run {Y : Sys} (w : WF Y) {canc : Nat → Prop} {s : S} (i : Inv Y s)
    (hst : Stuck Y canc s) : ∀ t ∈ Y.ths, ∀ rest, s.pc t ≠ .run rest := by
  obtain ⟨r, hr1, hr2⟩ := w.rank
  -- by strong induction on the key of the next statement
  have main : ∀ k, ∀ t ∈ Y.ths, ∀ a rest, s.pc t = .run (a :: rest) → key r a.id = k → False := by
    intro k
    induction k using Nat.strongRecOn with
    | _ k ih =>
      intro t ht a rest hp hk
      have hnone : exec Y t s = none := hst (.act t) ht
      cases a with
      | send m x =>
        obtain ⟨s', hs'⟩ := send_enabled w i ht hp
        rw [hnone] at hs'; cases hs'
      | recv m x =>
        obtain ⟨hx, hl, htx⟩ := recv_blocked w i ht hp hnone
        have hpx := w.hasPeer hx
        have hpo := hpx.1
        cases hq : s.pc (Y.owner (Y.peer x)) with
        | idle =>
          by_cases hc : canc (Y.owner (Y.peer x))
          · have := hst (.quit _) ⟨hpo, hc⟩
            simp [step, hq] at this
          · have := hst (.call _) ⟨hpo, hc⟩
            simp [step, hq] at this
        | gone =>
          have := hst (.dropTx (Y.peer x)) ⟨_, hpo, hpx.2⟩
          simp [step, hq, htx, PC.stopped] at this
        | fin r q =>
          have := hst (.dropTx (Y.peer x)) ⟨_, hpo, hpx.2⟩
          simp [step, hq, htx, PC.stopped] at this
        | run rest' =>
          have hlu : left Y s (Y.owner (Y.peer x)) = rest'.map Act.id := by unfold left; rw [hq]; rfl
          rw [hlu] at hl
          cases rest' with
          | nil => simp at hl
          | cons b rest' =>
            have hsuf := i.suf _ hpo
            rw [hlu] at hsuf
            have hpw := (hr2 _ hpo).sublist hsuf.sublist
            have hle : key r b.id ≤ key r (false, Y.peer x) := by
              rcases List.mem_cons.1 hl with h | h
              · rw [h]; exact Nat.le_refl _
              · exact (List.pairwise_cons.1 hpw).1 _ h
            refine ih (key r b.id) ?_ _ hpo b rest' hq rfl
            have h1 := hr1 _ hx.1 x hx.2
            have : key r (false, Y.peer x) + 1 = k := by
              rw [← hk]; simp only [key, Act.id, h1]; simp
            omega
  intro t ht rest hp
  cases rest with
  | nil =>
    have : exec Y t s = none := hst (.act t) ht
    simp [exec, hp] at this
  | cons a rest => exact main _ t ht a rest hp rfl

/-- When nothing can move, every thread has returned or cancelled. -/
theorem progress {Y : Sys} (w : WF Y) {canc : Nat → Prop} {s : S} (i : Inv Y s)
    (hst : Stuck Y canc s) : ∀ t ∈ Y.ths, s.pc t = .gone ∨ ∃ r q, s.pc t = .fin r q := by
  intro t ht
  cases hq : s.pc t with
  | idle =>
    by_cases hc : canc t
    · have := hst (.quit t) ⟨ht, hc⟩
      simp [step, hq] at this
    · have := hst (.call t) ⟨ht, hc⟩
      simp [step, hq] at this
  | gone => exact .inl rfl
  | fin r q => exact .inr ⟨r, q, rfl⟩
  | run rest => exact absurd hq (progress_run w i hst t ht rest)

/-! ## Termination -/

/-- Steps a thread still has to take. -/
def todoOf (code : List Act) : PC → Nat
  | .idle => code.length + 2
  | .run r => r.length + 1
  | .fin _ _ => 0
  | .gone => 0

/-- Live halves of an endpoint. -/
def halves (s : S) (x : E) : Nat := (if s.tx x then 1 else 0) + (if s.rx x then 1 else 0)

/-- Bound on the number of steps left. -/
def measure (Y : Sys) (s : S) : Nat :=
  (Y.ths.map (fun t => todoOf (Y.code t) (s.pc t))).sum +
  (Y.ths.map (fun t => ((Y.eps t).map (halves s)).sum)).sum

theorem sum_le {α} (l : List α) (f g : α → Nat) (h : ∀ a ∈ l, f a ≤ g a) : (l.map f).sum ≤ (l.map g).sum := by
  induction l with
  | nil => simp
  | cons a l ih =>
    simp only [List.map_cons, List.sum_cons]
    have := h a (by simp); have := ih (fun b hb => h b (by simp [hb])); omega

theorem sum_lt {α} (l : List α) (f g : α → Nat) (h : ∀ a ∈ l, f a ≤ g a) (b : α) (hb : b ∈ l) (hlt : f b < g b) :
    (l.map f).sum < (l.map g).sum := by
  induction l with
  | nil => simp at hb
  | cons a l ih =>
    simp only [List.map_cons, List.sum_cons]
    have h1 := h a (by simp)
    have h2 := sum_le l f g (fun b hb => h b (by simp [hb]))
    rcases List.mem_cons.1 hb with rfl | hb
    · omega
    · have := ih (fun b hb => h b (by simp [hb])) hb; omega

theorem measure_pc {Y : Sys} {s : S} {t : Nat} {p : PC} {b} (ht : t ∈ Y.ths)
    (h : todoOf (Y.code t) p < todoOf (Y.code t) (s.pc t)) :
    measure Y { s with pc := upd s.pc t p, buf := b } < measure Y s := by
  unfold measure
  have : (Y.ths.map (fun u => todoOf (Y.code u) (upd s.pc t p u))).sum <
      (Y.ths.map (fun t => todoOf (Y.code t) (s.pc t))).sum := by
    apply sum_lt _ _ _ ?_ t ht
    · simp only [upd, if_true]; exact h
    · intro u _; unfold upd; split
      · next h' => subst h'; omega
      · exact Nat.le_refl _
  have h2 : ∀ x, halves { s with pc := upd s.pc t p, buf := b } x = halves s x := fun _ => rfl
  simp only [funext h2]
  exact Nat.add_lt_add_right this _

theorem measure_step {Y : Sys} {canc : Nat → Prop} {s s' : S} {l : Label}
    (hl : Plays Y canc l) (h : step Y s l = some s') : measure Y s' < measure Y s := by
  cases l with
  | call t =>
    simp only [step] at h; split at h
    · next hi => cases h; exact measure_pc hl.1 (by rw [hi]; simp [todoOf])
    · cases h
  | quit t =>
    simp only [step] at h; split at h
    · next hi => cases h; exact measure_pc hl.1 (by rw [hi]; simp [todoOf])
    · cases h
  | emit x g => exact absurd hl id
  | act t =>
    simp only [step, exec] at h
    split at h
    · next hp => cases h; exact measure_pc hl (by rw [hp]; simp [todoOf])
    · next m x rest hp =>
      split at h
      · cases m
        · simp only at h; cases h; exact measure_pc hl (by rw [hp]; simp [todoOf])
        · simp only at h; cases h; exact measure_pc hl (by rw [hp]; simp [todoOf])
      · split at h
        · cases h
        · cases h; exact measure_pc hl (by rw [hp]; simp [todoOf])
    · next m x rest hp =>
      split at h
      · cases h
        refine measure_pc hl ?_
        rw [hp]; split <;> simp [todoOf]
      · split at h
        · cases h
        · cases h; exact measure_pc hl (by rw [hp]; simp [todoOf])
    · cases h
  | dropTx x =>
    obtain ⟨t, ht, hx⟩ := hl
    simp only [step] at h; split at h
    · next hi =>
      cases h
      unfold measure
      apply Nat.add_lt_add_left
      have hle : ∀ y, halves { s with tx := upd s.tx x false } y ≤ halves s y := by
        intro y; unfold halves upd; simp only; split
        · split <;> simp_all
        · exact Nat.le_refl _
      apply sum_lt _ _ _ ?_ t ht
      · apply sum_lt _ _ _ (fun y _ => hle y) x hx
        unfold halves upd; simp [hi.2]
      · intro u _; exact sum_le _ _ _ (fun y _ => hle y)
    · cases h
  | dropRx x =>
    obtain ⟨t, ht, hx⟩ := hl
    simp only [step] at h; split at h
    · next hi =>
      cases h
      unfold measure
      apply Nat.add_lt_add_left
      have hle : ∀ y, halves { s with rx := upd s.rx x false, buf := upd s.buf x none } y ≤ halves s y := by
        intro y; unfold halves upd; simp only; split <;> split <;> simp_all
      apply sum_lt _ _ _ ?_ t ht
      · apply sum_lt _ _ _ (fun y _ => hle y) x hx
        unfold halves upd; simp [hi.2]
      · intro u _; exact sum_le _ _ _ (fun y _ => hle y)
    · cases h

theorem run_bounded {Y : Sys} {canc ls s} (h : Reaches Y canc ls s) :
    ls.length + measure Y s ≤ measure Y .init := by
  obtain ⟨hr, hp⟩ := h
  induction hr with
  | nil => simp
  | snoc hr hst ih =>
    have := ih (fun l hl => hp l (by simp [hl]))
    have := measure_step (hp _ (by simp)) hst
    simp only [List.length_append, List.length_cons, List.length_nil]; omega

/-! ## Results -/

/-- Who has cancelled was meant to; who has called was not. -/
theorem reaches_roles {Y : Sys} {canc ls s} (h : Reaches Y canc ls s) (t : Nat) :
    (s.pc t = .gone → canc t) ∧ (Called s t → ¬ canc t) := by
  obtain ⟨hr, hp⟩ := h
  induction hr with
  | nil => simp [S.init, Called]
  | @snoc ls s1 l s2 hr hst ih =>
    have ih := ih (fun l hl => hp l (by simp [hl]))
    have hl := hp l (by simp)
    have keep : (s2.pc t = s1.pc t) → (s2.pc t = .gone → canc t) ∧ (Called s2 t → ¬ canc t) := by
      intro h; unfold Called; rw [h]; exact ih
    have other : ∀ u p, s2.pc = upd s1.pc u p → (p = .gone → canc u) →
        ((∃ r, p = .run r) ∨ (∃ r q, p = .fin r q) → ¬ canc u) →
        (s2.pc t = .gone → canc t) ∧ (Called s2 t → ¬ canc t) := by
      intro u p h h1 h2
      unfold Called
      by_cases hu : t = u
      · subst hu
        have : s2.pc t = p := by rw [h]; simp [upd]
        rw [this]; exact ⟨h1, h2⟩
      · have : s2.pc t = s1.pc t := by rw [h]; simp [upd, hu]
        rw [this]; exact ih
    cases l with
    | call u =>
      simp only [step] at hst; split at hst
      · cases hst; exact other u _ rfl (by intro h; cases h) (fun _ => hl.2)
      · cases hst
    | quit u =>
      simp only [step] at hst; split at hst
      · cases hst; exact other u _ rfl (fun _ => hl.2) (by rintro (⟨_, h⟩ | ⟨_, _, h⟩) <;> cases h)
      · cases hst
    | emit x g => exact absurd hl id
    | act u =>
      simp only [step, exec] at hst
      by_cases hu : t = u
      · subst hu
        have hrun : ∀ r, s1.pc t = .run r → ¬ canc t := fun r h => ih.2 (.inl ⟨r, h⟩)
        repeat' split at hst
        all_goals first | (cases hst; done) | skip
        all_goals
          cases hst
          refine other t _ rfl ?_ (fun _ => hrun _ (by assumption))
        all_goals intro h; first | (cases h; done) | (split at h <;> cases h)
      · apply keep
        repeat' split at hst
        all_goals first | (cases hst; done) | skip
        all_goals cases hst; simp [upd, hu]
    | dropTx x =>
      simp only [step] at hst; split at hst
      · cases hst; exact keep rfl
      · cases hst
    | dropRx x =>
      simp only [step] at hst; split at hst
      · cases hst; exact keep rfl
      · cases hst

/-- Nobody returns `Ok` before every partner has called close. -/
theorem ok_partners {Y : Sys} (w : WF Y) {canc ls s} (h : Reaches Y canc ls s) {t x} (ht : t ∈ Y.ths)
    (hx : x ∈ Y.eps t) (hok : Returned s t .ok) : Called s (Y.owner (Y.peer x)) := by
  have i := reaches_inv w h
  obtain ⟨q, hq⟩ := hok
  have hnil := i.okn t ht q hq
  subst hnil
  obtain ⟨hxH, hxo⟩ := w.hasOf ht hx
  have hl : left Y s t = [] := by unfold left; rw [hq]; rfl
  have hs := i.ord x hxH (by rw [hxo, hl]; simp)
  have hp := w.hasPeer hxH
  unfold Called
  cases hc : s.pc (Y.owner (Y.peer x)) with
  | idle =>
    exfalso; apply hs; unfold left; rw [hc]; exact w.has _ hp.1 _ hp.2 false
  | gone =>
    exfalso; apply hs; unfold left; rw [hc]; exact w.has _ hp.1 _ hp.2 false
  | run r => exact .inl ⟨r, rfl⟩
  | fin r q => exact .inr ⟨r, q, rfl⟩

/-- A thread with a cancelling partner never returns `Ok`. -/
theorem not_ok {Y : Sys} (w : WF Y) {canc ls s} (h : Reaches Y canc ls s) {t x} (ht : t ∈ Y.ths)
    (hx : x ∈ Y.eps t) (hc : canc (Y.owner (Y.peer x))) : ¬ Returned s t .ok :=
  fun hok => (reaches_roles h _).2 (ok_partners w h ht hx hok) hc

/-- If nobody cancels, nobody fails. -/
theorem no_fail {Y : Sys} (w : WF Y) {canc ls s} (h : Reaches Y canc ls s) (hc : ∀ t ∈ Y.ths, ¬ canc t)
    {t r} (ht : t ∈ Y.ths) (hr : Returned s t r) : r = .ok := by
  have i := reaches_inv w h
  obtain ⟨q, hq⟩ := hr
  refine Classical.byContradiction fun hne => ?_
  obtain ⟨u, hu, hg⟩ := i.fail t ht r q hq hne
  exact hc u hu ((reaches_roles h u).1 hg)

/-- At the end, who did not cancel has returned. -/
theorem all_return {Y : Sys} (w : WF Y) {canc ls s} (h : Reaches Y canc ls s) (hst : Stuck Y canc s)
    {t} (ht : t ∈ Y.ths) (hc : ¬ canc t) : ∃ r, Returned s t r := by
  rcases progress w (reaches_inv w h) hst t ht with hg | ⟨r, q, hq⟩
  · exact absurd ((reaches_roles h t).1 hg) hc
  · exact ⟨r, q, hq⟩

end Verif.Close
