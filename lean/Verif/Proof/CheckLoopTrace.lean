import Verif.Proof.CheckLoopRun

/-! # Walks through the graph and the machine -/
namespace Verif.Check
open Verif.Spec Verif.Prop

variable {parts : Nat → List Part}

theorem Run.append {P Q R : Part} {w w' : List Comm} (h : Run parts P w Q) (h' : Run parts Q w' R) :
    Run parts P (w ++ w') R := by
  induction h with
  | nil => exact h'
  | comm _ ih => exact .comm (ih h')
  | choose hB _ ih => exact .choose hB (ih h')

theorem Arc.run_comm {P : Part} {a : Act} {R : Option Part} (h : Arc parts P a R) : ∀ c, a = .comm c →
    ∃ R', R = some R' ∧ Run parts P [c] R' := by
  induction h with
  | comm => rintro c ⟨⟩; exact ⟨_, rfl, .comm .nil⟩
  | fin => rintro c ⟨⟩
  | choice hB _ ih =>
    intro c hc
    obtain ⟨R', h1, h2⟩ := ih c hc
    exact ⟨R', h1, .choose hB h2⟩

theorem Arc.run_fin {P : Part} {a : Act} {R : Option Part} (h : Arc parts P a R) : a = .fin →
    R = none ∧ Run parts P [] ⟨[], none⟩ := by
  induction h with
  | comm => rintro ⟨⟩
  | fin => rintro _; exact ⟨rfl, .nil⟩
  | choice hB _ ih =>
    intro hc
    obtain ⟨h1, h2⟩ := ih hc
    exact ⟨h1, .choose hB h2⟩

theorem Run.first {P Q : Part} {w : List Comm} (h : Run parts P w Q) : ∀ c t, w = c :: t →
    ∃ R, Arc parts P (.comm c) (some R) ∧ Run parts R t Q := by
  induction h with
  | nil => rintro c t ⟨⟩
  | comm h _ => rintro c t ⟨⟩; exact ⟨_, .comm, h⟩
  | choose hB _ ih =>
    intro c t hc
    obtain ⟨R, h1, h2⟩ := ih c t hc
    exact ⟨R, .choice hB h1, h2⟩

theorem Run.last {P Q : Part} {w : List Comm} (h : Run parts P w Q) : w = [] → Q = ⟨[], none⟩ → Arc parts P .fin none := by
  induction h with
  | nil => rintro _ rfl; exact .fin
  | comm => rintro ⟨⟩
  | choose hB _ ih => intro h1 h2; exact .choice hB (ih h1 h2)

variable {roles : List Str} {sites : List Site} {me : Nat} {C : Ctx}

theorem labelNe (roles : List Str) (role : Str) (c : Comm) : c.label roles role ≠ ['µ'] ∧ c.label roles role ≠ ['0'] := by
  have h : ∃ ch ∈ c.label roles role, ch = '!' ∨ ch = '?' := by
    refine ⟨if c.out then '!' else '?', by simp [Comm.label], ?_⟩
    split <;> simp
  obtain ⟨ch, h1, h2⟩ := h
  constructor
  · intro he
    rw [he, List.mem_singleton] at h1
    subst h1
    rcases h2 with h2 | h2 <;> exact absurd h2 (by decide)
  · intro he
    rw [he, List.mem_singleton] at h1
    subst h1
    rcases h2 with h2 | h2 <;> exact absurd h2 (by decide)

/-- What holds of the whole graph of a part. -/
structure Whole (parts : Nat → List Part) (main : Part) (n : Nat) (E : List Edge) (L : Nat → Option Part) (ρ : Nat → Nat) :
    Prop where
  root : L 0 = some main ∧ ρ 0 = 0 ∧ 0 < n
  tgt : ∀ e ∈ E, e.2.1 < n
  snd : ∀ e ∈ E, ∃ Q, L e.1 = some Q ∧
    (Arc parts Q e.2.2 (L e.2.1) ∨ (e.2.2 = .loop ∧ e.2.1 < e.1 ∧ L e.2.1 = some Q))
  cpl : ∀ v, v < n → ∀ Q, L v = some Q →
    (∀ a R, Arc parts Q a R → ∃ u, (v, u, a) ∈ E ∧ L u = R) ∨ ∃ u, u < v ∧ (v, u, .loop) ∈ E ∧ L u = some Q
  rho : ∀ v u, (v, u, .loop) ∈ E → ρ v = u
  idem : ∀ v, v < n → ρ v < n ∧ ρ (ρ v) = ρ v ∧ L (ρ v) = L v

theorem whole {main : Part} {n : Nat} {E : List Edge} {L : Nat → Option Part} {ρ : Nat → Nat}
    (h : Post parts (· = main) 0 1 n E L ρ) (hL : L 0 = some main) (hρ : ρ 0 = 0) : Whole parts main n E L ρ where
  root := ⟨hL, hρ, h.le⟩
  tgt := h.tgt
  snd := by
    intro e he
    by_cases h0 : e.1 = 0
    · obtain ⟨B, rfl, ha⟩ := h.sndP e he h0
      exact ⟨_, by rw [h0]; exact hL, .inl ha⟩
    · exact h.snd e he (by omega)
  cpl := by
    intro v hv Q hQ
    by_cases h0 : v = 0
    · subst h0
      rw [hL] at hQ; cases hQ
      exact .inl fun a R ha => h.cplP _ rfl a R ha
    · exact h.cpl v (by omega) hv Q hQ
  rho := by
    intro v u he
    by_cases h0 : v = 0
    · subst h0
      obtain ⟨B, rfl, ha⟩ := h.sndP _ he rfl
      exact ha.not_loop.elim
    · exact h.rho1 v u (by omega) he
  idem := by
    intro v hv
    by_cases h0 : v = 0
    · subst h0
      rw [hρ]
      exact ⟨hv, hρ, rfl⟩
    · exact h.idem v (by omega) hv

variable {main : Part} {n : Nat} {E : List Edge} {L : Nat → Option Part} {ρ : Nat → Nat} {g : Graph} {role : Str}

theorem walk_sound (hW : Whole parts main n E L ρ)
    (hg : g.edges = E.map fun e => (e.1, e.2.1, e.2.2.label roles role)) {v z : Nat} {w : List Str} (h : Walk g v w z) :
    ∀ Q, L v = some Q → ∃ cs Q', Run parts Q cs Q' ∧ (w = cs.map (Comm.label roles role) ∨
      (w = cs.map (Comm.label roles role) ++ [['0']] ∧ Q' = ⟨[], none⟩)) := by
  induction h with
  | nil => intro Q _; exact ⟨[], Q, .nil, .inl rfl⟩
  | @step a b c l w hl he t ih =>
    intro Q hQ
    rw [hg] at he
    obtain ⟨⟨v, u, act⟩, hm, heq⟩ := List.mem_map.mp he
    simp only [Prod.mk.injEq] at heq
    obtain ⟨rfl, rfl, rfl⟩ := heq
    obtain ⟨Q', hQ', harc⟩ := hW.snd _ hm
    simp only at hQ' harc
    rw [hQ] at hQ'; cases hQ'
    cases act with
    | loop => exact absurd rfl hl
    | comm c =>
      rcases harc with harc | ⟨h, _⟩
      · obtain ⟨R, h1, h2⟩ := harc.run_comm c rfl
        obtain ⟨cs, Q', h3, h4⟩ := ih R h1
        refine ⟨c :: cs, Q', Run.append h2 h3, ?_⟩
        rcases h4 with h4 | ⟨h4, h5⟩
        · left; rw [h4]; rfl
        · right; exact ⟨by rw [h4]; rfl, h5⟩
      · cases h
    | fin =>
      rcases harc with harc | ⟨h, _⟩
      · obtain ⟨h1, h2⟩ := harc.run_fin rfl
        have hw : w = [] := by
          cases t with
          | nil => rfl
          | step _ he _ =>
            rw [hg] at he
            obtain ⟨⟨v', u', act'⟩, hm', heq⟩ := List.mem_map.mp he
            simp only [Prod.mk.injEq] at heq
            obtain ⟨rfl, rfl, _⟩ := heq
            obtain ⟨Q'', hQ'', _⟩ := hW.snd _ hm'
            rw [h1] at hQ''; cases hQ''
          | loop he _ =>
            rw [hg] at he
            obtain ⟨⟨v', u', act'⟩, hm', heq⟩ := List.mem_map.mp he
            simp only [Prod.mk.injEq] at heq
            obtain ⟨rfl, rfl, _⟩ := heq
            obtain ⟨Q'', hQ'', _⟩ := hW.snd _ hm'
            rw [h1] at hQ''; cases hQ''
        subst hw
        exact ⟨[], _, h2, .inr ⟨rfl, rfl⟩⟩
      · cases h
  | @loop a b c w he t ih =>
    intro Q hQ
    rw [hg] at he
    obtain ⟨⟨v, u, act⟩, hm, heq⟩ := List.mem_map.mp he
    simp only [Prod.mk.injEq] at heq
    obtain ⟨rfl, rfl, hlab⟩ := heq
    obtain ⟨Q', hQ', harc⟩ := hW.snd _ hm
    simp only at hQ' harc
    rw [hQ] at hQ'; cases hQ'
    cases act with
    | comm c => exact absurd hlab (labelNe roles role c).1
    | fin => exact absurd hlab (by simp [Act.label])
    | loop =>
      rcases harc with harc | ⟨_, _, h⟩
      · exact harc.not_loop.elim
      · exact ih Q h

/-- From a node one gets silently to a node with the same part and all its edges. -/
theorem resolve (hW : Whole parts main n E L ρ)
    (hg : g.edges = E.map fun e => (e.1, e.2.1, e.2.2.label roles role)) : ∀ v, v < n → ∀ Q, L v = some Q →
    ∃ u, u < n ∧ (∀ w z, Walk g u w z → Walk g v w z) ∧ ∀ a R, Arc parts Q a R → ∃ t, (u, t, a) ∈ E ∧ L t = R := by
  intro v
  induction v using Nat.strongRecOn with
  | ind v ih =>
    intro hv Q hQ
    rcases hW.cpl v hv Q hQ with h | ⟨u, h1, h2, h3⟩
    · exact ⟨v, hv, fun _ _ h => h, h⟩
    · obtain ⟨u', a1, a2, a3⟩ := ih u h1 (by omega) Q h3
      refine ⟨u', a1, fun w z hw => .loop ?_ (a2 w z hw), a3⟩
      rw [hg]
      exact List.mem_map.mpr ⟨_, h2, rfl⟩

theorem walk_complete (hW : Whole parts main n E L ρ)
    (hg : g.edges = E.map fun e => (e.1, e.2.1, e.2.2.label roles role)) : ∀ (cs : List Comm) (v : Nat) (Q Q' : Part), v < n →
    L v = some Q → Run parts Q cs Q' → (∃ z, Walk g v (cs.map (Comm.label roles role)) z) ∧
      (Q' = ⟨[], none⟩ → ∃ z, Walk g v (cs.map (Comm.label roles role) ++ [['0']]) z) := by
  intro cs
  induction cs with
  | nil =>
    intro v Q Q' hv hQ hrun
    refine ⟨⟨v, .nil⟩, fun hQ' => ?_⟩
    obtain ⟨u, hu, h1, h2⟩ := resolve (roles := roles) (role := role) hW hg v hv Q hQ
    obtain ⟨t, ht, _⟩ := h2 _ _ (Run.last hrun rfl hQ')
    refine ⟨t, h1 _ _ (.step (by decide) ?_ .nil)⟩
    rw [hg]
    exact List.mem_map.mpr ⟨_, ht, rfl⟩
  | cons c cs ih =>
    intro v Q Q' hv hQ hrun
    obtain ⟨R, ha, hr⟩ := Run.first hrun c cs rfl
    obtain ⟨u, hu, h1, h2⟩ := resolve (roles := roles) (role := role) hW hg v hv Q hQ
    obtain ⟨t, ht, hR⟩ := h2 _ _ ha
    have he : (u, t, c.label roles role) ∈ g.edges := by rw [hg]; exact List.mem_map.mpr ⟨_, ht, rfl⟩
    obtain ⟨⟨z, hz⟩, h4⟩ := ih t R Q' (hW.tgt _ ht) hR hr
    refine ⟨⟨z, h1 _ _ (.step (labelNe roles role c).1 he hz)⟩, fun hQ' => ?_⟩
    obtain ⟨z, hz⟩ := h4 hQ'
    exact ⟨z, h1 _ _ (.step (labelNe roles role c).1 he hz)⟩

theorem moves_sound (hW : Whole parts main n E L ρ) {v z : Nat} {w : List (Bool × Nat × Str)}
    (h : Moves (E.filterMap (transAt ρ)) v w z) : ∀ Q, v < n → L v = some Q → ρ v = v → ∃ cs Q', Run parts Q cs Q' ∧
      L z = some Q' ∧ z < n ∧ ρ z = z ∧ w = cs.map fun c => (c.out, c.partner, c.payload.print) := by
  induction h with
  | nil => intro Q hv hQ hρ; exact ⟨[], Q, .nil, hQ, hv, hρ, rfl⟩
  | @step t c w ht h ih =>
    intro Q hv hQ hρ
    obtain ⟨⟨v, u, act⟩, hm, heq⟩ := List.mem_filterMap.mp ht
    unfold transAt at heq
    simp only at heq
    split at heq
    · rename_i c'
      cases heq
      simp only at hQ ih hv hρ ⊢
      obtain ⟨Q', hQ', harc⟩ := hW.snd _ hm
      simp only at hQ' harc
      rw [hQ] at hQ'; cases hQ'
      rcases harc with harc | ⟨h, _⟩
      · obtain ⟨R, h1, h2⟩ := harc.run_comm c' rfl
        obtain ⟨i1, i2, i3⟩ := hW.idem u (hW.tgt _ hm)
        obtain ⟨cs, Q', h3, h4, h5, h6, rfl⟩ := ih R i1 (by rw [i3]; exact h1) i2
        exact ⟨c' :: cs, Q', Run.append h2 h3, h4, h5, h6, rfl⟩
      · cases h
    · cases heq

theorem moves_complete (hW : Whole parts main n E L ρ) : ∀ (cs : List Comm) (v : Nat) (Q Q' : Part), v < n →
    L v = some Q → ρ v = v → Run parts Q cs Q' →
    ∃ z, Moves (E.filterMap (transAt ρ)) v (cs.map fun c => (c.out, c.partner, c.payload.print)) z := by
  intro cs
  induction cs with
  | nil => intro v _ _ _ _ _ _; exact ⟨v, .nil⟩
  | cons c cs ih =>
    intro v Q Q' hv hQ hρ hrun
    obtain ⟨R, ha, hr⟩ := Run.first hrun c cs rfl
    rcases hW.cpl v hv Q hQ with h | ⟨u, h1, h2, _⟩
    · obtain ⟨t, ht, hR⟩ := h _ _ ha
      obtain ⟨i1, i2, i3⟩ := hW.idem t (hW.tgt _ ht)
      obtain ⟨z, hz⟩ := ih (ρ t) R Q' i1 (by rw [i3]; exact hR) i2 hr
      have hmem : (⟨v, c.out, c.partner, c.payload.print, ρ t⟩ : Trans) ∈ E.filterMap (transAt ρ) :=
        List.mem_filterMap.mpr ⟨_, ht, rfl⟩
      exact ⟨z, Moves.step (t := ⟨v, c.out, c.partner, c.payload.print, ρ t⟩) hmem hz⟩
    · have := hW.rho v u h2
      omega

/-- A part that can do nothing but end. -/
theorem moves_end (hW : Whole parts main n E L ρ) {v : Nat} {Q : Part} (hv : v < n) (hQ : L v = some Q) (hρ : ρ v = v)
    (hst : ∀ t ∈ E.filterMap (transAt ρ), t.src ≠ v) (hne : ∃ a R, Arc parts Q a R) : Run parts Q [] ⟨[], none⟩ := by
  rcases hW.cpl v hv Q hQ with h | ⟨u, h1, h2, _⟩
  · obtain ⟨a, R, ha⟩ := hne
    cases a with
    | fin => exact (ha.run_fin rfl).2
    | loop => exact ha.not_loop.elim
    | comm c =>
      obtain ⟨t, ht, _⟩ := h _ _ ha
      have hmem : (⟨v, c.out, c.partner, c.payload.print, ρ t⟩ : Trans) ∈ E.filterMap (transAt ρ) :=
        List.mem_filterMap.mpr ⟨_, ht, rfl⟩
      exact absurd rfl (hst _ hmem)
  · have := hW.rho v u h2
    omega

theorem Arc.after {P : Part} {a : Act} {R : Option Part} (h : Arc parts P a R) : ∀ c, a = .comm c →
    ∃ R', R = some R' ∧ After parts P c R' := by
  induction h with
  | comm => rintro c ⟨⟩; exact ⟨_, rfl, .comm⟩
  | fin => rintro c ⟨⟩
  | choice hB _ ih =>
    intro c hc
    obtain ⟨R', h1, h2⟩ := ih c hc
    exact ⟨R', h1, .choose hB h2⟩

theorem After.arc {P Q : Part} {c : Comm} (h : After parts P c Q) : Arc parts P (.comm c) (some Q) := by
  induction h with
  | comm => exact .comm
  | choose hB _ ih => exact .choice hB ih

theorem states_whole (hW : Whole parts main n E L ρ) : States parts main (E.filterMap (transAt ρ)) := by
  refine ⟨fun v => (L v).getD ⟨[], none⟩, by simp [hW.root.1], ?_⟩
  intro w v hv
  obtain ⟨cs, Q, h1, h2, h3, h4, h5⟩ := moves_sound hW hv main hW.root.2.2 hW.root.1 hW.root.2.1
  simp only [h2, Option.getD_some]
  constructor
  · intro t ht hsrc
    obtain ⟨⟨v', u, act⟩, hm, heq⟩ := List.mem_filterMap.mp ht
    unfold transAt at heq
    simp only at heq
    split at heq
    · rename_i c'
      cases heq
      simp only at hsrc
      subst hsrc
      obtain ⟨Q', hQ', harc⟩ := hW.snd _ hm
      simp only at hQ' harc
      rw [h2] at hQ'; cases hQ'
      rcases harc with harc | ⟨h, _⟩
      · obtain ⟨R, a1, a2⟩ := harc.after c' rfl
        obtain ⟨i1, i2, i3⟩ := hW.idem u (hW.tgt _ hm)
        refine ⟨c', ?_, rfl, rfl, rfl⟩
        simp only [i3, a1, Option.getD_some]
        exact a2
      · cases h
    · cases heq
  · intro c R hR
    rcases hW.cpl v h3 Q h2 with h | ⟨u, a1, a2, _⟩
    · obtain ⟨t, ht, hR'⟩ := h _ _ (After.arc hR)
      obtain ⟨i1, i2, i3⟩ := hW.idem t (hW.tgt _ ht)
      refine ⟨⟨v, c.out, c.partner, c.payload.print, ρ t⟩, List.mem_filterMap.mpr ⟨_, ht, rfl⟩, rfl, ?_, rfl, rfl, rfl⟩
      simp only [i3, hR', Option.getD_some]
    · have := hW.rho v u a2
      omega

theorem fit_run {P Q : Part} {w : List Comm} (h : Run (partsOf sites me) P w Q)
    (hb : ∀ s ∈ sites, ∀ b ∈ s.branches, (s.part b me).Fit roles sites me) :
    P.Fit roles sites me → Q.Fit roles sites me := by
  induction h with
  | nil => exact id
  | comm h ih =>
    intro hP
    exact ih ⟨fun d hd => hP.partner d (List.mem_cons_of_mem _ hd),
        fun d hd => hP.plain d (List.mem_cons_of_mem _ hd), fun d hd => hP.notEnum d (List.mem_cons_of_mem _ hd), hP.next⟩
  | @choose c B Q w hB h ih =>
    intro hP
    apply ih
    unfold partsOf at hB
    split at hB
    · simp at hB
    · rename_i s hs
      obtain ⟨b, hb1, rfl⟩ := List.mem_map.mp hB
      exact hb s (List.mem_of_getElem? hs) b hb1

theorem arc_exists (hn : Named roles sites)
    (hg : ∀ s ∈ sites, ∀ b ∈ s.branches, (s.part b me).Guarded) {Q : Part} (hQ : Q.Fit roles sites me) :
    ∃ a R, Arc (partsOf sites me) Q a R := by
  obtain ⟨cs, nx⟩ := Q
  cases cs with
  | cons c cs => exact ⟨_, _, .comm⟩
  | nil =>
    cases nx with
    | none => exact ⟨_, _, .fin⟩
    | some c =>
      have hc := hQ.next c rfl
      have hs : sites[c]? = some sites[c] := List.getElem?_eq_getElem hc
      obtain ⟨b, hb⟩ := List.exists_mem_of_ne_nil _ (hn.branches _ (List.getElem_mem hc)).1
      have hB : sites[c].part b me ∈ partsOf sites me c := by
        unfold partsOf
        rw [hs]
        exact List.mem_map.mpr ⟨b, hb, rfl⟩
      have hgd := hg _ (List.getElem_mem hc) b hb
      generalize sites[c].part b me = B at hB hgd
      obtain ⟨bs, bn⟩ := B
      cases bs with
      | cons d bs => exact ⟨_, _, .choice hB .comm⟩
      | nil =>
        have := hgd rfl
        simp only at this
        subst this
        exact ⟨_, _, .choice hB .fin⟩

theorem bound_exists (sites : List Site) (me : Nat) : ∃ M, ∀ s ∈ sites, ∀ b ∈ s.branches, (s.part b me).comms.length ≤ M := by
  have h1 : ∀ l : List Nat, ∃ M, ∀ x ∈ l, x ≤ M := by
    intro l
    induction l with
    | nil => exact ⟨0, by simp⟩
    | cons a l ih =>
      obtain ⟨M, h⟩ := ih
      refine ⟨a + M, ?_⟩
      intro x hx
      rcases List.mem_cons.mp hx with rfl | hx
      · omega
      · have := h x hx; omega
  obtain ⟨M, h⟩ := h1 (sites.flatMap fun s => s.branches.map fun b => (s.part b me).comms.length)
  refine ⟨M, fun s hs b hb => h _ ?_⟩
  exact List.mem_flatMap.mpr ⟨s, hs, List.mem_map.mpr ⟨b, hb, rfl⟩⟩

end Verif.Check
