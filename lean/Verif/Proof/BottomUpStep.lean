import Verif.Proof.BottomUpInv

/-! # Programs and the machines of their roles: every step of the program is one of the machines -/
namespace Verif.BottomUp
open Verif.Check Verif.Spec

variable {n : Nat} {sites : List Site} {main : Nat → Part} {code : Str → Nat} {num : Nat → Str → Mesh.Name}
  {Y : Mesh.Sys} {root : Mesh.Name} {ts : Nat → List Trans} {part : Nat → Nat → Part} {G : Ghost} {s : Mesh.S} {cf : Config}

theorem moves_snoc {t : Trans} {T : List Trans} {v z : Nat} {w : List (Bool × Nat × Str)} (h : Moves T v w z) (ht : t ∈ T)
    (hz : t.src = z) : Moves T v (w ++ [(t.out, t.partner, t.payload)]) t.dst := by
  induction h with
  | nil => subst hz; exact .step ht .nil
  | step ht' _ ih => exact .step ht' (ih hz)

variable {i : Nat} {c : Comm} {cs : List Comm}

/-- The machine can do what the role does. -/
theorem mach_trans (hX : Ctx n sites main code num Y root ts part) (hO : Ok n sites main num root G) (hM : Mach n ts part G cf)
    (hi : i < n) (hc : (G.cur i).comms = c :: cs) : ∃ t ∈ ts i, t.src = cf.st i ∧ part i t.dst = (G.step i).cur i ∧
      t.out = c.out ∧ t.partner = c.partner ∧ t.payload = c.payload.print := by
  obtain ⟨w, hw⟩ := hM.reach i hi
  rw [step_cur hc]
  apply (hX.states i hi w _ hw).2 c
  have hcur : After (partsOf sites i) (G.cur i) c ⟨cs, (G.cur i).next⟩ := by
    generalize G.cur i = P at hc
    obtain ⟨pc, pn⟩ := P
    simp only at hc
    subst hc
    exact .comm
  rcases hM.lag i hi with h | ⟨hk, g, hg, h⟩
  · rw [h]
    exact hcur
  · obtain ⟨d, st, b, h1, h2, h3, h4, _⟩ := hO.path g (by have := hO.le i hi; omega)
    rw [h, h3 i hi]
    refine After.choose (B := st.part b i) ?_ ?_
    · unfold partsOf
      rw [h1]
      exact List.mem_map.mpr ⟨b, h2, rfl⟩
    · have : st.part b i = G.cur i := by
        unfold Ghost.cur
        rw [hg, h4, hk]
        rfl
      rw [this]
      exact hcur

theorem cstep_eta {j : Nat} {a : Action} {t : Trans} (h : t.out = a.1 ∧ t.partner = a.2.1 ∧ t.payload = a.2.2) {c1 c2 : Config}
    (hs : CStep ts c1 j (t.out, t.partner, t.payload) c2) : CStep ts c1 j a c2 := by
  obtain ⟨h1, h2, h3⟩ := h
  rw [h1, h2, h3] at hs
  exact hs

/-- What does not change for a role that does nothing. -/
theorem lag_other (hM : Mach n ts part G cf) {j : Nat} (hj : j < n) (h : j ≠ i) {v : Nat} (hv : v = cf.st j) :
    part j v = (G.step i).cur j ∨
      ((G.step i).k j = 0 ∧ ∃ g, (G.step i).gen j = g + 1 ∧ part j v = ⟨[], ((G.step i).blk g j).next⟩) := by
  subst hv
  rw [step_cur_ne h]
  rcases hM.lag j hj with h' | h'
  · exact .inl h'
  · right
    simp only [Ghost.step, if_neg h]
    exact h'

theorem sim_send (hX : Ctx n sites main code num Y root ts part) (hO : Ok n sites main num root G)
    (hR : Real n sites code num G s) (hM : Mach n ts part G cf) (hi : i < n) (ht : G.tell i = none)
    (hc : (G.cur i).comms = c :: cs) (ho : c.out = true) :
    Ok n sites main num root (G.step i) ∧
    Real n sites code num (G.step i) { s with
        pos := Mesh.upd s.pos (i + 1) (.mesh ((⟨cs, (G.cur i).next⟩ : Part).mesh code num sites i)),
        queue := Mesh.upd s.queue (s.gen (i + 1), i + 1, c.partner + 1)
          (s.queue (s.gen (i + 1), i + 1, c.partner + 1) ++ [.data (code c.payload.print)]) } ∧
    ∃ cf', CStep ts cf i (true, c.partner, c.payload.print) cf' ∧ Mach n ts part (G.step i) cf' := by
  have hC := hX.coh
  obtain ⟨hx, hne⟩ := cur_partner hO hC hi hc
  obtain ⟨l1, l2⟩ := left_send hO hC hi hc ho
  refine ⟨step_ok hO hC hi hc (.inl ho), ?_, ?_⟩
  · constructor
    · exact hR.gen
    · intro j hj hjt
      simp only [Mesh.upd]
      by_cases h : j = i
      · subst h
        rw [if_pos rfl, step_cur hc]
      · rw [if_neg (by omega), step_cur_ne h]
        exact hR.mesh j hj hjt
    · intro j hj rest hr
      have h : j ≠ i := by
        rintro rfl
        have : G.tell j = some rest := hr
        rw [ht] at this; cases this
      simp only [Mesh.upd]
      rw [if_neg (by omega)]
      exact hR.telling j hj rest hr
    · intro g p hp q hq hpq
      simp only [Mesh.upd]
      rw [hR.gen i hi]
      by_cases h : g = G.gen i ∧ ((p = i ∧ q = c.partner) ∨ (p = c.partner ∧ q = i))
      · obtain ⟨rfl, h⟩ := h
        rcases h with ⟨rfl, rfl⟩ | ⟨rfl, rfl⟩
        · rw [if_pos rfl, l1, hR.queue _ _ hp _ hq hpq]
          have hl : Ghost.label sites G (G.gen p) p c.partner = [] := by
            unfold Ghost.label
            rw [if_neg]
            rintro ⟨h1, ⟨d, h2, _⟩, h3, _⟩
            rcases h3 with h3 | ⟨_, rest, h3, _⟩
            · omega
            · rw [ht] at h3; cases h3
          have hl' : Ghost.label sites (G.step p) (G.gen p) p c.partner = [] := hl
          rw [hl, hl']
          simp
        · rw [if_neg, l2, hR.queue _ _ hp _ hq hpq]
          · rfl
          · simp only [Prod.mk.injEq]
            omega
      · rw [if_neg, step_left_other hc h hpq, hR.queue _ _ hp _ hq hpq]
        · rfl
        · simp only [Prod.mk.injEq]
          intro h'
          exact h ⟨h'.1, .inl ⟨by omega, by omega⟩⟩
  · obtain ⟨t, h1, h2, h3, h4, h5, h6⟩ := mach_trans hX hO hM hi hc
    refine ⟨_, cstep_eta (t := t) ⟨by rw [h4, ho], h5, h6⟩ (by
      rw [show t.out = true by rw [h4, ho]]
      exact CStep.send h1 h2 (by rw [h4, ho])), ?_⟩
    constructor
    · intro p hp q hq hpq
      simp only
      by_cases h : p = i ∧ q = c.partner
      · obtain ⟨rfl, rfl⟩ := h
        rw [if_pos ⟨rfl, h5.symm⟩, hM.queue p hp _ hq hpq, h6]
        symm
        apply flatMap_range_append (g := G.gen p)
        · have := hO.le p hp
          show G.gen p < G.top + 1
          omega
        · intro j hj
          rw [left_later _ hj]
          rfl
        · intro j hj
          rw [step_left_other hc (fun h => hj h.1) hpq]
        · rw [l1]
          simp
      · rw [if_neg (by rw [h5]; exact h), hM.queue p hp q hq hpq]
        show _ = (List.range (G.top + 1)).flatMap _
        apply List.flatMap_congr
        intro g _
        congr 1
        by_cases h' : g = G.gen i ∧ ((p = i ∧ q = c.partner) ∨ (p = c.partner ∧ q = i))
        · obtain ⟨rfl, h' | ⟨rfl, rfl⟩⟩ := h'
          · exact absurd h' h
          · exact l2.symm
        · exact (step_left_other hc h' hpq).symm
    · intro j hj
      simp only
      obtain ⟨w, hw⟩ := hM.reach j hj
      by_cases h : j = i
      · subst h
        rw [if_pos rfl]
        exact ⟨_, moves_snoc hw h1 h2⟩
      · rw [if_neg h]
        exact ⟨w, hw⟩
    · intro j hj
      simp only
      by_cases h : j = i
      · subst h
        rw [if_pos rfl]
        exact .inl h3
      · rw [if_neg h]
        exact lag_other hM hj h rfl

theorem sim_recv (hX : Ctx n sites main code num Y root ts part) (hO : Ok n sites main num root G)
    (hR : Real n sites code num G s) (hM : Mach n ts part G cf) (hi : i < n) (ht : G.tell i = none)
    (hc : (G.cur i).comms = c :: cs) (ho : c.out = false) {x : Nat} {l : List Mesh.Msg}
    (hq : s.queue (s.gen (i + 1), c.partner + 1, i + 1) = .data x :: l) :
    x = code c.payload.print ∧ Ok n sites main num root (G.step i) ∧
    Real n sites code num (G.step i) { s with
        pos := Mesh.upd s.pos (i + 1) (.mesh ((⟨cs, (G.cur i).next⟩ : Part).mesh code num sites i)),
        queue := Mesh.upd s.queue (s.gen (i + 1), c.partner + 1, i + 1) l } ∧
    ∃ cf', CStep ts cf i (false, c.partner, c.payload.print) cf' ∧ Mach n ts part (G.step i) cf' := by
  have hC := hX.coh
  obtain ⟨hx, hne⟩ := cur_partner hO hC hi hc
  have hqq := hR.queue (G.gen i) _ hx _ hi hne
  rw [hR.gen i hi] at hq
  rw [hq] at hqq
  -- the message is data
  obtain ⟨d, dl, hd⟩ : ∃ d dl, G.left (G.gen i) c.partner i = d :: dl := by
    cases hl : G.left (G.gen i) c.partner i with
    | cons d dl => exact ⟨d, dl, rfl⟩
    | nil =>
      rw [hl] at hqq
      simp only [List.map_nil, List.nil_append] at hqq
      unfold Ghost.label at hqq
      split at hqq <;> simp at hqq
  obtain ⟨l1, l2, l3⟩ := left_recv hO hC hi hc hd
  rw [hd] at hqq
  simp only [List.map_cons, List.cons_append, List.cons.injEq, Mesh.Msg.data.injEq] at hqq
  obtain ⟨hx1, hl1⟩ := hqq
  have hb : G.left (G.gen i) i c.partner = [] := by
    obtain ⟨a1, a2, a3⟩ := sides hO hC hi hc
    obtain ⟨_, _, _, b4⟩ := receives a1 a2 a3 hd
    exact List.drop_eq_nil_of_le (by omega)
  refine ⟨by rw [hx1, l3], step_ok hO hC hi hc (.inr ⟨d, dl, hd⟩), ?_, ?_⟩
  · constructor
    · exact hR.gen
    · intro j hj hjt
      simp only [Mesh.upd]
      by_cases h : j = i
      · subst h
        rw [if_pos rfl, step_cur hc]
      · rw [if_neg (by omega), step_cur_ne h]
        exact hR.mesh j hj hjt
    · intro j hj rest hr
      have h : j ≠ i := by
        rintro rfl
        have : G.tell j = some rest := hr
        rw [ht] at this; cases this
      simp only [Mesh.upd]
      rw [if_neg (by omega)]
      exact hR.telling j hj rest hr
    · intro g p hp q hq' hpq
      simp only [Mesh.upd]
      rw [hR.gen i hi]
      by_cases h : g = G.gen i ∧ ((p = i ∧ q = c.partner) ∨ (p = c.partner ∧ q = i))
      · obtain ⟨rfl, h⟩ := h
        rcases h with ⟨rfl, rfl⟩ | ⟨rfl, rfl⟩
        · rw [if_neg, l1, hR.queue _ _ hp _ hq' hpq, hb]
          · rfl
          · simp only [Prod.mk.injEq]
            omega
        · rw [if_pos rfl, l2, hl1]
          rfl
      · rw [if_neg, step_left_other hc h hpq, hR.queue _ _ hp _ hq' hpq]
        · rfl
        · simp only [Prod.mk.injEq]
          intro h'
          exact h ⟨h'.1, .inr ⟨by omega, by omega⟩⟩
  · obtain ⟨t, h1, h2, h3, h4, h5, h6⟩ := mach_trans hX hO hM hi hc
    have hmq : cf.queue t.partner i = t.payload :: (List.range (G.top + 1)).flatMap fun g =>
        ((G.step i).left g c.partner i).map fun c => c.payload.print := by
      rw [h5, hM.queue _ hx _ hi hne, h6]
      apply flatMap_range_pop (g := G.gen i)
      · have := hO.le i hi
        omega
      · intro j hj
        rw [left_earlier hO hC hx hi hne (by have := hO.le i hi; omega) (done_before hj)]
        rfl
      · intro j hj
        rw [step_left_other hc (fun h => hj h.1) hne]
      · rw [hd, List.map_cons, l3]
      · rw [l2]
    refine ⟨_, cstep_eta (t := t) ⟨by rw [h4, ho], h5, h6⟩ (by
      rw [show t.out = false by rw [h4, ho]]
      exact CStep.recv h1 h2 (by rw [h4, ho]) hmq), ?_⟩
    constructor
    · intro p hp q hq' hpq
      simp only
      by_cases h : p = c.partner ∧ q = i
      · obtain ⟨rfl, rfl⟩ := h
        rw [if_pos ⟨h5.symm, rfl⟩]
        rfl
      · rw [if_neg (by rw [h5]; exact h), hM.queue p hp q hq' hpq]
        show _ = (List.range (G.top + 1)).flatMap _
        apply List.flatMap_congr
        intro g _
        congr 1
        by_cases h' : g = G.gen i ∧ ((p = i ∧ q = c.partner) ∨ (p = c.partner ∧ q = i))
        · obtain ⟨rfl, ⟨rfl, rfl⟩ | h'⟩ := h'
          · rw [l1, hb]
          · exact absurd h' h
        · exact (step_left_other hc h' hpq).symm
    · intro j hj
      simp only
      obtain ⟨w, hw⟩ := hM.reach j hj
      by_cases h : j = i
      · subst h
        rw [if_pos rfl]
        exact ⟨_, moves_snoc hw h1 h2⟩
      · rw [if_neg h]
        exact ⟨w, hw⟩
    · intro j hj
      simp only
      by_cases h : j = i
      · subst h
        rw [if_pos rfl]
        exact .inl h3
      · rw [if_neg h]
        exact lag_other hM hj h rfl

end Verif.BottomUp
