import Verif.Proof.BottomUpStep

/-! # Programs and the machines of their roles: choices -/
namespace Verif.BottomUp
open Verif.Check Verif.Spec

variable {n : Nat} {sites : List Site} {main : Nat → Part} {code : Str → Nat} {num : Nat → Str → Mesh.Name}
  {Y : Mesh.Sys} {root : Mesh.Name} {ts : Nat → List Trans} {part : Nat → Nat → Part} {G : Ghost} {s : Mesh.S} {cf : Config}
  {i : Nat}

namespace Ghost

/-- Role `i` decides for the block `B` named `N`. -/
def decide (G : Ghost) (n i : Nat) (B : Nat → Part) (N : Mesh.Name) : Ghost where
  top := G.top + 1
  blk := fun g => if g = G.top + 1 then B else G.blk g
  nm := fun g => if g = G.top + 1 then N else G.nm g
  gen := G.gen
  k := G.k
  tell := fun j => if j = i then some ((List.range n).filter (· ≠ i)) else G.tell j

/-- Role `i` tells the next. -/
def told (G : Ghost) (i : Nat) (rest : List Nat) : Ghost :=
  { G with tell := fun j => if j = i then some rest else G.tell j }

/-- Role `i` goes to the next block. -/
def enter (G : Ghost) (i : Nat) : Ghost :=
  { G with gen := fun j => if j = i then G.gen i + 1 else G.gen j
           k := fun j => if j = i then 0 else G.k j
           tell := fun j => if j = i then none else G.tell j }

end Ghost

theorem decide_done (hO : Ok n sites main num root G) (B : Nat → Part) (N : Mesh.Name) (g : Nat) {j : Nat} (hj : j < n) :
    (Ghost.decide G n i B N).done g j = G.done g j := by
  have := hO.le j hj
  unfold Ghost.done Ghost.decide
  simp only
  by_cases h : g = G.top + 1
  · rw [if_neg (by omega), if_neg (by omega), if_neg (by omega), if_neg (by omega)]
  · rw [if_neg h]

theorem decide_left (hO : Ok n sites main num root G) (B : Nat → Part) (N : Mesh.Name) (g : Nat) {p q : Nat} (hp : p < n)
    (hq : q < n) : (Ghost.decide G n i B N).left g p q = G.left g p q := by
  unfold Ghost.left
  rw [decide_done hO B N g hp, decide_done hO B N g hq]

theorem decide_cur (hO : Ok n sites main num root G) (B : Nat → Part) (N : Mesh.Name) {j : Nat} (hj : j < n) :
    (Ghost.decide G n i B N).cur j = G.cur j := by
  have := hO.le j hj
  unfold Ghost.cur Ghost.decide
  simp only
  rw [if_neg (by omega)]

theorem decide_chooses (B : Nat → Part) (N : Mesh.Name) {g : Nat} (hg : g ≤ G.top) {p : Nat} :
    (Ghost.decide G n i B N).Chooses sites g p ↔ G.Chooses sites g p := by
  unfold Ghost.Chooses Ghost.decide
  simp only
  rw [if_neg (by omega)]

theorem enter_done (hall : (G.cur i).comms = []) (g j : Nat) : (G.enter i).done g j = G.done g j := by
  have h0 := done_all hall
  unfold Ghost.done at *
  simp only [Ghost.enter] at *
  by_cases hj : j = i
  · subst hj
    simp only [if_true] at *
    by_cases h : g = G.gen j
    · subst h
      rw [if_neg (by omega)] at h0
      rw [if_pos (by omega), if_neg (by omega), if_pos rfl, h0]
    · by_cases h' : g < G.gen j
      · rw [if_pos (by omega), if_pos h']
      · rw [if_neg (by omega), if_neg h', if_neg h]
        split
        · simp
        · rfl
  · simp only [if_neg hj]

theorem enter_left (hall : (G.cur i).comms = []) (g p q : Nat) : (G.enter i).left g p q = G.left g p q := by
  unfold Ghost.left
  rw [enter_done hall, enter_done hall]

theorem enter_cur_ne {j : Nat} (h : j ≠ i) : (G.enter i).cur j = G.cur j := by
  unfold Ghost.cur Ghost.enter
  simp only [if_neg h]

theorem enter_cur : (G.enter i).cur i = G.blk (G.gen i + 1) i := by
  unfold Ghost.cur Ghost.enter
  simp

/-! ## Deciding -/

theorem decide_ok (hC : Coherent n sites main) (hO : Ok n sites main num root G) (hi : i < n) (htop : G.gen i = G.top)
    (hall : (G.cur i).comms = []) {d : Nat} (hd : (G.blk (G.gen i) i).next = some d) (hch : chooser sites d = i) {st : Site}
    {b : Str} (hst : sites[d]? = some st) (hb : b ∈ st.branches) :
    Ok n sites main num root (G.decide n i (st.part b) (num d b)) where
  le := by
    intro j hj
    have := hO.le j hj
    show G.gen j ≤ G.top + 1
    omega
  root := by
    simp only [Ghost.decide]
    rw [if_neg (by omega), if_neg (by omega)]
    exact hO.root
  path := by
    intro g hg
    have hg : g < G.top + 1 := hg
    by_cases h : g = G.top
    · subst h
      refine ⟨d, st, b, hst, hb, ?_, ?_, ?_⟩
      · intro j hj
        simp only [Ghost.decide]
        rw [if_neg (by omega), (hO.dual hC (Nat.le_refl _)).next j hj i hi, ← htop]
        exact hd
      · simp [Ghost.decide]
      · simp [Ghost.decide]
    · obtain ⟨c', s', b', h1, h2, h3, h4, h5⟩ := hO.path g (by omega)
      refine ⟨c', s', b', h1, h2, ?_, ?_, ?_⟩
      · intro j hj
        simp only [Ghost.decide]
        rw [if_neg (by omega)]
        exact h3 j hj
      · simp only [Ghost.decide]
        rw [if_neg (by omega)]
        exact h4
      · simp only [Ghost.decide]
        rw [if_neg (by omega)]
        exact h5
  kle := by
    intro j hj
    have := hO.le j hj
    simp only [Ghost.decide]
    rw [if_neg (by omega)]
    exact hO.kle j hj
  tell := by
    intro j hj rest hr
    rw [decide_cur hO _ _ hj, decide_chooses _ _ (by have := hO.le j hj; exact this)]
    by_cases h : j = i
    · subst h
      simp only [Ghost.decide, if_true, Option.some.injEq] at hr
      subst hr
      refine ⟨by show G.gen j < G.top + 1; omega, ⟨d, hd, hch⟩, hall, List.nodup_range.filter _, ?_⟩
      intro q hq
      obtain ⟨hq1, hq2⟩ := List.mem_filter.mp hq
      have hq1 := List.mem_range.mp hq1
      refine ⟨hq1, by simpa using hq2, ?_⟩
      show G.gen q ≤ G.gen j
      rw [htop]
      exact hO.le q hq1
    · simp only [Ghost.decide, if_neg h] at hr
      obtain ⟨h1, h2, h3, h4⟩ := hO.tell j hj rest hr
      exact ⟨by show G.gen j < G.top + 1; omega, h2, h3, h4⟩
  decided := by
    intro j hj g hg hcg
    have hg : g < G.top + 1 := hg
    rw [decide_chooses _ _ (by omega)] at hcg
    by_cases h : g = G.top
    · have : j = i := hO.chooser_eq hC (Nat.le_of_eq h) hj hi hcg ⟨d, by rw [h, ← htop]; exact hd, hch⟩
      subst this
      right
      exact ⟨by show G.gen j = g; omega, by simp [Ghost.decide]⟩
    · rcases hO.decided j hj g (by omega) hcg with h' | ⟨h1, h2⟩
      · exact .inl h'
      · right
        refine ⟨h1, ?_⟩
        simp only [Ghost.decide]
        split
        · simp
        · exact h2
  outs := by
    intro g p hp q hq hpq
    rw [decide_left hO _ _ g hp hq]
    exact hO.outs g p hp q hq hpq

theorem decide_label (hC : Coherent n sites main) (hO : Ok n sites main num root G) (hi : i < n) (htop : G.gen i = G.top)
    (ht : G.tell i = none) {d : Nat} (hd : (G.blk (G.gen i) i).next = some d) (hch : chooser sites d = i) (B : Nat → Part)
    (N : Mesh.Name) (g : Nat) {p q : Nat} (hp : p < n) (hq : q < n) (hpq : p ≠ q) :
    (G.decide n i B N).label sites g p q = G.label sites g p q := by
  unfold Ghost.label
  by_cases hg : g < G.top
  · have hnm : (G.decide n i B N).nm (g + 1) = G.nm (g + 1) := by
      simp only [Ghost.decide]
      rw [if_neg (by omega)]
    rw [hnm]
    congr 1
    rw [decide_chooses _ _ (by omega)]
    have htold : (G.decide n i B N).Told g p q ↔ G.Told g p q := by
      unfold Ghost.Told
      simp only [Ghost.decide]
      by_cases h : p = i
      · subst h
        constructor <;> (intro _; left; omega)
      · simp only [if_neg h]
    rw [htold]
    simp only [Ghost.decide]
    have : g < G.top + 1 := by omega
    simp [hg, this]
  · rw [if_neg (c := g < G.top ∧ _) (fun h => hg h.1), if_neg]
    rintro ⟨h1, h2, h3, h4⟩
    have h1 : g < G.top + 1 := h1
    have hg' : g = G.top := by omega
    subst hg'
    rw [decide_chooses _ _ (Nat.le_refl _)] at h2
    have : p = i := hO.chooser_eq hC (Nat.le_refl _) hp hi h2 ⟨d, by rw [← htop]; exact hd, hch⟩
    subst this
    rcases h3 with h3 | ⟨_, rest, h3, h5⟩
    · have : G.top < G.gen p := h3
      omega
    · simp only [Ghost.decide, if_true, Option.some.injEq] at h3
      subst h3
      exact h5 (List.mem_filter.mpr ⟨List.mem_range.mpr hq, by simpa using hpq.symm⟩)

theorem others_eq (n i : Nat) : Mesh.others n (i + 1) = ((List.range n).filter (· ≠ i)).map (· + 1) := by
  unfold Mesh.others
  rw [List.range'_eq_map_range, List.filter_map]
  have h1 : (fun x => 1 + x) = fun x => x + 1 := by funext x; omega
  rw [h1]
  congr 1
  apply List.filter_congr
  intro x _
  simp

theorem sim_decide (hX : Ctx n sites main code num Y root ts part) (hO : Ok n sites main num root G)
    (hR : Real n sites code num G s) (hM : Mach n ts part G cf) (hi : i < n) (ht : G.tell i = none)
    (hall : (G.cur i).comms = []) {d : Nat} (hd : (G.cur i).next = some d) (hch : chooser sites d = i)
    {st : Site} {b : Str} (hst : sites[d]? = some st) (hb : b ∈ st.branches) :
    Ok n sites main num root (G.decide n i (st.part b) (num d b)) ∧
    Real n sites code num (G.decide n i (st.part b) (num d b))
      { s with pos := Mesh.upd s.pos (i + 1) (.telling (num d b) (Mesh.others Y.n (i + 1))) } ∧
    Mach n ts part (G.decide n i (st.part b) (num d b)) cf := by
  have hC := hX.coh
  have hd : (G.blk (G.gen i) i).next = some d := hd
  have htop : G.gen i = G.top := by
    by_contra h
    have := hO.le i hi
    rcases hO.decided i hi (G.gen i) (by omega) ⟨d, hd, hch⟩ with h' | ⟨_, h'⟩
    · omega
    · exact h' ht
  refine ⟨decide_ok hC hO hi htop hall hd hch hst hb, ?_, ?_⟩
  · constructor
    · exact hR.gen
    · intro j hj hjt
      have h : j ≠ i := by
        rintro rfl
        simp [Ghost.decide] at hjt
      simp only [Ghost.decide, if_neg h] at hjt
      simp only [Mesh.upd]
      rw [if_neg (by omega), decide_cur hO _ _ hj]
      exact hR.mesh j hj hjt
    · intro j hj rest hr
      simp only [Mesh.upd]
      by_cases h : j = i
      · subst h
        simp only [Ghost.decide, if_true, Option.some.injEq] at hr
        subst hr
        rw [if_pos rfl, hX.prog.roles, others_eq]
        simp only [Ghost.decide]
        rw [if_pos (by omega)]
      · simp only [Ghost.decide, if_neg h] at hr
        obtain ⟨h1, _⟩ := hO.tell j hj rest hr
        rw [if_neg (by omega), hR.telling j hj rest hr]
        simp only [Ghost.decide]
        rw [if_neg (by omega)]
    · intro g p hp q hq hpq
      rw [decide_left hO _ _ g hp hq, decide_label hC hO hi htop ht hd hch _ _ g hp hq hpq]
      exact hR.queue g p hp q hq hpq
  · constructor
    · intro p hp q hq hpq
      rw [hM.queue p hp q hq hpq]
      show _ = (List.range (G.top + 1 + 1)).flatMap _
      rw [List.range_succ (n := G.top + 1), List.flatMap_append]
      have h1 : ∀ g, (G.decide n i (st.part b) (num d b)).left g p q = G.left g p q := fun g => decide_left hO _ _ g hp hq
      simp only [h1]
      have := hO.le p hp
      simp [left_later q (show G.gen p < G.top + 1 by omega)]
    · exact hM.reach
    · intro j hj
      rw [decide_cur hO _ _ hj]
      rcases hM.lag j hj with h | ⟨hk, g, hg, h⟩
      · exact .inl h
      · refine .inr ⟨hk, g, hg, ?_⟩
        have := hO.le j hj
        simp only [Ghost.decide]
        rw [if_neg (by omega)]
        exact h

/-! ## Telling -/

theorem sim_tell (hO : Ok n sites main num root G) (hR : Real n sites code num G s)
    (hM : Mach n ts part G cf) (hi : i < n) {x : Nat} {rest : List Nat} (ht : G.tell i = some (x :: rest)) :
    Ok n sites main num root (G.told i rest) ∧
    Real n sites code num (G.told i rest) { s with
        pos := Mesh.upd s.pos (i + 1) (.telling (G.nm (G.gen i + 1)) (rest.map (· + 1))),
        queue := Mesh.upd s.queue (s.gen (i + 1), i + 1, x + 1)
          (s.queue (s.gen (i + 1), i + 1, x + 1) ++ [.branch (G.nm (G.gen i + 1))]) } ∧
    Mach n ts part (G.told i rest) cf := by
  obtain ⟨t1, t2, t3, t4, t5⟩ := hO.tell i hi _ ht
  obtain ⟨x1, x2, x3⟩ := t5 x List.mem_cons_self
  have hnx : x ∉ rest := (List.nodup_cons.mp t4).1
  refine ⟨?_, ?_, ?_⟩
  · refine ⟨hO.le, hO.root, hO.path, hO.kle, ?_, ?_, hO.outs⟩
    · intro j hj rest' hr
      by_cases h : j = i
      · subst h
        simp only [Ghost.told, if_true, Option.some.injEq] at hr
        subst hr
        exact ⟨t1, t2, t3, (List.nodup_cons.mp t4).2, fun q hq => t5 q (List.mem_cons_of_mem _ hq)⟩
      · simp only [Ghost.told, if_neg h] at hr
        exact hO.tell j hj rest' hr
    · intro j hj g hg hc
      rcases hO.decided j hj g hg hc with h | ⟨h1, h2⟩
      · exact .inl h
      · refine .inr ⟨h1, ?_⟩
        simp only [Ghost.told]
        split
        · simp
        · exact h2
  · constructor
    · exact hR.gen
    · intro j hj hjt
      have h : j ≠ i := by
        rintro rfl
        simp [Ghost.told] at hjt
      simp only [Ghost.told, if_neg h] at hjt
      simp only [Mesh.upd]
      rw [if_neg (by omega)]
      exact hR.mesh j hj hjt
    · intro j hj rest' hr
      simp only [Mesh.upd]
      by_cases h : j = i
      · subst h
        simp only [Ghost.told, if_true, Option.some.injEq] at hr
        subst hr
        rw [if_pos rfl]
        rfl
      · simp only [Ghost.told, if_neg h] at hr
        rw [if_neg (by omega)]
        exact hR.telling j hj rest' hr
    · intro g p hp q hq hpq
      simp only [Mesh.upd]
      rw [hR.gen i hi]
      have hleft : (G.told i rest).left g p q = G.left g p q := rfl
      rw [hleft]
      by_cases h : g = G.gen i ∧ p = i ∧ q = x
      · obtain ⟨rfl, rfl, rfl⟩ := h
        rw [if_pos rfl, hR.queue _ p hp q hq hpq]
        have hl : G.label sites (G.gen p) p q = [] := by
          unfold Ghost.label
          rw [if_neg]
          rintro ⟨_, _, h | ⟨_, r, h1, h2⟩, _⟩
          · omega
          · rw [ht] at h1
            cases h1
            exact h2 List.mem_cons_self
        have hl' : (G.told p rest).label sites (G.gen p) p q = [.branch (G.nm (G.gen p + 1))] := by
          unfold Ghost.label
          rw [if_pos]
          · rfl
          · exact ⟨t1, t2, .inr ⟨rfl, rest, by simp [Ghost.told], hnx⟩, x3⟩
        rw [hl, hl', List.append_nil]
      · rw [if_neg, hR.queue g p hp q hq hpq]
        · congr 1
          unfold Ghost.label
          have htold : (G.told i rest).Told g p q ↔ G.Told g p q := by
            unfold Ghost.Told
            simp only [Ghost.told]
            by_cases hpi : p = i
            · subst hpi
              simp only [if_true, ht]
              constructor
              · rintro (h1 | ⟨h1, r, h2, h3⟩)
                · exact .inl h1
                · cases h2
                  refine .inr ⟨h1, _, rfl, ?_⟩
                  intro hm
                  rcases List.mem_cons.mp hm with rfl | hm
                  · exact h ⟨h1.symm, rfl, rfl⟩
                  · exact h3 hm
              · rintro (h1 | ⟨h1, r, h2, h3⟩)
                · exact .inl h1
                · cases h2
                  exact .inr ⟨h1, _, rfl, fun hm => h3 (List.mem_cons_of_mem _ hm)⟩
            · simp only [if_neg hpi]
          rw [htold]
          rfl
        · simp only [Prod.mk.injEq]
          intro h'
          exact h ⟨h'.1, by omega, by omega⟩
  · exact ⟨hM.queue, hM.reach, hM.lag⟩

/-! ## Going on -/

/-- Common to entering and heeding. -/
theorem enter_ok (hO : Ok n sites main num root G) (hi : i < n) (hlt : G.gen i < G.top)
    (hall : (G.cur i).comms = [])
    (hrest : ∀ j < n, j ≠ i → ∀ rest, G.tell j = some rest → i ∈ rest → G.gen i < G.gen j) :
    Ok n sites main num root (G.enter i) where
  le := by
    intro j hj
    simp only [Ghost.enter]
    split
    · omega
    · exact hO.le j hj
  root := hO.root
  path := hO.path
  kle := by
    intro j hj
    simp only [Ghost.enter]
    split
    · omega
    · exact hO.kle j hj
  tell := by
    intro j hj rest hr
    have h : j ≠ i := by
      rintro rfl
      simp [Ghost.enter] at hr
    simp only [Ghost.enter, if_neg h] at hr
    obtain ⟨h1, h2, h3, h4, h5⟩ := hO.tell j hj rest hr
    rw [enter_cur_ne h]
    simp only [Ghost.enter, if_neg h]
    refine ⟨h1, h2, h3, h4, fun q hq => ?_⟩
    obtain ⟨a, b, e⟩ := h5 q hq
    refine ⟨a, b, ?_⟩
    split
    · rename_i hqi
      subst hqi
      exact hrest j hj h rest hr hq
    · exact e
  decided := by
    intro j hj g hg hc
    have hc : G.Chooses sites g j := hc
    rcases hO.decided j hj g hg hc with h | ⟨h1, h2⟩
    · left
      simp only [Ghost.enter]
      split
      · subst_vars; omega
      · exact h
    · simp only [Ghost.enter]
      split
      · subst_vars; left; omega
      · exact .inr ⟨h1, h2⟩
  outs := by
    intro g p hp q hq hpq
    rw [enter_left hall]
    exact hO.outs g p hp q hq hpq

theorem enter_mach (hC : Coherent n sites main) (hO : Ok n sites main num root G) (hM : Mach n ts part G cf) (hi : i < n)
    (hall : (G.cur i).comms = []) (hsome : (G.cur i).next ≠ none) : Mach n ts part (G.enter i) cf where
  queue := by
    intro p hp q hq hpq
    rw [hM.queue p hp q hq hpq]
    show _ = (List.range (G.top + 1)).flatMap _
    simp only [enter_left hall]
  reach := hM.reach
  lag := by
    intro j hj
    by_cases h : j = i
    · subst h
      right
      refine ⟨by simp [Ghost.enter], G.gen j, by simp [Ghost.enter], ?_⟩
      rcases hM.lag j hj with h | ⟨hk, g, hg, h⟩
      · rw [h]
        have : G.cur j = ⟨(G.cur j).comms, (G.cur j).next⟩ := rfl
        rw [this, hall]
        rfl
      · exfalso
        have hgd := hO.guarded hC (g := g) (by have := hO.le j hj; omega) j hj
        apply hsome
        show (G.blk (G.gen j) j).next = none
        rw [hg]
        apply hgd
        have : (G.blk (G.gen j) j).comms.drop (G.k j) = [] := hall
        rw [hk, hg] at this
        simpa using this
    · rw [enter_cur_ne h]
      rcases hM.lag j hj with h' | h'
      · exact .inl h'
      · right
        simp only [Ghost.enter, if_neg h]
        exact h'

/-- The types of a block. -/
theorem block_types (hX : Ctx n sites main code num Y root ts part) (hO : Ok n sites main num root G) (hi : i < n) {g : Nat}
    (hg : g < G.top) : Y.types (G.nm (g + 1)) (i + 1) = (G.blk (g + 1) i).mesh code num sites i := by
  obtain ⟨c, st, b, h1, h2, _, h4, h5⟩ := hO.path g hg
  rw [h4, h5]
  exact hX.prog.branch c st h1 b h2 i hi

theorem sim_enter (hX : Ctx n sites main code num Y root ts part) (hO : Ok n sites main num root G)
    (hR : Real n sites code num G s) (hM : Mach n ts part G cf) (hi : i < n) (ht : G.tell i = some []) :
    Ok n sites main num root (G.enter i) ∧
    Real n sites code num (G.enter i) { s with
        pos := Mesh.upd s.pos (i + 1) (.mesh (Y.types (G.nm (G.gen i + 1)) (i + 1))),
        gen := Mesh.upd s.gen (i + 1) (s.gen (i + 1) + 1) } ∧
    Mach n ts part (G.enter i) cf := by
  have hC := hX.coh
  obtain ⟨t1, t2, t3, _, _⟩ := hO.tell i hi _ ht
  refine ⟨?_, ?_, ?_⟩
  · apply enter_ok hO hi t1 t3
    intro j hj hne rest hr hm
    obtain ⟨a1, a2, _, _, a5⟩ := hO.tell j hj rest hr
    obtain ⟨_, _, e⟩ := a5 i hm
    rcases Nat.lt_or_ge (G.gen i) (G.gen j) with h | h
    · exact h
    · have : G.gen j = G.gen i := by omega
      rw [this] at a2
      exact absurd (hO.chooser_eq hC (hO.le i hi) hj hi a2 t2) hne
  · constructor
    · intro j hj
      simp only [Mesh.upd, Ghost.enter]
      by_cases h : j = i
      · subst h
        rw [if_pos rfl, if_pos rfl, hR.gen j hj]
      · rw [if_neg (by omega), if_neg h, hR.gen j hj]
    · intro j hj hjt
      simp only [Mesh.upd]
      by_cases h : j = i
      · subst h
        rw [if_pos rfl, block_types hX hO hj t1, enter_cur]
      · simp only [Ghost.enter, if_neg h] at hjt
        rw [if_neg (by omega), enter_cur_ne h]
        exact hR.mesh j hj hjt
    · intro j hj rest hr
      have h : j ≠ i := by
        rintro rfl
        simp [Ghost.enter] at hr
      simp only [Ghost.enter, if_neg h] at hr
      simp only [Mesh.upd]
      rw [if_neg (by omega), hR.telling j hj rest hr]
      simp only [Ghost.enter, if_neg h]
    · intro g p hp q hq hpq
      rw [enter_left t3]
      show s.queue _ = _
      rw [hR.queue g p hp q hq hpq]
      congr 1
      unfold Ghost.label
      have hiff : (g < G.top ∧ G.Chooses sites g p ∧ G.Told g p q ∧ G.gen q ≤ g) ↔
          ((G.enter i).top > g ∧ (G.enter i).Chooses sites g p ∧ (G.enter i).Told g p q ∧ (G.enter i).gen q ≤ g) := by
        have hch : (G.enter i).Chooses sites g p ↔ G.Chooses sites g p := Iff.rfl
        rw [hch]
        show _ ↔ (G.top > g ∧ _)
        by_cases hpi : p = i
        · subst hpi
          unfold Ghost.Told
          simp only [Ghost.enter, if_true, if_neg hpq.symm, ht]
          constructor
          · rintro ⟨a, b, e, f⟩
            refine ⟨a, b, .inl ?_, f⟩
            rcases e with e | ⟨e, _⟩ <;> omega
          · rintro ⟨a, b, e, f⟩
            refine ⟨a, b, ?_, f⟩
            rcases e with e | ⟨_, r, hr, _⟩
            · rcases Nat.lt_or_ge g (G.gen p) with h | h
              · exact .inl h
              · exact .inr ⟨by omega, [], rfl, by simp⟩
            · cases hr
        · unfold Ghost.Told
          simp only [Ghost.enter, if_neg hpi]
          by_cases hqi : q = i
          · subst hqi
            simp only [if_true]
            constructor
            · rintro ⟨a, b, e, f⟩
              refine ⟨a, b, e, ?_⟩
              rcases Nat.lt_or_ge (G.gen q) g with h | h
              · exact h
              · have : g = G.gen q := by omega
                subst this
                exact absurd (hO.chooser_eq hC (hO.le q hi) hp hi b t2) hpq
            · rintro ⟨a, b, e, f⟩
              exact ⟨a, b, e, by omega⟩
          · simp only [if_neg hqi]
      by_cases hc : g < G.top ∧ G.Chooses sites g p ∧ G.Told g p q ∧ G.gen q ≤ g
      · rw [if_pos hc, if_pos (hiff.mp hc)]
        rfl
      · rw [if_neg hc, if_neg (fun h => hc (hiff.mpr h))]
  · apply enter_mach hC hO hM hi t3
    obtain ⟨c, h, _⟩ := t2
    show (G.blk (G.gen i) i).next ≠ none
    rw [h]
    simp

theorem sim_heed (hX : Ctx n sites main code num Y root ts part) (hO : Ok n sites main num root G)
    (hR : Real n sites code num G s) (hM : Mach n ts part G cf) (hi : i < n) (ht : G.tell i = none)
    (hall : (G.cur i).comms = []) {d : Nat} (hd : (G.cur i).next = some d) (hch : chooser sites d ≠ i) {N : Mesh.Name}
    {l : List Mesh.Msg} (hq : s.queue (s.gen (i + 1), chooser sites d + 1, i + 1) = .branch N :: l) :
    Ok n sites main num root (G.enter i) ∧
    Real n sites code num (G.enter i) { s with
        pos := Mesh.upd s.pos (i + 1) (.mesh (Y.types N (i + 1))),
        gen := Mesh.upd s.gen (i + 1) (s.gen (i + 1) + 1),
        queue := Mesh.upd s.queue (s.gen (i + 1), chooser sites d + 1, i + 1) l } ∧
    Mach n ts part (G.enter i) cf := by
  have hC := hX.coh
  have hd' : (G.blk (G.gen i) i).next = some d := hd
  have hdl := hO.next hC (hO.le i hi) i hi d hd'
  have hxn : chooser sites d < n := by
    unfold chooser
    rw [List.getElem?_eq_getElem hdl]
    exact (hC.sender _ (List.getElem_mem hdl)).1
  have hqq := hR.queue (G.gen i) _ hxn _ hi hch
  rw [hR.gen i hi] at hq
  rw [hq] at hqq
  have hleft : G.left (G.gen i) (chooser sites d) i = [] :=
    left_earlier hO hC hxn hi hch (hO.le i hi) (done_all hall)
  rw [hleft] at hqq
  simp only [List.map_nil, List.nil_append] at hqq
  have hlab : (G.gen i < G.top ∧ G.Chooses sites (G.gen i) (chooser sites d) ∧ G.Told (G.gen i) (chooser sites d) i ∧
      G.gen i ≤ G.gen i) ∧ N = G.nm (G.gen i + 1) ∧ l = [] := by
    unfold Ghost.label at hqq
    split at hqq
    · rename_i h
      simp only [List.cons.injEq, Mesh.Msg.branch.injEq] at hqq
      exact ⟨h, hqq.1, hqq.2⟩
    · cases hqq
  obtain ⟨⟨t1, t2, t3, _⟩, rfl, rfl⟩ := hlab
  have hnc : ¬ G.Chooses sites (G.gen i) i := by
    intro h
    exact hch (hO.chooser_eq hC (hO.le i hi) hxn hi t2 h)
  refine ⟨?_, ?_, ?_⟩
  · apply enter_ok hO hi t1 hall
    intro j hj hne rest hr hm
    obtain ⟨a1, a2, _, _, a5⟩ := hO.tell j hj rest hr
    obtain ⟨_, _, e⟩ := a5 i hm
    rcases Nat.lt_or_ge (G.gen i) (G.gen j) with h | h
    · exact h
    · have hg : G.gen j = G.gen i := by omega
      rw [hg] at a2
      have := hO.chooser_eq hC (hO.le i hi) hj hxn a2 t2
      subst this
      rcases t3 with h | ⟨_, r, h1, h2⟩
      · omega
      · rw [hr] at h1
        cases h1
        exact absurd hm h2
  · constructor
    · intro j hj
      simp only [Mesh.upd, Ghost.enter]
      by_cases h : j = i
      · subst h
        rw [if_pos rfl, if_pos rfl, hR.gen j hj]
      · rw [if_neg (by omega), if_neg h, hR.gen j hj]
    · intro j hj hjt
      simp only [Mesh.upd]
      by_cases h : j = i
      · subst h
        rw [if_pos rfl, block_types hX hO hj t1, enter_cur]
      · simp only [Ghost.enter, if_neg h] at hjt
        rw [if_neg (by omega), enter_cur_ne h]
        exact hR.mesh j hj hjt
    · intro j hj rest hr
      have h : j ≠ i := by
        rintro rfl
        simp [Ghost.enter] at hr
      simp only [Ghost.enter, if_neg h] at hr
      simp only [Mesh.upd]
      rw [if_neg (by omega), hR.telling j hj rest hr]
      simp only [Ghost.enter, if_neg h]
    · intro g p hp q hq' hpq
      rw [enter_left hall]
      simp only [Mesh.upd]
      rw [hR.gen i hi]
      by_cases h : g = G.gen i ∧ p = chooser sites d ∧ q = i
      · obtain ⟨rfl, rfl, rfl⟩ := h
        rw [if_pos rfl, hleft]
        unfold Ghost.label
        rw [if_neg]
        · rfl
        · rintro ⟨_, _, _, h⟩
          simp only [Ghost.enter, if_true] at h
          omega
      · rw [if_neg (by
          simp only [Prod.mk.injEq]
          intro h'
          exact h ⟨h'.1, by omega, by omega⟩), hR.queue g p hp q hq' hpq]
        congr 1
        unfold Ghost.label
        have hiff : (g < G.top ∧ G.Chooses sites g p ∧ G.Told g p q ∧ G.gen q ≤ g) ↔
            ((G.enter i).top > g ∧ (G.enter i).Chooses sites g p ∧ (G.enter i).Told g p q ∧ (G.enter i).gen q ≤ g) := by
          have hchs : (G.enter i).Chooses sites g p ↔ G.Chooses sites g p := Iff.rfl
          rw [hchs]
          show _ ↔ (G.top > g ∧ _)
          by_cases hpi : p = i
          · subst hpi
            unfold Ghost.Told
            simp only [Ghost.enter, if_true, if_neg hpq.symm, ht]
            constructor
            · rintro ⟨a, b, e, f⟩
              refine ⟨a, b, .inl ?_, f⟩
              rcases e with e | ⟨e, _⟩ <;> omega
            · rintro ⟨a, b, e, f⟩
              refine ⟨a, b, .inl ?_, f⟩
              rcases e with e | ⟨_, r, hr, _⟩
              · rcases Nat.lt_or_ge g (G.gen p) with h | h
                · exact h
                · have : g = G.gen p := by omega
                  subst this
                  exact absurd b hnc
              · cases hr
          · unfold Ghost.Told
            simp only [Ghost.enter, if_neg hpi]
            by_cases hqi : q = i
            · subst hqi
              simp only [if_true]
              constructor
              · rintro ⟨a, b, e, f⟩
                refine ⟨a, b, e, ?_⟩
                rcases Nat.lt_or_ge (G.gen q) g with h' | h'
                · exact h'
                · have hg : g = G.gen q := by omega
                  subst hg
                  exact absurd ⟨rfl, hO.chooser_eq hC (hO.le q hi) hp hxn b t2, rfl⟩ h
              · rintro ⟨a, b, e, f⟩
                exact ⟨a, b, e, by omega⟩
            · simp only [if_neg hqi]
        by_cases hc : g < G.top ∧ G.Chooses sites g p ∧ G.Told g p q ∧ G.gen q ≤ g
        · rw [if_pos hc, if_pos (hiff.mp hc)]
          rfl
        · rw [if_neg hc, if_neg (fun h => hc (hiff.mpr h))]
  · apply enter_mach hC hO hM hi hall
    rw [hd]
    simp

end Verif.BottomUp
