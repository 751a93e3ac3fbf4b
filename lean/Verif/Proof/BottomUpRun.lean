import Verif.Proof.BottomUpChoice
import Mathlib.Data.Finset.Max

/-! # Programs and the machines of their roles: runs and progress -/
namespace Verif.BottomUp
open Verif.Check Verif.Spec

variable {n : Nat} {sites : List Site} {main : Nat → Part} {code : Str → Nat} {num : Nat → Str → Mesh.Name}
  {Y : Mesh.Sys} {root : Mesh.Name} {ts : Nat → List Trans} {part : Nat → Nat → Part} {G : Ghost} {s : Mesh.S} {cf : Config}
  {i : Nat}

theorem crun_append {c c1 c2 : Config} {w w' : List (Nat × Action)} (h : CRun n ts c w c1) (h' : CRun n ts c1 w' c2) :
    CRun n ts c (w ++ w') c2 := by
  induction h' with
  | nil => simpa using h
  | snoc _ hi hs ih => rw [← List.append_assoc]; exact .snoc ih hi hs

/-- An action of the machines, as the program sees it. -/
def seen (code : Str → Nat) (a : Nat × Action) : Nat × Bool × Nat × Nat := (a.1 + 1, a.2.1, a.2.2.1 + 1, code a.2.2.2)

/-! ## The start -/

def Ghost.init (main : Nat → Part) (root : Mesh.Name) : Ghost :=
  ⟨0, fun _ => main, fun _ => root, fun _ => 0, fun _ => 0, fun _ => none⟩

theorem init_left (g p q : Nat) : (Ghost.init main root).left g p q = [] := by
  unfold Ghost.left Ghost.done Ghost.init
  simp [withs]

theorem init_cur (j : Nat) : (Ghost.init main root).cur j = main j := by
  unfold Ghost.cur Ghost.init
  simp

theorem sim_init (hX : Ctx n sites main code num Y root ts part) :
    Ok n sites main num root (Ghost.init main root) ∧ Real n sites code num (Ghost.init main root) (Mesh.S.init Y root) ∧
      Mach n ts part (Ghost.init main root) .init := by
  refine ⟨⟨?_, ⟨rfl, rfl⟩, ?_, ?_, ?_, ?_, ?_⟩, ⟨fun _ _ => rfl, ?_, ?_, ?_⟩, ⟨?_, ?_, ?_⟩⟩
  · intro _ _; exact Nat.le_refl _
  · intro g hg; exact absurd hg (Nat.not_lt_zero g)
  · intro _ _; exact Nat.zero_le _
  · intro _ _ _ h; cases h
  · intro _ _ g hg; exact absurd hg (Nat.not_lt_zero g)
  · intro g p _ q _ _ x hx
    rw [init_left] at hx
    cases hx
  · intro j hj _
    rw [init_cur]
    show Mesh.At.mesh (Y.types root (j + 1)) = _
    rw [hX.prog.start j hj]
  · intro _ _ _ h; cases h
  · intro g p _ q _ _
    rw [init_left]
    unfold Ghost.label
    rw [if_neg]
    · rfl
    · rintro ⟨h, _⟩
      exact absurd h (Nat.not_lt_zero g)
  · intro p _ q _ _
    simp only [init_left, List.map_nil, List.flatMap_eq_nil_iff.mpr (fun _ _ => rfl)]
    rfl
  · intro _ _; exact ⟨[], .nil⟩
  · intro j hj
    left
    rw [init_cur]
    exact hX.zero j hj

/-! ## Steps and runs -/

theorem role_pred {r : Nat} (h1 : 1 ≤ r) (h2 : r ≤ Y.n) (hn : Y.n = n) : ∃ i, r = i + 1 ∧ i < n := ⟨r - 1, by omega, by omega⟩

/-- A role that holds a mesh holds that of what it still has to do. -/
theorem held (hR : Real n sites code num G s) (hi : i < n) {M : Mesh.Mesh} (hpos : s.pos (i + 1) = .mesh M) :
    G.tell i = none ∧ M = (G.cur i).mesh code num sites i := by
  cases ht : G.tell i with
  | none =>
    have := hR.mesh i hi ht
    rw [hpos] at this
    cases this
    exact ⟨rfl, rfl⟩
  | some rest =>
    have := hR.telling i hi rest ht
    rw [hpos] at this
    cases this

theorem telling_of (hR : Real n sites code num G s) (hi : i < n) {N : Mesh.Name} {rest : List Nat}
    (hpos : s.pos (i + 1) = .telling N rest) : ∃ r, G.tell i = some r ∧ N = G.nm (G.gen i + 1) ∧ rest = r.map (· + 1) := by
  cases ht : G.tell i with
  | none =>
    have := hR.mesh i hi ht
    rw [hpos] at this
    cases this
  | some r =>
    have := hR.telling i hi r ht
    rw [hpos] at this
    cases this
    exact ⟨r, rfl, rfl, rfl⟩

/-- What a step does to the ghost state. -/
inductive Shift (n : Nat) (sites : List Site) (num : Nat → Str → Mesh.Name) (G : Ghost) : Mesh.Label → Ghost → Prop
  | comm {i : Nat} {c : Comm} {cs : List Comm} {l : Mesh.Label} (hi : i < n) (hc : (G.cur i).comms = c :: cs)
      (hcase : c.out = true ∨ ∃ d l, G.left (G.gen i) c.partner i = d :: l) (hl : l.actor = i + 1)
      (hd : ∀ r N, l ≠ .act r (.decide N)) : Shift n sites num G l (G.step i)
  | decide {i d : Nat} {st : Site} {b : Str} (hi : i < n) (hst : sites[d]? = some st) (hb : b ∈ st.branches)
      (htop : G.gen i = G.top) (hc : (G.cur i).comms = []) (ht : G.tell i = none) :
      Shift n sites num G (.act (i + 1) (.decide (num d b))) (G.decide n i (st.part b) (num d b))
  | tell {i x : Nat} {rest : List Nat} (hi : i < n) (ht : G.tell i = some (x :: rest)) :
      Shift n sites num G (.tell (i + 1) (x + 1)) (G.told i rest)
  | enter {i : Nat} {l : Mesh.Label} (hi : i < n) (hc : (G.cur i).comms = []) (hlt : G.gen i < G.top) (hl : l.actor = i + 1)
      (hd : ∀ r N, l ≠ .act r (.decide N)) : Shift n sites num G l (G.enter i)

/-- A message that is received has been sent in the block of its receiver. -/
theorem recv_left (hC : Coherent n sites main) (hO : Ok n sites main num root G) (hR : Real n sites code num G s) (hi : i < n)
    {c : Comm} {cs : List Comm} (hc : (G.cur i).comms = c :: cs) {x : Nat} {l : List Mesh.Msg}
    (hq : s.queue (s.gen (i + 1), c.partner + 1, i + 1) = .data x :: l) : ∃ d l, G.left (G.gen i) c.partner i = d :: l := by
  obtain ⟨hx, hne⟩ := cur_partner hO hC hi hc
  rw [hR.gen i hi, hR.queue _ _ hx _ hi hne] at hq
  cases hl : G.left (G.gen i) c.partner i with
  | cons d l => exact ⟨d, l, rfl⟩
  | nil =>
    rw [hl] at hq
    simp only [List.map_nil, List.nil_append] at hq
    unfold Ghost.label at hq
    split at hq
    · cases hq
    · cases hq

theorem sim_step (hX : Ctx n sites main code num Y root ts part) (hO : Ok n sites main num root G)
    (hR : Real n sites code num G s) (hM : Mach n ts part G cf) {l : Mesh.Label} {s' : Mesh.S} (hs : Mesh.Step Y s l s') :
    ∃ G' cf' w, Ok n sites main num root G' ∧ Real n sites code num G' s' ∧ Mach n ts part G' cf' ∧ CRun n ts cf w cf' ∧
      commsOf [l] = w.map (seen code) ∧ Shift n sites num G l G' := by
  have hn := hX.prog.roles
  cases hs with
  | send h1 h2 hpos hst hse =>
    obtain ⟨i, rfl, hi⟩ := role_pred h1 h2 hn
    obtain ⟨ht, rfl⟩ := held hR hi hpos
    obtain ⟨c, cs, hc, rfl, ho, rfl, hm⟩ := mesh_send hst hse
    obtain ⟨a, b, cf', d, e⟩ := sim_send hX hO hR hM hi ht hc ho
    rw [hm]
    exact ⟨_, cf', [(i, _)], a, b, e, .snoc .nil hi d, rfl, .comm hi hc (.inl ho) rfl (by simp)⟩
  | recv h1 h2 hpos hst hse hq =>
    obtain ⟨i, rfl, hi⟩ := role_pred h1 h2 hn
    obtain ⟨ht, rfl⟩ := held hR hi hpos
    obtain ⟨c, cs, hc, rfl, ho, rfl, hm⟩ := mesh_recv hst hse
    have hleft : ∃ d l, G.left (G.gen i) c.partner i = d :: l := recv_left hX.coh hO hR hi hc hq
    obtain ⟨rfl, a, b, cf', d, e⟩ := sim_recv hX hO hR hM hi ht hc ho hq
    rw [hm]
    exact ⟨_, cf', [(i, _)], a, b, e, .snoc .nil hi d, rfl, .comm hi hc (.inr hleft) rfl (by simp)⟩
  | @decide r M bs N h1 h2 hpos hst hall hN =>
    obtain ⟨i, rfl, hi⟩ := role_pred h1 h2 hn
    obtain ⟨ht, rfl⟩ := held hR hi hpos
    obtain ⟨hc, d, hd, hch, hse⟩ := mesh_decide hst
    have hbs : bs = branchNames num sites d := by
      obtain ⟨q, hq⟩ : ∃ q, q ∈ Mesh.others Y.n (i + 1) := by
        rw [hn, others_eq]
        have := hX.coh.two
        refine ⟨(if i = 0 then 1 else 0) + 1, List.mem_map.mpr ⟨_, List.mem_filter.mpr ⟨List.mem_range.mpr ?_, ?_⟩, rfl⟩⟩
        · split <;> omega
        · split <;> simp <;> omega
      have h3 := hall q hq
      rw [hse q] at h3
      cases h3
      rfl
    subst hbs
    obtain ⟨st, b, hst', hb, rfl⟩ := branchNames_mem hN
    have htop : G.gen i = G.top := by
      by_contra hlt
      rcases hO.decided i hi (G.gen i) (by have := hO.le i hi; omega) ⟨d, hd, hch⟩ with h | ⟨_, h⟩
      · omega
      · exact h ht
    obtain ⟨a, b, e⟩ := sim_decide hX hO hR hM hi ht hc hd hch hst' hb
    exact ⟨_, cf, [], a, b, e, .nil, rfl, .decide hi hst' hb htop hc ht⟩
  | tell h1 h2 hpos =>
    obtain ⟨i, rfl, hi⟩ := role_pred h1 h2 hn
    obtain ⟨r, ht, rfl, hr⟩ := telling_of hR hi hpos
    cases r with
    | nil => cases hr
    | cons x rest =>
      simp only [List.map_cons, List.cons.injEq] at hr
      obtain ⟨rfl, rfl⟩ := hr
      obtain ⟨a, b, e⟩ := sim_tell hO hR hM hi ht
      exact ⟨_, cf, [], a, b, e, .nil, rfl, .tell hi ht⟩
  | enter h1 h2 hpos =>
    obtain ⟨i, rfl, hi⟩ := role_pred h1 h2 hn
    obtain ⟨r, ht, rfl, hr⟩ := telling_of hR hi hpos
    cases r with
    | nil =>
      obtain ⟨h1, _, h3, _⟩ := hO.tell i hi _ ht
      obtain ⟨a, b, e⟩ := sim_enter hX hO hR hM hi ht
      exact ⟨_, cf, [], a, b, e, .nil, rfl, .enter hi h3 h1 rfl (by simp)⟩
    | cons x rest => cases hr
  | heed h1 h2 hpos hst hse hq =>
    obtain ⟨i, rfl, hi⟩ := role_pred h1 h2 hn
    obtain ⟨ht, rfl⟩ := held hR hi hpos
    obtain ⟨hc, d, hd, hch, rfl⟩ := mesh_heed hst hse
    obtain ⟨a, b, e⟩ := sim_heed hX hO hR hM hi ht hc hd hch hq
    have hlt := a.le i hi
    simp only [Ghost.enter, if_true] at hlt
    exact ⟨_, cf, [], a, b, e, .nil, rfl, .enter hi hc hlt rfl (by simp)⟩

theorem commsOf_append (l l' : List Mesh.Label) : commsOf (l ++ l') = commsOf l ++ commsOf l' := by
  unfold commsOf
  rw [List.filterMap_append]

theorem sim_run (hX : Ctx n sites main code num Y root ts part) {ls : List Mesh.Label} {s0 s : Mesh.S}
    (hr : Mesh.Run Y s0 ls s) (h0 : s0 = Mesh.S.init Y root) :
    ∃ G cf w, Ok n sites main num root G ∧ Real n sites code num G s ∧ Mach n ts part G cf ∧
      CRun n ts .init w cf ∧ commsOf ls = w.map (seen code) := by
  induction hr with
  | nil =>
    subst h0
    obtain ⟨a, b, c⟩ := sim_init hX
    exact ⟨_, _, [], a, b, c, .nil, rfl⟩
  | snoc _ hs ih =>
    obtain ⟨G, cf, w, a, b, c, d, e⟩ := ih
    obtain ⟨G', cf', w', a', b', c', d', e', _⟩ := sim_step hX a b c hs
    exact ⟨G', cf', w ++ w', a', b', c', crun_append d d', by rw [commsOf_append, e, e', List.map_append]⟩

/-! ## Progress -/

/-- Roles that wait for each other wait for ever. -/
theorem blocked {W : Nat → Prop} {wait : Nat → Nat}
    (hW : ∀ i, W i → W (wait i) ∧ cf.queue (wait i) i = [] ∧
      ∀ t ∈ ts i, t.src = cf.st i → t.out = false ∧ t.partner = wait i)
    {w : List (Nat × Action)} {cf' : Config} (hr : CRun n ts cf w cf') :
    (∀ i, W i → cf'.st i = cf.st i ∧ cf'.queue (wait i) i = []) ∧ ∀ i, W i → ∀ a cf'', ¬ CStep ts cf' i a cf'' := by
  have key : ∀ cf' : Config, (∀ i, W i → cf'.st i = cf.st i ∧ cf'.queue (wait i) i = []) →
      ∀ i, W i → ∀ a cf'', ¬ CStep ts cf' i a cf'' := by
    intro cf' h i hi a cf'' hs
    obtain ⟨_, _, h3⟩ := hW i hi
    obtain ⟨h4, h5⟩ := h i hi
    cases hs with
    | send ht hsrc ho =>
      have := (h3 _ ht (hsrc.trans h4)).1
      rw [ho] at this
      cases this
    | recv ht hsrc ho hq =>
      have := (h3 _ ht (hsrc.trans h4)).2
      rw [this, h5] at hq
      cases hq
  have main : ∀ i, W i → cf'.st i = cf.st i ∧ cf'.queue (wait i) i = [] := by
    induction hr with
    | nil => intro i hi; exact ⟨rfl, (hW i hi).2.1⟩
    | @snoc c1 c2 w j a _ hj hs ih =>
      have hnot := key _ ih
      intro i hi
      obtain ⟨h1, h2⟩ := ih i hi
      have hij : i ≠ j := by
        rintro rfl
        exact hnot i hi _ _ hs
      have hwj : wait i ≠ j := by
        rintro rfl
        exact hnot _ (hW i hi).1 _ _ hs
      cases hs with
      | send ht hsrc ho =>
        simp only
        rw [if_neg hij, if_neg (fun h => hwj h.1)]
        exact ⟨h1, h2⟩
      | recv ht hsrc ho hq =>
        simp only
        rw [if_neg hij, if_neg (fun h => hij h.2)]
        exact ⟨h1, h2⟩
  exact ⟨main, key cf' main⟩

theorem after_cons {parts : Nat → List Part} {P Q : Part} {c d : Comm} {cs : List Comm} (hP : P.comms = c :: cs)
    (h : After parts P d Q) : d = c := by
  cases h with
  | comm => simp only [List.cons.injEq] at hP; exact hP.1
  | choose => cases hP

/-- If nobody can communicate in the block, everybody has done all that can be done. -/
theorem gets_done (hC : Coherent n sites main) (hO : Ok n sites main num root G) {g : Nat} (hg : g ≤ G.top)
    (hmin : ∀ j < n, g ≤ G.gen j)
    (hwait : ∀ i < n, ∀ c cs, (G.cur i).comms = c :: cs → c.out = false ∧ G.left (G.gen i) c.partner i = [])
    {i m : Nat} (h : Gets (G.blk g) i m) : i < n → m ≤ (G.done g i).length := by
  have here : ∀ i < n, ∀ k c, (G.blk g i).comms[k]? = some c → k ≤ (G.done g i).length → ¬ k + 1 ≤ (G.done g i).length →
      G.gen i = g ∧ G.done g i = (G.blk g i).comms.take k ∧ ∃ cs, (G.cur i).comms = c :: cs := by
    intro i hi k c hc h1 h2
    obtain ⟨hk, hck⟩ := List.getElem?_eq_some_iff.mp hc
    have hgi : G.gen i = g := by
      by_contra hne
      have := hmin i hi
      rw [done_before (by omega)] at h2
      omega
    subst hgi
    have h3 := done_now (G := G) (i := i)
    have h4 := congrArg List.length h3
    rw [List.length_take] at h4
    have hki : G.k i = k := by
      have := hO.kle i hi
      omega
    refine ⟨rfl, by rw [h3, hki], (G.blk (G.gen i) i).comms.drop (k + 1), ?_⟩
    unfold Ghost.cur
    simp only
    rw [hki, List.drop_eq_getElem_cons hk, hck]
  induction h with
  | zero => intro _; exact Nat.zero_le _
  | send _ hc ho ih =>
    intro hi
    by_contra hlt
    obtain ⟨_, _, cs, hcs⟩ := here _ hi _ _ hc (ih hi) hlt
    rw [(hwait _ hi _ cs hcs).1] at ho
    cases ho
  | @recv i k m c _ hc ho _ hm ih ih' =>
    intro hi
    by_contra hlt
    obtain ⟨hgi, hd, cs, hcs⟩ := here _ hi _ _ hc (ih hi) hlt
    have hl := (hwait _ hi _ cs hcs).2
    have hx := (cur_partner hO hC hi hcs).1
    have hm' := ih' hx
    rw [hgi] at hl
    unfold Ghost.left at hl
    rw [List.drop_eq_nil_iff, hd] at hl
    have hp : (G.blk g c.partner).comms.take m <+: G.done g c.partner := by
      obtain ⟨t, ht⟩ := done_prefix G g c.partner
      rw [← ht, List.take_append_of_le_length hm']
      exact List.take_prefix _ _
    have := (withs_prefix i hp).length_le
    omega

/-- If nobody can do anything but decide, everybody is at the end of the last block. -/
theorem settled (hX : Ctx n sites main code num Y root ts part) (hE : Begins n sites) (hP : Progress n ts)
    (hO : Ok n sites main num root G) (hR : Real n sites code num G s) (hM : Mach n ts part G cf) {w : List (Nat × Action)}
    (hrun : CRun n ts .init w cf) (hnd : ∀ l s', Mesh.Step Y s l s' → ∃ r N, l = .act r (.decide N)) :
    ∀ i < n, G.tell i = none ∧ G.gen i = G.top ∧ (G.cur i).comms = [] := by
  have hno : ¬ ∃ l s', (∀ r N, l ≠ .act r (.decide N)) ∧ Mesh.Step Y s l s' := by
    rintro ⟨l, s', h1, h2⟩
    obtain ⟨r, N, h⟩ := hnd l s' h2
    exact h1 r N h
  have hC := hX.coh
  have hn := hX.prog.roles
  -- nobody is telling
  have htell : ∀ i < n, G.tell i = none := by
    intro i hi
    cases ht : G.tell i with
    | none => rfl
    | some rest =>
      exfalso
      have hpos := hR.telling i hi rest ht
      cases rest with
      | nil => exact hno ⟨_, _, (by simp), .enter (by omega) (by omega) hpos⟩
      | cons x rest => exact hno ⟨_, _, (by simp), .tell (by omega) (by omega) hpos⟩
  have hmesh := fun i (hi : i < n) => hR.mesh i hi (htell i hi)
  -- those who communicate wait
  have hwait : ∀ i < n, ∀ c cs, (G.cur i).comms = c :: cs → c.out = false ∧ G.left (G.gen i) c.partner i = [] := by
    intro i hi c cs hc
    obtain ⟨hx, hne⟩ := cur_partner hO hC hi hc
    have hst : ((G.cur i).mesh code num sites i).stack =
        .role (c.partner + 1) (partnersThen (partnersLast sites i (G.cur i).next) cs) := by
      simp only [Part.mesh, hc, partnersThen]
    cases ho : c.out with
    | true =>
      exfalso
      exact hno ⟨_, _, (by simp), .send (by omega) (by omega) (hmesh i hi) hst (by simp only [Part.mesh, hc, sessionOf, if_true, ho]; rfl)⟩
    | false =>
      refine ⟨rfl, ?_⟩
      cases hl : G.left (G.gen i) c.partner i with
      | nil => rfl
      | cons d l =>
        exfalso
        have hq := hR.queue (G.gen i) _ hx _ hi hne
        rw [hl, ← hR.gen i hi, List.map_cons, List.cons_append] at hq
        exact hno ⟨_, _, (by simp), .recv (m := code c.payload.print)
          (T := sessionOf code (c.partner + 1) (sessionLast num sites i (c.partner + 1) (G.cur i).next) cs)
          (by omega) (by omega) (hmesh i hi) hst (by simp only [Part.mesh, hc, sessionOf, if_true, ho]; rfl) hq⟩
  -- the least block
  obtain ⟨i0, hi0, hmin⟩ := Finset.exists_min_image (Finset.range n) G.gen ⟨0, by have := hC.two; simp; omega⟩
  have hi0 : i0 < n := Finset.mem_range.mp hi0
  have hmin : ∀ j < n, G.gen i0 ≤ G.gen j := fun j hj => hmin j (Finset.mem_range.mpr hj)
  by_cases hA : ∃ i, i < n ∧ G.gen i = G.gen i0 ∧ (G.cur i).comms ≠ []
  · -- those who wait in the least block, wait for each other
    obtain ⟨i1, hi1, hg1, hc1⟩ := hA
    let W : Nat → Prop := fun i => i < n ∧ G.gen i = G.gen i0 ∧ (G.cur i).comms ≠ []
    let wait : Nat → Nat := fun i => match (G.cur i).comms with
      | [] => 0
      | c :: _ => c.partner
    have hwt : ∀ i c cs, (G.cur i).comms = c :: cs → wait i = c.partner := by
      intro i c cs h
      simp only [wait, h]
    have hWw : ∀ i, W i → W (wait i) := by
      rintro i ⟨hi, hg, hne⟩
      obtain ⟨c, cs, hc⟩ := List.exists_cons_of_ne_nil hne
      rw [hwt i c cs hc]
      obtain ⟨hx, hxi⟩ := cur_partner hO hC hi hc
      obtain ⟨_, hl⟩ := hwait i hi c cs hc
      obtain ⟨a1, a2, a3⟩ := sides hO hC hi hc
      have hnf := not_full a1 a2 hl
      have hle : G.gen c.partner ≤ G.gen i := by
        by_contra h
        exact hnf (by rw [done_before (by omega)])
      have := hmin _ hx
      refine ⟨hx, by omega, fun h => ?_⟩
      have hd := done_all h
      rw [show G.gen c.partner = G.gen i by omega] at hd
      exact hnf (by rw [hd])
    -- the machines have nothing else to do
    have hmach : ∀ i, W i → ∀ c cs, (G.cur i).comms = c :: cs → ∀ d Q, After (partsOf sites i) (part i (cf.st i)) d Q → d = c := by
      rintro i ⟨hi, hg, hne⟩ c cs hc d Q had
      rcases hM.lag i hi with h | ⟨hk, g, hgg, h⟩
      · rw [h] at had
        exact after_cons hc had
      · obtain ⟨e, st, b, h1, h2, h3, h4, _⟩ := hO.path g (by have := hO.le i hi; omega)
        have hB : ∀ j, G.blk (G.gen i) j = st.part b j := fun j => by rw [hgg, h4]
        have hcur : st.part b i = G.cur i := by
          unfold Ghost.cur
          rw [hk, hB]
          rfl
        by_cases h2b : 2 ≤ st.branches.length
        · exfalso
          have hge := hE st (List.mem_of_getElem? h1) h2b b h2 i hi (by rw [hcur, hc]; simp)
          have hblk : G.blk (G.gen i) = st.part b := funext hB
          rw [← hblk] at hge
          have := gets_done hC hO (hO.le i hi) (fun j hj => by rw [hg]; exact hmin j hj) hwait hge hi
          rw [done_now, hk] at this
          simp at this
        · have hb1 : ∀ B ∈ partsOf sites i e, B = st.part b i := by
            intro B hB'
            unfold partsOf at hB'
            rw [h1] at hB'
            simp only at hB'
            obtain ⟨b', hb', rfl⟩ := List.mem_map.mp hB'
            have : b' = b := by
              obtain ⟨x, hx⟩ : ∃ x, st.branches = [x] := by
                cases hbr : st.branches with
                | nil => rw [hbr] at h2; cases h2
                | cons x l =>
                  cases l with
                  | nil => exact ⟨x, rfl⟩
                  | cons y l => rw [hbr] at h2b; simp at h2b
              rw [hx] at hb' h2
              rw [List.mem_singleton.mp hb', List.mem_singleton.mp h2]
            rw [this]
          rw [h, h3 i hi] at had
          cases had with
          | choose hB' hd' =>
            rw [hb1 _ hB', hcur] at hd'
            exact after_cons hc hd'
    have hWall : ∀ i, W i → W (wait i) ∧ cf.queue (wait i) i = [] ∧
        ∀ t ∈ ts i, t.src = cf.st i → t.out = false ∧ t.partner = wait i := by
      rintro i ⟨hi, hg, hne⟩
      refine ⟨hWw i ⟨hi, hg, hne⟩, ?_, ?_⟩
      · obtain ⟨c, cs, hc⟩ := List.exists_cons_of_ne_nil hne
        obtain ⟨hx, hgx, hnx⟩ := hWw i ⟨hi, hg, hne⟩
        rw [hwt i c cs hc] at *
        obtain ⟨_, hxi⟩ := cur_partner hO hC hi hc
        obtain ⟨_, hl⟩ := hwait i hi c cs hc
        rw [hM.queue _ hx _ hi hxi, List.flatMap_eq_nil_iff]
        intro g hgm
        rw [List.map_eq_nil_iff]
        rcases Nat.lt_trichotomy g (G.gen i) with h | h | h
        · exact left_earlier hO hC hx hi hxi (by have := hO.le i hi; omega) (done_before h)
        · rw [h]; exact hl
        · exact left_later _ (by omega)
      · intro t ht hsrc
        obtain ⟨c, cs, hc⟩ := List.exists_cons_of_ne_nil hne
        obtain ⟨wv, hwv⟩ := hM.reach i hi
        obtain ⟨d, hd, a1, a2, _⟩ := (hX.states i hi wv _ hwv).1 t ht hsrc
        have := hmach i ⟨hi, hg, hne⟩ c cs hc d _ hd
        subst this
        rw [a1, a2, hwt i _ cs hc]
        exact ⟨(hwait i hi _ cs hc).1, rfl⟩
    have hrec : Receiving ts cf i1 := by
      refine ⟨?_, fun t ht hsrc => ((hWall i1 ⟨hi1, hg1, hc1⟩).2.2 t ht hsrc).1⟩
      obtain ⟨c, cs, hc⟩ := List.exists_cons_of_ne_nil hc1
      obtain ⟨t, h1, h2, _⟩ := mach_trans hX hO hM hi1 hc
      exact ⟨t, h1, h2⟩
    obtain ⟨w', cf', a, cf'', hr', hs'⟩ := hP w cf i1 hrun hi1 hrec
    exact ((blocked hWall hr').2 i1 ⟨hi1, hg1, hc1⟩ a cf'' hs').elim
  · -- all are at the end of the least block
    have hend : ∀ i < n, G.gen i = G.gen i0 → (G.cur i).comms = [] := by
      intro i hi hg
      by_contra h
      exact hA ⟨i, hi, hg, h⟩
    have htop : G.gen i0 = G.top := by
      by_contra hlt
      have hlt : G.gen i0 < G.top := by
        have := hO.le i0 hi0
        omega
      obtain ⟨d, st, b, h1, _, hnext, _⟩ := hO.path (G.gen i0) hlt
      obtain ⟨hsn, _⟩ := hC.sender _ (List.mem_of_getElem? h1)
      have hch : chooser sites d = st.sender := by
        unfold chooser
        rw [h1]
      have hxn : chooser sites d < n := by rw [hch]; exact hsn
      have hgt : G.gen i0 < G.gen (chooser sites d) := by
        rcases hO.decided _ hxn _ hlt ⟨d, hnext _ hxn, rfl⟩ with h | ⟨_, h⟩
        · exact h
        · exact absurd (htell _ hxn) h
      have hne : chooser sites d ≠ i0 := by
        intro h
        rw [h] at hgt
        omega
      have hci := hend i0 hi0 rfl
      have hni : (G.cur i0).next = some d := hnext i0 hi0
      have hq := hR.queue (G.gen i0) _ hxn _ hi0 hne
      rw [left_earlier hO hC hxn hi0 hne (hO.le i0 hi0) (done_all hci)] at hq
      have hlab : G.label sites (G.gen i0) (chooser sites d) i0 = [.branch (G.nm (G.gen i0 + 1))] := by
        unfold Ghost.label
        rw [if_pos]
        exact ⟨hlt, ⟨d, hnext _ hxn, rfl⟩, .inl hgt, Nat.le_refl _⟩
      rw [hlab, ← hR.gen i0 hi0] at hq
      refine hno ⟨_, _, (by simp), .heed (bs := branchNames num sites d) (by omega) (by omega) (hmesh _ hi0) ?_ ?_ hq⟩
      · simp only [Part.mesh, hci, hni, partnersThen, partnersLast]
        rw [if_neg hne]
      · simp only [Part.mesh, hci, hni, sessionOf, sessionLast]
        rw [if_neg hne, if_pos trivial]
    intro i hi
    have hgi : G.gen i = G.gen i0 := by
      have := hmin i hi
      have := hO.le i hi
      omega
    exact ⟨htell i hi, by omega, hend i hi hgi⟩

/-- At the end of the last block, a role that has not ended has a choice before it, and the chooser can decide. -/
theorem decides (hX : Ctx n sites main code num Y root ts part) (hO : Ok n sites main num root G)
    (hR : Real n sites code num G s) (hset : ∀ i < n, G.tell i = none ∧ G.gen i = G.top ∧ (G.cur i).comms = [])
    {i : Nat} (hi : i < n) (hun : ¬ Mesh.Finished s (i + 1)) :
    ∃ x N s', x < n ∧ Mesh.Step Y s (.act (x + 1) (.decide N)) s' := by
  have hC := hX.coh
  have hn := hX.prog.roles
  cases hnx : (G.cur i).next with
  | none =>
    exfalso
    apply hun
    refine ⟨_, hR.mesh i hi (hset i hi).1, ?_⟩
    simp only [Part.mesh, (hset i hi).2.2, hnx, partnersThen, partnersLast]
  | some d =>
    have hdl := hO.next hC (hO.le i hi) i hi d hnx
    have hsd : sites[d]? = some sites[d] := List.getElem?_eq_getElem hdl
    obtain ⟨hsn, hbr⟩ := hC.sender _ (List.getElem_mem hdl)
    have hch : chooser sites d = sites[d].sender := by
      unfold chooser
      rw [hsd]
    have hxn : chooser sites d < n := by rw [hch]; exact hsn
    obtain ⟨h1, h2, h3⟩ := hset _ hxn
    have hnx' : (G.cur (chooser sites d)).next = some d := by
      show (G.blk (G.gen (chooser sites d)) (chooser sites d)).next = some d
      rw [h2, (hO.dual hC (Nat.le_refl _)).next _ hxn i hi, ← (hset i hi).2.1]
      exact hnx
    obtain ⟨b, hb⟩ := List.exists_mem_of_ne_nil _ hbr
    refine ⟨_, _, _, hxn, .decide (N := num d b) (bs := branchNames num sites d) (by omega) (by omega) (hR.mesh _ hxn h1) ?_ ?_ ?_⟩
    · simp only [Part.mesh, h3, hnx', partnersThen, partnersLast, if_true]
    · intro q _
      simp only [Part.mesh, h3, hnx', sessionOf, sessionLast, if_true]
    · unfold branchNames
      rw [hsd]
      exact List.mem_map.mpr ⟨b, hb, rfl⟩

theorem progress (hX : Ctx n sites main code num Y root ts part) (hE : Begins n sites) (hP : Progress n ts)
    (hO : Ok n sites main num root G) (hR : Real n sites code num G s) (hM : Mach n ts part G cf) {w : List (Nat × Action)}
    (hrun : CRun n ts .init w cf) (hun : ∃ r, 1 ≤ r ∧ r ≤ n ∧ ¬ Mesh.Finished s r) : ∃ l s', Mesh.Step Y s l s' := by
  by_contra hno
  have hset := settled hX hE hP hO hR hM hrun (fun l s' h => absurd ⟨l, s', h⟩ hno)
  obtain ⟨r, h1, h2, h3⟩ := hun
  obtain ⟨i, rfl, hi⟩ := role_pred h1 (by rw [hX.prog.roles]; exact h2) hX.prog.roles
  obtain ⟨x, N, s', _, h⟩ := decides hX hO hR hset hi h3
  exact hno ⟨_, _, h⟩

end Verif.BottomUp
