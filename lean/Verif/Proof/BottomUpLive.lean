import Verif.Proof.BottomUpRun
import Verif.Proof.MeshPossible
import Mathlib.Algebra.BigOperators.Group.Finset.Basic
import Mathlib.Algebra.Order.BigOperators.Group.Finset

/-! # Programs and the machines of their roles: every role can go on -/
namespace Verif.BottomUp
open Verif.Check Verif.Spec

variable {n : Nat} {sites : List Site} {main : Nat → Part} {code : Str → Nat} {num : Nat → Str → Mesh.Name}
  {Y : Mesh.Sys} {root : Mesh.Name} {ts : Nat → List Trans} {part : Nat → Nat → Part} {G G' : Ghost} {s : Mesh.S} {cf : Config}
  {i j h g : Nat} {l : Mesh.Label}

/-! ## What has been done can be done -/

def AllGets (n : Nat) (G : Ghost) : Prop := ∀ g ≤ G.top, ∀ i < n, Gets (G.blk g) i (G.done g i).length

theorem done_take (G : Ghost) (g i : Nat) : (G.blk g i).comms.take (G.done g i).length = G.done g i := by
  obtain ⟨t, ht⟩ := done_prefix G g i
  rw [← ht]
  simp

theorem shift_gets (hC : Coherent n sites main) (hO : Ok n sites main num root G) (hs : Shift n sites num G l G')
    (ha : AllGets n G) : AllGets n G' := by
  intro g hg j hj
  cases hs with
  | @comm i c cs l hi hc hcase hl =>
    show Gets (G.blk g) j _
    by_cases hx : g = G.gen i ∧ j = i
    · obtain ⟨rfl, rfl⟩ := hx
      rw [step_done hc, List.length_append]
      have hc' : (G.blk (G.gen j) j).comms[(G.done (G.gen j) j).length]? = some c := prefix_snoc (done_snoc hc)
      have hG := ha _ hg j hj
      cases ho : c.out with
      | true => exact .send hG hc' ho
      | false =>
        rcases hcase with h | ⟨d, l, hd⟩
        · rw [ho] at h; cases h
        · obtain ⟨hxn, _⟩ := cur_partner hO hC hi hc
          refine .recv hG hc' ho (ha _ hg _ hxn) ?_
          rw [done_take, done_take]
          unfold Ghost.left at hd
          by_contra hle
          rw [List.drop_eq_nil_of_le (by omega)] at hd
          cases hd
    · rw [step_done_ne hx]
      exact ha g hg j hj
  | decide hi hst hb =>
    rw [decide_done hO _ _ _ hj]
    simp only [Ghost.decide] at hg ⊢
    by_cases hgt : g = G.top + 1
    · rw [done_after (by have := hO.le j hj; omega)]
      exact .zero
    · rw [if_neg hgt]
      exact ha g (by omega) j hj
  | tell => exact ha g hg j hj
  | enter hi hc =>
    rw [enter_done hc]
    exact ha g hg j hj

/-- The program, the ghost state and the machines, somewhere in a run. -/
structure Sim (n : Nat) (sites : List Site) (main : Nat → Part) (code : Str → Nat) (num : Nat → Str → Mesh.Name)
    (root : Mesh.Name) (ts : Nat → List Trans) (part : Nat → Nat → Part) (G : Ghost) (s : Mesh.S) : Prop where
  ok : Ok n sites main num root G
  gets : AllGets n G
  real : Real n sites code num G s
  mach : ∃ cf w, Mach n ts part G cf ∧ CRun n ts .init w cf

theorem Sim.step (hX : Ctx n sites main code num Y root ts part) (hS : Sim n sites main code num root ts part G s)
    {s' : Mesh.S} (hs : Mesh.Step Y s l s') :
    ∃ G', Sim n sites main code num root ts part G' s' ∧ Shift n sites num G l G' := by
  obtain ⟨cf, w, hM, hw⟩ := hS.mach
  obtain ⟨G', cf', w', a, b, c, d, _, e⟩ := sim_step hX hS.ok hS.real hM hs
  exact ⟨G', ⟨a, shift_gets hX.coh hS.ok e hS.gets, b, cf', _, c, crun_append hw d⟩, e⟩

/-! ## What is still to do -/

/-- What role `i` has still to do in block `g`. -/
def todo (G : Ghost) (i g : Nat) : Nat := (G.blk g i).comms.length - (G.done g i).length

/-- The steps of role `i` up to the end of block `h`. -/
def cost (G : Ghost) (i h : Nat) : Nat :=
  ((List.range (h + 1)).map (todo G i)).sum + (h - G.gen i) + ((G.tell i).getD []).length

/-- Role `i` has done block `h`. -/
def Past (G : Ghost) (i h : Nat) : Prop := G.done h i = (G.blk h i).comms

theorem done_le (G : Ghost) (g i : Nat) : (G.done g i).length ≤ (G.blk g i).comms.length := (done_prefix G g i).length_le

theorem sum_lt {f f' : Nat → Nat} {m g : Nat} (hg : g < m) (hlt : f' g < f g) (hle : ∀ x < m, f' x ≤ f x) :
    ((List.range m).map f').sum < ((List.range m).map f).sum := by
  induction m with
  | zero => exact absurd hg (Nat.not_lt_zero _)
  | succ m ih =>
    rw [List.range_succ, List.map_append, List.map_append, List.sum_append, List.sum_append]
    simp only [List.map_cons, List.map_nil, List.sum_cons, List.sum_nil, Nat.add_zero]
    have h1 := hle m (by omega)
    by_cases hgm : g = m
    · subst hgm
      have : ((List.range g).map f').sum ≤ ((List.range g).map f).sum := by
        clear ih hg
        have hle' : ∀ x < g, f' x ≤ f x := fun x hx => hle x (by omega)
        clear hle hlt h1
        induction g with
        | zero => simp
        | succ g ih =>
          rw [List.range_succ, List.map_append, List.map_append, List.sum_append, List.sum_append]
          simp only [List.map_cons, List.map_nil, List.sum_cons, List.sum_nil, Nat.add_zero]
          have := ih (fun x hx => hle' x (by omega))
          have := hle' g (by omega)
          omega
      omega
    · have := ih (by omega) (fun x hx => hle x (by omega))
      omega

theorem sum_eq {f f' : Nat → Nat} {m : Nat} (h : ∀ x < m, f' x = f x) :
    ((List.range m).map f').sum = ((List.range m).map f).sum := by
  congr 1
  apply List.map_congr_left
  intro x hx
  exact h x (List.mem_range.mp hx)

theorem cost_step (hO : Ok n sites main num root G) {c : Comm} {cs : List Comm} (hi : i < n) (hc : (G.cur i).comms = c :: cs)
    (hh : G.gen i ≤ h) : cost (G.step i) i h < cost G i h := by
  unfold cost
  have h1 : ((List.range (h + 1)).map (todo (G.step i) i)).sum < ((List.range (h + 1)).map (todo G i)).sum := by
    refine sum_lt (g := G.gen i) (by omega) ?_ ?_
    · unfold todo
      rw [step_done hc]
      have := (done_snoc hc).length_le
      simp only [List.length_append, List.length_cons, List.length_nil] at *
      show (G.blk (G.gen i) i).comms.length - _ < _
      omega
    · intro x _
      by_cases hx : x = G.gen i
      · subst hx
        unfold todo
        rw [step_done hc]
        show (G.blk (G.gen i) i).comms.length - _ ≤ _
        simp only [List.length_append, List.length_cons, List.length_nil]
        omega
      · unfold todo
        rw [step_done_ne (fun hh => hx hh.1)]
        exact Nat.le_refl _
  show _ + (h - G.gen i) + ((G.tell i).getD []).length < _
  omega

theorem cost_step_ne (hj : j ≠ i) : cost (G.step i) j h = cost G j h := by
  unfold cost
  have h1 : ((List.range (h + 1)).map (todo (G.step i) j)).sum = ((List.range (h + 1)).map (todo G j)).sum := by
    refine sum_eq fun x _ => ?_
    unfold todo
    rw [step_done_ne (fun hh => hj hh.2)]
    rfl
  rw [h1]
  rfl

theorem told_done (rest : List Nat) (g j : Nat) : (G.told i rest).done g j = G.done g j := rfl

theorem cost_told {x : Nat} {rest : List Nat} (ht : G.tell i = some (x :: rest)) : cost (G.told i rest) i h < cost G i h := by
  unfold cost
  show ((List.range (h + 1)).map (todo G i)).sum + (h - G.gen i) + _ < _
  simp [Ghost.told, ht]

theorem cost_told_ne {rest : List Nat} (hj : j ≠ i) : cost (G.told i rest) j h = cost G j h := by
  unfold cost
  show ((List.range (h + 1)).map (todo G j)).sum + (h - G.gen j) + _ = _
  simp [Ghost.told, hj]

theorem todo_enter (hall : (G.cur i).comms = []) (j g : Nat) : todo (G.enter i) j g = todo G j g := by
  unfold todo
  rw [enter_done hall]
  rfl

theorem cost_enter (hall : (G.cur i).comms = []) (hh : G.gen i < h) : cost (G.enter i) i h < cost G i h := by
  unfold cost
  rw [sum_eq (fun x _ => todo_enter hall i x)]
  simp [Ghost.enter]
  omega

theorem cost_enter_ne (hall : (G.cur i).comms = []) (hj : j ≠ i) : cost (G.enter i) j h = cost G j h := by
  unfold cost
  rw [sum_eq (fun x _ => todo_enter hall j x)]
  simp [Ghost.enter, hj]

theorem cost_decide_ne (hO : Ok n sites main num root G) {B : Nat → Part} {N : Mesh.Name} (hj : j < n) (hne : j ≠ i)
    (hh : h ≤ G.top) : cost (G.decide n i B N) j h = cost G j h := by
  unfold cost
  rw [sum_eq (f := todo G j) (fun x hx => ?_)]
  · simp [Ghost.decide, hne]
  · unfold todo
    rw [decide_done hO B N x hj]
    simp only [Ghost.decide]
    rw [if_neg (by omega)]

/-! ## Steps, seen from one role -/

theorem shift_blk (hs : Shift n sites num G l G') (hg : g ≤ G.top) : G'.blk g = G.blk g ∧ g ≤ G'.top := by
  cases hs with
  | comm => exact ⟨rfl, hg⟩
  | decide =>
    simp only [Ghost.decide]
    rw [if_neg (by omega)]
    exact ⟨rfl, by omega⟩
  | tell => exact ⟨rfl, hg⟩
  | enter => exact ⟨rfl, hg⟩

theorem shift_past (hO : Ok n sites main num root G) (hs : Shift n sites num G l G') (hj : j < n) (hh : h ≤ G.top)
    (hp : Past G j h) : Past G' j h := by
  unfold Past at *
  rw [(shift_blk hs hh).1]
  cases hs with
  | @comm i c cs l hi hc =>
    by_cases hx : h = G.gen i ∧ j = i
    · obtain ⟨rfl, rfl⟩ := hx
      have := done_split (G := G) (i := j)
      rw [hp, hc] at this
      simp at this
    · rw [step_done_ne hx]
      exact hp
  | decide => rw [decide_done hO _ _ _ hj]; exact hp
  | tell => exact hp
  | enter hi hc => rw [enter_done hc]; exact hp

/-- Up to the end of block `h`, the role's own steps bring it nearer, and those of the others change nothing. -/
theorem shift_cost (hO : Ok n sites main num root G) (hs : Shift n sites num G l G') (hj : j < n) (hh : h ≤ G.top)
    (hp : ¬ Past G j h) : cost G' j h ≤ cost G j h ∧ (l.actor = j + 1 → cost G' j h < cost G j h) := by
  have hgj : G.gen j ≤ h := by
    by_contra hlt
    exact hp (done_before (by omega))
  cases hs with
  | @comm i c cs l hi hc hcase hl =>
    by_cases hji : j = i
    · subst hji
      have := cost_step hO hj hc hgj
      exact ⟨by omega, fun _ => this⟩
    · exact ⟨by rw [cost_step_ne hji], fun h' => by omega⟩
  | @decide i d st b hi hst hb htop hc ht =>
    by_cases hji : j = i
    · subst hji
      exfalso
      apply hp
      rw [show h = G.gen j by omega]
      exact done_all hc
    · exact ⟨by rw [cost_decide_ne hO hj hji hh], fun h' => by simp [Mesh.Label.actor] at h'; omega⟩
  | @tell i x rest hi ht =>
    by_cases hji : j = i
    · subst hji
      have := cost_told (h := h) ht
      exact ⟨by omega, fun _ => this⟩
    · exact ⟨by rw [cost_told_ne hji], fun h' => by simp [Mesh.Label.actor] at h'; omega⟩
  | @enter i l hi hc hlt hl =>
    by_cases hji : j = i
    · subst hji
      have hgh : G.gen j < h := by
        by_contra hge
        apply hp
        rw [show h = G.gen j by omega]
        exact done_all hc
      have := cost_enter hc hgh
      exact ⟨by omega, fun _ => this⟩
    · exact ⟨by rw [cost_enter_ne hc hji], fun h' => by omega⟩

/-- A run, seen from one role. -/
theorem run_cost (hX : Ctx n sites main code num Y root ts part) (hS : Sim n sites main code num root ts part G s)
    {ls : List Mesh.Label} {s' : Mesh.S} (hr : Mesh.Run Y s ls s') (hj : j < n) (hh : h ≤ G.top) :
    ∃ G', Sim n sites main code num root ts part G' s' ∧ h ≤ G'.top ∧ G'.blk h = G.blk h ∧
      (Past G' j h ∨ (cost G' j h ≤ cost G j h ∧ ((∃ l ∈ ls, l.actor = j + 1) → cost G' j h < cost G j h))) := by
  induction hr with
  | nil => exact ⟨G, hS, hh, rfl, .inr ⟨Nat.le_refl _, by rintro ⟨_, h, _⟩; cases h⟩⟩
  | @snoc ls s1 l s2 _ hst ih =>
    obtain ⟨G1, hS1, h1, h2, h3⟩ := ih
    obtain ⟨G2, hS2, hsh⟩ := hS1.step hX hst
    obtain ⟨h4, h5⟩ := shift_blk hsh h1
    refine ⟨G2, hS2, h5, h4.trans h2, ?_⟩
    rcases h3 with h3 | ⟨h3, h3'⟩
    · exact .inl (shift_past hS1.ok hsh hj h1 h3)
    · by_cases hp : Past G1 j h
      · exact .inl (shift_past hS1.ok hsh hj h1 hp)
      · right
        obtain ⟨h6, h7⟩ := shift_cost hS1.ok hsh hj h1 hp
        refine ⟨by omega, ?_⟩
        rintro ⟨l', hl', ha⟩
        rcases List.mem_append.mp hl' with hl' | hl'
        · have := h3' ⟨l', hl', ha⟩
          omega
        · rw [List.mem_singleton] at hl'
          subst hl'
          have := h7 ha
          omega

/-- A role that has not done a block that exists, has not ended. -/
theorem unfinished (hS : Sim n sites main code num root ts part G s) (hj : j < n) (hh : h ≤ G.top)
    (hp : ¬ Past G j h) : ¬ Mesh.Finished s (j + 1) := by
  rintro ⟨M, hpos, hst⟩
  obtain ⟨ht, rfl⟩ := held hS.real hj hpos
  cases hc : (G.cur j).comms with
  | cons c cs =>
    simp only [Part.mesh, hc, partnersThen] at hst
    cases hst
  | nil =>
    have hlt : G.gen j < h := by
      by_contra hge
      rcases Nat.lt_or_eq_of_le (Nat.le_of_not_lt hge) with h' | h'
      · exact hp (done_before h')
      · exact hp (by rw [h']; exact done_all hc)
    obtain ⟨d, _, _, _, _, hn, _⟩ := hS.ok.path (G.gen j) (by omega)
    have hnj : (G.cur j).next = some d := hn j hj
    simp only [Part.mesh, hc, hnj, partnersThen, partnersLast] at hst
    split at hst <;> cases hst

/-- If every role can always go on, every block that has begun can be done by each. -/
theorem reach_past (hX : Ctx n sites main code num Y root ts part) (hlive : Lively Y root) {ls : List Mesh.Label}
    (hr : Mesh.Run Y (.init Y root) ls s) (hS : Sim n sites main code num root ts part G s) (hj : j < n) (hh : h ≤ G.top) :
    ∃ ls' s' G', Mesh.Run Y s ls' s' ∧ Sim n sites main code num root ts part G' s' ∧ h ≤ G'.top ∧ G'.blk h = G.blk h ∧
      Past G' j h := by
  generalize hm : cost G j h = m
  induction m using Nat.strongRecOn generalizing G s ls with
  | _ m ih =>
    by_cases hp : Past G j h
    · exact ⟨[], s, G, .nil _, hS, hh, rfl, hp⟩
    · obtain ⟨ls', s', hr', ha⟩ := hlive ls s hr (j + 1) (by omega) (by rw [hX.prog.roles]; omega) (unfinished hS hj hh hp)
      obtain ⟨G', hS', h1, h2, h3⟩ := run_cost hX hS hr' hj hh
      rcases h3 with h3 | ⟨_, h3⟩
      · exact ⟨ls', s', G', hr', hS', h1, h2, h3⟩
      · have hlt := h3 ha
        obtain ⟨ls2, s2, G2, a, b, c, d, e⟩ := ih _ (by omega) (hr.trans hr') hS' h1 rfl
        exact ⟨ls' ++ ls2, s2, G2, hr'.trans a, b, c, d.trans h2, e⟩

/-- Runs from the start: the blocks are those decided, and what has been done can be done. -/
theorem run_blocks (hX : Ctx n sites main code num Y root ts part) {ls : List Mesh.Label} {s0 : Mesh.S}
    (hr : Mesh.Run Y s0 ls s) (h0 : s0 = .init Y root) :
    ∃ G, Sim n sites main code num root ts part G s ∧
      ∀ r N, Mesh.Label.act r (.decide N) ∈ ls → ∃ g d st b, g ≤ G.top ∧ sites[d]? = some st ∧ b ∈ st.branches ∧ N = num d b ∧
        G.blk g = st.part b := by
  induction hr with
  | nil =>
    subst h0
    obtain ⟨a, b, c⟩ := sim_init hX
    refine ⟨_, ⟨a, ?_, b, _, [], c, .nil⟩, by intro _ _ h; cases h⟩
    intro g _ i _
    have : (Ghost.init main root).done g i = [] := by
      unfold Ghost.done Ghost.init
      simp
    rw [this]
    exact .zero
  | @snoc ls s1 l s2 _ hst ih =>
    obtain ⟨G, hS, hd⟩ := ih
    obtain ⟨G', hS', hsh⟩ := hS.step hX hst
    refine ⟨G', hS', ?_⟩
    intro r N hN
    rcases List.mem_append.mp hN with hN | hN
    · obtain ⟨g, d, st, b, h1, h2, h3, h4, h5⟩ := hd r N hN
      obtain ⟨h6, h7⟩ := shift_blk hsh h1
      exact ⟨g, d, st, b, h7, h2, h3, h4, h6.trans h5⟩
    · rw [List.mem_singleton] at hN
      subst hN
      cases hsh with
      | comm _ _ _ _ h => exact absurd rfl (h r N)
      | enter _ _ _ _ h => exact absurd rfl (h r N)
      | @decide i d st b hi hsd hb =>
        refine ⟨G.top + 1, d, st, b, Nat.le_refl _, hsd, hb, rfl, ?_⟩
        simp [Ghost.decide]

/-- If every role can always go on, then all roles can do all of the branches that are chosen. -/
theorem needed (hX : Ctx n sites main code num Y root ts part) (hlive : Lively Y root)
    (hinj : ∀ c s c' s', sites[c]? = some s → sites[c']? = some s' → ∀ b ∈ s.branches, ∀ b' ∈ s'.branches,
      num c b = num c' b' → c = c' ∧ b = b') {ls : List Mesh.Label}
    (hr : Mesh.Run Y (.init Y root) ls s) {c r : Nat} {st : Site} {b : Str} (hst : sites[c]? = some st)
    (hbr : b ∈ st.branches) (hd : Mesh.Label.act r (.decide (num c b)) ∈ ls) (hi : i < n) : Gets (st.part b) i (st.part b i).comms.length := by
  obtain ⟨G, hS, hb⟩ := run_blocks hX hr rfl
  obtain ⟨g, d, st', b', h1, h2, h3, h4, h5⟩ := hb r _ hd
  obtain ⟨rfl, rfl⟩ := hinj _ _ _ _ hst h2 _ hbr _ h3 h4
  rw [hst] at h2
  cases h2
  obtain ⟨_, _, G', _, hS', h6, h7, h8⟩ := reach_past hX hlive hr hS hi h1
  have := hS'.gets g h6 i hi
  unfold Past at h8
  rw [h8, h7, h5] at this
  exact this

/-! ## Every role can go on -/

theorem step_actor {s' : Mesh.S} (hs : Mesh.Step Y s l s') {r : Nat} (hr : l.actor ≠ r) : s'.pos r = s.pos r ∧ s'.gen r = s.gen r := by
  cases hs <;> simp only [Mesh.Label.actor] at hr <;> simp [Mesh.upd, Ne.symm hr]

theorem run_actor {s' : Mesh.S} {ls : List Mesh.Label} (hs : Mesh.Run Y s ls s') {r : Nat} (hr : ∀ l ∈ ls, l.actor ≠ r) :
    s'.pos r = s.pos r ∧ s'.gen r = s.gen r := by
  induction hs with
  | nil => exact ⟨rfl, rfl⟩
  | snoc _ h ih =>
    obtain ⟨a, b⟩ := ih (fun l hl => hr l (List.mem_append_left _ hl))
    obtain ⟨c, d⟩ := step_actor h (hr _ (by simp))
    exact ⟨c.trans a, d.trans b⟩

/-- Steps other than decisions bring all roles nearer to the end of the last block. -/
theorem shift_total (hO : Ok n sites main num root G) (hs : Shift n sites num G l G') (hd : ∀ r N, l ≠ .act r (.decide N)) :
    G'.top = G.top ∧ ((List.range n).map fun j => cost G' j G'.top).sum < ((List.range n).map fun j => cost G j G.top).sum := by
  cases hs with
  | @comm i c cs l hi hc hcase hl =>
    refine ⟨rfl, sum_lt hi (cost_step hO hi hc (hO.le i hi)) fun j hj => ?_⟩
    by_cases hji : j = i
    · subst hji
      exact Nat.le_of_lt (cost_step hO hi hc (hO.le j hi))
    · exact Nat.le_of_eq (cost_step_ne hji)
  | decide => exact absurd rfl (hd _ _)
  | @tell i x rest hi ht =>
    refine ⟨rfl, sum_lt hi (cost_told ht) fun j hj => ?_⟩
    by_cases hji : j = i
    · subst hji
      exact Nat.le_of_lt (cost_told ht)
    · exact Nat.le_of_eq (cost_told_ne hji)
  | @enter i l hi hc hlt hl =>
    refine ⟨rfl, sum_lt hi (cost_enter hc hlt) fun j hj => ?_⟩
    by_cases hji : j = i
    · subst hji
      exact Nat.le_of_lt (cost_enter hc hlt)
    · exact Nat.le_of_eq (cost_enter_ne hc hji)

/-- Without decisions, the roles come to rest. -/
theorem settle (hX : Ctx n sites main code num Y root ts part) (hE : Begins n sites) (hP : Progress n ts)
    (hS : Sim n sites main code num root ts part G s) :
    ∃ ls' s' G', Mesh.Run Y s ls' s' ∧ Sim n sites main code num root ts part G' s' ∧ G'.top = G.top ∧
      ∀ i < n, G'.tell i = none ∧ G'.gen i = G'.top ∧ (G'.cur i).comms = [] := by
  generalize hm : ((List.range n).map fun j => cost G j G.top).sum = m
  induction m using Nat.strongRecOn generalizing G s with
  | _ m ih =>
    by_cases hex : ∃ l s', (∀ r N, l ≠ .act r (.decide N)) ∧ Mesh.Step Y s l s'
    · obtain ⟨l, s', h1, h2⟩ := hex
      obtain ⟨G', hS', hsh⟩ := hS.step hX h2
      obtain ⟨h3, h4⟩ := shift_total hS.ok hsh h1
      obtain ⟨ls, s2, G2, a, b, c, d⟩ := ih _ (by omega) hS' rfl
      exact ⟨_, s2, G2, Mesh.Run.trans (.snoc (.nil _) h2) a, b, c.trans h3, d⟩
    · obtain ⟨cf, w, hM, hw⟩ := hS.mach
      refine ⟨[], s, G, .nil _, hS, rfl, settled hX hE hP hS.ok hS.real hM hw fun l s' hs => ?_⟩
      by_contra hnd
      exact hex ⟨l, s', fun r N h => hnd ⟨r, N, h⟩, hs⟩

theorem live (hX : Ctx n sites main code num Y root ts part) (hE : Begins n sites) (hP : Progress n ts) : Lively Y root := by
  intro ls s hr r h1 h2 hun
  obtain ⟨i, rfl, hi⟩ := role_pred h1 h2 hX.prog.roles
  obtain ⟨G, hS, _⟩ := run_blocks hX hr rfl
  obtain ⟨ls1, s1, G1, hr1, hS1, _, hset⟩ := settle hX hE hP hS
  by_cases hex : ∃ l ∈ ls1, l.actor = i + 1
  · exact ⟨ls1, s1, hr1, hex⟩
  · obtain ⟨p1, g1⟩ := run_actor hr1 (r := i + 1) (fun l hl h => hex ⟨l, hl, h⟩)
    have hun1 : ¬ Mesh.Finished s1 (i + 1) := by
      rintro ⟨M, a, b⟩
      exact hun ⟨M, by rw [← p1]; exact a, b⟩
    obtain ⟨x, N, s2, hx, hd⟩ := decides hX hS1.ok hS1.real hset hi hun1
    obtain ⟨G2, hS2, hsh⟩ := hS1.step hX hd
    have hr2 := Mesh.Run.trans hr1 (.snoc (.nil _) hd)
    have htop : G2.top = G1.top + 1 := by
      cases hsh with
      | comm _ _ _ _ h => exact absurd rfl (h _ _)
      | enter _ _ _ _ h => exact absurd rfl (h _ _)
      | decide => rfl
    obtain ⟨ls3, s3, G3, hr3, hS3, htop3, hset3⟩ := settle hX hE hP hS2
    refine ⟨_, s3, hr2.trans hr3, ?_⟩
    by_contra hex3
    obtain ⟨_, g3⟩ := run_actor (hr2.trans hr3) (r := i + 1) (fun l hl h => hex3 ⟨l, hl, h⟩)
    have e1 := hS3.real.gen i hi
    have e2 := hS1.real.gen i hi
    have e3 := (hset3 i hi).2.1
    have e4 := (hset i hi).2.1
    omega

end Verif.BottomUp
