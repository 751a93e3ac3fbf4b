import Verif.Proof.CheckLoopTrace

/-!
# C50: the graph and the machine of an endpoint whose choices are enums, loops included
-/
namespace Verif.Prop
open Verif.Check Verif.Spec

/-- For every endpoint made of communications and of choices given by enums (which may lead back to themselves or to each
other), no branch of which begins with another choice: the checker ends; the walks of its graph are the runs of the
endpoint, followed by `0` at most at the end; the walks of its machine are the runs of the endpoint, and the machine is
only stuck where the endpoint may end; the states of the machine are the parts of the endpoint.

Missing: branches that begin with another choice; for them it does not hold, see `C50_unguarded` and `C50_misdirected`. -/
theorem C50_loops_partial (roles : List Str) (sites : List Site) (me : Nat) (hn : roles.Nodup)
    (hplain : ∀ r ∈ roles, ∀ ch ∈ r, Plain ch) (hme : me < roles.length) (hlen : 2 ≤ roles.length)
    (hnamed : Named roles sites) (receivers : Str → Option (List (Str × List Str)))
    (branching : Str → Option (List Str)) (group : Str → Option Int) (keys : List Str)
    (hgiven : Given roles sites receivers branching group keys)
    (hfit : ∀ s ∈ sites, ∀ b ∈ s.branches, (s.part b me).Fit roles sites me)
    (hguard : ∀ s ∈ sites, ∀ b ∈ s.branches, (s.part b me).Guarded)
    (main : Part) (hmain : main.Fit roles sites me) :
    ∃ f, ∀ fuel, f ≤ fuel → ∃ g ts,
      getGraphSession fuel roles[me] ((main.fields roles sites me).map Ty.print) roles receivers branching group keys =
        some (g, machineFile roles[me] ts) ∧
      (∀ w, (∃ v, Walk g 0 w v) ↔ ∃ cs Q, Run (partsOf sites me) main cs Q ∧
        (w = cs.map (Comm.label roles roles[me]) ∨
          (w = cs.map (Comm.label roles roles[me]) ++ [['0']] ∧ Q = ⟨[], none⟩))) ∧
      (∀ w, (∃ v, Moves ts 0 w v) ↔ ∃ cs Q, Run (partsOf sites me) main cs Q ∧
        w = cs.map fun c => (c.out, c.partner, c.payload.print)) ∧
      (∀ w v, Moves ts 0 w v → (∀ t ∈ ts, t.src ≠ v) → ∃ cs, Run (partsOf sites me) main cs ⟨[], none⟩ ∧
        w = cs.map fun c => (c.out, c.partner, c.payload.print)) ∧
      States (partsOf sites me) main ts := by
  obtain ⟨M, hM⟩ := bound_exists sites me
  have H : Setting roles sites me := ⟨hn, hplain, hme, hnamed⟩
  have hflen : ((main.fields roles sites me).map Ty.print).length - 1 = roles.length - 1 := by simp [Part.fields]
  refine ⟨cost sites M main (fun _ => none), fun fuel hf => ?_⟩
  have hC : CtxOf ⟨roles[me], roles, me, List.replicate (((main.fields roles sites me).map Ty.print).length - 1) ['E', 'n', 'd'] ++
      [['R', 'o', 'l', 'e', 'E', 'n', 'd']], receivers, branching, group, keys⟩ roles sites me :=
    ⟨by simp only [hflen], hgiven, rfl, rfl⟩
  obtain ⟨g, cfsm, E, L, ρ, h1, h2, h3, h4, h5⟩ := explore H hC hlen ⟨hfit, hguard, hM⟩ fuel main [0] 0 0 (fun _ => none)
    ⟨[Nat.toDigits 10 0], []⟩ [] (fun _ => none) (fun _ => some main) id hmain hf rfl (by simp) (by simp) rfl
    (by intro c s x b _ _ _; rfl) (by simp) (by simp)
  have hW : Whole (partsOf sites me) main g.nodes.length E L ρ := whole h5 (h4 0 (by simp)).1 (h4 0 (by simp)).2
  have hg : g.edges = E.map fun e => (e.1, e.2.1, e.2.2.label roles roles[me]) := by simpa using h3
  refine ⟨g, E.filterMap (transAt ρ), ?_, ?_, ?_, ?_, states_whole hW⟩
  · unfold getGraphSession
    unfold texts at h1
    simp only [position_get hn hme, Option.bind_eq_bind, Option.bind_some, h1, h2]
    simp only [List.nil_append, List.map_map, machineFile]
    congr 4
  · intro w
    constructor
    · rintro ⟨v, hv⟩
      exact walk_sound hW hg hv main hW.root.1
    · rintro ⟨cs, Q, hr, h⟩
      obtain ⟨a, b⟩ := walk_complete (roles := roles) (role := roles[me]) hW hg cs 0 main Q hW.root.2.2 hW.root.1 hr
      rcases h with rfl | ⟨rfl, hQ⟩
      · exact a
      · exact b hQ
  · intro w
    constructor
    · rintro ⟨v, hv⟩
      obtain ⟨cs, Q, h1, _, _, _, h2⟩ := moves_sound hW hv main hW.root.2.2 hW.root.1 hW.root.2.1
      exact ⟨cs, Q, h1, h2⟩
    · rintro ⟨cs, Q, hr, rfl⟩
      exact moves_complete hW cs 0 main Q hW.root.2.2 hW.root.1 hW.root.2.1 hr
  · intro w v hv hst
    obtain ⟨cs, Q, h1, h2, h3, h4, h5⟩ := moves_sound hW hv main hW.root.2.2 hW.root.1 hW.root.2.1
    have := moves_end hW h3 h2 h4 hst (arc_exists hnamed hguard (fit_run h1 hfit hmain))
    refine ⟨cs, ?_, h5⟩
    have := Run.append h1 this
    simpa using this

/-! A case: `B` chooses again and again between a further message and the end. -/

namespace C50_case

def roles : List Str := [['A'], ['B']]

def payload : Ty := .mk ['i'] []

def site : Site where
  sender := 1
  enum := fun x => if x = 0 then ['E'] else ['F']
  branches := [['M'], ['S']]
  part := fun b x =>
    if b = ['M'] then if x = 0 then ⟨[⟨true, 1, payload⟩], some 0⟩ else ⟨[⟨false, 0, payload⟩], some 0⟩
    else ⟨[], none⟩

def receivers (p : Str) : Option (List (Str × List Str)) :=
  if p = ['E'] then some (site.branches.map fun b => (b, ((site.part b 0).fields roles [site] 0).map Ty.print ++ [[], []]))
  else none

def branching (k : Str) : Option (List Str) :=
  if k = branchKey ['E'] ['M'] then some (((site.part ['M'] 1).fields roles [site] 1).map Ty.print ++ [[]])
  else some (((site.part ['S'] 1).fields roles [site] 1).map Ty.print ++ [[]])

def group (k : Str) : Option Int := if k = branchKey ['E'] ['M'] then some 1 else some 2

def keys : List Str := [branchKey ['E'] ['M'], branchKey ['E'] ['S']]

end C50_case

open C50_case in
/-- The hypotheses of `C50_loops_partial` hold for it, for both roles. -/
example : roles.Nodup ∧ (∀ r ∈ roles, ∀ ch ∈ r, Plain ch) ∧ 2 ≤ roles.length ∧ Named roles [site] ∧
    Given roles [site] receivers branching group keys ∧
    ∀ me < roles.length, (∀ s ∈ [site], ∀ b ∈ s.branches, (s.part b me).Fit roles [site] me ∧ (s.part b me).Guarded) ∧
      Part.Fit roles [site] me ⟨[], some 0⟩ := by
  have hx : ∀ x, x < roles.length → x = 0 ∨ x = 1 := by
    intro x hx
    have : roles.length = 2 := rfl
    omega
  have hpay : payload.Ok := by simp [payload, Ty.Ok, AllOk, Plain]; decide
  refine ⟨by decide, by simp only [Plain]; decide, by decide, ?_, ?_, ?_⟩
  · refine ⟨?_, ?_, ?_, ?_, ?_⟩
    · intro s hs x hxl
      rw [List.mem_singleton] at hs
      subst hs
      rcases hx x hxl with rfl | rfl <;> simp [site, Plain] <;> decide
    · intro s hs b hb
      rw [List.mem_singleton] at hs
      subst hs
      simp only [site, List.mem_cons, List.not_mem_nil, or_false] at hb
      rcases hb with rfl | rfl <;> decide
    · intro c d s t hs ht x hxl y hyl he
      have h0 : ∀ (c : Nat) (s : Site), [site][c]? = some s → c = 0 ∧ s = site := by
        intro c s h
        cases c with
        | zero => simpa using h.symm
        | succ c => simp at h
      obtain ⟨rfl, rfl⟩ := h0 c s hs
      obtain ⟨rfl, rfl⟩ := h0 d t ht
      refine ⟨rfl, ?_⟩
      rcases hx x hxl with rfl | rfl <;> rcases hx y hyl with rfl | rfl <;> simp [site] at he ⊢
    · intro s hs
      rw [List.mem_singleton] at hs
      subst hs
      exact ⟨by simp [site], by simp [site]⟩
    · intro s hs
      rw [List.mem_singleton] at hs
      subst hs
      simp [site, roles]
  · refine ⟨?_, ?_, ?_, ?_⟩
    · intro s hs x hxl hne
      rw [List.mem_singleton] at hs
      subst hs
      rcases hx x hxl with rfl | rfl
      · exact ⟨[], [], _, rfl, .refl _⟩
      · exact absurd rfl hne
    · intro p hp
      have := hp site List.mem_cons_self 0 (by simp [roles])
      exact if_neg this
    · intro s hs x hxl hne b hb
      rw [List.mem_singleton] at hs
      subst hs
      rcases hx x hxl with rfl | rfl
      · simp only [site, List.mem_cons, List.not_mem_nil, or_false] at hb
        rcases hb with rfl | rfl
        · exact ⟨[], rfl⟩
        · exact ⟨[], rfl⟩
      · exact absurd rfl hne
    · refine ⟨fun _ b => if b = ['M'] then 1 else 2, ?_, ?_, ?_⟩
      · intro c s hs x hxl hne b hb
        have : s = site := by
          have := List.mem_of_getElem? hs
          rwa [List.mem_singleton] at this
        subst this
        rcases hx x hxl with rfl | rfl
        · simp only [site, List.mem_cons, List.not_mem_nil, or_false] at hb
          rcases hb with rfl | rfl <;> exact ⟨rfl, by simp [keys, site]⟩
        · exact absurd rfl hne
      · intro c d s t hs ht b hb b' hb' he
        have h0 : ∀ (c : Nat) (s : Site), [site][c]? = some s → c = 0 ∧ s = site := by
          intro c s h
          cases c with
          | zero => simpa using h.symm
          | succ c => simp at h
        obtain ⟨rfl, rfl⟩ := h0 c s hs
        obtain ⟨rfl, rfl⟩ := h0 d t ht
        simp only [site, List.mem_cons, List.not_mem_nil, or_false] at hb hb'
        rcases hb with rfl | rfl <;> rcases hb' with rfl | rfl <;> simp at he ⊢
      · intro k hk
        simp only [keys, List.mem_cons, List.not_mem_nil, or_false] at hk
        rcases hk with rfl | rfl
        · exact ⟨0, site, 0, ['M'], rfl, by simp [site], by simp [roles], by simp [site], rfl⟩
        · exact ⟨0, site, 0, ['S'], rfl, by simp [site], by simp [roles], by simp [site], rfl⟩
  · intro me hme
    refine ⟨?_, ⟨by simp, by simp, by simp, by simp⟩⟩
    intro s hs b hb
    rw [List.mem_singleton] at hs
    subst hs
    simp only [site, List.mem_cons, List.not_mem_nil, or_false] at hb
    rcases hx me hme with rfl | rfl <;> rcases hb with rfl | rfl
    · refine ⟨⟨?_, ?_, ?_, ?_⟩, ?_⟩ <;> simp [site, roles, hpay, Part.Guarded]
    · refine ⟨⟨?_, ?_, ?_, ?_⟩, ?_⟩ <;> simp [site, roles, Part.Guarded]
    · refine ⟨⟨?_, ?_, ?_, ?_⟩, ?_⟩ <;> simp [site, roles, hpay, Part.Guarded]
      intro x hx
      have := hx
      simp only [payload, Ty.print]
      split <;> decide
    · refine ⟨⟨?_, ?_, ?_, ?_⟩, ?_⟩ <;> simp [site, roles, Part.Guarded]

end Verif.Prop
