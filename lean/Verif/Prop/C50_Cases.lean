import Verif.Proof.CheckGiven

/-!
# C50: branches that begin with another choice
-/
namespace Verif.Prop
open Verif.Check Verif.Spec

namespace C50_cases

def roles : List Str := [['A'], ['B']]

def ti : Ty := .mk ['i'] []
def tu : Ty := .mk ['u'] []

/-- `A` sends an `i` or a `u`. -/
def ci : Comm := ⟨true, 1, ti⟩
def cu : Comm := ⟨true, 1, tu⟩

/-- `B` chooses: an `i` and again this choice, or the other choice. -/
def s0 : Site := ⟨1, fun x => if x = 0 then ['E'] else ['F'], [['M'], ['N']], fun b x =>
  if b = ['M'] then ⟨[⟨x == 0, 1 - x, ti⟩], some 0⟩ else ⟨[], some 1⟩⟩
/-- `B` chooses: a `u` and again this choice, or the end. -/
def s1 : Site := ⟨1, fun x => if x = 0 then ['G'] else ['H'], [['P'], ['S']], fun b x =>
  if b = ['P'] then ⟨[⟨x == 0, 1 - x, tu⟩], some 1⟩ else ⟨[], none⟩⟩

/-- `B` chooses: an `i` and the other choice, or the end. -/
def z0 : Site := ⟨1, fun x => if x = 0 then ['E'] else ['F'], [['M'], ['S']], fun b x =>
  if b = ['M'] then ⟨[⟨x == 0, 1 - x, ti⟩], some 1⟩ else ⟨[], none⟩⟩
/-- `B` chooses: a `u` and the end, or the first choice again. -/
def z1 : Site := ⟨1, fun x => if x = 0 then ['G'] else ['H'], [['K'], ['L']], fun b x =>
  if b = ['K'] then ⟨[⟨x == 0, 1 - x, tu⟩], none⟩ else ⟨[], some 0⟩⟩

def graphOf (sites : List Site) : Option (Graph × List Str) :=
  getGraphSession 100 ['A'] ((Part.fields roles sites 0 ⟨[], some 0⟩).map Ty.print) roles (givenReceivers roles sites)
    (givenBranching roles sites) (givenGroup roles sites) (givenKeys roles sites)

theorem pair {s t : Site} (c : Nat) (r : Site) (h : [s, t][c]? = some r) : (c = 0 ∧ r = s) ∨ (c = 1 ∧ r = t) := by
  match c, h with
  | 0, h => left; simpa using h.symm
  | 1, h => right; simpa using h.symm
  | c + 2, h => simp at h

theorem two (x : Nat) (h : x < roles.length) : x = 0 ∨ x = 1 := by
  have : roles.length = 2 := rfl
  omega

theorem ok_i : ti.Ok := by simp [ti, Ty.Ok, AllOk, Plain]; decide
theorem ok_u : tu.Ok := by simp [tu, Ty.Ok, AllOk, Plain]; decide

theorem named_s : Named roles [s0, s1] where
  enumPlain := by simp only [Plain]; decide
  branchPlain := by decide
  enumInj := by
    intro c d s t hs ht x hx y hy he
    rcases pair c s hs with ⟨rfl, rfl⟩ | ⟨rfl, rfl⟩ <;> rcases pair d t ht with ⟨rfl, rfl⟩ | ⟨rfl, rfl⟩ <;>
      rcases two x hx with rfl | rfl <;> rcases two y hy with rfl | rfl <;> first | exact ⟨rfl, rfl⟩ | exact absurd he (by decide)
  branches := by decide
  sender := by decide

theorem named_z : Named roles [z0, z1] where
  enumPlain := by simp only [Plain]; decide
  branchPlain := by decide
  enumInj := by
    intro c d s t hs ht x hx y hy he
    rcases pair c s hs with ⟨rfl, rfl⟩ | ⟨rfl, rfl⟩ <;> rcases pair d t ht with ⟨rfl, rfl⟩ | ⟨rfl, rfl⟩ <;>
      rcases two x hx with rfl | rfl <;> rcases two y hy with rfl | rfl <;> first | exact ⟨rfl, rfl⟩ | exact absurd he (by decide)
  branches := by decide
  sender := by decide

/-- A single communication of `A`, or none. -/
theorem fit_one {sites : List Site} (hl : sites.length = 2) {c : Comm} (h : c = ci ∨ c = cu) (cs : List Comm) (hcs : cs = [] ∨ cs = [c])
    (nx : Option Nat) (hn : ∀ d, nx = some d → d < 2) : Part.Fit roles sites 0 ⟨cs, nx⟩ := by
  have hc : ∀ d ∈ cs, d = ci ∨ d = cu := by
    intro d hd
    rcases hcs with rfl | rfl
    · simp at hd
    · rw [List.mem_singleton] at hd; subst hd; exact h
  refine ⟨?_, ?_, ?_, ?_⟩
  · intro d hd
    rcases hc d hd with rfl | rfl <;> decide
  · intro d hd
    rcases hc d hd with rfl | rfl
    · exact ok_i
    · exact ok_u
  · intro d hd ho
    rcases hc d hd with rfl | rfl <;> exact absurd ho (by decide)
  · intro d hd
    rw [hl]
    exact hn d hd

theorem fit_s : ∀ s ∈ [s0, s1], ∀ b ∈ s.branches, (s.part b 0).Fit roles [s0, s1] 0 := by
  intro s hs b hb
  simp only [List.mem_cons, List.not_mem_nil, or_false] at hs
  rcases hs with rfl | rfl
  · simp only [s0, List.mem_cons, List.not_mem_nil, or_false] at hb
    rcases hb with rfl | rfl
    · exact fit_one rfl (.inl rfl) _ (.inr rfl) _ (by rintro d ⟨⟩; decide)
    · exact fit_one rfl (.inl rfl) _ (.inl rfl) _ (by rintro d ⟨⟩; decide)
  · simp only [s1, List.mem_cons, List.not_mem_nil, or_false] at hb
    rcases hb with rfl | rfl
    · exact fit_one rfl (.inr rfl) _ (.inr rfl) _ (by rintro d ⟨⟩; decide)
    · exact fit_one rfl (.inl rfl) _ (.inl rfl) _ (by rintro d ⟨⟩)

theorem fit_z : ∀ s ∈ [z0, z1], ∀ b ∈ s.branches, (s.part b 0).Fit roles [z0, z1] 0 := by
  intro s hs b hb
  simp only [List.mem_cons, List.not_mem_nil, or_false] at hs
  rcases hs with rfl | rfl
  · simp only [z0, List.mem_cons, List.not_mem_nil, or_false] at hb
    rcases hb with rfl | rfl
    · exact fit_one rfl (.inl rfl) _ (.inr rfl) _ (by rintro d ⟨⟩; decide)
    · exact fit_one rfl (.inl rfl) _ (.inl rfl) _ (by rintro d ⟨⟩)
  · simp only [z1, List.mem_cons, List.not_mem_nil, or_false] at hb
    rcases hb with rfl | rfl
    · exact fit_one rfl (.inr rfl) _ (.inr rfl) _ (by rintro d ⟨⟩)
    · exact fit_one rfl (.inl rfl) _ (.inl rfl) _ (by rintro d ⟨⟩; decide)

theorem mem_parts {s t : Site} {c : Nat} {B : Part} (h : B ∈ partsOf [s, t] 0 c) :
    (c = 0 ∧ ∃ b ∈ s.branches, B = s.part b 0) ∨ (c = 1 ∧ ∃ b ∈ t.branches, B = t.part b 0) := by
  unfold partsOf at h
  split at h
  · simp at h
  · rename_i r hr
    obtain ⟨b, hb, rfl⟩ := List.mem_map.mp h
    rcases pair c r hr with ⟨rfl, rfl⟩ | ⟨rfl, rfl⟩
    · exact .inl ⟨rfl, b, hb, rfl⟩
    · exact .inr ⟨rfl, b, hb, rfl⟩

/-- From the second choice of the first case only `u`. -/
theorem s_second {c : Comm} {R : Option Part} (h : Arc (partsOf [s0, s1] 0) ⟨[], some 1⟩ (.comm c) R) :
    c = cu ∧ R = some ⟨[], some 1⟩ := by
  cases h with
  | choice hB ha =>
    rcases mem_parts hB with ⟨h, _⟩ | ⟨_, b, hb, rfl⟩
    · exact absurd h (by decide)
    · simp only [s1, List.mem_cons, List.not_mem_nil, or_false] at hb
      rcases hb with rfl | rfl
      · cases ha; exact ⟨rfl, rfl⟩
      · cases ha

theorem s_first {c : Comm} {R : Option Part} (h : Arc (partsOf [s0, s1] 0) ⟨[], some 0⟩ (.comm c) R) :
    (c = ci ∧ R = some ⟨[], some 0⟩) ∨ (c = cu ∧ R = some ⟨[], some 1⟩) := by
  cases h with
  | choice hB ha =>
    rcases mem_parts hB with ⟨_, b, hb, rfl⟩ | ⟨h, _⟩
    · simp only [s0, List.mem_cons, List.not_mem_nil, or_false] at hb
      rcases hb with rfl | rfl
      · cases ha; exact .inl ⟨rfl, rfl⟩
      · exact .inr (s_second ha)
    · exact absurd h (by decide)

/-- From the first choice of the second case only `i`. -/
theorem z_first {c : Comm} {R : Option Part} (h : Arc (partsOf [z0, z1] 0) ⟨[], some 0⟩ (.comm c) R) :
    c = ci ∧ R = some ⟨[], some 1⟩ := by
  cases h with
  | choice hB ha =>
    rcases mem_parts hB with ⟨_, b, hb, rfl⟩ | ⟨h, _⟩
    · simp only [z0, List.mem_cons, List.not_mem_nil, or_false] at hb
      rcases hb with rfl | rfl
      · cases ha; exact ⟨rfl, rfl⟩
      · cases ha
    · exact absurd h (by decide)

theorem z_second {c : Comm} {R : Option Part} (h : Arc (partsOf [z0, z1] 0) ⟨[], some 1⟩ (.comm c) R) :
    (c = cu ∧ R = some ⟨[], none⟩) ∨ (c = ci ∧ R = some ⟨[], some 1⟩) := by
  cases h with
  | choice hB ha =>
    rcases mem_parts hB with ⟨h, _⟩ | ⟨_, b, hb, rfl⟩
    · exact absurd h (by decide)
    · simp only [z1, List.mem_cons, List.not_mem_nil, or_false] at hb
      rcases hb with rfl | rfl
      · cases ha; exact .inl ⟨rfl, rfl⟩
      · exact .inr (z_first ha)

end C50_cases

open C50_cases

/-- **The code violates the property** for a branch that begins with another choice: that choice is drawn at the node of
the first one, so coming back to it also offers the branches of the first one: the graph of the checker has the walk
`u`, `i`, which the endpoint cannot do. -/
theorem C50_unguarded : ∃ (roles : List Str) (sites : List Site) (receivers : Str → Option (List (Str × List Str)))
    (branching : Str → Option (List Str)) (group : Str → Option Int) (keys : List Str) (main : Part),
    roles.Nodup ∧ (∀ r ∈ roles, ∀ ch ∈ r, Plain ch) ∧ 2 ≤ roles.length ∧ Named roles sites ∧
    Given roles sites receivers branching group keys ∧
    (∀ s ∈ sites, ∀ b ∈ s.branches, (s.part b 0).Fit roles sites 0) ∧ main.Fit roles sites 0 ∧
    ∃ fuel g file w v, getGraphSession fuel (roles.getD 0 []) ((main.fields roles sites 0).map Ty.print) roles receivers
        branching group keys = some (g, file) ∧ Walk g 0 w v ∧
      ¬ ∃ cs Q, Run (partsOf sites 0) main cs Q ∧ (w = cs.map (Comm.label roles (roles.getD 0 [])) ∨
        (w = cs.map (Comm.label roles (roles.getD 0 [])) ++ [['0']] ∧ Q = ⟨[], none⟩)) := by
  refine ⟨roles, [s0, s1], givenReceivers roles [s0, s1], givenBranching roles [s0, s1], givenGroup roles [s0, s1],
    givenKeys roles [s0, s1], ⟨[], some 0⟩, by decide, by simp only [Plain]; decide, by decide, named_s, given_exists named_s,
    fit_s, fit_one rfl (.inl rfl) _ (.inl rfl) _ (by rintro d ⟨⟩; decide), ?_⟩
  have hg : (graphOf [s0, s1]).map (fun r => r.1.edges) = some [(0, 1, ['A', '!', 'B', ':', ' ', 'i']), (1, 0, ['µ']),
      (0, 2, ['A', '!', 'B', ':', ' ', 'u']), (2, 0, ['µ']), (0, 3, ['0'])] := by decide +kernel
  obtain ⟨⟨g, file⟩, h1, h2⟩ := Option.map_eq_some_iff.mp hg
  refine ⟨100, g, file, [['A', '!', 'B', ':', ' ', 'u'], ['A', '!', 'B', ':', ' ', 'i']], 1, h1, ?_, ?_⟩
  · simp only at h2
    refine .step (b := 2) (by decide) (by rw [h2]; decide) (.loop (b := 0) (by rw [h2]; decide)
      (.step (b := 1) (by decide) (by rw [h2]; decide) .nil))
  · rintro ⟨cs, Q, hr, h⟩
    rcases h with h | ⟨h, _⟩
    · match cs, hr, h with
      | [a, b], hr, h =>
        obtain ⟨R, ha, hr⟩ := Run.first hr a [b] rfl
        obtain ⟨R', hb, _⟩ := Run.first hr b [] rfl
        simp only [List.map_cons, List.map_nil, List.cons.injEq, and_true] at h
        rcases s_first ha with ⟨rfl, _⟩ | ⟨rfl, hR⟩
        · exact absurd h.1 (by decide)
        · cases hR
          obtain ⟨rfl, _⟩ := s_second hb
          exact absurd h.2 (by decide)
      | [], _, h => simp at h
      | [_], _, h => simp at h
      | _ :: _ :: _ :: _, _, h => simp at h
    · have := congrArg List.getLast? h
      simp at this

/-- **The code violates the property** in the machine too: a branch that begins with a choice already drawn moves the
target of the last transition written, whichever it is: the machine has the walk `i`, `u`, `i`, which the endpoint
cannot do, for it ends after `u`. -/
theorem C50_misdirected : ∃ (roles : List Str) (sites : List Site) (receivers : Str → Option (List (Str × List Str)))
    (branching : Str → Option (List Str)) (group : Str → Option Int) (keys : List Str) (main : Part),
    roles.Nodup ∧ (∀ r ∈ roles, ∀ ch ∈ r, Plain ch) ∧ 2 ≤ roles.length ∧ Named roles sites ∧
    Given roles sites receivers branching group keys ∧
    (∀ s ∈ sites, ∀ b ∈ s.branches, (s.part b 0).Fit roles sites 0) ∧ main.Fit roles sites 0 ∧
    ∃ fuel g ts w v, getGraphSession fuel (roles.getD 0 []) ((main.fields roles sites 0).map Ty.print) roles receivers
        branching group keys = some (g, machineFile (roles.getD 0 []) ts) ∧ Moves ts 0 w v ∧
      ¬ ∃ cs Q, Run (partsOf sites 0) main cs Q ∧ w = cs.map fun c => (c.out, c.partner, c.payload.print) := by
  refine ⟨roles, [z0, z1], givenReceivers roles [z0, z1], givenBranching roles [z0, z1], givenGroup roles [z0, z1],
    givenKeys roles [z0, z1], ⟨[], some 0⟩, by decide, by simp only [Plain]; decide, by decide, named_z, given_exists named_z,
    fit_z, fit_one rfl (.inl rfl) _ (.inl rfl) _ (by rintro d ⟨⟩; decide), ?_⟩
  have hg : (graphOf [z0, z1]).map (fun r => r.2) = some (machineFile ['A'] [⟨0, true, 1, ['i'], 1⟩, ⟨1, true, 1, ['u'], 0⟩]) := by
    decide +kernel
  obtain ⟨⟨g, file⟩, h1, h2⟩ := Option.map_eq_some_iff.mp hg
  simp only at h2
  subst h2
  refine ⟨100, g, [⟨0, true, 1, ['i'], 1⟩, ⟨1, true, 1, ['u'], 0⟩],
    [(true, 1, ['i']), (true, 1, ['u']), (true, 1, ['i'])], 1, h1, ?_, ?_⟩
  · exact .step (t := ⟨0, true, 1, ['i'], 1⟩) (by simp) (.step (t := ⟨1, true, 1, ['u'], 0⟩) (by simp)
      (.step (t := ⟨0, true, 1, ['i'], 1⟩) (by simp) .nil))
  · rintro ⟨cs, Q, hr, h⟩
    match cs, hr, h with
    | [a, b, c], hr, h =>
      obtain ⟨R, ha, hr⟩ := Run.first hr a [b, c] rfl
      obtain ⟨R', hb, hr⟩ := Run.first hr b [c] rfl
      obtain ⟨R'', hc, _⟩ := Run.first hr c [] rfl
      simp only [List.map_cons, List.map_nil, List.cons.injEq, and_true, Prod.mk.injEq] at h
      obtain ⟨rfl, hR⟩ := z_first ha
      cases hR
      rcases z_second hb with ⟨rfl, hR⟩ | ⟨rfl, _⟩
      · cases hR
        cases hc
      · exact absurd h.2.1.2.2 (by decide)
    | [], _, h => simp at h
    | [_], _, h => simp at h
    | [_, _], _, h => simp at h
    | _ :: _ :: _ :: _ :: _, _, h => simp at h

end Verif.Prop
