import Verif.Proof.NuscrParts
import Verif.Prop.C29

/-!
# C47: the projection of a global protocol with loops and a choice
-/
namespace Verif.Prop
open Verif.Nuscr Verif.NuscrSpec

/-! What is written for a tree. -/

theorem means_to_sess (defs : List (Text × Rhs)) (i p q : Text) (r : Rhs) (tail : Tail)
    (hr : ∀ a, (a, r) ∈ defs → MeansTo defs a [] tail) : ∀ (ss : List Step) (n : Nat),
    (∀ d ∈ sessDefs i p q n ss, d ∈ defs) → (messageName i (n + ss.length) p q, r) ∈ defs →
    MeansTo defs (messageName i n p q) ss tail
  | [], n, _, hf => hr _ hf
  | .send x :: ss, n, h, hf => by
    refine .send _ _ _ _ _ (h _ (by simp [sessDefs])) (means_to_sess defs i p q r tail hr ss (n + 1) ?_ ?_)
    · intro d hd; exact h d (by simp [sessDefs, hd])
    · rw [List.length_cons] at hf; rwa [Nat.add_assoc n 1, Nat.add_comm 1]
  | .recv x :: ss, n, h, hf => by
    refine .recv _ _ _ _ _ (h _ (by simp [sessDefs])) (means_to_sess defs i p q r tail hr ss (n + 1) ?_ ?_)
    · intro d hd; exact h d (by simp [sessDefs, hd])
    · rw [List.length_cons] at hf; rwa [Nat.add_assoc n 1, Nat.add_comm 1]

theorem means_to_stack (defs : List (Text × StackRhs)) (i p : Text) (r : StackRhs) (rs : List Text) (c : Bool)
    (hr : ∀ a, (a, r) ∈ defs → MeansStackTo defs a rs c) : ∀ (ss : List Text) (n : Nat),
    (∀ d ∈ stackDefs i p n ss, d ∈ defs) → (orderingName i (n + ss.length) p, r) ∈ defs →
    MeansStackTo defs (orderingName i n p) (ss ++ rs) c
  | [], n, _, hf => hr _ hf
  | x :: ss, n, h, hf => by
    refine .role _ _ _ _ _ (h _ (by simp [stackDefs])) (means_to_stack defs i p r rs c hr ss (n + 1) ?_ ?_)
    · intro d hd; exact h d (by simp [stackDefs, hd])
    · rw [List.length_cons] at hf; rwa [Nat.add_assoc n 1, Nat.add_comm 1]

/-- The definitions of a tree. -/
theorem part_gen {title : Text → Text} {roles : List Text} {idx : List Nat} {e : Option (Text × Text)} {t : Tree}
    {done : List Msg} (h : Part title roles idx e t done) :
    genSessions roles t = roles.flatMap fun p => roles.flatMap fun q => if q = p then [] else
      sessDefs (indexText idx) p q 0 (view title p q done) ++
        [(messageName (indexText idx) (view title p q done).length p q, (closing e p q).getD .fin)] := by
  unfold genSessions
  apply List.flatMap_congr
  intro p hp
  apply List.flatMap_congr
  intro q hq
  by_cases hqp : q = p
  · rw [if_pos hqp, if_pos hqp]
  · rw [if_neg hqp, if_neg hqp, h.messages p q hp hq hqp, h.lastMessage p q hp hq hqp]
    cases closing e p q with
    | none =>
      simp only [Option.toList_none, List.map_nil, List.append_nil, Option.isSome_none, Bool.false_eq_true, if_false,
        Option.getD_none]
      rfl
    | some r => simp

theorem part_gen_stacks {title : Text → Text} {roles : List Text} {idx : List Nat} {e : Option (Text × Text)} {t : Tree}
    {done : List Msg} (h : Part title roles idx e t done) :
    genStacks roles t = roles.flatMap fun p => stackDefs (indexText idx) p 0 (partners p done) ++
      [(orderingName (indexText idx) (partners p done).length p, (closingStack e p).getD .fin)] := by
  unfold genStacks
  apply List.flatMap_congr
  intro p hp
  rw [h.stacks p hp, h.lastStack p hp]
  cases closingStack e p with
  | none =>
    simp only [Option.toList_none, List.map_nil, List.append_nil, Option.isSome_none, Bool.false_eq_true, if_false,
      Option.getD_none]
    rfl
  | some r => simp

/-- What ends a session. -/
def tailOf : Option Rhs → Tail
  | some (.sendChoice c) => .sends c
  | some (.recvChoice c) => .receives c
  | _ => .fin

theorem part_sessions {title : Text → Text} {roles : List Text} {idx : List Nat} {e : Option (Text × Text)} {t : Tree}
    {done : List Msg} (h : Part title roles idx e t done) (defs : List (Text × Rhs))
    (hd : ∀ d ∈ genSessions roles t, d ∈ defs) (p q : Text) (hp : p ∈ roles) (hq : q ∈ roles) (hqp : q ≠ p) :
    MeansTo defs (messageName (indexText idx) 0 p q) (view title p q done) (tailOf (closing e p q)) := by
  have sub : ∀ d, d ∈ sessDefs (indexText idx) p q 0 (view title p q done) ++
      [(messageName (indexText idx) (view title p q done).length p q, (closing e p q).getD .fin)] → d ∈ defs := by
    intro d hm
    refine hd d ?_
    rw [part_gen h]
    refine List.mem_flatMap.mpr ⟨p, hp, List.mem_flatMap.mpr ⟨q, hq, ?_⟩⟩
    rw [if_neg hqp]
    exact hm
  refine means_to_sess defs _ p q ((closing e p q).getD .fin) _ ?_ _ 0 (fun d hm => sub d (by simp [hm])) (sub _ (by rw [Nat.zero_add]; simp))
  intro a ha
  cases e with
  | none => exact .fin _ ha
  | some e =>
    simp only [closing] at ha ⊢
    by_cases h1 : p = e.1
    · rw [if_pos h1] at ha ⊢; exact .sends _ _ ha
    · rw [if_neg h1] at ha ⊢
      by_cases h2 : q = e.1
      · rw [if_pos h2] at ha ⊢; exact .receives _ _ ha
      · rw [if_neg h2] at ha ⊢; exact .fin _ ha

theorem part_stacks {title : Text → Text} {roles : List Text} {idx : List Nat} {e : Option (Text × Text)} {t : Tree}
    {done : List Msg} (h : Part title roles idx e t done) (defs : List (Text × StackRhs))
    (hd : ∀ d ∈ genStacks roles t, d ∈ defs) (p : Text) (hp : p ∈ roles) :
    match e with
    | none => MeansStackTo defs (orderingName (indexText idx) 0 p) (partners p done) false
    | some (x, _) =>
      if p = x then MeansStackTo defs (orderingName (indexText idx) 0 p) (partners p done) true
      else MeansStackTo defs (orderingName (indexText idx) 0 p) (partners p done ++ [x]) false := by
  have sub : ∀ d, d ∈ stackDefs (indexText idx) p 0 (partners p done) ++
      [(orderingName (indexText idx) (partners p done).length p, (closingStack e p).getD .fin)] → d ∈ defs := by
    intro d hm
    refine hd d ?_
    rw [part_gen_stacks h]
    exact List.mem_flatMap.mpr ⟨p, hp, hm⟩
  have main : ∀ (rs : List Text) (c : Bool), (∀ a, (a, (closingStack e p).getD .fin) ∈ defs → MeansStackTo defs a rs c) →
      MeansStackTo defs (orderingName (indexText idx) 0 p) (partners p done ++ rs) c := fun rs c hr =>
    means_to_stack defs _ p _ rs c hr _ 0 (fun d hm => sub d (by simp [hm])) (sub _ (by rw [Nat.zero_add]; simp))
  match e, main with
  | none, main =>
    have := main [] false (fun a ha => .fin _ ha)
    simpa using this
  | some (x, c), main =>
    simp only [closingStack, Option.getD_some] at main ⊢
    by_cases h1 : p = x
    · rw [if_pos h1]
      rw [if_pos h1] at main
      have := main [] true (fun a ha => .broadcast _ ha)
      simpa using this
    · rw [if_neg h1]
      rw [if_neg h1] at main
      exact main [x] false (fun a ha => .last _ _ ha)

theorem mem_allSessions (roles : List Text) (t : Tree) (d : Text × Rhs) (h : d ∈ genSessions roles t) :
    d ∈ allSessions roles t := by
  cases t
  simp only [allSessions]
  exact List.mem_append_left _ h

theorem mem_allStacks (roles : List Text) (t : Tree) (d : Text × StackRhs) (h : d ∈ genStacks roles t) :
    d ∈ allStacks roles t := by
  cases t
  simp only [allStacks]
  exact List.mem_append_left _ h

theorem mem_allEndpoints (roles : List Text) (t : Tree) (d : Text × List Text × Text × Text)
    (h : d ∈ genEndpoints roles t) : d ∈ allEndpoints roles t := by
  cases t
  simp only [allEndpoints]
  exact List.mem_append_left _ h

theorem sessionsList_eq (roles : List Text) : ∀ ts : List Tree, allSessionsList roles ts = ts.flatMap (allSessions roles)
  | [] => by simp [allSessionsList]
  | t :: ts => by simp [allSessionsList, sessionsList_eq roles ts]

theorem stacksList_eq (roles : List Text) : ∀ ts : List Tree, allStacksList roles ts = ts.flatMap (allStacks roles)
  | [] => by simp [allStacksList]
  | t :: ts => by simp [allStacksList, stacksList_eq roles ts]

theorem endpointsList_eq (roles : List Text) : ∀ ts : List Tree,
    allEndpointsList roles ts = ts.flatMap (allEndpoints roles)
  | [] => by simp [allEndpointsList]
  | t :: ts => by simp [allEndpointsList, endpointsList_eq roles ts]

theorem enumsList_eq (roles : List Text) : ∀ ts : List Tree, allEnumsList roles ts = ts.flatMap (allEnums roles)
  | [] => by simp [allEnumsList]
  | t :: ts => by simp [allEnumsList, enumsList_eq roles ts]

theorem functionsList_eq (roles : List Text) : ∀ ts : List Tree,
    allFunctionsList roles ts = ts.flatMap (allFunctions roles)
  | [] => by simp [allFunctionsList]
  | t :: ts => by simp [allFunctionsList, functionsList_eq roles ts]

theorem sub_sessions (roles : List Text) (t u : Tree) (h : u ∈ t.subTrees) (d : Text × Rhs)
    (hd : d ∈ genSessions roles u) : d ∈ allSessions roles t := by
  cases t
  simp only [allSessions, sessionsList_eq]
  exact List.mem_append_right _ (List.mem_flatMap.mpr ⟨u, h, mem_allSessions roles u d hd⟩)

theorem sub_stacks (roles : List Text) (t u : Tree) (h : u ∈ t.subTrees) (d : Text × StackRhs)
    (hd : d ∈ genStacks roles u) : d ∈ allStacks roles t := by
  cases t
  simp only [allStacks, stacksList_eq]
  exact List.mem_append_right _ (List.mem_flatMap.mpr ⟨u, h, mem_allStacks roles u d hd⟩)

theorem sub_endpoints (roles : List Text) (t u : Tree) (h : u ∈ t.subTrees) (d : Text × List Text × Text × Text)
    (hd : d ∈ genEndpoints roles u) : d ∈ allEndpoints roles t := by
  cases t
  simp only [allEndpoints, endpointsList_eq]
  exact List.mem_append_right _ (List.mem_flatMap.mpr ⟨u, h, mem_allEndpoints roles u d hd⟩)

/-- The endpoint of `p` in a tree. -/
theorem part_endpoint {title : Text → Text} {roles : List Text} {idx : List Nat} {x : Option Text} {t : Tree}
    {done : List Msg} {y : Text} (prog : Program) (hroles : prog.roles = roles)
    (h : Part title roles idx (x.map fun x => (x, ['0'])) t done) (hxy : ∀ z, x = some z → z = y)
    (h1 : ∀ d ∈ genSessions roles t, d ∈ prog.sessions) (h2 : ∀ d ∈ genStacks roles t, d ∈ prog.stacks)
    (h3 : ∀ d ∈ genEndpoints roles t, d ∈ prog.endpoints) (p : Text) (hp : p ∈ roles) :
    IsEndpoint title prog (choiceName ['0'] y) (endpointName (indexText idx) p) p done x := by
  refine ⟨(roles.filter (· ≠ p)).map (fun q => (t.firstMessage p q).getD []), (t.firstStack p).getD [], ?_, ?_, ?_⟩
  · refine h3 _ ?_
    unfold genEndpoints
    refine List.mem_flatMap.mpr ⟨p, hp, ?_⟩
    rw [h.endpoints p hp]
    simp
  · rw [hroles]
    refine forall₂_map _ ?_
    intro q hq
    have hq' := List.mem_filter.mp hq
    have hqp : q ≠ p := by simpa using hq'.2
    rw [h.firstMessage p q hp hq'.1 hqp]
    have := part_sessions h prog.sessions h1 p q hp hq'.1 hqp
    cases x with
    | none => exact this
    | some z =>
      have := hxy z rfl
      subst this
      simp only [Option.map_some, closing, Option.getD_some, atChoice] at *
      by_cases c1 : p = z
      · simpa [c1, tailOf] using this
      · by_cases c2 : q = z
        · simpa [c1, c2, tailOf] using this
        · simpa [c1, c2, tailOf] using this
  · rw [h.firstStack p hp]
    have := part_stacks h prog.stacks h2 p hp
    cases x with
    | none => exact this
    | some z => exact this

/-! The parts of an accepted protocol. -/

/-- What is known of the tree of an accepted protocol. -/
structure Parts (title : Text → Text) (P : Proto) (M : Tree) (ts : List Tree) : Prop where
  main : Part title (sorted P.roles) [0] (some (P.chooser, ['0'])) M (messagesOf P.pre)
  count : ts.length = P.branches.length
  subs : M.subTrees = (ts.drop 1).reverse ++ ts.take 1
  branch : ∀ i b, P.branches[i]? = some b → ∃ t, ts[i]? = some t ∧ t.subTrees = [] ∧
    Part title (sorted P.roles) [0, i] (branchEnd P.chooser b) t (P.exchanges b)
  enums : M.enums ['0'] = none ∧ M.enums (indexText [0, 0]) = some (P.chooser, P.others.length)

/-- What makes a protocol acceptable. -/
structure Acceptable (P : Proto) : Prop where
  chooser : P.chooser ∈ P.roles
  messages : ∀ m ∈ messagesOf P.pre, Valid P.roles m
  windows : ∃ bs, boundsOf (messagesOf P.pre) = .ok bs
  branches : ∀ b ∈ P.branches, Sound P.roles P.pre b

theorem valid_sorted (roles : List Text) (m : Msg) : Valid (sorted roles) m ↔ Valid roles m := by
  simp only [Valid, mem_sorted]

theorem sound_sorted (roles : List Text) (pre : List Item) (b : Branch) : Sound (sorted roles) pre b ↔ Sound roles pre b := by
  simp only [Sound, valid_sorted]

theorem sorted_nil (roles : List Text) : sorted roles = [] ↔ roles = [] := by
  constructor
  · intro h
    cases roles with
    | nil => rfl
    | cons a l =>
      have := (mem_sorted (a :: l) a).mpr (by simp)
      rw [h] at this
      cases this
  · rintro rfl; rfl

theorem parts_iff (title : Text → Text) (P : Proto) (hd : P.roles.Nodup) (hr : P.roles ≠ []) :
    (∀ prog, generator title P.lines = .ok prog →
      Acceptable P ∧ ∃ M ts, Parts title P M ts ∧ prog = programOf (sorted P.roles) M) ∧
    (Acceptable P → ∃ prog, generator title P.lines = .ok prog) := by
  have hd' := sorted_nodup P.roles hd
  have hr' : sorted P.roles ≠ [] := fun e => hr ((sorted_nil _).mp e)
  obtain ⟨u1, u2⟩ := add_iff title (sorted P.roles) [0] (messagesOf P.pre) [] _ (shape_header title (sorted P.roles) [0])
  rw [generator_choice]
  constructor
  · intro prog h
    obtain ⟨m1, h1, h⟩ := bind_ok h
    obtain ⟨m2, h2, h⟩ := bind_ok h
    obtain ⟨ts, h3, h⟩ := bind_ok h
    simp only [Except.ok.injEq] at h
    obtain ⟨v1, s1, p1⟩ := u1 m1 h1
    have s1' := shape_enums s1 (upd m1.enums (indexText [0, 0]) (P.chooser, 0))
    have hx := choice_role title _ [0] P.chooser ['0'] _ m2 _ s1' h2 hr'
    obtain ⟨m2', h2', part, _⟩ := choice_part title _ [0] P.chooser ['0'] _ _ s1' hd' hx
    rw [h2] at h2'
    simp only [Except.ok.injEq] at h2'
    subst h2'
    obtain ⟨a1, a2, a3⟩ := choiceAll_index h2
    obtain ⟨c1, c2⟩ := (trees_iff _ P.branches 0).1 ts h3
    have e1 := (add_index h1).2.1
    refine ⟨⟨(mem_sorted _ _).mp hx, fun m hm => (valid_sorted _ _).mp (v1 m hm), ⟨m1.prev, p1⟩, ?_⟩, _, ts, ?_, h.symm⟩
    · intro b hb
      obtain ⟨i, hi⟩ := List.mem_iff_getElem?.mp hb
      obtain ⟨t, _, ht⟩ := c2 i b hi
      exact (sound_sorted _ _ _).mp ((branch_part title _ P.pre P.chooser b (0 + i) hd' hx).1 t ht).1
    · constructor
      · exact ⟨part.index, part.messages, part.lastMessage, part.firstMessage, part.stacks, part.lastStack,
          part.firstStack, part.endpoints⟩
      · exact c1
      · simp only
        rw [a3, show m1.subTrees = [] from s1.subTrees]
        rfl
      · intro i b hb
        obtain ⟨t, h4, ht⟩ := c2 i b hb
        refine ⟨t, h4, ?_, ?_⟩
        · exact (branch_index ht).2.2
        · have := ((branch_part title _ P.pre P.chooser b (0 + i) hd' hx).1 t ht).2
          rw [Nat.zero_add] at this
          exact this
      · constructor
        · simp only [upd]
          rw [if_neg (by decide), a2]
          simp only [upd]
          rw [if_neg (by decide), e1]
          rfl
        · simp [upd]
  · rintro ⟨hx, hv, ⟨bs, hb⟩, hs⟩
    have hx' := (mem_sorted P.roles P.chooser).mpr hx
    obtain ⟨m1, h1, s1, _⟩ := u2 bs (fun m hm => (valid_sorted _ _).mpr (hv m hm)) hb
    have s1' := shape_enums s1 (upd m1.enums (indexText [0, 0]) (P.chooser, 0))
    obtain ⟨m2, h2, _, _⟩ := choice_part title _ [0] P.chooser ['0'] _ _ s1' hd' hx'
    obtain ⟨ts, h3⟩ := (trees_iff (fun j b => branchTree title (sorted P.roles) ['0'] P.pre P.chooser b
        (initSubTree (sorted P.roles) [0, j] P.chooser)) P.branches 0).2 (fun i b hi =>
      (branch_part title _ P.pre P.chooser b (0 + i) hd' hx').2 ((sound_sorted _ _ _).mpr
        (hs b (List.mem_iff_getElem?.mpr ⟨i, hi⟩))))
    have h1' : addMessages title (sorted P.roles) (messagesOf P.pre) (initTree (sorted P.roles) ['0'] (Tree.new [0])) =
      .ok m1 := h1
    rw [h1', ok_bind, h2, ok_bind, h3, ok_bind]
    exact ⟨_, rfl⟩

theorem atChoice_dual (x : Text) (enum : Text → Text) (p q : Text) (h : p ≠ q) :
    atChoice x enum q p = (atChoice x enum p q).dual := by
  unfold atChoice
  by_cases h1 : p = x
  · subst h1; simp [Ne.symm h, Tail.dual]
  · by_cases h2 : q = x
    · subst h2; simp [h, Tail.dual]
    · simp [h1, h2, Tail.dual]

theorem genEnums_nil (roles : List Text) (t : Tree) (h : t.subTrees = []) : allEnums roles t = [] := by
  cases t; simp only at h; subst h; simp [allEnums, genEnums, allEnumsList]

/-- The enums of an accepted protocol. -/
theorem parts_enums {title : Text → Text} {P : Proto} {M : Tree} {ts : List Tree} (h : Parts title P M ts) :
    allEnums (sorted P.roles) M = (sorted P.roles).flatMap fun r =>
      if r ≠ P.chooser then [(choiceName ['0'] P.chooser r, variants ['0'] P.others.length r)] else [] := by
  have hsub : ∀ t ∈ M.subTrees, t.subTrees = [] := by
    intro t ht
    rw [h.subs] at ht
    have : t ∈ ts := by
      rcases List.mem_append.mp ht with e | e
      · exact List.mem_of_mem_drop (List.mem_reverse.mp e)
      · exact List.mem_of_mem_take e
    obtain ⟨i, hi⟩ := List.mem_iff_getElem?.mp this
    have hlt : i < P.branches.length := by
      rw [← h.count]
      exact (List.getElem?_eq_some_iff.mp hi).1
    obtain ⟨t', e1, e2, _⟩ := h.branch i _ (List.getElem?_eq_getElem hlt)
    rw [hi] at e1
    simp only [Option.some.injEq] at e1
    rw [e1]; exact e2
  have hne : M.subTrees ≠ [] := by
    rw [h.subs]
    have : 0 < ts.length := by rw [h.count]; simp [Proto.branches]
    cases ts with
    | nil => simp at this
    | cons t ts => simp
  have hi := h.main.index
  obtain ⟨e1, e2⟩ := h.enums
  have l0 : allEnumsList (sorted P.roles) M.subTrees = [] := by
    rw [enumsList_eq]
    exact List.flatMap_eq_nil_iff.mpr fun t ht => genEnums_nil _ _ (hsub t ht)
  cases M
  simp only at hi e1 e2 hne l0
  subst hi
  simp only [allEnums, genEnums]
  rw [if_neg hne, l0]
  have k1 : indexText [0] = ['0'] := rfl
  simp only [k1, List.filterMap_cons, e1, List.cons_append, List.nil_append, e2, List.filterMap_nil, List.flatMap_cons,
    List.flatMap_nil, List.append_nil]

theorem dec_inj {i j : Nat} (h : dec i = dec j) : i = j := by
  rw [← (dec_value i).1, ← (dec_value j).1, h]

/-- The endpoints, enums and variants of an accepted protocol, by their names. -/
theorem projection_named (title : Text → Text) (P : Proto) (prog : Program) (hd : P.roles.Nodup) (hr : P.roles ≠ [])
    (h : generator title P.lines = .ok prog) :
    let enum := choiceName ['0'] P.chooser
    let branch : Nat → Text → Text := fun i => endpointName (indexText [0, i])
    (∀ p ∈ P.roles, IsEndpoint title prog enum (endpointName ['0'] p) p (messagesOf P.pre) (some P.chooser)) ∧
    (∀ i b, P.branches[i]? = some b → ∀ p ∈ P.roles,
      IsEndpoint title prog enum (branch i p) p (P.exchanges b) (b.back.map fun _ => P.chooser)) ∧
    (∀ q ∈ P.roles, q ≠ P.chooser → ∃ variants, (enum q, variants) ∈ prog.enums ∧ (variants.map (·.1)).Nodup ∧
      variants.map (·.2) = (List.range P.branches.length).map fun i => branch i q) ∧
    (∀ e ∈ prog.enums, ∃ q ∈ P.roles, q ≠ P.chooser ∧ e.1 = enum q) := by
  obtain ⟨_, M, ts, hp, rfl⟩ := (parts_iff title P hd hr).1 prog h
  refine ⟨?_, ?_, ?_, ?_⟩
  · intro p hpr
    exact part_endpoint (x := some P.chooser) (programOf (sorted P.roles) M) rfl hp.main (fun z e => (Option.some.inj e).symm)
      (mem_allSessions _ _) (mem_allStacks _ _) (mem_allEndpoints _ _) p ((mem_sorted _ _).mpr hpr)
  · intro i b hb p hpr
    obtain ⟨t, h4, _, part⟩ := hp.branch i b hb
    have hmem : t ∈ M.subTrees := by
      rw [hp.subs]
      have : t ∈ ts := List.mem_iff_getElem?.mpr ⟨i, h4⟩
      rw [← List.take_append_drop 1 ts] at this
      rcases List.mem_append.mp this with e | e
      · exact List.mem_append_right _ e
      · exact List.mem_append_left _ (List.mem_reverse.mpr e)
    refine part_endpoint (x := b.back.map fun _ => P.chooser) (programOf (sorted P.roles) M) rfl ?_ ?_
      (sub_sessions _ _ _ hmem) (sub_stacks _ _ _ hmem) (sub_endpoints _ _ _ hmem) p ((mem_sorted _ _).mpr hpr)
    · cases hb : b.back with
      | none => simpa [branchEnd, hb, programOf] using part
      | some l => simpa [branchEnd, hb, programOf] using part
    · intro z hz
      cases hb : b.back with
      | none => rw [hb] at hz; cases hz
      | some l => rw [hb] at hz; exact (Option.some.inj hz).symm
  · intro q hq hqx
    refine ⟨variants ['0'] P.others.length q, ?_, ?_, ?_⟩
    · simp only [programOf]
      rw [parts_enums hp]
      exact List.mem_flatMap.mpr ⟨q, (mem_sorted _ _).mpr hq, by simp [hqx]⟩
    · simp only [variants, List.map_map, Function.comp_def]
      refine List.Nodup.map ?_ List.nodup_range
      intro i j hij
      exact dec_inj (List.append_cancel_left hij)
    · simp only [variants, List.map_map, Function.comp_def, Proto.branches, List.length_cons]
      rfl
  · intro e he
    simp only [programOf] at he
    rw [parts_enums hp] at he
    obtain ⟨q, hq, he⟩ := List.mem_flatMap.mp he
    by_cases hqx : q = P.chooser
    · simp [hqx] at he
    · simp only [ne_eq, hqx, not_false_eq_true, if_true, List.mem_singleton] at he
      exact ⟨q, (mem_sorted _ _).mp hq, hqx, by rw [he]⟩

/-- C47.  Take a protocol of messages and beginnings of loops, then a choice of one or more branches, each some messages
and possibly a jump to one of the loops.  If it is accepted, every role has an endpoint type for the exchanges up to the
choice, and one for every branch, for the exchanges from there on: those of the branch and, if it jumps, those from
the beginning of the loop up to the choice again.  At the choice the chooser broadcasts and every other role receives
from them, in an enum with exactly one variant for each branch, in order, which carries the endpoint of that role
for that branch.  What `p` sees of `q` is dual to what `q` sees of `p`. -/
theorem C47_projection (title : Text → Text) (P : Proto) (prog : Program) (hd : P.roles.Nodup)
    (h : generator title P.lines = .ok prog) :
    (∀ p, p ∈ prog.roles ↔ p ∈ P.roles) ∧
    (∃ (enum main : Text → Text) (branch : Nat → Text → Text),
      (∀ p ∈ P.roles, IsEndpoint title prog enum (main p) p (messagesOf P.pre) (some P.chooser)) ∧
      (∀ i b, P.branches[i]? = some b → ∀ p ∈ P.roles,
        IsEndpoint title prog enum (branch i p) p (P.exchanges b) (b.back.map fun _ => P.chooser)) ∧
      (∀ q ∈ P.roles, q ≠ P.chooser → ∃ variants, (enum q, variants) ∈ prog.enums ∧ (variants.map (·.1)).Nodup ∧
        variants.map (·.2) = (List.range P.branches.length).map fun i => branch i q) ∧
      (∀ e ∈ prog.enums, ∃ q ∈ P.roles, q ≠ P.chooser ∧ e.1 = enum q)) ∧
    (∀ p q msgs, p ≠ q → view title q p msgs = (view title p q msgs).map Step.dual) ∧
    (∀ p q enum, p ≠ q → atChoice P.chooser enum q p = (atChoice P.chooser enum p q).dual) := by
  have hdual := fun p q msgs hpq => view_dual title p q hpq msgs
  refine ⟨?_, ?_, hdual, fun p q enum hpq => atChoice_dual _ _ _ _ hpq⟩
  · rw [generator_choice] at h
    obtain ⟨m1, h1, h⟩ := bind_ok h
    obtain ⟨m2, h2, h⟩ := bind_ok h
    obtain ⟨ts, h3, h⟩ := bind_ok h
    simp only [Except.ok.injEq] at h
    subst h
    exact fun p => mem_sorted P.roles p
  by_cases hr : P.roles = []
  · refine ⟨id, id, fun _ => id, by simp [hr], by simp [hr], by simp [hr], ?_⟩
    intro e he
    rw [generator_choice] at h
    obtain ⟨m1, h1, h⟩ := bind_ok h
    obtain ⟨m2, h2, h⟩ := bind_ok h
    obtain ⟨ts, h3, h⟩ := bind_ok h
    simp only [Except.ok.injEq] at h
    subst h
    exfalso
    have none : ∀ t, allEnums [] t = [] := by
      intro t
      have : ∀ t, genEnums [] t = [] := by intro t; unfold genEnums; split <;> simp
      have hl : ∀ n (t : Tree), sizeOf t < n → allEnums [] t = [] := by
        intro n
        induction n with
        | zero => intro t ht; omega
        | succ n ih =>
          intro t ht
          cases t
          simp only [allEnums, this, List.nil_append]
          rw [enumsList_eq]
          refine List.flatMap_eq_nil_iff.mpr fun u hu => ih u ?_
          have := List.sizeOf_lt_of_mem hu
          simp only [Tree.mk.sizeOf_spec] at ht
          omega
      exact hl _ t (Nat.lt_succ_self _)
    rw [hr] at he
    simp only [programOf, show sorted [] = [] from rfl, none] at he
    cases he
  exact ⟨_, _, _, projection_named title P prog hd hr h⟩

/-- C47, what is checked: the chooser is a role, every message is between two different roles, and every jump is to a loop
that was begun. -/
theorem C47_checked (title : Text → Text) (P : Proto) (prog : Program) (hd : P.roles.Nodup) (hr : P.roles ≠ [])
    (h : generator title P.lines = .ok prog) :
    P.chooser ∈ P.roles ∧ (∀ m ∈ messagesOf P.pre, Valid P.roles m) ∧
    ∀ b ∈ P.branches, (∀ m ∈ b.msgs, Valid P.roles m) ∧ ∀ l, b.back = some l → loopBody l P.pre ≠ none := by
  obtain ⟨ha, _⟩ := (parts_iff title P hd hr).1 prog h
  refine ⟨ha.chooser, ha.messages, fun b hb => ⟨fun m hm => (ha.branches b hb).1 m (by simp [hm]), fun l hl e => ?_⟩⟩
  have := (ha.branches b hb).2.1 l hl
  rw [e] at this
  cases this

/-! The aliases do not clash. -/

theorem messageName_same {i : Text} {n n' : Nat} {p q p' q' : Text} (hp : NoTo p) (hp' : NoTo p')
    (h : messageName i n p q = messageName i n' p' q') : n = n' ∧ p = p' ∧ q = q' := by
  unfold messageName at h
  simp only [List.append_assoc] at h
  have h := List.append_cancel_left (List.append_cancel_left h)
  simp only [List.cons_append, List.nil_append, List.cons.injEq, true_and] at h
  obtain ⟨e1, e2⟩ := dec_split h
  simp only [List.cons.injEq, true_and] at e2
  exact ⟨e1, split_to e2 hp hp'⟩

theorem orderingName_same {i : Text} {n n' : Nat} {p p' : Text}
    (h : orderingName i n p = orderingName i n' p') : n = n' ∧ p = p' := by
  unfold orderingName at h
  simp only [List.append_assoc] at h
  have h := List.append_cancel_left (List.append_cancel_left h)
  simp only [List.cons_append, List.nil_append, List.cons.injEq, true_and] at h
  obtain ⟨e1, e2⟩ := dec_split h
  simp only [List.cons.injEq, true_and] at e2
  exact ⟨e1, e2⟩

/-- The index of a part: the beginning, or a branch. -/
inductive IsIndex : List Nat → Prop where
  | main : IsIndex [0]
  | branch (j) : IsIndex [0, j]

/-- The index can be read from a name, if what follows it does not begin with a digit. -/
theorem index_split {i i' : List Nat} (h : IsIndex i) (h' : IsIndex i') {c : Char} {x y : Text}
    (hc : ¬ (48 ≤ c.toNat ∧ c.toNat ≤ 57))
    (e : indexText i ++ '_' :: c :: x = indexText i' ++ '_' :: c :: y) : i = i' := by
  have hd : ∀ j (z : Text), dec j ++ '_' :: z ≠ c :: x ∧ dec j ++ '_' :: z ≠ c :: y := by
    intro j z
    obtain ⟨_, h1, h2⟩ := dec_value j
    cases hj : dec j with
    | nil => exact absurd hj h1
    | cons d ds =>
      rw [hj] at h2
      refine ⟨fun e => ?_, fun e => ?_⟩ <;>
      · simp only [List.cons_append, List.cons.injEq] at e
        exact hc (e.1 ▸ h2 d (by simp))
  cases h with
  | main =>
    cases h' with
    | main => rfl
    | branch j =>
      have e : '0' :: '_' :: c :: x = '0' :: '_' :: (dec j ++ '_' :: c :: y) := e
      simp only [List.cons.injEq, true_and] at e
      exact absurd e.symm (hd j _).1
  | branch j =>
    cases h' with
    | main =>
      have e : '0' :: '_' :: (dec j ++ '_' :: c :: x) = '0' :: '_' :: c :: y := e
      simp only [List.cons.injEq, true_and] at e
      exact absurd e (hd j _).2
    | branch j' =>
      have e : '0' :: '_' :: (dec j ++ '_' :: c :: x) = '0' :: '_' :: (dec j' ++ '_' :: c :: y) := e
      simp only [List.cons.injEq, true_and] at e
      rw [(dec_split e).1]

theorem messageName_index {i i' : List Nat} (h : IsIndex i) (h' : IsIndex i') {n n' : Nat} {p q p' q' : Text}
    (e : messageName (indexText i) n p q = messageName (indexText i') n' p' q') : i = i' := by
  unfold messageName at e
  simp only [List.append_assoc] at e
  exact index_split h h' (c := 'v') (by decide) (List.append_cancel_left e)

theorem orderingName_index {i i' : List Nat} (h : IsIndex i) (h' : IsIndex i') {n n' : Nat} {p p' : Text}
    (e : orderingName (indexText i) n p = orderingName (indexText i') n' p') : i = i' := by
  unfold orderingName at e
  simp only [List.append_assoc] at e
  exact index_split h h' (c := 'v') (by decide) (List.append_cancel_left e)

theorem endpointName_index {i i' : List Nat} (h : IsIndex i) (h' : IsIndex i') {p p' : Text}
    (e : endpointName (indexText i) p = endpointName (indexText i') p') : i = i' := by
  unfold endpointName at e
  simp only [List.append_assoc] at e
  exact index_split h h' (c := 'F') (by decide) (List.append_cancel_left e)

theorem sessDefs_names' (i p q : Text) : ∀ (ss : List Step) (n : Nat),
    (sessDefs i p q n ss).map (·.1) = (List.range' n ss.length).map fun k => messageName i k p q
  | [], _ => rfl
  | .send _ :: ss, n => by simp [sessDefs, sessDefs_names' i p q ss, List.range'_succ]
  | .recv _ :: ss, n => by simp [sessDefs, sessDefs_names' i p q ss, List.range'_succ]

theorem stackDefs_names' (i p : Text) : ∀ (ss : List Text) (n : Nat),
    (stackDefs i p n ss).map (·.1) = (List.range' n ss.length).map fun k => orderingName i k p
  | [], _ => rfl
  | _ :: ss, n => by simp [stackDefs, stackDefs_names' i p ss, List.range'_succ]

section names
variable {title : Text → Text} {roles : List Text} {idx : List Nat} {e : Option (Text × Text)} {t : Tree}
  {done : List Msg}

theorem part_names (h : Part title roles idx e t done) :
    (genSessions roles t).map (·.1) = roles.flatMap fun p => roles.flatMap fun q => if q = p then [] else
      (List.range' 0 ((view title p q done).length + 1)).map fun k => messageName (indexText idx) k p q := by
  rw [part_gen h, List.map_flatMap]
  apply List.flatMap_congr
  intro p _
  rw [List.map_flatMap]
  apply List.flatMap_congr
  intro q _
  split
  · rfl
  · rw [List.map_append, sessDefs_names', List.range'_concat]
    simp

theorem part_stack_names (h : Part title roles idx e t done) :
    (genStacks roles t).map (·.1) = roles.flatMap fun p =>
      (List.range' 0 ((partners p done).length + 1)).map fun k => orderingName (indexText idx) k p := by
  rw [part_gen_stacks h, List.map_flatMap]
  apply List.flatMap_congr
  intro p _
  rw [List.map_append, stackDefs_names', List.range'_concat]
  simp

theorem part_nodup (h : Part title roles idx e t done) (hd : roles.Nodup) (hto : ∀ p ∈ roles, NoTo p) :
    ((genSessions roles t).map (·.1)).Nodup := by
  rw [part_names h, List.nodup_flatMap]
  constructor
  · intro p hp
    rw [List.nodup_flatMap]
    constructor
    · intro q _
      split
      · simp
      · refine List.Nodup.map ?_ (List.nodup_range' (step := 1))
        intro a b hab
        exact (messageName_same (hto p hp) (hto p hp) hab).1
    · refine hd.imp ?_
      intro q q' hqq x hx hx'
      simp only at hx hx'
      split at hx
      · simp at hx
      · split at hx'
        · simp at hx'
        · obtain ⟨a, _, ha⟩ := List.mem_map.mp hx
          obtain ⟨b, _, hb⟩ := List.mem_map.mp hx'
          exact hqq (messageName_same (hto p hp) (hto p hp) (ha.trans hb.symm)).2.2
  · refine List.Pairwise.imp_of_mem ?_ hd
    intro p p' hp hp' hpp x hx hx'
    obtain ⟨q, _, hx⟩ := List.mem_flatMap.mp hx
    obtain ⟨q', _, hx'⟩ := List.mem_flatMap.mp hx'
    split at hx
    · simp at hx
    · split at hx'
      · simp at hx'
      · obtain ⟨a, _, ha⟩ := List.mem_map.mp hx
        obtain ⟨b, _, hb⟩ := List.mem_map.mp hx'
        exact hpp (messageName_same (hto p hp) (hto p' hp') (ha.trans hb.symm)).2.1

theorem part_stack_nodup (h : Part title roles idx e t done) (hd : roles.Nodup) :
    ((genStacks roles t).map (·.1)).Nodup := by
  rw [part_stack_names h, List.nodup_flatMap]
  constructor
  · intro p hp
    refine List.Nodup.map ?_ (List.nodup_range' (step := 1))
    intro a b hab
    exact (orderingName_same hab).1
  · refine hd.imp ?_
    intro p p' hpp x hx hx'
    obtain ⟨a, _, ha⟩ := List.mem_map.mp hx
    obtain ⟨b, _, hb⟩ := List.mem_map.mp hx'
    exact hpp (orderingName_same (ha.trans hb.symm)).2

theorem part_endpoint_names (h : Part title roles idx e t done) :
    (genEndpoints roles t).map (·.1) = roles.map fun p => endpointName (indexText idx) p := by
  unfold genEndpoints
  rw [List.map_flatMap, ← List.flatMap_singleton' (List.map _ roles), List.flatMap_map]
  apply List.flatMap_congr
  intro p hp
  rw [h.endpoints p hp]
  simp

theorem part_functions (h : Part title roles idx e t done) :
    genFunctions roles t = roles.flatMap fun r => (List.range (idx.getLastD 0 + 1)).map fun i =>
      ((r, indexText idx, i), endpointName (indexText idx) r) := by
  unfold genFunctions
  rw [h.index]
  apply List.flatMap_congr
  intro p hp
  rw [h.endpoints p hp]
  rfl

end names

/-- A family of lists, one per part, has no duplicates if each has none and no two share an element. -/
theorem nodup_parts {α : Type} {title : Text → Text} {P : Proto} {M : Tree} {ts : List Tree} (h : Parts title P M ts)
    (f : Tree → List α)
    (h1 : ∀ idx e t done, Part title (sorted P.roles) idx e t done → IsIndex idx → (f t).Nodup)
    (h2 : ∀ idx e t done idx' e' t' done', Part title (sorted P.roles) idx e t done →
      Part title (sorted P.roles) idx' e' t' done' → IsIndex idx → IsIndex idx' → ∀ x, x ∈ f t → x ∈ f t' → idx = idx') :
    (f M ++ M.subTrees.flatMap f).Nodup := by
  have hts : ∀ i t, ts[i]? = some t → ∃ e done, Part title (sorted P.roles) [0, i] e t done := by
    intro i t hi
    have hlt : i < P.branches.length := by
      rw [← h.count]
      exact (List.getElem?_eq_some_iff.mp hi).1
    obtain ⟨t', e1, _, e2⟩ := h.branch i _ (List.getElem?_eq_getElem hlt)
    rw [hi] at e1
    simp only [Option.some.injEq] at e1
    subst e1
    exact ⟨_, _, e2⟩
  have hperm : (M.subTrees.flatMap f).Perm (ts.flatMap f) := by
    rw [h.subs]
    refine List.Perm.flatMap_right f ?_
    have : ((ts.drop 1).reverse ++ ts.take 1).Perm (ts.take 1 ++ ts.drop 1) :=
      List.perm_append_comm.trans (List.Perm.append_left _ (List.reverse_perm _))
    rwa [List.take_append_drop] at this
  rw [(List.Perm.append_left (f M) hperm).nodup_iff, List.nodup_append]
  refine ⟨h1 _ _ _ _ h.main .main, ?_, ?_⟩
  · rw [List.nodup_flatMap]
    constructor
    · intro t ht
      obtain ⟨i, hi⟩ := List.mem_iff_getElem?.mp ht
      obtain ⟨e, done, hp⟩ := hts i t hi
      exact h1 _ _ _ _ hp (.branch i)
    · rw [List.pairwise_iff_getElem]
      intro i j hi hj hij x hx hx'
      obtain ⟨e, done, hp⟩ := hts i _ (List.getElem?_eq_getElem hi)
      obtain ⟨e', done', hp'⟩ := hts j _ (List.getElem?_eq_getElem hj)
      have := h2 _ _ _ _ _ _ _ _ hp hp' (.branch i) (.branch j) x hx hx'
      simp only [List.cons.injEq, and_true, true_and] at this
      omega
  · intro x hx y hy hxy
    subst hxy
    obtain ⟨t, ht, hy⟩ := List.mem_flatMap.mp hy
    obtain ⟨i, hi⟩ := List.mem_iff_getElem?.mp ht
    obtain ⟨e, done, hp⟩ := hts i t hi
    have := h2 _ _ _ _ _ _ _ _ h.main hp .main (.branch i) x hx hy
    simp at this

theorem parts_subs {title : Text → Text} {P : Proto} {M : Tree} {ts : List Tree} (h : Parts title P M ts) :
    ∀ t ∈ M.subTrees, t.subTrees = [] := by
  intro t ht
  rw [h.subs] at ht
  have : t ∈ ts := by
    rcases List.mem_append.mp ht with e | e
    · exact List.mem_of_mem_drop (List.mem_reverse.mp e)
    · exact List.mem_of_mem_take e
  obtain ⟨i, hi⟩ := List.mem_iff_getElem?.mp this
  have hlt : i < P.branches.length := by
    rw [← h.count]
    exact (List.getElem?_eq_some_iff.mp hi).1
  obtain ⟨t', e1, e2, _⟩ := h.branch i _ (List.getElem?_eq_getElem hlt)
  rw [hi] at e1
  simp only [Option.some.injEq] at e1
  rw [e1]; exact e2

theorem allFunctions_eq (roles : List Text) (t : Tree) (h : t.subTrees = []) :
    allFunctions roles t = genFunctions roles t := by
  cases t; simp only at h; subst h; simp [allFunctions, allFunctionsList]

theorem allSessions_flat (roles : List Text) (t : Tree) (h : ∀ u ∈ t.subTrees, u.subTrees = []) :
    allSessions roles t = genSessions roles t ++ t.subTrees.flatMap (genSessions roles) := by
  cases t
  simp only [allSessions, sessionsList_eq] at h ⊢
  congr 1
  exact List.flatMap_congr fun u hu => allSessions_eq roles u (h u hu)

theorem allStacks_flat (roles : List Text) (t : Tree) (h : ∀ u ∈ t.subTrees, u.subTrees = []) :
    allStacks roles t = genStacks roles t ++ t.subTrees.flatMap (genStacks roles) := by
  cases t
  simp only [allStacks, stacksList_eq] at h ⊢
  congr 1
  exact List.flatMap_congr fun u hu => allStacks_eq roles u (h u hu)

theorem allEndpoints_flat (roles : List Text) (t : Tree) (h : ∀ u ∈ t.subTrees, u.subTrees = []) :
    allEndpoints roles t = genEndpoints roles t ++ t.subTrees.flatMap (genEndpoints roles) := by
  cases t
  simp only [allEndpoints, endpointsList_eq] at h ⊢
  congr 1
  exact List.flatMap_congr fun u hu => allEndpoints_eq roles u (h u hu)

theorem allFunctions_flat (roles : List Text) (t : Tree) (h : ∀ u ∈ t.subTrees, u.subTrees = []) :
    allFunctions roles t = genFunctions roles t ++ t.subTrees.flatMap (genFunctions roles) := by
  cases t
  simp only [allFunctions, functionsList_eq] at h ⊢
  congr 1
  exact List.flatMap_congr fun u hu => allFunctions_eq roles u (h u hu)

theorem indexText_inj {i i' : List Nat} (h : IsIndex i) (h' : IsIndex i') (e : indexText i = indexText i') : i = i' :=
  index_split h h' (c := 'v') (x := []) (y := []) (by decide) (by rw [e])

/-- C47, no name is defined twice, if the roles are distinct and no name of a role contains `To`: neither a session type,
nor a stack type, nor an enum, nor an endpoint type. -/
theorem C47_aliases (title : Text → Text) (P : Proto) (prog : Program) (hd : P.roles.Nodup) (hr : P.roles ≠ [])
    (hto : ∀ p ∈ P.roles, NoTo p) (h : generator title P.lines = .ok prog) :
    (prog.sessions.map (·.1)).Nodup ∧ (prog.stacks.map (·.1)).Nodup ∧ (prog.enums.map (·.1)).Nodup ∧
    (prog.endpoints.map (·.1)).Nodup := by
  obtain ⟨_, M, ts, hp, rfl⟩ := (parts_iff title P hd hr).1 prog h
  have hd' := sorted_nodup P.roles hd
  have hto' : ∀ p ∈ sorted P.roles, NoTo p := fun p hp => hto p ((mem_sorted P.roles p).mp hp)
  have hs := parts_subs hp
  simp only [programOf]
  refine ⟨?_, ?_, ?_, ?_⟩
  · rw [allSessions_flat _ _ hs, List.map_append, List.map_flatMap]
    refine nodup_parts hp (fun t => (genSessions (sorted P.roles) t).map (·.1)) ?_ ?_
    · intro idx e t done part _; exact part_nodup part hd' hto'
    · intro idx e t done idx' e' t' done' part part' hi hi' x hx hx'
      simp only [part_names part, part_names part'] at hx hx'
      obtain ⟨p, _, hx⟩ := List.mem_flatMap.mp hx
      obtain ⟨q, _, hx⟩ := List.mem_flatMap.mp hx
      obtain ⟨p', _, hx'⟩ := List.mem_flatMap.mp hx'
      obtain ⟨q', _, hx'⟩ := List.mem_flatMap.mp hx'
      split at hx
      · simp at hx
      · split at hx'
        · simp at hx'
        · obtain ⟨a, _, ha⟩ := List.mem_map.mp hx
          obtain ⟨b, _, hb⟩ := List.mem_map.mp hx'
          exact messageName_index hi hi' (ha.trans hb.symm)
  · rw [allStacks_flat _ _ hs, List.map_append, List.map_flatMap]
    refine nodup_parts hp (fun t => (genStacks (sorted P.roles) t).map (·.1)) ?_ ?_
    · intro idx e t done part _; exact part_stack_nodup part hd'
    · intro idx e t done idx' e' t' done' part part' hi hi' x hx hx'
      simp only [part_stack_names part, part_stack_names part'] at hx hx'
      obtain ⟨p, _, hx⟩ := List.mem_flatMap.mp hx
      obtain ⟨p', _, hx'⟩ := List.mem_flatMap.mp hx'
      obtain ⟨a, _, ha⟩ := List.mem_map.mp hx
      obtain ⟨b, _, hb⟩ := List.mem_map.mp hx'
      exact orderingName_index hi hi' (ha.trans hb.symm)
  · rw [parts_enums hp, List.map_flatMap, List.nodup_flatMap]
    constructor
    · intro r _
      split <;> simp
    · refine hd'.imp ?_
      intro r r' hrr x hx hx'
      simp only at hx hx'
      split at hx
      · split at hx'
        · simp only [List.map_cons, List.map_nil, List.mem_singleton] at hx hx'
          rw [hx] at hx'
          unfold choiceName at hx'
          exact hrr (List.append_cancel_left hx')
        · simp at hx'
      · simp at hx
  · rw [allEndpoints_flat _ _ hs, List.map_append, List.map_flatMap]
    refine nodup_parts hp (fun t => (genEndpoints (sorted P.roles) t).map (·.1)) ?_ ?_
    · intro idx e t done part _
      simp only [part_endpoint_names part]
      refine List.Nodup.map ?_ hd'
      intro a b hab
      unfold endpointName at hab
      exact List.append_cancel_left hab
    · intro idx e t done idx' e' t' done' part part' hi hi' x hx hx'
      simp only [part_endpoint_names part, part_endpoint_names part'] at hx hx'
      obtain ⟨p, _, ha⟩ := List.mem_map.mp hx
      obtain ⟨q, _, hb⟩ := List.mem_map.mp hx'
      exact endpointName_index hi hi' (ha.trans hb.symm)

/-! The functions. -/

theorem split_under {a b x y : Text} (ha : '_' ∉ a) (hb : '_' ∉ b) (h : a ++ '_' :: x = b ++ '_' :: y) :
    a = b ∧ x = y := by
  induction a generalizing b with
  | nil =>
    cases b with
    | nil => exact ⟨rfl, by simpa using h⟩
    | cons c b =>
      simp only [List.nil_append, List.cons_append, List.cons.injEq] at h
      exact absurd (h.1 ▸ List.mem_cons_self) hb
  | cons c a ih =>
    cases b with
    | nil =>
      simp only [List.nil_append, List.cons_append, List.cons.injEq] at h
      exact absurd (h.1 ▸ List.mem_cons_self) ha
    | cons d b =>
      simp only [List.cons_append, List.cons.injEq] at h
      obtain ⟨e1, e2⟩ := ih (fun k => ha (List.mem_cons_of_mem _ k)) (fun k => hb (List.mem_cons_of_mem _ k)) h.2
      exact ⟨by rw [h.1, e1], e2⟩

/-- C47, the functions: every function takes a generated endpoint type, the one of its role; every endpoint type has a
function; `main` runs exactly one function for each role, and it is the one of the beginning of the protocol; and if the
lower-case names of the roles are distinct and have no underscore, no function is defined twice. -/
theorem C47_functions (title : Text → Text) (P : Proto) (prog : Program) (hd : P.roles.Nodup) (hr : P.roles ≠ [])
    (h : generator title P.lines = .ok prog) :
    (∀ f ∈ prog.functions, ∃ sessions stack, (f.2, sessions, stack, ['N', 'a', 'm', 'e'] ++ f.1.1) ∈ prog.endpoints) ∧
    (∀ e ∈ prog.endpoints, ∃ f, (f, e.1) ∈ prog.functions) ∧
    prog.main.map (·.1) = prog.roles ∧
    (∀ f ∈ prog.main, ∃ e, (f, e) ∈ prog.functions ∧ ∃ enum,
      IsEndpoint title prog enum e f.1 (messagesOf P.pre) (some P.chooser)) ∧
    ∀ lower : Text → Text, (∀ p ∈ P.roles, '_' ∉ lower p) → (∀ p ∈ P.roles, ∀ q ∈ P.roles, lower p = lower q → p = q) →
      (prog.functions.map fun f => fnName lower f.1).Nodup := by
  obtain ⟨_, M, ts, hp, rfl⟩ := (parts_iff title P hd hr).1 prog h
  have hs := parts_subs hp
  have hd' := sorted_nodup P.roles hd
  have hpart : ∀ t, t = M ∨ t ∈ M.subTrees → ∃ idx e done, IsIndex idx ∧ Part title (sorted P.roles) idx e t done := by
    rintro t (rfl | ht)
    · exact ⟨_, _, _, .main, hp.main⟩
    · rw [hp.subs] at ht
      have hts : t ∈ ts := by
        rcases List.mem_append.mp ht with e | e
        · exact List.mem_of_mem_drop (List.mem_reverse.mp e)
        · exact List.mem_of_mem_take e
      obtain ⟨i, hi⟩ := List.mem_iff_getElem?.mp hts
      have hlt : i < P.branches.length := by
        rw [← hp.count]
        exact (List.getElem?_eq_some_iff.mp hi).1
      obtain ⟨t', e1, _, part⟩ := hp.branch i _ (List.getElem?_eq_getElem hlt)
      rw [hi] at e1
      simp only [Option.some.injEq] at e1
      subst e1
      exact ⟨_, _, _, .branch i, part⟩
  have hmem : ∀ (α : Type) (g : Tree → List α) x, x ∈ g M ++ M.subTrees.flatMap g ↔
      ∃ t, (t = M ∨ t ∈ M.subTrees) ∧ x ∈ g t := by
    intro α g x
    rw [List.mem_append, List.mem_flatMap]
    constructor
    · rintro (e | ⟨t, ht, e⟩)
      · exact ⟨M, .inl rfl, e⟩
      · exact ⟨t, .inr ht, e⟩
    · rintro ⟨t, rfl | ht, e⟩
      · exact .inl e
      · exact .inr ⟨t, ht, e⟩
  have hep : ∀ t, t = M ∨ t ∈ M.subTrees → ∀ x ∈ genEndpoints (sorted P.roles) t,
      x ∈ (programOf (sorted P.roles) M).endpoints := by
    intro t ht x hx
    simp only [programOf]
    rw [allEndpoints_flat _ _ hs]
    exact (hmem _ _ x).mpr ⟨t, ht, hx⟩
  have hfn : ∀ x, x ∈ (programOf (sorted P.roles) M).functions ↔
      ∃ t, (t = M ∨ t ∈ M.subTrees) ∧ x ∈ genFunctions (sorted P.roles) t := by
    intro x
    simp only [programOf]
    rw [allFunctions_flat _ _ hs]
    exact hmem _ _ x
  refine ⟨?_, ?_, ?_, ?_, ?_⟩
  · intro f hf
    obtain ⟨t, ht, hf⟩ := (hfn f).mp hf
    obtain ⟨idx, e, done, hi, part⟩ := hpart t ht
    rw [part_functions part] at hf
    obtain ⟨r, hr, hf⟩ := List.mem_flatMap.mp hf
    obtain ⟨i, _, rfl⟩ := List.mem_map.mp hf
    refine ⟨((sorted P.roles).filter (· ≠ r)).map (fun q => (t.firstMessage r q).getD []), (t.firstStack r).getD [],
      hep t ht _ ?_⟩
    unfold genEndpoints
    refine List.mem_flatMap.mpr ⟨r, hr, ?_⟩
    rw [part.endpoints r hr]
    exact List.mem_singleton.mpr rfl
  · intro e he
    simp only [programOf] at he
    rw [allEndpoints_flat _ _ hs] at he
    obtain ⟨t, ht, he⟩ := (hmem _ _ e).mp he
    obtain ⟨idx, _, done, hi, part⟩ := hpart t ht
    unfold genEndpoints at he
    obtain ⟨r, hr, he⟩ := List.mem_flatMap.mp he
    rw [part.endpoints r hr] at he
    simp only [Option.getD_some, List.map_cons, List.map_nil, List.mem_singleton] at he
    subst he
    refine ⟨(r, indexText idx, 0), (hfn _).mpr ⟨t, ht, ?_⟩⟩
    rw [part_functions part]
    exact List.mem_flatMap.mpr ⟨r, hr, List.mem_map.mpr ⟨0, by simp, rfl⟩⟩
  · simp [programOf, Function.comp_def]
  · intro f hf
    simp only [programOf] at hf
    obtain ⟨r, hr, rfl⟩ := List.mem_map.mp hf
    refine ⟨endpointName ['0'] r, (hfn _).mpr ⟨M, .inl rfl, ?_⟩, choiceName ['0'] P.chooser, ?_⟩
    · rw [part_functions hp.main]
      exact List.mem_flatMap.mpr ⟨r, hr, List.mem_map.mpr ⟨0, by simp, rfl⟩⟩
    · exact part_endpoint (x := some P.chooser) (programOf (sorted P.roles) M) rfl hp.main
        (fun z e => (Option.some.inj e).symm) (mem_allSessions _ _) (mem_allStacks _ _) (mem_allEndpoints _ _) r hr
  · intro lower hu hl
    have name : ∀ {p p' : Text} {i i' : List Nat} {n n' : Nat}, p ∈ sorted P.roles → p' ∈ sorted P.roles → IsIndex i →
        IsIndex i' → fnName lower (p, indexText i, n) = fnName lower (p', indexText i', n') → p = p' ∧ i = i' ∧ n = n' := by
      intro p p' i i' n n' h1 h2 h3 h4 e
      have h1 := (mem_sorted _ _).mp h1
      have h2 := (mem_sorted _ _).mp h2
      unfold fnName at e
      simp only [List.append_assoc] at e
      have e := List.append_cancel_left e
      simp only [List.cons_append, List.nil_append] at e
      obtain ⟨e1, e2⟩ := split_under (hu _ h1) (hu _ h2) e
      have e3 := index_split h3 h4 (c := 'v') (by decide) e2
      subst e3
      have e4 := List.append_cancel_left e2
      simp only [List.cons.injEq, true_and] at e4
      exact ⟨hl _ h1 _ h2 e1, rfl, dec_inj e4⟩
    have key := nodup_parts hp (fun t => (genFunctions (sorted P.roles) t).map fun f => fnName lower f.1) ?_ ?_
    · simp only [programOf]
      rw [allFunctions_flat _ _ hs, List.map_append, List.map_flatMap]
      exact key
    · intro idx e t done part hi
      simp only [part_functions part, List.map_flatMap, List.map_map, Function.comp_def]
      rw [List.nodup_flatMap]
      constructor
      · intro r hr
        refine List.Nodup.map ?_ List.nodup_range
        intro a b hab
        exact (name hr hr hi hi hab).2.2
      · refine List.Pairwise.imp_of_mem ?_ hd'
        intro r r' hr hr' hrr x hx hx'
        obtain ⟨a, _, rfl⟩ := List.mem_map.mp hx
        obtain ⟨b, _, hb⟩ := List.mem_map.mp hx'
        exact hrr (name hr' hr hi hi hb).1.symm
    · intro idx e t done idx' e' t' done' part part' hi hi' x hx hx'
      simp only [part_functions part, part_functions part'] at hx hx'
      obtain ⟨f, hf, rfl⟩ := List.mem_map.mp hx
      obtain ⟨g, hg, hx'⟩ := List.mem_map.mp hx'
      obtain ⟨r, hr, hf⟩ := List.mem_flatMap.mp hf
      obtain ⟨i, _, rfl⟩ := List.mem_map.mp hf
      obtain ⟨r', hr', hg⟩ := List.mem_flatMap.mp hg
      obtain ⟨i', _, rfl⟩ := List.mem_map.mp hg
      exact (name hr' hr hi' hi hx').2.1.symm

/-- C47, exactly when a protocol is accepted.  The windows are checked before the choice, and in each branch up to the next
choice, separately. -/
theorem C47_accepts (title : Text → Text) (P : Proto) (hd : P.roles.Nodup) (hr : P.roles ≠ []) :
    (∃ prog, generator title P.lines = .ok prog) ↔
      P.chooser ∈ P.roles ∧ (∀ m ∈ messagesOf P.pre, Valid P.roles m) ∧ (∃ bs, boundsOf (messagesOf P.pre) = .ok bs) ∧
      ∀ b ∈ P.branches, (∀ m ∈ b.msgs, Valid P.roles m) ∧ (∀ l, b.back = some l → loopBody l P.pre ≠ none) ∧
        ∃ bs, boundsOf (P.exchanges b) = .ok bs := by
  constructor
  · rintro ⟨prog, h⟩
    obtain ⟨c1, c2, c3⟩ := C47_checked title P prog hd hr h
    obtain ⟨ha, _⟩ := (parts_iff title P hd hr).1 prog h
    exact ⟨c1, c2, ha.windows, fun b hb => ⟨(c3 b hb).1, (c3 b hb).2, (ha.branches b hb).2.2⟩⟩
  · rintro ⟨c1, c2, c3, c4⟩
    refine (parts_iff title P hd hr).2 ⟨c1, c2, c3, fun b hb => ?_⟩
    obtain ⟨d1, d2, d3⟩ := c4 b hb
    refine ⟨?_, ?_, d3⟩
    · intro m hm
      rcases List.mem_append.mp hm with h | h
      · exact d1 m h
      · refine c2 m ?_
        unfold afterMsgs at h
        cases hl : b.back with
        | none => rw [hl] at h; simp at h
        | some l =>
          rw [hl] at h
          simp only at h
          have sub : ∀ (is : List Item) k, loopBody l is = some k → ∀ m ∈ k, m ∈ messagesOf is := by
            intro is
            induction is with
            | nil => intro k hk; simp [loopBody] at hk
            | cons i is ih =>
              intro k hk m hm
              cases i with
              | msg x => exact List.mem_cons_of_mem _ (ih k hk m hm)
              | loop x =>
                simp only [loopBody] at hk
                split at hk
                · rename_i b hb
                  simp only [Option.some.injEq] at hk
                  subst hk
                  exact ih _ hb m hm
                · split at hk
                  · simp only [Option.some.injEq] at hk
                    subst hk
                    exact hm
                  · cases hk
          cases hb : loopBody l P.pre with
          | none => rw [hb] at h; simp at h
          | some k =>
            rw [hb] at h
            exact sub _ k hb m h
    · intro l hl
      cases e : loopBody l P.pre with
      | none => exact absurd e (d2 l hl)
      | some _ => rfl

/-! What is not covered. -/

theorem generator_header (title : Text → Text) (name : Text) (roles : List Text) (rest : List Line) :
    generator title (⟨1, 0, false, .global name roles⟩ :: rest) =
      (run title ⟨some name, sorted roles, fun _ => none, 1, 0, Tables.empty⟩ (Tree.new [])
        (initTree (sorted roles) ['0'] (Tree.new [0])) 0 (number 1 rest) >>= fun d =>
        if d.glob.opening ≠ d.glob.closing then .error .unbalanced
        else if d.glob.output = none then .error .noOutput
        else .ok (programOf d.glob.roles d.main)) := by
  rw [generator_eq]
  have : processLine title ((⟨1, 0, false, .global name roles⟩ :: rest : List Line).length + 1) Glob.start (Tree.new [])
      (Tree.new [0]) 0 (number 0 (⟨1, 0, false, .global name roles⟩ :: rest)) =
      run title ⟨some name, sorted roles, fun _ => none, 1, 0, Tables.empty⟩ (Tree.new [])
        (initTree (sorted roles) ['0'] (Tree.new [0])) 0 (number 1 rest) := by
    conv => lhs; simp only [number]; unfold processLine
    simp [Glob.start, header]
    exact run_eq _ _ _ _ _ _ _ (by simp [number_length])
  rw [this]

theorem replay_messages (title : Text → Text) (roles : List Text) (l idx : Text) : ∀ (msgs : List Msg) (t : Tree),
    replay title roles l idx true (msgs.map .message) t = addMessages title roles msgs t
  | [], t => by simp [replay, addMessages, pure, Except.pure]
  | m :: msgs, t => by
    simp only [List.map_cons, replay, addMessages, List.foldlM_cons]
    refine bind_congr_ok fun t' _ => ?_
    exact replay_messages title roles l idx msgs t'

theorem addMessages_append (title : Text → Text) (roles : List Text) (a b : List Msg) (t : Tree) :
    addMessages title roles (a ++ b) t = (addMessages title roles a t >>= addMessages title roles b) := by
  unfold addMessages
  rw [List.foldlM_append]

/-- An endless loop without a choice: some messages, then `rec l { body continue l; }`. -/
def endless (name : Text) (roles : List Text) (pre : List Msg) (l : Text) (body : List Msg) : List Line :=
  ⟨1, 0, false, .global name roles⟩ :: ((pre.map fun m => ⟨0, 0, false, .message m⟩) ++
    (⟨1, 0, false, .loop l⟩ :: ((body.map fun m => ⟨0, 0, false, .message m⟩) ++
      [⟨0, 0, false, .jump l⟩, ⟨0, 1, false, .other⟩, ⟨0, 1, false, .other⟩])))

/-- C47, loops without a choice: what is generated is the protocol in which the body takes place twice, and which then
ends. -/
theorem C47_loop_without_choice (title : Text → Text) (name : Text) (roles : List Text) (pre : List Msg) (l : Text)
    (body : List Msg) :
    generator title (endless name roles pre l body) = generator title (protocol name roles (pre ++ body ++ body)) := by
  unfold endless protocol
  rw [generator_header, List.cons_append, generator_header]
  rw [run_msgs title _ 0 (by omega) _ _ 1 _ _ (by omega) (by simp),
    run_msgs title _ 0 (by omega) _ _ 1 _ _ (by omega) (by simp)]
  rw [addMessages_append, addMessages_append, bind_assoc', bind_assoc', bind_assoc', bind_assoc']
  refine bind_congr_ok fun m1 h1 => ?_
  have i1 : m1.index = [0] := (add_index h1).1
  have idx : indexText m1.index = ['0'] := by rw [i1]; rfl
  simp only [number]
  rw [run_loop title _ _ _ 0 _ _ l (by omega) (by omega) (by simp [Glob.saves])]
  rw [run_msgs title _ 0 (by omega) _ _ _ _ _ (by omega) (by simp [Glob.saves, Glob.save]), bind_assoc']
  refine bind_congr_ok fun m2 h2 => ?_
  simp only [number]
  rw [run_jump title _ _ _ 0 _ _ l (by omega) (by omega) (by simp [Glob.saves, Glob.save])]
  simp only [Glob.saves, Glob.save, upd, if_true, Option.map_some, List.nil_append, List.singleton_append, replay,
    contains_self, Bool.or_true, replay_messages]
  rw [bind_assoc']
  refine bind_congr_ok fun m3 h3 => ?_
  rw [run_close title _ _ _ 0 _ _ (by omega) (by omega) (by simp), run_last title _ _ _ 0 _ _ (by omega) (by simp) (by simp),
    run_last title _ _ _ 0 _ _ (by omega) (by simp) (by simp)]
  rfl

/-- Nothing is read at a depth of two. -/
theorem run_deep (title : Text → Text) (g : Glob) (parent main : Tree) (lines : List (Nat × Line)) (d : Done)
    (h : run title g parent main 2 lines = .ok d) : lines = [] ∧ d = ⟨g, parent, main, 2, []⟩ := by
  cases lines with
  | nil => rw [run_nil] at h; simp only [Except.ok.injEq] at h; exact ⟨rfl, h.symm⟩
  | cons x rest =>
    obtain ⟨n, line⟩ := x
    unfold run processLine at h
    simp only at h
    split at h
    · cases h
    · rw [if_pos (by omega)] at h; cases h

/-- C47, a choice in a branch is never accepted, whatever follows it. -/
theorem C47_nested (title : Text → Text) (name : Text) (roles : List Text) (pre : List Item) (x y : Text)
    (msgs : List Msg) (rest : List Line) (prog : Program) :
    generator title (⟨1, 0, false, .global name roles⟩ :: (pre.map Item.line ++ (⟨1, 0, false, .choice x⟩ ::
      ((msgs.map fun m => ⟨0, 0, false, .message m⟩) ++ (⟨1, 0, false, .choice y⟩ :: rest))))) ≠ .ok prog := by
  intro h
  rw [generator_header, run_items title _ _ _ 1 _ _ (by omega) (by simp)] at h
  obtain ⟨d, h, hb⟩ := bind_ok h
  have hb : d.glob.opening = d.glob.closing := by
    by_cases e : d.glob.opening = d.glob.closing
    · exact e
    · rw [if_pos e] at hb; cases hb
  obtain ⟨m1, h1, h⟩ := bind_ok h
  obtain ⟨f1, f2, f3, f4⟩ := itemsGlob_fields (indexText (initTree (sorted roles) ['0'] (Tree.new [0])).index) pre
    ⟨some name, sorted roles, fun _ => none, 1, 0, Tables.empty⟩
  simp only at f1 f2 f3 f4
  simp only [number] at h
  rw [run_choice title _ _ m1 0 _ _ x (by omega) (by omega) (by omega)] at h
  obtain ⟨m2, h2, h⟩ := bind_ok h
  obtain ⟨d1, h3, h⟩ := bind_ok h
  rw [run_msgs title _ 1 (by omega) _ _ _ _ _ (by omega) (by simp only [Glob.save]; omega)] at h3
  obtain ⟨m3, _, h3⟩ := bind_ok h3
  simp only [number] at h3
  rw [run_choice title _ _ m3 1 _ _ y (by omega) (by omega) (by simp only [Glob.save, Glob.saves]; omega)] at h3
  obtain ⟨m4, h4, h3⟩ := bind_ok h3
  obtain ⟨d2, h5, h3⟩ := bind_ok h3
  obtain ⟨e1, e2⟩ := run_deep _ _ _ _ _ _ h5
  subst e2
  simp only at h3
  obtain ⟨_, e3⟩ := run_deep _ _ _ _ _ _ h3
  subst e3
  simp only at h
  obtain ⟨_, e4⟩ := run_deep _ _ _ _ _ _ h
  subst e4
  simp only [Glob.save, Glob.saves] at hb
  omega

/-- A message from `A` to `B` in the window `[l; r]` of the clock `a`. -/
def ab (label : Text) (l r : Char) : Msg := ⟨['A'], ['B'], label, ['a'], [l], .opening, [r], .closing, none, []⟩

/-- A client that sends, again and again, either a request to `B`, who forwards it to `C`, or the order to stop. -/
def samplePlan : Proto where
  name := ['P']
  roles := [['C'], ['A'], ['B']]
  pre := [.msg ⟨['A'], ['B'], ['I'], ['a'], ['0'], .opening, ['1'], .closing, some ['a'], []⟩, .loop ['L'],
    .msg ⟨['B'], ['A'], ['R'], ['b'], ['0'], .opening, ['9'], .closing, none, []⟩]
  chooser := ['A']
  first := ⟨[⟨['A'], ['B'], ['Q'], ['a'], ['0'], .opening, ['9'], .closing, none, []⟩,
    ⟨['B'], ['C'], ['F'], ['b'], ['0'], .opening, ['9'], .closing, none, []⟩], some ['L']⟩
  others := [⟨[⟨['A'], ['B'], ['S'], ['a'], ['0'], .opening, ['9'], .closing, none, []⟩], none⟩]

def okB {α : Type} : Except Fault α → Bool
  | .ok _ => true
  | .error _ => false

theorem okB_iff {α : Type} (x : Except Fault α) : okB x = true ↔ ∃ a, x = .ok a := by
  cases x <;> simp [okB]

/-- The hypotheses of the theorems above are met, also the one on the names. -/
example : (∃ prog, generator id samplePlan.lines = .ok prog) ∧ samplePlan.roles.Nodup ∧
    (∀ p ∈ samplePlan.roles, NoTo p) := by
  refine ⟨(okB_iff _).mp (by decide), by decide, ?_⟩
  intro p hp e
  simp only [samplePlan, List.mem_cons, List.not_mem_nil, or_false] at hp
  have := e.length_le
  rcases hp with rfl | rfl | rfl <;> simp at this

/-- What `A` and `C` see. -/
example : view id ['A'] ['B'] (samplePlan.exchanges samplePlan.first) =
      [.send ⟨['Q'], ['a'], ['0'], true, ['9'], true, [' ']⟩, .recv ⟨['R'], ['b'], ['0'], true, ['9'], true, [' ']⟩] ∧
    partners ['B'] (samplePlan.exchanges samplePlan.first) = [['A'], ['C'], ['A']] ∧
    atChoice ['A'] id ['A'] ['C'] = .sends ['C'] ∧ atChoice ['A'] id ['C'] ['A'] = .receives ['C'] ∧
    atChoice ['A'] id ['C'] ['B'] = .fin := by decide

/-- C47, the windows of the second passage through a loop are not checked: the request must be made in the first second of
a clock that is never reset, and the answer between the fifth and the sixth; the first second is over by then. -/
theorem C47_next_passage_unchecked :
    (∃ prog, generator id (Proto.lines ⟨['P'], [['A'], ['B']], [.loop ['L']], ['A'],
      ⟨[ab ['M'] '0' '1', ab ['N'] '5' '6'], some ['L']⟩, [⟨[], none⟩]⟩) = .ok prog) ∧
    ¬ ∃ prog, generator id (protocol ['P'] [['A'], ['B']]
      [ab ['M'] '0' '1', ab ['N'] '5' '6', ab ['M'] '0' '1']) = .ok prog := by
  rw [← okB_iff, ← okB_iff]
  decide

theorem run_stop (title : Text → Text) (g : Glob) (parent main : Tree) (offset n : Nat) (rest : List (Nat × Line)) (m : Msg)
    (ho : offset ≤ 1) (hc : g.closing ≤ g.opening) (hg : g.opening ≤ g.closing + offset) :
    run title g parent main offset ((n, ⟨0, 0, false, .message m⟩) :: rest) = .ok ⟨g, parent, main, offset, rest⟩ := by
  unfold run
  conv => lhs; unfold processLine
  simp only [Nat.add_zero]
  rw [if_neg (by omega), if_neg (by omega), if_pos hg, if_neg (by omega)]

/-- A choice of `x` between the messages `a` and the messages `b`, and after it the lines `after`. -/
def twoBranches (name : Text) (roles : List Text) (x : Text) (a b : List Msg) (after : List Line) : List Line :=
  ⟨1, 0, false, .global name roles⟩ :: (⟨1, 0, false, .choice x⟩ :: ((a.map fun m => ⟨0, 0, false, .message m⟩) ++
    (⟨1, 1, false, .or⟩ :: ((b.map fun m => ⟨0, 0, false, .message m⟩) ++
      (⟨0, 1, false, .other⟩ :: (after ++ [⟨0, 1, false, .other⟩]))))))

/-- C47, a message written after a choice is lost: with or without it, the result is the same. -/
theorem C47_after_choice_lost (title : Text → Text) (name : Text) (roles : List Text) (x : Text) (a b : List Msg) (m : Msg) :
    generator title (twoBranches name roles x a b [⟨0, 0, false, .message m⟩]) =
      generator title (twoBranches name roles x a b []) := by
  unfold twoBranches
  rw [generator_header, generator_header]
  simp only [number]
  rw [run_choice title _ _ _ 0 _ _ x (by omega) (by omega) (by simp),
    run_choice title _ _ _ 0 _ _ x (by omega) (by omega) (by simp)]
  simp only [bind_assoc']
  refine bind_congr_ok fun m1 h1 => ?_
  rw [run_msgs title _ 1 (by omega) _ _ _ _ _ (by omega) (by simp [Glob.save]),
    run_msgs title _ 1 (by omega) _ _ _ _ _ (by omega) (by simp [Glob.save])]
  simp only [bind_assoc']
  refine bind_congr_ok fun m2 h2 => ?_
  have e1 := (choiceAll_index h1).2.1
  have i2 := (add_index h2).1
  have hx : m1.enums (indexText (m2.index.dropLast ++ [0])) = some (x, 0) := by
    rw [e1, i2]
    rfl
  simp only [number]
  rw [run_or title _ _ _ 1 _ _ (by omega) (by omega) (by simp [Glob.save, Glob.saves]) x 0 hx,
    run_or title _ _ _ 1 _ _ (by omega) (by omega) (by simp [Glob.save, Glob.saves]) x 0 hx]
  simp only [bind_assoc']
  rw [run_msgs title _ 1 (by omega) _ _ _ _ _ (by omega) (by simp [Glob.save, Glob.saves]),
    run_msgs title _ 1 (by omega) _ _ _ _ _ (by omega) (by simp [Glob.save, Glob.saves])]
  simp only [bind_assoc']
  refine bind_congr_ok fun m3 h3 => ?_
  simp only [number, List.cons_append, List.nil_append]
  rw [run_last title _ _ _ 1 _ _ (by omega) (by simp [Glob.save, Glob.saves]) (by simp [Glob.save, Glob.saves]),
    run_last title _ _ _ 1 _ _ (by omega) (by simp [Glob.save, Glob.saves]) (by simp [Glob.save, Glob.saves]), ok_bind,
    ok_bind]
  simp only
  rw [run_stop title _ _ _ 1 _ _ _ (by omega) (by simp [Glob.save, Glob.saves]) (by simp [Glob.save, Glob.saves]),
    run_last title _ _ _ 1 _ _ (by omega) (by simp [Glob.save, Glob.saves]) (by simp [Glob.save, Glob.saves]), ok_bind,
    ok_bind]
  simp only
  rw [run_last title _ _ _ 1 _ _ (by omega) (by simp [Glob.save, Glob.saves]) (by simp [Glob.save, Glob.saves]), run_nil]

/-- Such a protocol is accepted. -/
example : ∃ prog, generator id (twoBranches ['P'] [['A'], ['B']] ['A'] [ab ['M'] '0' '1'] [ab ['N'] '0' '1']
    [⟨0, 0, false, .message (ab ['O'] '0' '9')⟩]) = .ok prog := (okB_iff _).mp (by decide)

/-- C47, without the condition on the names, two functions can have the same name: the one of the role `a_0` and the one of
the role `a` in the first branch. -/
theorem C47_function_clash : ∃ prog : Program,
    generator id (Proto.lines ⟨['P'], [['a'], ['a', '_', '0']], [], ['a'], ⟨[], none⟩, []⟩) = .ok prog ∧
    ¬ (prog.functions.map fun f => fnName id f.1).Nodup := by
  obtain ⟨prog, h⟩ := (okB_iff (generator id
    (Proto.lines ⟨['P'], [['a'], ['a', '_', '0']], [], ['a'], ⟨[], none⟩, []⟩))).mp (by decide)
  refine ⟨prog, h, fun hn => ?_⟩
  obtain ⟨_, M, ts, hp, rfl⟩ := (parts_iff _ _ (by decide) (by decide)).1 prog h
  simp only [programOf] at hn
  rw [allFunctions_flat _ _ (parts_subs hp)] at hn
  obtain ⟨t, ht, _, part⟩ := hp.branch 0 _ rfl
  have hm : t ∈ M.subTrees := by
    rw [hp.subs]
    refine List.mem_append_right _ ?_
    cases ts with
    | nil => cases ht
    | cons u us => simp at ht; simp [ht]
  have k1 : ((['a', '_', '0'], ['0'], 0), endpointName ['0'] ['a', '_', '0']) ∈ genFunctions (sorted [['a'], ['a', '_', '0']]) M := by
    rw [part_functions hp.main]
    exact List.mem_flatMap.mpr ⟨_, (mem_sorted _ _).mpr (by simp), List.mem_map.mpr ⟨0, by simp, rfl⟩⟩
  have k2 : ((['a'], indexText [0, 0], 0), endpointName (indexText [0, 0]) ['a']) ∈ genFunctions (sorted [['a'], ['a', '_', '0']]) t := by
    rw [part_functions part]
    exact List.mem_flatMap.mpr ⟨_, (mem_sorted _ _).mpr (by simp), List.mem_map.mpr ⟨0, by simp, rfl⟩⟩
  have := List.inj_on_of_nodup_map hn (List.mem_append_left _ k1)
    (List.mem_append_right _ (List.mem_flatMap.mpr ⟨t, hm, k2⟩)) (by decide)
  exact absurd (congrArg (fun f => f.1.1) this) (by simp)

end Verif.Prop
