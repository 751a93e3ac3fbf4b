import Verif.Prop.C47
import Verif.Prop.C49
import Verif.Proof.NuscrLinked

/-!
C57: in the file written by the generator every name refers to what is meant, exactly if the names of the roles, messages
and payloads do not collide with each other and with those the file takes for granted.
-/
namespace Verif.Prop
open Verif.Nuscr Verif.NuscrSpec

/-! The parts of a generated program fit together. -/

theorem sessDefs_send {i p q : Text} : ∀ {vs : List Step} {n : Nat} {a : Text} {x : Params} {b : Text},
    (a, Rhs.send x b) ∈ sessDefs i p q n vs ∨ (a, Rhs.recv x b) ∈ sessDefs i p q n vs →
    ∃ k, k ≤ n + vs.length ∧ b = messageName i k p q
  | [], _, _, _, _, h => by rcases h with h | h <;> cases h
  | v :: vs, n, a, x, b, h => by
    have h : ((a, Rhs.send x b) ∈ sessDefs i p q (n + 1) vs ∨ (a, Rhs.recv x b) ∈ sessDefs i p q (n + 1) vs) ∨
        b = messageName i (n + 1) p q := by
      cases v <;> simp only [sessDefs, List.mem_cons, Prod.mk.injEq, Rhs.send.injEq, Rhs.recv.injEq, reduceCtorEq, and_false,
        false_or] at h
      · rcases h with (⟨_, _, e⟩ | h) | h
        · exact .inr e
        · exact .inl (.inl h)
        · exact .inl (.inr h)
      · rcases h with h | ⟨_, _, e⟩ | h
        · exact .inl (.inl h)
        · exact .inr e
        · exact .inl (.inr h)
    rcases h with h | e
    · obtain ⟨k, k1, k2⟩ := sessDefs_send h
      exact ⟨k, by simp only [List.length_cons]; omega, k2⟩
    · exact ⟨n + 1, by simp only [List.length_cons]; omega, e⟩

theorem sessDefs_rhs {i p q : Text} : ∀ {vs : List Step} {n : Nat} {d : Text × Rhs}, d ∈ sessDefs i p q n vs →
    ∃ x b, d.2 = .send x b ∨ d.2 = .recv x b
  | [], _, _, h => by cases h
  | .send x :: vs, n, d, h => by
    rcases List.mem_cons.mp h with rfl | h
    · exact ⟨_, _, .inl rfl⟩
    · exact sessDefs_rhs h
  | .recv x :: vs, n, d, h => by
    rcases List.mem_cons.mp h with rfl | h
    · exact ⟨_, _, .inr rfl⟩
    · exact sessDefs_rhs h

theorem stackDefs_rhs {i p : Text} : ∀ {rs : List Text} {n : Nat} {d : Text × StackRhs}, d ∈ stackDefs i p n rs →
    ∃ r ∈ rs, ∃ k, k ≤ n + rs.length ∧ d.2 = .role r (orderingName i k p)
  | [], _, _, h => by cases h
  | r :: rs, n, d, h => by
    rcases List.mem_cons.mp h with rfl | h
    · exact ⟨r, by simp, n + 1, by simp only [List.length_cons]; omega, rfl⟩
    · obtain ⟨r', h1, k, h2, h3⟩ := stackDefs_rhs h
      exact ⟨r', List.mem_cons_of_mem _ h1, k, by simp only [List.length_cons]; omega, h3⟩

theorem partners_valid {roles : List Text} {p r : Text} {done : List Msg} (hv : ∀ m ∈ done, Valid roles m)
    (h : r ∈ partners p done) : r ∈ roles := by
  obtain ⟨m, hm, h⟩ := List.mem_filterMap.mp h
  split at h
  · cases h; exact (hv m hm).2.1
  · split at h
    · cases h; exact (hv m hm).1
    · cases h

/-- The enums for a choice. -/
def enumsOf (roles : List Text) (x : Option Text) (n : Nat) : List (Text × List (Text × Text)) :=
  match x with
  | none => []
  | some y => roles.flatMap fun r => if r ≠ y then [(choiceName ['0'] y r, variants ['0'] n r)] else []

/-- The tree of a protocol, with a choice of `x` or without one. -/
structure Flat (title : Text → Text) (roles : List Text) (x : Option Text) (n : Nat) (M : Tree) : Prop where
  subs : ∀ u ∈ M.subTrees, u.subTrees = []
  branching : x.isSome = !M.subTrees.isEmpty
  chooser : ∀ y, x = some y → y ∈ roles
  main : ∃ e done, Part title roles [0] e M done
  parts : ∀ t, t = M ∨ t ∈ M.subTrees → ∃ idx e done, IsIndex idx ∧ Part title roles idx e t done ∧
    (∀ m ∈ done, Valid roles m) ∧ (e = none ∨ ∃ y, x = some y ∧ e = some (y, ['0']))
  branches : x.isSome = true → ∀ i, i ≤ n → ∃ t ∈ M.subTrees, ∃ e done, Part title roles [0, i] e t done
  enums : allEnums roles M = enumsOf roles x n

theorem mem_flat {α : Type} (g : Tree → List α) (M : Tree) (x : α) : x ∈ g M ++ M.subTrees.flatMap g ↔
    ∃ t, (t = M ∨ t ∈ M.subTrees) ∧ x ∈ g t := by
  rw [List.mem_append, List.mem_flatMap]
  constructor
  · rintro (e | ⟨t, ht, e⟩)
    · exact ⟨M, .inl rfl, e⟩
    · exact ⟨t, .inr ht, e⟩
  · rintro ⟨t, rfl | ht, e⟩
    · exact .inl e
    · exact .inr ⟨t, ht, e⟩

section flat
variable {title : Text → Text} {roles : List Text} {x : Option Text} {n : Nat} {M : Tree}

theorem flat_session (h : Flat title roles x n M) {d} (hd : d ∈ allSessions roles M) :
    ∃ t, (t = M ∨ t ∈ M.subTrees) ∧ ∃ idx e done, IsIndex idx ∧ Part title roles idx e t done ∧
      (e = none ∨ ∃ y, x = some y ∧ e = some (y, ['0'])) ∧ ∃ p ∈ roles, ∃ q ∈ roles, q ≠ p ∧
      (d ∈ sessDefs (indexText idx) p q 0 (view title p q done) ∨
        d = (messageName (indexText idx) (view title p q done).length p q, (closing e p q).getD .fin)) := by
  rw [allSessions_flat _ _ h.subs] at hd
  obtain ⟨t, ht, hd⟩ := (mem_flat _ _ _).mp hd
  obtain ⟨idx, e, done, hi, part, _, he⟩ := h.parts t ht
  rw [part_gen part] at hd
  obtain ⟨p, hp, hd⟩ := List.mem_flatMap.mp hd
  obtain ⟨q, hq, hd⟩ := List.mem_flatMap.mp hd
  split at hd
  · cases hd
  · rename_i hqp
    refine ⟨t, ht, idx, e, done, hi, part, he, p, hp, q, hq, hqp, ?_⟩
    simpa using hd

theorem flat_session_name (h : Flat title roles x n M) {t} (ht : t = M ∨ t ∈ M.subTrees) {idx e done}
    (part : Part title roles idx e t done) {p q : Text} (hp : p ∈ roles) (hq : q ∈ roles) (hqp : q ≠ p) {k : Nat}
    (hk : k ≤ (view title p q done).length) :
    messageName (indexText idx) k p q ∈ (allSessions roles M).map (·.1) := by
  rw [allSessions_flat _ _ h.subs, List.map_append, List.map_flatMap]
  refine (mem_flat (fun t => (genSessions roles t).map (·.1)) M _).mpr ⟨t, ht, ?_⟩
  rw [part_names part]
  refine List.mem_flatMap.mpr ⟨p, hp, List.mem_flatMap.mpr ⟨q, hq, ?_⟩⟩
  rw [if_neg hqp]
  exact List.mem_map.mpr ⟨k, List.mem_range'_1.mpr ⟨by omega, by omega⟩, rfl⟩

theorem flat_stack (h : Flat title roles x n M) {d} (hd : d ∈ allStacks roles M) :
    ∃ t, (t = M ∨ t ∈ M.subTrees) ∧ ∃ idx e done, Part title roles idx e t done ∧ (∀ m ∈ done, Valid roles m) ∧
      (e = none ∨ ∃ y, x = some y ∧ e = some (y, ['0'])) ∧ ∃ p ∈ roles,
      (d ∈ stackDefs (indexText idx) p 0 (partners p done) ∨
        d = (orderingName (indexText idx) (partners p done).length p, (closingStack e p).getD .fin)) := by
  rw [allStacks_flat _ _ h.subs] at hd
  obtain ⟨t, ht, hd⟩ := (mem_flat _ _ _).mp hd
  obtain ⟨idx, e, done, hi, part, hv, he⟩ := h.parts t ht
  rw [part_gen_stacks part] at hd
  obtain ⟨p, hp, hd⟩ := List.mem_flatMap.mp hd
  exact ⟨t, ht, idx, e, done, part, hv, he, p, hp, by simpa using hd⟩

theorem flat_stack_name (h : Flat title roles x n M) {t} (ht : t = M ∨ t ∈ M.subTrees) {idx e done}
    (part : Part title roles idx e t done) {p : Text} (hp : p ∈ roles) {k : Nat} (hk : k ≤ (partners p done).length) :
    orderingName (indexText idx) k p ∈ (allStacks roles M).map (·.1) := by
  rw [allStacks_flat _ _ h.subs, List.map_append, List.map_flatMap]
  refine (mem_flat (fun t => (genStacks roles t).map (·.1)) M _).mpr ⟨t, ht, ?_⟩
  rw [part_stack_names part]
  refine List.mem_flatMap.mpr ⟨p, hp, ?_⟩
  exact List.mem_map.mpr ⟨k, List.mem_range'_1.mpr ⟨by omega, by omega⟩, rfl⟩

theorem flat_endpoint_name (h : Flat title roles x n M) {t} (ht : t = M ∨ t ∈ M.subTrees) {idx e done}
    (part : Part title roles idx e t done) {p : Text} (hp : p ∈ roles) :
    endpointName (indexText idx) p ∈ (allEndpoints roles M).map (·.1) := by
  rw [allEndpoints_flat _ _ h.subs, List.map_append, List.map_flatMap]
  refine (mem_flat (fun t => (genEndpoints roles t).map (·.1)) M _).mpr ⟨t, ht, ?_⟩
  rw [part_endpoint_names part]
  exact List.mem_map.mpr ⟨p, hp, rfl⟩

theorem filter_ne_length {p : Text} : ∀ {roles : List Text}, roles.Nodup → p ∈ roles →
    (roles.filter (· ≠ p)).length + 1 = roles.length
  | [], _, h => by cases h
  | a :: l, hd, h => by
    rw [List.nodup_cons] at hd
    by_cases e : a = p
    · subst e
      have : l.filter (· ≠ a) = l := List.filter_eq_self.mpr fun b hb => by
        have : b ≠ a := fun e => hd.1 (e ▸ hb)
        simpa using this
      rw [List.filter_cons_of_neg (by simp), this, List.length_cons]
    · rcases List.mem_cons.mp h with h | h
      · exact absurd h.symm e
      · rw [List.filter_cons_of_pos (by simpa using e), List.length_cons, List.length_cons, filter_ne_length hd.2 h]

/-- The parts of the program of such a tree fit together. -/
theorem flat_linked (h : Flat title roles x n M) (hr : roles ≠ []) (hd : roles.Nodup) {ss : List Struct}
    (h1 : ((programOf roles M).sessions.map (·.1)).Nodup) (h2 : ((programOf roles M).stacks.map (·.1)).Nodup)
    (h3 : ((programOf roles M).enums.map (·.1)).Nodup) (h4 : ((programOf roles M).endpoints.map (·.1)).Nodup)
    (h5 : ∀ lower : Text → Text, (∀ r ∈ roles, '_' ∉ lower r) → (∀ r ∈ roles, ∀ q ∈ roles, lower r = lower q → r = q) →
      ((programOf roles M).functions.map fun f => fnName lower f.1).Nodup)
    (h6 : ∀ d ∈ (programOf roles M).sessions, ∀ ps, writtenParams d.2 = some ps → ps.message ∈ ss.map (·.1))
    (h7 : ∀ s ∈ ss, ∀ x, s.2 = some x → (x, none) ∈ ss) :
    Linked (!M.subTrees.isEmpty) ss (programOf roles M) := by
  have hnext : ∀ a q b, (a, Rhs.send q b) ∈ allSessions roles M ∨ (a, Rhs.recv q b) ∈ allSessions roles M →
      b ∈ (allSessions roles M).map (·.1) := by
    intro a q b hm
    have : ∃ d ∈ allSessions roles M, d = (a, Rhs.send q b) ∨ d = (a, Rhs.recv q b) := by
      rcases hm with hm | hm
      · exact ⟨_, hm, .inl rfl⟩
      · exact ⟨_, hm, .inr rfl⟩
    obtain ⟨d, hm, hd'⟩ := this
    obtain ⟨t, ht, idx, e, done, hi, part, he, p, hp, q', hq, hqp, hm⟩ := flat_session h hm
    rcases hm with hm | hm
    · have : (a, Rhs.send q b) ∈ sessDefs (indexText idx) p q' 0 (view title p q' done) ∨
          (a, Rhs.recv q b) ∈ sessDefs (indexText idx) p q' 0 (view title p q' done) := by
        rcases hd' with rfl | rfl
        · exact .inl hm
        · exact .inr hm
      obtain ⟨k, k1, rfl⟩ := sessDefs_send this
      exact flat_session_name h ht part hp hq hqp (by omega)
    · exfalso
      have e2 := congrArg Prod.snd hm
      simp only at e2
      rcases he with rfl | ⟨y, _, rfl⟩
      · rcases hd' with rfl | rfl <;> simp [closing] at e2
      · simp only [closing] at e2
        split at e2
        · rcases hd' with rfl | rfl <;> simp at e2
        · split at e2 <;> rcases hd' with rfl | rfl <;> simp at e2
  have hchoice : ∀ a c, (a, Rhs.sendChoice c) ∈ allSessions roles M ∨ (a, Rhs.recvChoice c) ∈ allSessions roles M →
      c ∈ (allEnums roles M).map (·.1) := by
    intro a c hm
    have : ∃ d ∈ allSessions roles M, d.2 = Rhs.sendChoice c ∨ d.2 = Rhs.recvChoice c := by
      rcases hm with hm | hm
      · exact ⟨_, hm, .inl rfl⟩
      · exact ⟨_, hm, .inr rfl⟩
    obtain ⟨d, hm, hd'⟩ := this
    obtain ⟨t, ht, idx, e, done, hi, part, he, p, hp, q', hq, hqp, hm⟩ := flat_session h hm
    rcases hm with hm | rfl
    · obtain ⟨_, _, e | e⟩ := sessDefs_rhs hm <;> rw [e] at hd' <;> rcases hd' with h | h <;> cases h
    · simp only at hd'
      rcases he with rfl | ⟨y, hy, rfl⟩
      · simp [closing] at hd'
      · rw [h.enums, hy]
        simp only [enumsOf, List.map_flatMap]
        simp only [closing] at hd'
        split at hd'
        · rename_i e
          subst e
          simp only [Option.getD_some, Rhs.sendChoice.injEq, reduceCtorEq, or_false] at hd'
          exact List.mem_flatMap.mpr ⟨q', hq, by simp [hqp, hd']⟩
        · rename_i hpy
          split at hd'
          · rename_i e
            subst e
            simp only [Option.getD_some, Rhs.recvChoice.injEq, reduceCtorEq, false_or] at hd'
            exact List.mem_flatMap.mpr ⟨p, hp, by simp [hpy, hd']⟩
          · simp at hd'
  have hep : ∀ d ∈ allEndpoints roles M, ∃ t, (t = M ∨ t ∈ M.subTrees) ∧ ∃ idx e done, Part title roles idx e t done ∧
      ∃ p ∈ roles, d = (endpointName (indexText idx) p,
        (roles.filter (· ≠ p)).map (fun q => messageName (indexText idx) 0 p q), orderingName (indexText idx) 0 p,
        ['N', 'a', 'm', 'e'] ++ p) := by
    intro d hd'
    rw [allEndpoints_flat _ _ h.subs] at hd'
    obtain ⟨t, ht, hd'⟩ := (mem_flat _ _ _).mp hd'
    obtain ⟨idx, e, done, hi, part, _, _⟩ := h.parts t ht
    refine ⟨t, ht, idx, e, done, part, ?_⟩
    unfold genEndpoints at hd'
    obtain ⟨p, hp, hd'⟩ := List.mem_flatMap.mp hd'
    refine ⟨p, hp, ?_⟩
    rw [part.endpoints p hp, part.firstStack p hp] at hd'
    simp only [Option.getD_some, List.map_cons, List.map_nil, List.mem_singleton] at hd'
    rw [hd']
    congr 2
    refine List.map_congr_left fun q hq => ?_
    have hq := List.mem_filter.mp hq
    rw [part.firstMessage p q hp hq.1 (by simpa using hq.2)]
    rfl
  have hfn : ∀ f ∈ allFunctions roles M, f.2 ∈ (allEndpoints roles M).map (·.1) := by
    intro f hf
    rw [allFunctions_flat _ _ h.subs] at hf
    obtain ⟨t, ht, hf⟩ := (mem_flat _ _ _).mp hf
    obtain ⟨idx, e, done, hi, part, _, _⟩ := h.parts t ht
    rw [part_functions part] at hf
    obtain ⟨r, hr, hf⟩ := List.mem_flatMap.mp hf
    obtain ⟨i, _, rfl⟩ := List.mem_map.mp hf
    exact flat_endpoint_name h ht part hr
  have hen : ∀ d ∈ allEnums roles M, ∃ y, x = some y ∧ ∃ r ∈ roles,
      d = (choiceName ['0'] y r, variants ['0'] n r) := by
    intro d hd'
    rw [h.enums] at hd'
    cases x with
    | none => cases hd'
    | some y =>
      obtain ⟨r, hr, hd'⟩ := List.mem_flatMap.mp hd'
      split at hd'
      · exact ⟨y, rfl, r, hr, by simpa using hd'⟩
      · cases hd'
  constructor
  · exact hr
  · exact hd
  · intro d hd'
    obtain ⟨t, ht, idx, e, done, hi, part, he, p, hp, q, hq, hqp, hm⟩ := flat_session h hd'
    rcases hm with hm | rfl
    · have := List.mem_map_of_mem (f := (·.1)) hm
      rw [sessDefs_names'] at this
      obtain ⟨k, _, e⟩ := List.mem_map.mp this
      rw [← e]
      exact ⟨_, by simp only [messageName, List.append_assoc]; rfl⟩
    · exact ⟨_, by simp only [messageName, List.append_assoc]; rfl⟩
  · intro d hd'
    obtain ⟨t, ht, idx, e, done, part, hv, he, p, hp, hm⟩ := flat_stack h hd'
    rcases hm with hm | rfl
    · have := List.mem_map_of_mem (f := (·.1)) hm
      rw [stackDefs_names'] at this
      obtain ⟨k, _, e⟩ := List.mem_map.mp this
      rw [← e]
      exact ⟨_, by simp only [orderingName, List.append_assoc]; rfl⟩
    · exact ⟨_, by simp only [orderingName, List.append_assoc]; rfl⟩
  · intro d hd'
    obtain ⟨y, _, r, _, rfl⟩ := hen d hd'
    exact ⟨_, by simp only [choiceName, List.append_assoc]; rfl⟩
  · intro d hd'
    obtain ⟨t, ht, idx, e, done, part, p, hp, rfl⟩ := hep d hd'
    exact ⟨_, by simp only [endpointName, List.append_assoc]; rfl⟩
  · exact h1
  · exact h2
  · exact h3
  · exact h4
  · intro a q b hm
    exact ⟨h6 _ hm q rfl, hnext a q b (.inl hm)⟩
  · intro a q b hm
    exact ⟨h6 _ hm q rfl, hnext a q b (.inr hm)⟩
  · intro a c hm; exact hchoice a c (.inl hm)
  · intro a c hm; exact hchoice a c (.inr hm)
  · intro a r b hm
    obtain ⟨t, ht, idx, e, done, part, hv, he, p, hp, hm⟩ := flat_stack h hm
    rcases hm with hm | hm
    · obtain ⟨r', r1, k, k1, e⟩ := stackDefs_rhs hm
      simp only [StackRhs.role.injEq] at e
      obtain ⟨rfl, rfl⟩ := e
      exact ⟨partners_valid hv r1, flat_stack_name h ht part hp (by omega)⟩
    · have e2 := congrArg Prod.snd hm
      simp only at e2
      rcases he with rfl | ⟨y, _, rfl⟩
      · simp [closingStack] at e2
      · simp only [closingStack, Option.getD_some] at e2
        split at e2 <;> cases e2
  · intro a r hm
    obtain ⟨t, ht, idx, e, done, part, hv, he, p, hp, hm⟩ := flat_stack h hm
    rcases hm with hm | hm
    · obtain ⟨r', r1, k, k1, e⟩ := stackDefs_rhs hm
      cases e
    · have e2 := congrArg Prod.snd hm
      simp only at e2
      rcases he with rfl | ⟨y, hy, rfl⟩
      · simp [closingStack] at e2
      · simp only [closingStack, Option.getD_some] at e2
        split at e2
        · cases e2
        · cases e2; exact h.chooser _ hy
  · intro a hm
    obtain ⟨t, ht, idx, e, done, part, hv, he, p, hp, hm⟩ := flat_stack h hm
    rcases hm with hm | hm
    · obtain ⟨r', r1, k, k1, e⟩ := stackDefs_rhs hm
      cases e
    · have e2 := congrArg Prod.snd hm
      simp only at e2
      rcases he with rfl | ⟨y, hy, rfl⟩
      · simp [closingStack] at e2
      · rw [← h.branching, hy]; rfl
  · intro d hd'
    obtain ⟨y, hy, r, hr', rfl⟩ := hen d hd'
    refine ⟨?_, ?_⟩
    · simp only [variants, List.map_map, Function.comp_def]
      refine List.Nodup.map ?_ List.nodup_range
      intro i j hij
      exact dec_inj (List.append_cancel_left hij)
    · intro v hv
      obtain ⟨i, hi, rfl⟩ := List.mem_map.mp hv
      obtain ⟨t, ht, e, done, part⟩ := h.branches (by rw [hy]; rfl) i (by have := List.mem_range.mp hi; omega)
      exact flat_endpoint_name h (.inr ht) part hr'
  · intro d hd'
    obtain ⟨t, ht, idx, e, done, part, p, hp, rfl⟩ := hep d hd'
    refine ⟨by simpa [programOf] using filter_ne_length hd hp, ?_, flat_stack_name h ht part hp (by omega), p, hp, rfl⟩
    intro s hs
    obtain ⟨q, hq, rfl⟩ := List.mem_map.mp hs
    have hq := List.mem_filter.mp hq
    exact flat_session_name h ht part hp hq.1 (by simpa using hq.2) (by omega)
  · exact hfn
  · refine ⟨by simp [programOf], ?_⟩
    intro f hf
    obtain ⟨r, hr', rfl⟩ := List.mem_map.mp hf
    obtain ⟨e, done, part⟩ := h.main
    refine List.mem_map.mpr ⟨((r, ['0'], 0), endpointName ['0'] r), ?_, rfl⟩
    simp only [programOf]
    rw [allFunctions_flat _ _ h.subs]
    refine List.mem_append_left _ ?_
    rw [part_functions part]
    exact List.mem_flatMap.mpr ⟨r, hr', List.mem_map.mpr ⟨0, by simp, rfl⟩⟩
  · exact h5
  · intro s hs y hy
    exact List.mem_map.mpr ⟨_, h7 s hs y hy, rfl⟩

end flat

/-! Protocols with a choice, and without. -/

theorem proto_flat {title : Text → Text} {P : Proto} {M : Tree} {ts : List Tree} (h : Parts title P M ts)
    (ha : Acceptable P) : Flat title (sorted P.roles) (some P.chooser) P.others.length M := by
  have hmem : ∀ t, t ∈ M.subTrees ↔ t ∈ ts := by
    intro t
    rw [h.subs]
    conv => rhs; rw [← List.take_append_drop 1 ts]
    simp only [List.mem_append, List.mem_reverse]
    exact or_comm
  have hne : M.subTrees ≠ [] := by
    have : 0 < ts.length := by rw [h.count]; simp [Proto.branches]
    intro e
    have := (hmem _).mpr (List.getElem_mem this)
    rw [e] at this
    cases this
  constructor
  · exact parts_subs h
  · cases hs : M.subTrees with
    | nil => exact absurd hs hne
    | cons a l => rfl
  · intro y hy
    cases hy
    exact (mem_sorted _ _).mpr ha.chooser
  · exact ⟨_, _, h.main⟩
  · rintro t (rfl | ht)
    · exact ⟨_, _, _, .main, h.main, fun m hm => (valid_sorted _ _).mpr (ha.messages m hm), .inr ⟨_, rfl, rfl⟩⟩
    · obtain ⟨i, hi⟩ := List.mem_iff_getElem?.mp ((hmem t).mp ht)
      have hlt : i < P.branches.length := by
        rw [← h.count]
        exact (List.getElem?_eq_some_iff.mp hi).1
      obtain ⟨t', e1, _, part⟩ := h.branch i _ (List.getElem?_eq_getElem hlt)
      rw [hi] at e1
      simp only [Option.some.injEq] at e1
      subst e1
      refine ⟨_, _, _, .branch i, part, ?_, ?_⟩
      · intro m hm
        exact (valid_sorted _ _).mpr ((ha.branches _ (List.getElem_mem hlt)).1 m hm)
      · unfold branchEnd
        cases (P.branches[i]).back with
        | none => exact .inl rfl
        | some l => exact .inr ⟨_, rfl, rfl⟩
  · intro _ i hi
    have hlt : i < P.branches.length := by simp only [Proto.branches, List.length_cons]; omega
    obtain ⟨t, e1, _, part⟩ := h.branch i _ (List.getElem?_eq_getElem hlt)
    exact ⟨t, (hmem t).mpr (List.mem_iff_getElem?.mpr ⟨i, e1⟩), _, _, part⟩
  · exact parts_enums h

theorem plain_flat {title : Text → Text} {roles : List Text} {t : Tree} {msgs : List Msg}
    (h : Shape title (sorted roles) [0] t msgs) (hv : ∀ m ∈ msgs, Valid roles m) :
    Flat title (sorted roles) none 0 t where
  subs := by rw [h.subTrees]; simp
  branching := by rw [h.subTrees]; rfl
  chooser := by simp
  main := ⟨_, _, h.part⟩
  parts := by
    rintro u (rfl | hu)
    · exact ⟨_, _, _, .main, h.part, fun m hm => (valid_sorted _ _).mpr (hv m hm), .inl rfl⟩
    · rw [h.subTrees] at hu; cases hu
  branches := by simp
  enums := genEnums_nil _ _ h.subTrees

/-- The names in a file of a protocol with a choice. -/
theorem proto_file {titleCase : Text → Text} {white : Char → Bool} {lower : Text → Text} {ordP : List Text → List Text}
    {ord : List Nat → List (Text × Text) → List (Text × Text)} {P : Proto} {f : File}
    (h : file titleCase white lower ordP ord P.lines = .ok f) :
    ∃ ss prog, structs titleCase white ordP ord P.lines = .ok ss ∧
      generator (typeName titleCase white) P.lines = .ok prog ∧ f = fileOf true lower ss prog := by
  unfold file at h
  obtain ⟨k, hk, h⟩ := bind_ok h
  obtain ⟨ss, hs, h⟩ := bind_ok h
  simp only [Except.ok.injEq] at h
  refine ⟨ss, programOf k.roles k.main, hs, ?_, ?_⟩
  · unfold generator; rw [hk]; rfl
  · have : (!k.main.subTrees.isEmpty) = true := by
      rw [reading_choice] at hk
      obtain ⟨m1, h1, hk⟩ := bind_ok hk
      obtain ⟨m2, h2, hk⟩ := bind_ok hk
      obtain ⟨ts, h3, hk⟩ := bind_ok hk
      simp only [Except.ok.injEq] at hk
      obtain ⟨c1, _⟩ := (trees_iff _ P.branches 0).1 ts h3
      subst hk
      cases ts with
      | nil => simp [Proto.branches] at c1
      | cons t ts => simp
    rw [← h, this]

theorem plain_file {titleCase : Text → Text} {white : Char → Bool} {lower : Text → Text} {ordP : List Text → List Text}
    {ord : List Nat → List (Text × Text) → List (Text × Text)} {name : Text} {roles : List Text} {msgs : List Msg} {f : File}
    (h : file titleCase white lower ordP ord (protocol name roles msgs) = .ok f) :
    ∃ ss prog, structs titleCase white ordP ord (protocol name roles msgs) = .ok ss ∧
      generator (typeName titleCase white) (protocol name roles msgs) = .ok prog ∧ f = fileOf false lower ss prog := by
  unfold file at h
  obtain ⟨k, hk, h⟩ := bind_ok h
  obtain ⟨ss, hs, h⟩ := bind_ok h
  simp only [Except.ok.injEq] at h
  refine ⟨ss, programOf k.roles k.main, hs, ?_, ?_⟩
  · unfold generator; rw [hk]; rfl
  · have : (!k.main.subTrees.isEmpty) = false := by
      rw [reading_protocol] at hk
      obtain ⟨m1, h1, hk⟩ := bind_ok hk
      simp only [Except.ok.injEq] at hk
      obtain ⟨_, s1, _⟩ := (add_iff _ _ [0] msgs [] _ (shape_header _ (sorted roles) [0])).1 m1 h1
      subst hk
      simp only
      rw [s1.subTrees]
      rfl
    rw [← h, this]

/-- The functions of a protocol without a choice have different names. -/
theorem plain_functions {title : Text → Text} {roles : List Text} {t : Tree} {msgs : List Msg}
    (h : Shape title roles [0] t msgs) (hd : roles.Nodup) (lower : Text → Text) (hu : ∀ r ∈ roles, '_' ∉ lower r)
    (hl : ∀ r ∈ roles, ∀ q ∈ roles, lower r = lower q → r = q) :
    ((programOf roles t).functions.map fun f => fnName lower f.1).Nodup := by
  simp only [programOf]
  rw [allFunctions_eq _ _ h.subTrees, part_functions h.part]
  simp only [List.map_flatMap, List.map_map, Function.comp_def]
  rw [List.nodup_flatMap]
  constructor
  · intro r _
    simp
  · refine List.Pairwise.imp_of_mem ?_ hd
    intro r r' hr hr' hrr x hx hx'
    obtain ⟨a, _, rfl⟩ := List.mem_map.mp hx
    obtain ⟨b, _, hb⟩ := List.mem_map.mp hx'
    unfold fnName at hb
    simp only [List.append_assoc] at hb
    have hb := List.append_cancel_left hb
    simp only [List.cons_append, List.nil_append] at hb
    exact hrr (hl _ hr _ hr' (split_under (hu _ hr') (hu _ hr) hb).1.symm)

theorem freeNames_sorted {branching : Bool} {lower : Text → Text} {roles : List Text} {ss : List Struct} :
    FreeNames branching lower (sorted roles) ss ↔ FreeNames branching lower roles ss := by
  have hm : ∀ r, r ∈ sorted roles ↔ r ∈ roles := mem_sorted roles
  constructor
  · rintro ⟨h1, h2, h3, h4, h5, h6⟩
    refine ⟨?_, ?_, ?_, h4, ?_, h6⟩
    · intro a ha b hb; exact h1 a ((hm a).mpr ha) b ((hm b).mpr hb)
    · simpa only [hm] using h2
    · simpa only [hm] using h3
    · simpa only [hm] using h5
  · rintro ⟨h1, h2, h3, h4, h5, h6⟩
    refine ⟨?_, ?_, ?_, h4, ?_, h6⟩
    · intro a ha b hb; exact h1 a ((hm a).mp ha) b ((hm b).mp hb)
    · simpa only [hm] using h2
    · simpa only [hm] using h3
    · simpa only [hm] using h5

theorem messagesIn_protocol (name : Text) (roles : List Text) (msgs : List Msg) :
    messagesIn (protocol name roles msgs) = msgs := by
  unfold protocol
  rw [List.cons_append, ← List.singleton_append, messagesIn_append, messagesIn_append, messagesIn_messages]
  simp [messagesIn]

section claim
variable {titleCase : Text → Text} {white : Char → Bool} {lower : Text → Text} {ordP : List Text → List Text}
  {ord : List Nat → List (Text × Text) → List (Text × Text)} (hordP : ∀ l, (ordP l).Perm l)
  (hord : ∀ i l, (ord i l).Perm l)
include hordP hord

/-- The names of structures have no underscore. -/
theorem structs_under {lines : List Line} {ss : List Struct} (hs : structs titleCase white ordP ord lines = .ok ss)
    (hu : ∀ a ∈ named (messagesIn lines), '_' ∉ typeName titleCase white a) : ∀ s ∈ ss, '_' ∉ s.1 := by
  intro s h
  obtain ⟨m, hm, e | ⟨hp, e⟩⟩ := C49_only hordP hord lines ss hs s h
  · rw [e]
    exact hu _ (List.mem_append_left _ (List.mem_map.mpr ⟨m, hm, rfl⟩))
  · rw [e]
    exact hu _ (List.mem_append_right _ (List.mem_filter.mpr ⟨List.mem_map.mpr ⟨m, hm, rfl⟩, by simpa using hp⟩))

/-- C57, by the structures declared.  The file of a protocol with loops and a choice is well named exactly if the names of
its roles and structures are free, provided that no name of a role contains `To` (C29) or, in lower case, an underscore,
and no name of a type one. -/
theorem C57_structs (P : Proto) (f : File) (ss : List Struct) (hd : P.roles.Nodup) (hr : P.roles ≠ [])
    (hto : ∀ p ∈ P.roles, NoTo p) (hl : ∀ p ∈ P.roles, '_' ∉ lower p)
    (hu : ∀ a ∈ named P.messages, '_' ∉ typeName titleCase white a)
    (h : file titleCase white lower ordP ord P.lines = .ok f) (hs : structs titleCase white ordP ord P.lines = .ok ss) :
    WellNamed f ↔ FreeNames true lower P.roles ss := by
  obtain ⟨ss', prog, hs', hg, rfl⟩ := proto_file h
  rw [hs] at hs'
  cases hs'
  obtain ⟨ha, M, ts, hp, rfl⟩ := (parts_iff _ P hd hr).1 prog hg
  obtain ⟨a1, a2, a3, a4⟩ := C47_aliases _ P _ hd hr hto hg
  obtain ⟨_, _, _, _, a5⟩ := C47_functions _ P _ hd hr hg
  obtain ⟨d1, d2⟩ := C49_declared hordP hord P.lines _ ss hg hs
  have hflat := proto_flat hp ha
  have hm : ∀ r, r ∈ sorted P.roles ↔ r ∈ P.roles := mem_sorted P.roles
  have hlink := flat_linked hflat (fun e => hr ((sorted_nil _).mp e)) (sorted_nodup _ hd) a1 a2 a3 a4
    (fun lower h1 h2 => a5 lower (by simpa only [hm] using h1) (by simpa only [hm] using h2)) d1 d2
  rw [← hflat.branching] at hlink
  exact (linked_iff hlink (structs_under hordP hord hs (by rw [messagesIn_proto]; exact hu))
    (fun r hr' => hl r ((hm r).mp hr'))).trans freeNames_sorted

/-- The same for protocols without a choice. -/
theorem C57_structs_plain (name : Text) (roles : List Text) (msgs : List Msg) (f : File) (ss : List Struct)
    (hd : roles.Nodup) (hr : roles ≠ []) (hto : ∀ p ∈ roles, NoTo p) (hl : ∀ p ∈ roles, '_' ∉ lower p)
    (hu : ∀ a ∈ named msgs, '_' ∉ typeName titleCase white a)
    (h : file titleCase white lower ordP ord (protocol name roles msgs) = .ok f)
    (hs : structs titleCase white ordP ord (protocol name roles msgs) = .ok ss) :
    WellNamed f ↔ FreeNames false lower roles ss := by
  have hmi := messagesIn_protocol name roles msgs
  obtain ⟨ss', prog, hs', hg, rfl⟩ := plain_file h
  rw [hs] at hs'
  cases hs'
  obtain ⟨hv, _, t, hsh, rfl⟩ := (generator_iff _ name roles msgs).1 prog hg
  obtain ⟨a1, a2⟩ := C29_aliases _ name roles msgs _ hg hd hto
  obtain ⟨d1, d2⟩ := C49_declared hordP hord _ _ ss hg hs
  have hflat := plain_flat hsh hv
  have hm : ∀ r, r ∈ sorted roles ↔ r ∈ roles := mem_sorted roles
  have hd' := sorted_nodup _ hd
  have a3 : ((programOf (sorted roles) t).enums.map (·.1)).Nodup := by
    simp only [programOf]
    rw [hflat.enums]
    exact List.nodup_nil
  have a4 : ((programOf (sorted roles) t).endpoints.map (·.1)).Nodup := by
    simp only [programOf]
    rw [allEndpoints_eq _ _ hsh.subTrees, part_endpoint_names hsh.part]
    refine List.Nodup.map ?_ hd'
    intro a b hab
    unfold endpointName at hab
    exact List.append_cancel_left hab
  have hlink := flat_linked hflat (fun e => hr ((sorted_nil _).mp e)) hd' a1 a2 a3 a4
    (fun lower h1 h2 => plain_functions hsh hd' lower h1 h2) d1 d2
  rw [← hflat.branching] at hlink
  exact (linked_iff hlink (structs_under hordP hord hs (by rw [hmi]; exact hu))
    (fun r hr' => hl r ((hm r).mp hr'))).trans freeNames_sorted

/-- The structures of a protocol without a choice, cf. `C49_protocol`. -/
theorem structs_plain (name : Text) (roles : List Text) (msgs : List Msg) (ss : List Struct)
    (hs : structs titleCase white ordP ord (protocol name roles msgs) = .ok ss) (hc : Consistent titleCase msgs) :
    (∀ m ∈ msgs, structOf (typeName titleCase white) m ∈ ss ∧
      (m.payload ≠ [] → (typeName titleCase white m.payload, none) ∈ ss)) ∧
    ∀ s ∈ ss, ∃ m ∈ msgs, s = structOf (typeName titleCase white) m ∨
      (m.payload ≠ [] ∧ s = (typeName titleCase white m.payload, none)) := by
  have hmi := messagesIn_protocol name roles msgs
  refine ⟨?_, by simpa only [hmi] using C49_only hordP hord (protocol name roles msgs) ss hs⟩
  intro m hm
  obtain ⟨k, hk, chosen, c1, c2, c3, c4, c5⟩ := structs_chosen hs
  have hk' := hk
  rw [reading_protocol] at hk'
  obtain ⟨m1, h1, hk'⟩ := bind_ok hk'
  simp only [Except.ok.injEq] at hk'
  constructor
  · obtain ⟨v, hv⟩ := (add_labels h1).1 m hm
    refine structOf_mem hordP hord hk c1 c2 c4 (by rw [hmi]; exact hc) (by rw [hmi]; exact hm) (v := v) ?_
    rw [requests_eq]
    simp only [List.mem_append]
    refine .inl (.inr ((hord _ _).mem_iff.mpr ?_))
    subst hk'
    exact hv
  · intro hp
    refine c5 _ ((hordP _).mem_iff.mpr ?_)
    subst hk'
    exact (note_payloads _ _ _).mpr (.inr ⟨m, hm, hp, rfl⟩)

end claim

/-- Free names of structures are free names of messages and payloads. -/
theorem freeNames_protocol {branching : Bool} {title lower : Text → Text} {roles : List Text} {msgs : List Msg}
    {ss : List Struct}
    (h1 : ∀ m ∈ msgs, structOf title m ∈ ss ∧ (m.payload ≠ [] → (title m.payload, none) ∈ ss))
    (h2 : ∀ s ∈ ss, ∃ m ∈ msgs, s = structOf title m ∨ (m.payload ≠ [] ∧ s = (title m.payload, none)))
    (h3 : (ss.map (·.1)).Nodup) :
    FreeNames branching lower roles ss ↔ FreeProtocol branching title lower roles msgs := by
  constructor
  · intro h
    refine ⟨h.apart, h.library, h.lowered, ?_, ?_⟩
    · intro a ha
      rcases List.mem_append.mp ha with ha | ha
      · obtain ⟨m, hm, rfl⟩ := List.mem_map.mp ha
        exact h.types _ (h1 m hm).1
      · obtain ⟨ha, hne⟩ := List.mem_filter.mp ha
        obtain ⟨m, hm, rfl⟩ := List.mem_map.mp ha
        exact h.types _ ((h1 m hm).2 (by simpa using hne))
    · intro m hm
      constructor
      · intro hp
        exact h.values _ (h1 m hm).1 (by simp [structOf, hp])
      · intro hp
        exact h.values _ ((h1 m hm).2 hp) rfl
  · intro h
    refine ⟨h.apart, h.library, h.lowered, h3, ?_, ?_⟩
    · intro s hs
      obtain ⟨m, hm, rfl | ⟨hp, rfl⟩⟩ := h2 s hs
      · exact h.types _ (List.mem_append_left _ (List.mem_map.mpr ⟨m, hm, rfl⟩))
      · exact h.types _ (List.mem_append_right _ (List.mem_filter.mpr ⟨List.mem_map.mpr ⟨m, hm, rfl⟩, by simpa using hp⟩))
    · intro s hs h0
      obtain ⟨m, hm, rfl | ⟨hp, rfl⟩⟩ := h2 s hs
      · refine (h.values m hm).1 ?_
        by_contra hp
        simp [structOf, hp] at h0
      · exact (h.values m hm).2 hp

/-- C57.  Take a protocol with loops and a choice that is accepted, whose labels and payloads make consistent types (C49),
whose roles differ, none of them containing `To` (C29) or, in lower case, an underscore.  In the generated file every name
refers to the item that is meant, and nothing is declared or bound twice, exactly if the names written in the protocol
are free.  Partial: not all names that are accepted are free, see `C57_taken`. -/
theorem C57_partial {titleCase : Text → Text} {white : Char → Bool} {lower : Text → Text} {ordP : List Text → List Text}
    {ord : List Nat → List (Text × Text) → List (Text × Text)} (hordP : ∀ l, (ordP l).Perm l)
    (hord : ∀ i l, (ord i l).Perm l) (P : Proto) (f : File)
    (h : file titleCase white lower ordP ord P.lines = .ok f) (hd : P.roles.Nodup) (hr : P.roles ≠ [])
    (hto : ∀ p ∈ P.roles, NoTo p) (hl : ∀ p ∈ P.roles, '_' ∉ lower p)
    (hu : ∀ a ∈ named P.messages, '_' ∉ typeName titleCase white a) (hc : Consistent titleCase P.messages)
    (hi : ∀ a ∈ named P.messages, ∀ b ∈ named P.messages,
      typeName titleCase white a = typeName titleCase white b → titleCase a = titleCase b) :
    WellNamed f ↔ FreeProtocol true (typeName titleCase white) lower P.roles P.messages := by
  obtain ⟨ss, _, hs, _, _⟩ := proto_file h
  rw [C57_structs hordP hord P f ss hd hr hto hl hu h hs]
  obtain ⟨k1, k2⟩ := C49_protocol hordP hord P ss hs hc
  exact freeNames_protocol k1 k2 (C49_once hordP hord P.lines ss hs (by rw [messagesIn_proto]; exact hi))

/-- The same for protocols without a choice. -/
theorem C57_plain_partial {titleCase : Text → Text} {white : Char → Bool} {lower : Text → Text}
    {ordP : List Text → List Text} {ord : List Nat → List (Text × Text) → List (Text × Text)}
    (hordP : ∀ l, (ordP l).Perm l) (hord : ∀ i l, (ord i l).Perm l) (name : Text) (roles : List Text) (msgs : List Msg)
    (f : File) (h : file titleCase white lower ordP ord (protocol name roles msgs) = .ok f) (hd : roles.Nodup)
    (hr : roles ≠ []) (hto : ∀ p ∈ roles, NoTo p) (hl : ∀ p ∈ roles, '_' ∉ lower p)
    (hu : ∀ a ∈ named msgs, '_' ∉ typeName titleCase white a) (hc : Consistent titleCase msgs)
    (hi : ∀ a ∈ named msgs, ∀ b ∈ named msgs,
      typeName titleCase white a = typeName titleCase white b → titleCase a = titleCase b) :
    WellNamed f ↔ FreeProtocol false (typeName titleCase white) lower roles msgs := by
  obtain ⟨ss, _, hs, _, _⟩ := plain_file h
  rw [C57_structs_plain hordP hord name roles msgs f ss hd hr hto hl hu h hs]
  obtain ⟨k1, k2⟩ := structs_plain hordP hord name roles msgs ss hs hc
  exact freeNames_protocol k1 k2 (C49_once hordP hord _ ss hs (by rw [messagesIn_protocol]; exact hi))

theorem mem_file_struct {b : Bool} {lower : Text → Text} {ss : List Struct} {p : Program} {s : Struct} (hs : s ∈ ss) :
    s.1 ∈ namesIn .types (fileItems b lower ss p) := by
  rw [file_types]
  exact List.mem_append_left _ (List.mem_append_right _ (List.mem_map.mpr ⟨s, hs, rfl⟩))

/-- C57, names that are never free.  Whatever text is accepted, if one of the structures declared has a name the file takes
for granted, then a name does not refer to what is meant, or is declared twice. -/
theorem C57_taken {titleCase : Text → Text} {white : Char → Bool} {lower : Text → Text} {ordP : List Text → List Text}
    {ord : List Nat → List (Text × Text) → List (Text × Text)} (lines : List Line) (f : File) (ss : List Struct)
    (h : file titleCase white lower ordP ord lines = .ok f) (hs : structs titleCase white ordP ord lines = .ok ss)
    (s : Struct) (hm : s ∈ ss) (ht : s.1 ∈ takenTypes ∨ (s.2 = none ∧ s.1 ∈ takenValues)) : ¬ WellNamed f := by
  unfold file at h
  obtain ⟨k, hk, h⟩ := bind_ok h
  rw [hs] at h
  simp only [ok_bind, Except.ok.injEq] at h
  subst h
  rw [wellNamed_iff]
  rintro ⟨h1, h2, _, _, _, h6⟩
  simp only [fileOf] at h1 h2 h6
  have hpre : ∀ u ∈ emittedPrelude, u.name ∉ namesIn u.space (fileItems (!k.main.subTrees.isEmpty) lower ss (programOf k.roles k.main)) := by
    intro u hu
    refine h6 u ?_ (prelude_source hu)
    unfold fileUses emittedUses
    simp only [List.append_assoc]
    exact List.mem_append_right _ (List.mem_append_left _ hu)
  rcases ht with ht | ⟨h0, ht⟩
  · have hmem := mem_file_struct (b := !k.main.subTrees.isEmpty) (lower := lower) (p := programOf k.roles k.main) hm
    have hfix : s.1 ∉ fixedTypes (!k.main.subTrees.isEmpty) (programOf k.roles k.main).roles := by
      intro hf
      rw [file_types, List.nodup_append, List.nodup_append] at h1
      exact h1.1.2.2 _ hf _ (List.mem_map.mpr ⟨s, hm, rfl⟩) rfl
    rw [mem_fixed] at hfix
    rcases mem_takenTypes.mp ht with (e | e) | e | e
    · exact hfix (.inl (.inl e))
    · exact hfix (.inl (.inr (.inl e)))
    · exact hfix (.inr (.inl e))
    · obtain ⟨u, u1, u2, u3⟩ := prelude_all.1 _ e
      have := hpre u u1
      rw [u2, u3] at this
      exact this hmem
  · have hval : s.1 ∈ (ss.filter fun s => s.2 = none).map (·.1) :=
      List.mem_map.mpr ⟨s, List.mem_filter.mpr ⟨hm, by simpa using h0⟩, rfl⟩
    rw [file_values, List.nodup_append, List.nodup_append, List.nodup_cons] at h2
    have hp : s.1 ∈ ["Ok".toList, "Err".toList, "drop".toList] ∨ s.1 = "main".toList ∨ s.1 = "fork_mpst".toList := by
      have : ∀ n ∈ takenValues, n ∈ ["Ok".toList, "Err".toList, "drop".toList] ∨ n = "main".toList ∨
          n = "fork_mpst".toList := by decide +kernel
      exact this _ ht
    rcases hp with hp | hp | hp
    · obtain ⟨u, u1, u2, u3⟩ := prelude_all.2 _ hp
      have := hpre u u1
      rw [u2, file_values, u3] at this
      exact this (List.mem_append_left _ (List.mem_append_left _ (List.mem_cons_of_mem _ hval)))
    · exact h2.2.2 s.1 (List.mem_append_left _ (List.mem_cons_of_mem _ hval)) _ (by simp) hp
    · rw [hp] at hval; exact h2.1.1.1 hval

/-- C57, payloads: of the payload of any message of a text that is accepted the structure is declared, so that its name must
not be one the file takes for granted; the protocols of the repository have messages that carry a `String`. -/
theorem C57_payload {titleCase : Text → Text} {white : Char → Bool} {lower : Text → Text} {ordP : List Text → List Text}
    {ord : List Nat → List (Text × Text) → List (Text × Text)} (hordP : ∀ l, (ordP l).Perm l) (P : Proto) (f : File)
    (h : file titleCase white lower ordP ord P.lines = .ok f) (m : Msg) (hm : m ∈ P.messages) (hp : m.payload ≠ [])
    (ht : typeName titleCase white m.payload ∈ takenTypes) : ¬ WellNamed f := by
  obtain ⟨ss, _, hs, _, _⟩ := proto_file h
  obtain ⟨k, hk, chosen, c1, c2, c3, c4, c5⟩ := structs_chosen hs
  refine C57_taken P.lines f ss h hs (typeName titleCase white m.payload, none) (c5 _ ((hordP _).mem_iff.mpr ?_)) (.inl ht)
  rw [reading_choice] at hk
  obtain ⟨m1, h1, hk⟩ := bind_ok hk
  obtain ⟨m2, h2, hk⟩ := bind_ok hk
  obtain ⟨ts, h3, hk⟩ := bind_ok hk
  simp only [Except.ok.injEq] at hk
  subst hk
  exact (note_payloads _ _ _).mpr (.inr ⟨m, hm, hp, rfl⟩)

end Verif.Prop
