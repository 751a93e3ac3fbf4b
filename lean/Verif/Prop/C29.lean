import Mathlib.Data.List.Nodup
import Verif.Proof.NuscrRun

/-!
# C29: the projection of a choice-free global protocol
-/
namespace Verif.Prop
open Verif.Nuscr Verif.NuscrSpec

theorem view_dual (title : Text → Text) (p q : Text) (h : p ≠ q) (msgs : List Msg) :
    view title q p msgs = (view title p q msgs).map Step.dual := by
  unfold view
  rw [List.map_filterMap]
  apply List.filterMap_congr
  intro m _
  by_cases h1 : m.sender = p ∧ m.receiver = q
  · have h2 : ¬ (m.sender = q ∧ m.receiver = p) := fun e => h (h1.1.symm.trans e.1)
    simp [h1, h, Step.dual]
  · by_cases h2 : m.sender = q ∧ m.receiver = p
    · simp [h2, Ne.symm h, Step.dual]
    · simp [h1, h2]

theorem allSessions_eq (roles : List Text) (t : Tree) (h : t.subTrees = []) : allSessions roles t = genSessions roles t := by
  cases t; simp only at h; subst h; simp [allSessions, allSessionsList]

theorem allStacks_eq (roles : List Text) (t : Tree) (h : t.subTrees = []) : allStacks roles t = genStacks roles t := by
  cases t; simp only at h; subst h; simp [allStacks, allStacksList]

theorem allEndpoints_eq (roles : List Text) (t : Tree) (h : t.subTrees = []) :
    allEndpoints roles t = genEndpoints roles t := by
  cases t; simp only at h; subst h; simp [allEndpoints, allEndpointsList]

theorem forall₂_map {α β : Type} {R : α → β → Prop} {f : α → β} : ∀ (l : List α), (∀ a ∈ l, R a (f a)) →
    List.Forall₂ R l (l.map f)
  | [], _ => .nil
  | a :: l, h => .cons (h a (by simp)) (forall₂_map l fun x hx => h x (by simp [hx]))

theorem genSessions_mem (title : Text → Text) (roles : List Text) (t : Tree) (msgs : List Msg)
    (hs : Shape title roles [0] t msgs) (p q : Text) (hp : p ∈ roles) (hq : q ∈ roles) (hqp : q ≠ p) :
    Means (genSessions roles t) (messageName ['0'] 0 p q) (view title p q msgs) := by
  have sub : ∀ d, d ∈ sessDefs ['0'] p q 0 (view title p q msgs) ++
      [(messageName ['0'] (view title p q msgs).length p q, Rhs.fin)] → d ∈ genSessions roles t := by
    intro d hd
    unfold genSessions
    refine List.mem_flatMap.mpr ⟨p, hp, List.mem_flatMap.mpr ⟨q, hq, ?_⟩⟩
    rw [if_neg hqp, hs.messages p q hp hq hqp, hs.lastMessage p q hp hq hqp]
    exact hd
  refine means_sessDefs _ _ p q _ 0 (fun d hd => sub d (by simp [hd])) (sub _ ?_)
  rw [Nat.zero_add]; simp

theorem genStacks_mem (title : Text → Text) (roles : List Text) (t : Tree) (msgs : List Msg)
    (hs : Shape title roles [0] t msgs) (p : Text) (hp : p ∈ roles) :
    MeansStack (genStacks roles t) (orderingName ['0'] 0 p) (partners p msgs) := by
  have sub : ∀ d, d ∈ stackDefs ['0'] p 0 (partners p msgs) ++
      [(orderingName ['0'] (partners p msgs).length p, StackRhs.fin)] → d ∈ genStacks roles t := by
    intro d hd
    unfold genStacks
    refine List.mem_flatMap.mpr ⟨p, hp, ?_⟩
    rw [hs.stacks p hp, hs.lastStack p hp]
    exact hd
  refine means_stackDefs _ _ p _ 0 (fun d hd => sub d (by simp [hd])) (sub _ ?_)
  rw [Nat.zero_add]; simp

/-- C29.  Of every choice-free protocol that is accepted, for every role `p` the file has an endpoint type whose session
parameters, one for each other role `q` in the order of the roles of the file, mean exactly the exchanges of the
protocol between `p` and `q` seen from `p`, whose stack parameter means the list of the partners of `p` in the order of
the protocol, and whose name parameter is the one of `p`.  What is seen from `q` is the dual of what is seen from `p`. -/
theorem C29_projection (title : Text → Text) (name : Text) (roles : List Text) (msgs : List Msg) (prog : Program)
    (h : generator title (protocol name roles msgs) = .ok prog) :
    (∀ p, p ∈ prog.roles ↔ p ∈ roles) ∧
    (∀ p ∈ roles, ∃ endpoint sessions stack, (endpoint, sessions, stack, ['N', 'a', 'm', 'e'] ++ p) ∈ prog.endpoints ∧
      List.Forall₂ (fun q session => Means prog.sessions session (view title p q msgs))
        (prog.roles.filter (· ≠ p)) sessions ∧
      MeansStack prog.stacks stack (partners p msgs)) ∧
    (∀ p q, p ≠ q → view title q p msgs = (view title p q msgs).map Step.dual) := by
  obtain ⟨_, _, t, hs, rfl⟩ := (generator_iff title name roles msgs).1 prog h
  refine ⟨fun p => mem_sorted roles p, ?_, fun p q hpq => view_dual title p q hpq msgs⟩
  intro p hp
  have hp' : p ∈ sorted roles := (mem_sorted roles p).mpr hp
  refine ⟨endpointName ['0'] p, ((sorted roles).filter (· ≠ p)).map (fun q => (t.firstMessage p q).getD []),
    (t.firstStack p).getD [], ?_, ?_, ?_⟩
  · simp only [programOf]
    rw [allEndpoints_eq _ _ hs.subTrees]
    unfold genEndpoints
    refine List.mem_flatMap.mpr ⟨p, hp', ?_⟩
    rw [hs.endpoints p hp']
    simp
    rfl
  · refine forall₂_map _ ?_
    intro q hq
    have hq' := List.mem_filter.mp hq
    have hqp : q ≠ p := by simpa using hq'.2
    simp only [programOf]
    rw [hs.firstMessage p q hp' hq'.1 hqp, allSessions_eq _ _ hs.subTrees]
    exact genSessions_mem title _ t msgs hs p q hp' hq'.1 hqp
  · simp only [programOf]
    rw [hs.firstStack p hp', allStacks_eq _ _ hs.subTrees]
    exact genStacks_mem title _ t msgs hs p hp'

/-! The aliases do not clash. -/

theorem digit_toNat {k : Nat} (h : k < 10) : (Char.ofNat (48 + k)).toNat = 48 + k := by
  have : k = 0 ∨ k = 1 ∨ k = 2 ∨ k = 3 ∨ k = 4 ∨ k = 5 ∨ k = 6 ∨ k = 7 ∨ k = 8 ∨ k = 9 := by omega
  rcases this with e | e | e | e | e | e | e | e | e | e <;> subst e <;> rfl

theorem value_concat (c : Char) : ∀ a : Text, value (a ++ [c]) = 10 * value a + (c.toNat - 48)
  | [] => by simp [value]
  | x :: a => by
    simp only [List.cons_append, value, value_concat c a, List.length_append, List.length_singleton, Nat.pow_succ]
    rw [Nat.mul_add, ← Nat.mul_assoc, Nat.mul_comm _ 10]
    omega

theorem decFuel_value : ∀ (fuel n : Nat), n < fuel → value (decFuel fuel n) = n ∧ Numeral (decFuel fuel n)
  | 0, n, h => by omega
  | fuel + 1, n, hf => by
    unfold decFuel
    split
    · rename_i h
      have := digit_toNat h
      refine ⟨by simp [value, this], by simp, ?_⟩
      intro c hc
      rw [List.mem_singleton.mp hc]
      omega
    · obtain ⟨h1, h2, h3⟩ := decFuel_value fuel (n / 10) (by omega)
      have hd := digit_toNat (Nat.mod_lt n (by omega : 0 < 10))
      refine ⟨by rw [value_concat, h1]; omega, by simp, ?_⟩
      intro c hc
      rcases List.mem_append.mp hc with e | e
      · exact h3 c e
      · rw [List.mem_singleton.mp e]
        have : n % 10 < 10 := Nat.mod_lt n (by omega)
        omega

theorem dec_value (n : Nat) : value (dec n) = n ∧ Numeral (dec n) := decFuel_value (n + 1) n (by omega)

theorem split_underscore : ∀ (a b x y : Text), (∀ c ∈ a, c ≠ '_') → (∀ c ∈ b, c ≠ '_') →
    a ++ '_' :: x = b ++ '_' :: y → a = b ∧ x = y
  | [], [], x, y, _, _, h => by simpa using h
  | [], c :: b, x, y, _, hb, h => by
    simp only [List.nil_append, List.cons_append, List.cons.injEq] at h
    exact absurd h.1.symm (hb c (by simp))
  | c :: a, [], x, y, ha, _, h => by
    simp only [List.nil_append, List.cons_append, List.cons.injEq] at h
    exact absurd h.1 (ha c (by simp))
  | c :: a, d :: b, x, y, ha, hb, h => by
    simp only [List.cons_append, List.cons.injEq] at h
    obtain ⟨e1, e2⟩ := split_underscore a b x y (fun c hc => ha c (by simp [hc])) (fun c hc => hb c (by simp [hc])) h.2
    exact ⟨by rw [h.1, e1], e2⟩

theorem dec_split {n n' : Nat} {x y : Text} (h : dec n ++ '_' :: x = dec n' ++ '_' :: y) : n = n' ∧ x = y := by
  have hn : ∀ n, ∀ c ∈ dec n, c ≠ '_' := by
    intro n c hc e
    subst e
    have := (dec_value n).2.2 '_' hc
    have e : ('_' : Char).toNat = 95 := rfl
    omega
  obtain ⟨e1, e2⟩ := split_underscore _ _ _ _ (hn n) (hn n') h
  exact ⟨by rw [← (dec_value n).1, ← (dec_value n').1, e1], e2⟩

/-- The name of the role does not contain the letters `To`. -/
def NoTo (p : Text) : Prop := ¬ ['T', 'o'] <:+: p

theorem split_to {p q p' q' : Text} (h : p ++ 'T' :: 'o' :: q = p' ++ 'T' :: 'o' :: q') (hp : NoTo p) (hp' : NoTo p') :
    p = p' ∧ q = q' := by
  have key : ∀ (a b : Text), NoTo (a ++ b) → ∀ x y, 'T' :: 'o' :: x = b ++ 'T' :: 'o' :: y → b = [] := by
    intro a b hn x y h
    match b, h with
    | [], _ => rfl
    | [c], h =>
      simp only [List.cons_append, List.nil_append, List.cons.injEq] at h
      exact absurd h.2.1 (by decide)
    | c :: d :: b, h =>
      simp only [List.cons_append, List.cons.injEq] at h
      exact absurd ⟨a, b, by rw [← h.1, ← h.2.1]; simp⟩ hn
  rcases List.append_eq_append_iff.mp h with ⟨as, e1, e2⟩ | ⟨as, e1, e2⟩
  · have := key p as (e1 ▸ hp') _ _ e2
    subst this
    simp at e1 e2
    exact ⟨e1.symm, e2⟩
  · have := key p' as (e1 ▸ hp) _ _ e2
    subst this
    simp at e1 e2
    exact ⟨e1, e2.symm⟩

theorem messageName_inj {n n' : Nat} {p q p' q' : Text} (hp : NoTo p) (hp' : NoTo p')
    (h : messageName ['0'] n p q = messageName ['0'] n' p' q') : n = n' ∧ p = p' ∧ q = q' := by
  unfold messageName at h
  simp only [List.append_assoc, List.cons_append, List.nil_append, List.cons.injEq, true_and] at h
  obtain ⟨e1, e2⟩ := dec_split h
  simp only [List.cons.injEq, true_and] at e2
  exact ⟨e1, split_to e2 hp hp'⟩

theorem orderingName_inj {n n' : Nat} {p p' : Text}
    (h : orderingName ['0'] n p = orderingName ['0'] n' p') : n = n' ∧ p = p' := by
  unfold orderingName at h
  simp only [List.append_assoc, List.cons_append, List.nil_append, List.cons.injEq, true_and] at h
  obtain ⟨e1, e2⟩ := dec_split h
  simp only [List.cons.injEq, true_and] at e2
  exact ⟨e1, e2⟩

theorem sessDefs_names (p q : Text) : ∀ (ss : List Step) (n : Nat),
    (sessDefs ['0'] p q n ss).map (·.1) = (List.range' n ss.length).map fun k => messageName ['0'] k p q
  | [], _ => rfl
  | .send _ :: ss, n => by simp [sessDefs, sessDefs_names p q ss, List.range'_succ]
  | .recv _ :: ss, n => by simp [sessDefs, sessDefs_names p q ss, List.range'_succ]

theorem stackDefs_names (p : Text) : ∀ (ss : List Text) (n : Nat),
    (stackDefs ['0'] p n ss).map (·.1) = (List.range' n ss.length).map fun k => orderingName ['0'] k p
  | [], _ => rfl
  | _ :: ss, n => by simp [stackDefs, stackDefs_names p ss, List.range'_succ]

theorem insertBy_nodup {α : Type} (le : α → α → Bool) (x : α) : ∀ l : List α, x ∉ l → l.Nodup →
    (Check.insertBy le x l).Nodup
  | [], _, _ => by simp [Check.insertBy]
  | a :: l, hx, hl => by
    unfold Check.insertBy
    simp only [List.mem_cons, not_or] at hx
    rw [List.nodup_cons] at hl
    split
    · simp [hx, hl]
    · rw [List.nodup_cons, mem_insertBy]
      exact ⟨by simp [hl.1, Ne.symm hx.1], insertBy_nodup le x l hx.2 hl.2⟩

theorem sorted_nodup : ∀ roles : List Text, roles.Nodup → (sorted roles).Nodup
  | [], _ => by simp [sorted, Check.sortBy]
  | a :: l, h => by
    rw [List.nodup_cons] at h
    exact insertBy_nodup _ _ _ (fun e => h.1 ((mem_sorted l a).mp e)) (sorted_nodup l h.2)

/-- The definitions of `p` towards `q`. -/
theorem sessions_names (title : Text → Text) (roles : List Text) (t : Tree) (msgs : List Msg)
    (hs : Shape title roles [0] t msgs) :
    (genSessions roles t).map (·.1) = roles.flatMap fun p => roles.flatMap fun q => if q = p then [] else
      (List.range' 0 ((view title p q msgs).length + 1)).map fun k => messageName ['0'] k p q := by
  unfold genSessions
  rw [List.map_flatMap]
  apply List.flatMap_congr
  intro p hp
  rw [List.map_flatMap]
  apply List.flatMap_congr
  intro q hq
  by_cases h : q = p
  · simp [h]
  · rw [if_neg h, if_neg h, hs.messages p q hp hq h, hs.lastMessage p q hp hq h]
    change List.map (·.1) (sessDefs ['0'] p q 0 (view title p q msgs) ++
      [(messageName ['0'] (view title p q msgs).length p q, Rhs.fin)]) = _
    rw [List.map_append, sessDefs_names, List.range'_concat]
    simp

theorem stacks_names (title : Text → Text) (roles : List Text) (t : Tree) (msgs : List Msg)
    (hs : Shape title roles [0] t msgs) :
    (genStacks roles t).map (·.1) = roles.flatMap fun p =>
      (List.range' 0 ((partners p msgs).length + 1)).map fun k => orderingName ['0'] k p := by
  unfold genStacks
  rw [List.map_flatMap]
  apply List.flatMap_congr
  intro p hp
  rw [hs.stacks p hp, hs.lastStack p hp]
  change List.map (·.1) (stackDefs ['0'] p 0 (partners p msgs) ++
    [(orderingName ['0'] (partners p msgs).length p, StackRhs.fin)]) = _
  rw [List.map_append, stackDefs_names, List.range'_concat]
  simp

/-- C29, no alias is defined twice, if the roles are distinct and no name of a role contains `To`: what an alias means is
then unique, and the definitions of the file do not clash. -/
theorem C29_aliases (title : Text → Text) (name : Text) (roles : List Text) (msgs : List Msg) (prog : Program)
    (h : generator title (protocol name roles msgs) = .ok prog) (hd : roles.Nodup) (hto : ∀ p ∈ roles, NoTo p) :
    (prog.sessions.map (·.1)).Nodup ∧ (prog.stacks.map (·.1)).Nodup := by
  obtain ⟨_, _, t, hs, rfl⟩ := (generator_iff title name roles msgs).1 prog h
  have hd' := sorted_nodup roles hd
  have hto' : ∀ p ∈ sorted roles, NoTo p := fun p hp => hto p ((mem_sorted roles p).mp hp)
  simp only [programOf]
  rw [allSessions_eq _ _ hs.subTrees, allStacks_eq _ _ hs.subTrees, sessions_names title _ t msgs hs,
    stacks_names title _ t msgs hs]
  constructor
  · rw [List.nodup_flatMap]
    constructor
    · intro p hp
      rw [List.nodup_flatMap]
      constructor
      · intro q _
        split
        · simp
        · refine List.Nodup.map ?_ (List.nodup_range' (step := 1))
          intro a b hab
          exact (messageName_inj (hto' p hp) (hto' p hp) hab).1
      · refine hd'.imp ?_
        intro q q' hqq x hx hx'
        simp only at hx hx'
        split at hx
        · simp at hx
        · split at hx'
          · simp at hx'
          · obtain ⟨a, _, ha⟩ := List.mem_map.mp hx
            obtain ⟨b, _, hb⟩ := List.mem_map.mp hx'
            exact hqq (messageName_inj (hto' p hp) (hto' p hp) (ha.trans hb.symm)).2.2
    · refine List.Pairwise.imp_of_mem ?_ hd'
      intro p p' hp hp' hpp x hx hx'
      obtain ⟨q, _, hx⟩ := List.mem_flatMap.mp hx
      obtain ⟨q', _, hx'⟩ := List.mem_flatMap.mp hx'
      split at hx
      · simp at hx
      · split at hx'
        · simp at hx'
        · obtain ⟨a, _, ha⟩ := List.mem_map.mp hx
          obtain ⟨b, _, hb⟩ := List.mem_map.mp hx'
          exact hpp (messageName_inj (hto' p hp) (hto' p' hp') (ha.trans hb.symm)).2.1
  · rw [List.nodup_flatMap]
    constructor
    · intro p hp
      refine List.Nodup.map ?_ (List.nodup_range' (step := 1))
      intro a b hab
      exact (orderingName_inj hab).1
    · refine hd'.imp ?_
      intro p p' hpp x hx hx'
      obtain ⟨a, _, ha⟩ := List.mem_map.mp hx
      obtain ⟨b, _, hb⟩ := List.mem_map.mp hx'
      exact hpp (orderingName_inj (ha.trans hb.symm)).2

/-- Without that condition aliases clash: with roles `A`, `BToC`, `AToB` and `C`, the session of `A` towards `BToC` has
the name of the session of `AToB` towards `C`. -/
theorem C29_clash : messageName ['0'] 0 ['A'] ['B', 'T', 'o', 'C'] = messageName ['0'] 0 ['A', 'T', 'o', 'B'] ['C'] := by
  simp [messageName]

/-- A protocol with three roles and three messages is accepted; `A` sees `C` once, as receiver. -/
def sampleProtocol : List Msg :=
  [⟨['A'], ['B'], ['M'], ['a'], ['0'], .opening, ['1'], .closing, none, []⟩,
   ⟨['B'], ['C'], ['N'], ['b'], ['0'], .opening, ['5'], .opening, some ['b'], []⟩,
   ⟨['C'], ['A'], ['O'], ['a'], ['3'], .closing, ['7'], .closing, none, []⟩]

example : ∃ prog, generator id (protocol ['P'] [['A'], ['B'], ['C']] sampleProtocol) = .ok prog := by
  refine (generator_iff id ['P'] [['A'], ['B'], ['C']] sampleProtocol).2 (by decide) ?_
  have : (boundsOf sampleProtocol).isOk = true := by decide
  cases h : boundsOf sampleProtocol with
  | error e => rw [h] at this; cases this
  | ok b => exact ⟨b, rfl⟩

example : partners ['A'] sampleProtocol = [['B'], ['C']] ∧
    view id ['A'] ['C'] sampleProtocol = [.recv ⟨['O'], ['a'], ['3'], false, ['7'], true, [' ']⟩] := by decide

end Verif.Prop
