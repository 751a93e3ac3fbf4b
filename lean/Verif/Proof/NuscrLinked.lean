import Verif.Proof.NuscrFile
import Mathlib.Data.List.Nodup

/-! A generated file is well named exactly if the names of its roles and structures are apart. -/
namespace Verif.NuscrSpec
open Verif.Nuscr

/-- The parts of a file fit together: every alias that is used is declared, aliases of one sort have different names. -/
structure Linked (branching : Bool) (ss : List Struct) (p : Program) : Prop where
  roles : p.roles ≠ []
  distinct : p.roles.Nodup
  sessionNames : ∀ d ∈ p.sessions, "Message_".toList <+: d.1
  stackNames : ∀ d ∈ p.stacks, "Ordering_".toList <+: d.1
  enumNames : ∀ d ∈ p.enums, "Choice_".toList <+: d.1
  endpointNames : ∀ d ∈ p.endpoints, "Endpoint_".toList <+: d.1
  sessionsOnce : (p.sessions.map (·.1)).Nodup
  stacksOnce : (p.stacks.map (·.1)).Nodup
  enumsOnce : (p.enums.map (·.1)).Nodup
  endpointsOnce : (p.endpoints.map (·.1)).Nodup
  sends : ∀ a q b, (a, Rhs.send q b) ∈ p.sessions → q.message ∈ ss.map (·.1) ∧ b ∈ p.sessions.map (·.1)
  recvs : ∀ a q b, (a, Rhs.recv q b) ∈ p.sessions → q.message ∈ ss.map (·.1) ∧ b ∈ p.sessions.map (·.1)
  sendChoices : ∀ a c, (a, Rhs.sendChoice c) ∈ p.sessions → c ∈ p.enums.map (·.1)
  recvChoices : ∀ a c, (a, Rhs.recvChoice c) ∈ p.sessions → c ∈ p.enums.map (·.1)
  stackRoles : ∀ a r b, (a, StackRhs.role r b) ∈ p.stacks → r ∈ p.roles ∧ b ∈ p.stacks.map (·.1)
  stackLast : ∀ a r, (a, StackRhs.last r) ∈ p.stacks → r ∈ p.roles
  broadcast : ∀ a, (a, StackRhs.broadcast) ∈ p.stacks → branching = true
  variants : ∀ d ∈ p.enums, (d.2.map (·.1)).Nodup ∧ ∀ v ∈ d.2, v.2 ∈ p.endpoints.map (·.1)
  endpoints : ∀ e ∈ p.endpoints, e.2.1.length + 1 = p.roles.length ∧ (∀ s ∈ e.2.1, s ∈ p.sessions.map (·.1)) ∧
    e.2.2.1 ∈ p.stacks.map (·.1) ∧ ∃ r ∈ p.roles, e.2.2.2 = ['N', 'a', 'm', 'e'] ++ r
  functions : ∀ f ∈ p.functions, f.2 ∈ p.endpoints.map (·.1)
  main : p.main.length = p.roles.length ∧ ∀ f ∈ p.main, f ∈ p.functions.map (·.1)
  functionsOnce : ∀ lower : Text → Text, (∀ r ∈ p.roles, '_' ∉ lower r) →
    (∀ r ∈ p.roles, ∀ q ∈ p.roles, lower r = lower q → r = q) → (p.functions.map fun f => fnName lower f.1).Nodup
  payloads : ∀ s ∈ ss, ∀ x, s.2 = some x → x ∈ ss.map (·.1)

/-! ## The names of the items -/

theorem namesIn_map {α : Type} (sp : Space) (l : List α) (f : α → Text) (src : Source) (n : Nat) :
    namesIn sp (l.map fun d => ⟨sp, f d, src, n⟩) = l.map f := by
  induction l with
  | nil => rfl
  | cons a l ih => simp [namesIn_cons, ih]

theorem namesIn_map_ne {α : Type} (sp sp' : Space) (h : sp' ≠ sp) (l : List α) (f : α → Text) (src : Source) (n : Nat) :
    namesIn sp (l.map fun d => ⟨sp', f d, src, n⟩) = [] := by
  induction l with
  | nil => rfl
  | cons a l ih => simp [namesIn_cons, ih, h]

theorem namesIn_types {α : Type} (l : List α) (f : α → Text) (src : Source) (n : Nat) :
    namesIn .types (l.map fun d => ⟨.values, f d, src, n⟩) = [] := namesIn_map_ne _ _ (by decide) l f src n

theorem namesIn_values {α : Type} (l : List α) (f : α → Text) (src : Source) (n : Nat) :
    namesIn .values (l.map fun d => ⟨.types, f d, src, n⟩) = [] := namesIn_map_ne _ _ (by decide) l f src n

theorem structs_types (ss : List Struct) : namesIn .types (ss.flatMap structItems) = ss.map (·.1) := by
  induction ss with
  | nil => rfl
  | cons s l ih =>
    rw [List.flatMap_cons, namesIn_append, ih]
    obtain ⟨a, b⟩ := s
    cases b <;> simp [structItems, namesIn]

theorem structs_values (ss : List Struct) :
    namesIn .values (ss.flatMap structItems) = (ss.filter fun s => s.2 = none).map (·.1) := by
  induction ss with
  | nil => rfl
  | cons s l ih =>
    rw [List.flatMap_cons, namesIn_append, ih]
    obtain ⟨a, b⟩ := s
    cases b <;> simp [structItems, namesIn]

/-- The names brought in by `use`. -/
def importNames (branching : Bool) : List Text :=
  ["End".toList, "RecvTimed".toList, "SendTimed".toList] ++ (if branching then ["RoleBroadcast".toList] else []) ++
    ["RoleEnd".toList, "HashMap".toList, "Error".toList, "Instant".toList]

theorem imports_types (b) : namesIn .types (imports b) = importNames b := by cases b <;> rfl
theorem imports_values (b) : namesIn .values (imports b) = [] := by cases b <;> rfl

/-- The types of the library and those emitted. -/
def fixedTypes (branching : Bool) (roles : List Text) : List Text :=
  importNames branching ++ meshName :: (Baking.roleNames4 roles ++ roles.map Baking.nameId)

/-- The aliases and enums. -/
def aliasTypes (p : Program) : List Text :=
  p.sessions.map (·.1) ++ p.stacks.map (·.1) ++ p.enums.map (·.1) ++ p.endpoints.map (·.1)

theorem emitted_types (roles) : namesIn .types (emittedItems roles) =
    meshName :: (Baking.roleNames4 roles ++ roles.map Baking.nameId) := by
  unfold emittedItems
  rw [List.cons_append, namesIn_cons, namesIn_append, emittedRoles_types]
  simp [namesIn]

theorem emitted_values (roles) : namesIn .values (emittedItems roles) = [Baking.forkId] := by
  unfold emittedItems
  rw [List.cons_append, namesIn_cons, namesIn_append, emittedRoles_values]
  simp [namesIn]

theorem file_types (branching lower ss p) : namesIn .types (fileItems branching lower ss p) =
    fixedTypes branching p.roles ++ ss.map (·.1) ++ aliasTypes p := by
  unfold fileItems
  simp only [namesIn_append, imports_types, emitted_types, structs_types, namesIn_map, namesIn_types, namesIn_values]
  simp [fixedTypes, aliasTypes, namesIn]

theorem file_values (branching lower ss p) : namesIn .values (fileItems branching lower ss p) =
    Baking.forkId :: (ss.filter fun s => s.2 = none).map (·.1) ++ p.functions.map (fun f => fnName lower f.1) ++
      ["main".toList] := by
  unfold fileItems
  simp only [namesIn_append, imports_values, emitted_values, structs_values, namesIn_map, namesIn_types, namesIn_values]
  simp [namesIn]

/-! ## Types -/

/-- The beginning of an alias. -/
def aliasLike (n : Text) : Bool :=
  "Message_".toList.isPrefixOf n || "Ordering_".toList.isPrefixOf n || "Choice_".toList.isPrefixOf n ||
    "Endpoint_".toList.isPrefixOf n

theorem isPrefixOf_iff {a b : Text} : a.isPrefixOf b = true ↔ a <+: b := List.isPrefixOf_iff_prefix

theorem aliasLike_under {n : Text} (h : aliasLike n = true) : '_' ∈ n := by
  simp only [aliasLike, Bool.or_eq_true, isPrefixOf_iff] at h
  rcases h with ((h | h) | h) | h <;> exact h.subset (by decide)

theorem alias_like {branching ss p} (h : Linked branching ss p) {n} (hn : n ∈ aliasTypes p) : aliasLike n = true := by
  simp only [aliasTypes, List.mem_append, List.mem_map] at hn
  simp only [aliasLike, Bool.or_eq_true, isPrefixOf_iff]
  rcases hn with ((⟨d, hd, rfl⟩ | ⟨d, hd, rfl⟩) | ⟨d, hd, rfl⟩) | ⟨d, hd, rfl⟩
  · exact .inl (.inl (.inl (h.sessionNames d hd)))
  · exact .inl (.inl (.inr (h.stackNames d hd)))
  · exact .inl (.inr (h.enumNames d hd))
  · exact .inr (h.endpointNames d hd)

theorem prefix_head {a b n : Text} (ha : a <+: n) (hb : b <+: n) : a.head? = b.head? ∨ a = [] ∨ b = [] := by
  cases a with
  | nil => exact .inr (.inl rfl)
  | cons x a =>
    cases b with
    | nil => exact .inr (.inr rfl)
    | cons y b =>
      obtain ⟨u, hu⟩ := ha
      obtain ⟨v, hv⟩ := hb
      rw [← hv] at hu
      simp only [List.cons_append, List.cons.injEq] at hu
      simp [hu.1]

theorem alias_nodup {branching ss p} (h : Linked branching ss p) : (aliasTypes p).Nodup := by
  have key : ∀ (a b : Text), a.head? ≠ b.head? → a ≠ [] → b ≠ [] → ∀ n, a <+: n → ¬ b <+: n := by
    intro a b hab h1 h2 n ha hb
    rcases prefix_head ha hb with h | h | h
    · exact hab h
    · exact h1 h
    · exact h2 h
  unfold aliasTypes
  rw [List.nodup_append, List.nodup_append, List.nodup_append]
  refine ⟨⟨⟨h.sessionsOnce, h.stacksOnce, ?_⟩, h.enumsOnce, ?_⟩, h.endpointsOnce, ?_⟩
  · intro a ha b hb e
    subst e
    obtain ⟨d, hd, rfl⟩ := List.mem_map.mp ha
    obtain ⟨d', hd', e⟩ := List.mem_map.mp hb
    exact key _ _ (by decide) (by decide) (by decide) _ (h.sessionNames d hd) (e ▸ h.stackNames d' hd')
  · intro a ha b hb e
    subst e
    obtain ⟨d', hd', e⟩ := List.mem_map.mp hb
    rcases List.mem_append.mp ha with ha | ha
    · obtain ⟨d, hd, rfl⟩ := List.mem_map.mp ha
      exact key _ _ (by decide) (by decide) (by decide) _ (h.sessionNames d hd) (e ▸ h.enumNames d' hd')
    · obtain ⟨d, hd, rfl⟩ := List.mem_map.mp ha
      exact key _ _ (by decide) (by decide) (by decide) _ (h.stackNames d hd) (e ▸ h.enumNames d' hd')
  · intro a ha b hb e
    subst e
    obtain ⟨d', hd', e⟩ := List.mem_map.mp hb
    rcases List.mem_append.mp ha with ha | ha
    · rcases List.mem_append.mp ha with ha | ha
      · obtain ⟨d, hd, rfl⟩ := List.mem_map.mp ha
        exact key _ _ (by decide) (by decide) (by decide) _ (h.sessionNames d hd) (e ▸ h.endpointNames d' hd')
      · obtain ⟨d, hd, rfl⟩ := List.mem_map.mp ha
        exact key _ _ (by decide) (by decide) (by decide) _ (h.stackNames d hd) (e ▸ h.endpointNames d' hd')
    · obtain ⟨d, hd, rfl⟩ := List.mem_map.mp ha
      exact key _ _ (by decide) (by decide) (by decide) _ (h.enumNames d hd) (e ▸ h.endpointNames d' hd')

theorem mem_roleNames {roles : List Text} {n : Text} :
    n ∈ Baking.roleNames4 roles ++ roles.map Baking.nameId ↔ ∃ r ∈ roles, n ∈ roleTypes r := by
  simp only [List.mem_append, Baking.roleNames4, List.mem_flatMap, List.mem_map, List.mem_cons, List.not_mem_nil, or_false,
    roleTypes]
  constructor
  · rintro (⟨r, hr, h⟩ | ⟨r, hr, rfl⟩)
    · refine ⟨r, hr, ?_⟩
      rcases h with h | h | h | h
      · exact .inl h
      · exact .inr (.inl h)
      · exact .inr (.inr (.inl h))
      · exact .inr (.inr (.inr (.inl h)))
    · exact ⟨r, hr, .inr (.inr (.inr (.inr rfl)))⟩
  · rintro ⟨r, hr, h | h | h | h | h⟩
    · exact .inl ⟨r, hr, .inl h⟩
    · exact .inl ⟨r, hr, .inr (.inl h)⟩
    · exact .inl ⟨r, hr, .inr (.inr (.inl h))⟩
    · exact .inl ⟨r, hr, .inr (.inr (.inr h))⟩
    · exact .inr ⟨r, hr, h.symm⟩

theorem roleTypes_head {r n : Text} (h : n ∈ roleTypes r) : n.head? = some 'R' ∨ n.head? = some 'N' := by
  simp only [roleTypes, List.mem_cons, List.not_mem_nil, or_false] at h
  rcases h with rfl | rfl | rfl | rfl | rfl
  · exact .inl rfl
  · exact .inl rfl
  · exact .inl rfl
  · exact .inl rfl
  · exact .inr rfl

theorem aliasLike_head {n : Text} (h : aliasLike n = true) : n.head? ≠ some 'R' ∧ n.head? ≠ some 'N' := by
  simp only [aliasLike, Bool.or_eq_true, isPrefixOf_iff] at h
  rcases h with ((⟨t, rfl⟩ | ⟨t, rfl⟩) | ⟨t, rfl⟩) | ⟨t, rfl⟩ <;> simp

/-- The types of the library end like no type of a role but `Role{r}`. -/
theorem roleTypes_library {r x : Text} (hx : x = "End".toList ∨ x = "Broadcast".toList)
    (h : "Role".toList ++ x ∈ roleTypes r) : x = r := by
  simp only [roleTypes, List.mem_cons, List.not_mem_nil, or_false] at h
  rcases h with h | h | h | h | h
  · exact List.append_cancel_left h
  · rw [List.append_assoc] at h
    have := List.append_cancel_left h
    have h2 := congrArg List.reverse this
    rcases hx with rfl | rfl <;> simp at h2
  · rw [List.append_assoc] at h
    have := List.append_cancel_left h
    have h2 := congrArg List.reverse this
    rcases hx with rfl | rfl <;> simp at h2
  · rcases hx with rfl | rfl <;> simp at h
  · rcases hx with rfl | rfl <;> simp at h

theorem mem_importNames {b n} : n ∈ importNames b ↔
    n ∈ ["End", "RecvTimed", "SendTimed", "HashMap", "Error", "Instant"].map String.toList ∨ n = "RoleEnd".toList ∨
    (b = true ∧ n = "RoleBroadcast".toList) := by
  cases b <;> simp only [importNames, Bool.false_eq_true, if_true, if_false, List.append_nil, List.mem_append, List.mem_cons,
    List.not_mem_nil, or_false, List.map_cons, List.map_nil, true_and, false_and] <;>
    (generalize "End".toList = x0, "RecvTimed".toList = x1, "SendTimed".toList = x2, "HashMap".toList = x3, "Error".toList = x4, "Instant".toList = x5, "RoleEnd".toList = x6, "RoleBroadcast".toList = x7; tauto)

theorem import_role {b n r} (hn : n ∈ importNames b) (hr : n ∈ roleTypes r) :
    r = "End".toList ∨ (b = true ∧ r = "Broadcast".toList) := by
  rcases mem_importNames.mp hn with h | rfl | ⟨hb, rfl⟩
  · exfalso
    have h1 := roleTypes_head hr
    simp only [List.map_cons, List.map_nil, List.mem_cons, List.not_mem_nil, or_false] at h
    rcases h with rfl | rfl | rfl | rfl | rfl | rfl
    · exact absurd h1 (by decide)
    · simp [roleTypes] at hr
    · exact absurd h1 (by decide)
    · exact absurd h1 (by decide)
    · exact absurd h1 (by decide)
    · exact absurd h1 (by decide)
  · exact .inl (roleTypes_library (.inl rfl) hr).symm
  · exact .inr ⟨hb, (roleTypes_library (.inr rfl) hr).symm⟩

theorem importNames_nodup (b) : (importNames b).Nodup := by cases b <;> decide
theorem importNames_mesh (b) : meshName ∉ importNames b := by cases b <;> decide
theorem importNames_alias (b n) (h : n ∈ importNames b) : aliasLike n = false := by
  have : ∀ b, ∀ n ∈ importNames b, aliasLike n = false := by intro b; cases b <;> decide
  exact this b n h

theorem mesh_role {r} : meshName ∉ roleTypes r := fun h => absurd (roleTypes_head h) (by decide)

theorem fixed_alias {b roles n} (h : n ∈ fixedTypes b roles) : aliasLike n = false := by
  rcases List.mem_append.mp h with h | h
  · exact importNames_alias _ _ h
  · rcases List.mem_cons.mp h with rfl | h
    · decide
    · obtain ⟨r, _, h⟩ := mem_roleNames.mp h
      cases ha : aliasLike n with
      | false => rfl
      | true =>
        have := aliasLike_head ha
        rcases roleTypes_head h with h | h
        · exact absurd h this.1
        · exact absurd h this.2

theorem fixed_nodup (b : Bool) (roles : List Text) (hd : roles.Nodup) : (fixedTypes b roles).Nodup ↔
    Baking.NamesApart roles ∧ "End".toList ∉ roles ∧ (b = true → "Broadcast".toList ∉ roles) := by
  unfold fixedTypes
  rw [List.nodup_append, List.nodup_cons, Baking.names_nodup]
  constructor
  · rintro ⟨_, ⟨_, _, h1⟩, h2⟩
    refine ⟨h1, ?_, ?_⟩
    · intro h
      refine h2 ("RoleEnd".toList) (mem_importNames.mpr (.inr (.inl rfl))) _ (List.mem_cons_of_mem _ ?_) rfl
      exact mem_roleNames.mpr ⟨_, h, by simp [roleTypes]⟩
    · intro hb h
      refine h2 ("RoleBroadcast".toList) (mem_importNames.mpr (.inr (.inr ⟨hb, rfl⟩))) _ (List.mem_cons_of_mem _ ?_) rfl
      exact mem_roleNames.mpr ⟨_, h, by simp [roleTypes]⟩
  · rintro ⟨h1, h2, h3⟩
    refine ⟨importNames_nodup b, ⟨?_, hd, h1⟩, ?_⟩
    · intro h
      obtain ⟨r, _, h⟩ := mem_roleNames.mp h
      exact mesh_role h
    · intro x hx y hy e
      subst e
      rcases List.mem_cons.mp hy with rfl | hy
      · exact importNames_mesh b hx
      · obtain ⟨r, hr, hy⟩ := mem_roleNames.mp hy
        rcases import_role hx hy with rfl | ⟨hb, rfl⟩
        · exact h2 hr
        · exact h3 hb hr

/-- The names of types known without a declaration. -/
def preludeTypes : List Text :=
  ["String", "Self", "Box", "FnOnce", "Result", "char", "i128", "bool", "std", "mpstthree", "crossbeam_channel",
    "either"].map String.toList

theorem mem_takenTypes {n} : n ∈ takenTypes ↔
    (n ∈ ["End", "RecvTimed", "SendTimed", "HashMap", "Error", "Instant"].map String.toList ∨ n = "RoleEnd".toList) ∨
      n = meshName ∨ n ∈ preludeTypes := by
  have h1 : ∀ n ∈ takenTypes, (n ∈ ["End", "RecvTimed", "SendTimed", "HashMap", "Error", "Instant"].map String.toList ∨
      n = "RoleEnd".toList) ∨ n = meshName ∨ n ∈ preludeTypes := by decide +kernel
  have h2 : (∀ n ∈ ["End", "RecvTimed", "SendTimed", "HashMap", "Error", "Instant"].map String.toList, n ∈ takenTypes) ∧
      "RoleEnd".toList ∈ takenTypes ∧ meshName ∈ takenTypes ∧ ∀ n ∈ preludeTypes, n ∈ takenTypes := by decide +kernel
  refine ⟨h1 n, ?_⟩
  rintro ((h | rfl) | rfl | h)
  · exact h2.1 n h
  · exact h2.2.1
  · exact h2.2.2.1
  · exact h2.2.2.2 n h

theorem types_nodup {b ss p} (h : Linked b ss p) (hu : ∀ s ∈ ss, '_' ∉ s.1) :
    (fixedTypes b p.roles ++ ss.map (·.1) ++ aliasTypes p).Nodup ↔
    (Baking.NamesApart p.roles ∧ "End".toList ∉ p.roles ∧ (b = true → "Broadcast".toList ∉ p.roles)) ∧
    (ss.map (·.1)).Nodup ∧ ∀ s ∈ ss, s.1 ∉ fixedTypes b p.roles := by
  rw [List.nodup_append, List.nodup_append, fixed_nodup _ _ h.distinct]
  constructor
  · rintro ⟨⟨h1, h2, h3⟩, _⟩
    exact ⟨h1, h2, fun s hs hf => h3 _ hf _ (List.mem_map.mpr ⟨s, hs, rfl⟩) rfl⟩
  · rintro ⟨h1, h2, h3⟩
    refine ⟨⟨h1, h2, ?_⟩, alias_nodup h, ?_⟩
    · intro x hx y hy e
      obtain ⟨s, hs, rfl⟩ := List.mem_map.mp hy
      exact h3 s hs (e ▸ hx)
    · intro x hx y hy e
      subst e
      have ha := alias_like h hy
      rcases List.mem_append.mp hx with hx | hx
      · rw [fixed_alias hx] at ha; cases ha
      · obtain ⟨s, hs, rfl⟩ := List.mem_map.mp hx
        exact hu s hs (aliasLike_under ha)

/-! ## Values -/

theorem under_fnName (lower f) : '_' ∈ fnName lower f := by simp [fnName]

theorem fnName_fixed (lower f) : fnName lower f ≠ Baking.forkId ∧ fnName lower f ≠ "main".toList := by
  have hh : (fnName lower f).head? = some 'e' := rfl
  constructor
  · intro h
    rw [h] at hh; exact absurd hh (by decide)
  · intro h
    rw [h] at hh; exact absurd hh (by decide)

theorem values_nodup {b ss p lower} (h : Linked b ss p) (hu : ∀ s ∈ ss, '_' ∉ s.1) (hs : (ss.map (·.1)).Nodup)
    (hl : ∀ r ∈ p.roles, '_' ∉ lower r) (hi : ∀ r ∈ p.roles, ∀ q ∈ p.roles, lower r = lower q → r = q) :
    (Baking.forkId :: (ss.filter fun s => s.2 = none).map (·.1) ++ p.functions.map (fun f => fnName lower f.1) ++
      ["main".toList]).Nodup ↔ ∀ s ∈ ss, s.2 = none → s.1 ≠ "main".toList := by
  have hf := h.functionsOnce lower hl hi
  have hm : ∀ {n}, n ∈ (ss.filter fun s => s.2 = none).map (·.1) ↔ ∃ s ∈ ss, s.2 = none ∧ s.1 = n := by
    intro n
    simp only [List.mem_map, List.mem_filter, decide_eq_true_eq, and_assoc]
  constructor
  · intro hn s hs h0 e
    rw [List.nodup_append] at hn
    refine hn.2.2 s.1 ?_ _ (by simp) e
    exact List.mem_append_left _ (List.mem_cons_of_mem _ (hm.mpr ⟨s, hs, h0, rfl⟩))
  · intro hmain
    rw [List.nodup_append, List.nodup_append, List.nodup_cons]
    refine ⟨⟨⟨?_, ?_⟩, hf, ?_⟩, by simp, ?_⟩
    · intro hx
      obtain ⟨s, hs, _, e⟩ := hm.mp hx
      exact hu s hs (e ▸ by decide)
    · exact (List.filter_sublist.map _).nodup hs
    · intro x hx y hy e
      subst e
      obtain ⟨f, _, rfl⟩ := List.mem_map.mp hy
      rcases List.mem_cons.mp hx with hx | hx
      · exact (fnName_fixed lower f.1).1 hx
      · obtain ⟨s, hs, _, e⟩ := hm.mp hx
        exact hu s hs (e ▸ under_fnName lower f.1)
    · intro x hx y hy e
      subst e
      simp only [List.mem_cons, List.not_mem_nil, or_false] at hy
      subst hy
      rcases List.mem_append.mp hx with hx | hx
      · rcases List.mem_cons.mp hx with hx | hx
        · exact absurd hx (by decide)
        · obtain ⟨s, hs, h0, e⟩ := hm.mp hx
          exact hmain s hs h0 e
      · obtain ⟨f, _, e⟩ := List.mem_map.mp hx
        exact (fnName_fixed lower f.1).2 e

/-! ## Uses -/

theorem imports_mem {b : Bool} {e : Entry} (h : e ∈ imports b) {lower ss p} : e ∈ fileItems b lower ss p := by
  unfold fileItems
  simp only [List.append_assoc]
  exact List.mem_append_left _ h

theorem emitted_mem {b : Bool} {p : Program} {e : Entry} (h : e ∈ emittedItems p.roles) {lower ss} :
    e ∈ fileItems b lower ss p := by
  unfold fileItems
  simp only [List.append_assoc]
  exact List.mem_append_right _ (List.mem_append_left _ h)

theorem item_mem {b : Bool} {lower ss} {p : Program} {n : Text} {e : Entry}
    (h : (∃ s ∈ ss, s.1 = n ∧ e = ⟨.types, n, .struct, 0⟩) ∨ (n ∈ p.sessions.map (·.1) ∧ e = ⟨.types, n, .session, 0⟩) ∨
      (n ∈ p.stacks.map (·.1) ∧ e = ⟨.types, n, .stack, 0⟩) ∨ (n ∈ p.enums.map (·.1) ∧ e = ⟨.types, n, .enum, 0⟩) ∨
      (n ∈ p.endpoints.map (·.1) ∧ e = ⟨.types, n, .endpoint, 0⟩) ∨
      ∃ f ∈ p.functions, e = ⟨.values, fnName lower f.1, .function, 2⟩) :
    e ∈ fileItems b lower ss p := by
  unfold fileItems
  simp only [List.mem_append, List.mem_map, List.mem_flatMap] at h ⊢
  rcases h with ⟨s, hs, rfl, rfl⟩ | ⟨⟨d, hd, rfl⟩, rfl⟩ | ⟨⟨d, hd, rfl⟩, rfl⟩ | ⟨⟨d, hd, rfl⟩, rfl⟩ | ⟨⟨d, hd, rfl⟩, rfl⟩ |
    ⟨f, hf, rfl⟩
  · exact .inl (.inl (.inl (.inl (.inl (.inl (.inr ⟨s, hs, by simp [structItems]⟩))))))
  · exact .inl (.inl (.inl (.inl (.inl (.inr ⟨d, hd, rfl⟩)))))
  · exact .inl (.inl (.inl (.inl (.inr ⟨d, hd, rfl⟩))))
  · exact .inl (.inl (.inl (.inr ⟨d, hd, rfl⟩)))
  · exact .inl (.inl (.inr ⟨d, hd, rfl⟩))
  · exact .inl (.inr ⟨f, hf, rfl⟩)

/-- The names known without a declaration that functions use. -/
theorem function_prelude {f u} (hu : u ∈ functionUses f) (hp : u.source = .prelude) : u ∈ emittedPrelude := by
  simp only [functionUses, List.mem_cons, List.not_mem_nil, or_false] at hu
  rcases hu with rfl | rfl | rfl | rfl | rfl | rfl | rfl | rfl <;> first | (cases hp; done) | decide

/-- Every name used is that of an item meant, or one of the prelude. -/
theorem uses_linked {b ss p lower} (h : Linked b ss p) {u : Entry} (hu : u ∈ fileUses lower ss p) :
    u ∈ fileItems b lower ss p ∨ u ∈ emittedPrelude := by
  have himp : ∀ n k, ⟨.types, n, .library, k⟩ ∈ imports b → u = ⟨.types, n, .library, k⟩ →
      u ∈ fileItems b lower ss p ∨ u ∈ emittedPrelude := fun n k h1 h2 => .inl (imports_mem (h2 ▸ h1))
  have hstruct : ∀ {n}, n ∈ ss.map (·.1) → (⟨.types, n, .struct, 0⟩ : Entry) ∈ fileItems b lower ss p := by
    intro n hn
    obtain ⟨s, hs, e⟩ := List.mem_map.mp hn
    exact item_mem (n := n) (.inl ⟨s, hs, e, rfl⟩)
  have i1 : (⟨.types, "End".toList, .library, 0⟩ : Entry) ∈ imports b := by cases b <;> decide
  have i2 : (⟨.types, "SendTimed".toList, .library, 8⟩ : Entry) ∈ imports b := by cases b <;> decide
  have i3 : (⟨.types, "RecvTimed".toList, .library, 8⟩ : Entry) ∈ imports b := by cases b <;> decide
  have i4 : (⟨.types, "RoleEnd".toList, .library, 0⟩ : Entry) ∈ imports b := by cases b <;> decide
  have i5 : (⟨.types, "HashMap".toList, .library, 2⟩ : Entry) ∈ imports b := by cases b <;> decide
  have i6 : (⟨.types, "Error".toList, .library, 0⟩ : Entry) ∈ imports b := by cases b <;> decide
  have i7 : (⟨.types, "Instant".toList, .library, 0⟩ : Entry) ∈ imports b := by cases b <;> decide
  simp only [fileUses, List.mem_append, List.mem_flatMap, List.mem_map, List.mem_cons] at hu
  rcases hu with ((((((hu | ⟨s, hs, hu⟩) | ⟨d, hd, hu⟩) | ⟨d, hd, hu⟩) | ⟨d, hd, v, hv, rfl⟩) | ⟨d, hd, hu⟩) | ⟨f, hf, hu⟩) |
    rfl | ⟨f, hf, rfl⟩
  · rcases emitted_uses h.roles hu with hu | hu
    · exact .inl (emitted_mem hu)
    · exact .inr hu
  · unfold structUses at hu
    split at hu
    · cases hu
    · rename_i t ht
      simp only [List.mem_cons, List.not_mem_nil, or_false] at hu
      subst hu
      exact .inl (hstruct (h.payloads s hs t ht))
  · obtain ⟨a, rhs⟩ := d
    cases rhs with
    | send q n =>
      obtain ⟨k1, k2⟩ := h.sends a q n hd
      simp only [rhsUses, List.mem_cons, List.not_mem_nil, or_false] at hu
      rcases hu with rfl | rfl | rfl
      · exact .inl (imports_mem i2)
      · exact .inl (hstruct k1)
      · exact .inl (item_mem (n := n) (.inr (.inl ⟨k2, rfl⟩)))
    | recv q n =>
      obtain ⟨k1, k2⟩ := h.recvs a q n hd
      simp only [rhsUses, List.mem_cons, List.not_mem_nil, or_false] at hu
      rcases hu with rfl | rfl | rfl
      · exact .inl (imports_mem i3)
      · exact .inl (hstruct k1)
      · exact .inl (item_mem (n := n) (.inr (.inl ⟨k2, rfl⟩)))
    | sendChoice c =>
      have k := h.sendChoices a c hd
      simp only [rhsUses, List.mem_cons, List.not_mem_nil, or_false] at hu
      rcases hu with rfl | rfl | rfl
      · exact .inl (imports_mem i2)
      · exact .inl (item_mem (n := c) (.inr (.inr (.inr (.inl ⟨k, rfl⟩)))))
      · exact .inl (imports_mem i1)
    | recvChoice c =>
      have k := h.recvChoices a c hd
      simp only [rhsUses, List.mem_cons, List.not_mem_nil, or_false] at hu
      rcases hu with rfl | rfl | rfl
      · exact .inl (imports_mem i3)
      · exact .inl (item_mem (n := c) (.inr (.inr (.inr (.inl ⟨k, rfl⟩)))))
      · exact .inl (imports_mem i1)
    | fin =>
      simp only [rhsUses, List.mem_cons, List.not_mem_nil, or_false] at hu
      subst hu
      exact .inl (imports_mem i1)
  · obtain ⟨a, rhs⟩ := d
    cases rhs with
    | role r n =>
      obtain ⟨k1, k2⟩ := h.stackRoles a r n hd
      simp only [stackUses, List.mem_cons, List.not_mem_nil, or_false] at hu
      rcases hu with rfl | rfl
      · exact .inl (emitted_mem (mem_emitted_role k1 (by simp [Baking.roleId])))
      · exact .inl (item_mem (n := n) (.inr (.inr (.inl ⟨k2, rfl⟩))))
    | last r =>
      have k1 := h.stackLast a r hd
      simp only [stackUses, List.mem_cons, List.not_mem_nil, or_false] at hu
      rcases hu with rfl | rfl
      · exact .inl (emitted_mem (mem_emitted_role k1 (by simp [Baking.roleId])))
      · exact .inl (imports_mem i4)
    | broadcast =>
      have k1 := h.broadcast a hd
      simp only [stackUses, List.mem_cons, List.not_mem_nil, or_false] at hu
      subst hu
      subst k1
      exact .inl (imports_mem (by decide))
    | fin =>
      simp only [stackUses, List.mem_cons, List.not_mem_nil, or_false] at hu
      subst hu
      exact .inl (imports_mem i4)
  · exact .inl (item_mem (n := v.2) (.inr (.inr (.inr (.inr (.inl ⟨(h.variants d hd).2 v hv, rfl⟩))))))
  · obtain ⟨k1, k2, k3, r, hr, k4⟩ := h.endpoints d hd
    simp only [endpointUses, List.cons_append, List.mem_cons, List.mem_append, List.mem_map, List.not_mem_nil,
      or_false] at hu
    rcases hu with rfl | ⟨s, hs, rfl⟩ | rfl | rfl
    · refine .inl (emitted_mem ?_)
      rw [show d.2.1.length + 2 = p.roles.length + 1 by omega]
      simp [emittedItems]
    · exact .inl (item_mem (n := s) (.inr (.inl ⟨k2 s hs, rfl⟩)))
    · exact .inl (item_mem (n := d.2.2.1) (.inr (.inr (.inl ⟨k3, rfl⟩))))
    · rw [k4]
      exact .inl (emitted_mem (mem_emitted_role hr (by simp [Baking.nameId])))
  · by_cases hp : u.source = .prelude
    · exact .inr (function_prelude hu hp)
    · simp only [functionUses, List.mem_cons, List.not_mem_nil, or_false] at hu
      rcases hu with rfl | rfl | rfl | rfl | rfl | rfl | rfl | rfl
      · exact .inl (item_mem (n := f.2) (.inr (.inr (.inr (.inr (.inl ⟨h.functions f hf, rfl⟩))))))
      · exact .inl (imports_mem i5)
      · exact absurd rfl hp
      · exact .inl (imports_mem i7)
      · exact absurd rfl hp
      · exact absurd rfl hp
      · exact .inl (imports_mem i6)
      · exact absurd rfl hp
  · refine .inl (emitted_mem ?_)
    rw [h.main.1]
    simp [emittedItems]
  · obtain ⟨g, hg, e⟩ := List.mem_map.mp (h.main.2 f hf)
    exact .inl (item_mem (n := []) (.inr (.inr (.inr (.inr (.inr ⟨g, hg, by rw [e]⟩))))))

/-- No item of a file is one of the prelude. -/
theorem items_source {b lower ss p u} (h : u ∈ fileItems b lower ss p) : u.source ≠ .prelude := by
  simp only [fileItems, List.mem_append, List.mem_map, List.mem_flatMap, List.mem_cons, List.not_mem_nil, or_false] at h
  rcases h with (((((((h | h) | ⟨s, _, h⟩) | ⟨d, _, rfl⟩) | ⟨d, _, rfl⟩) | ⟨d, _, rfl⟩) | ⟨d, _, rfl⟩) | ⟨d, _, rfl⟩) | rfl
  · have : ∀ b, ∀ u ∈ imports b, u.source ≠ .prelude := by intro b; cases b <;> decide
    exact this b u h
  · simp only [emittedItems, emittedRoles, List.cons_append, List.mem_cons, List.mem_append, List.mem_flatMap, List.mem_map,
      List.not_mem_nil, or_false] at h
    rcases h with rfl | (⟨a, _, rfl | rfl | rfl | rfl⟩ | ⟨a, _, rfl⟩) | rfl <;> simp
  · obtain ⟨a, c⟩ := s
    cases c <;> simp only [structItems, List.mem_cons, List.not_mem_nil, or_false] at h
    · rcases h with rfl | rfl <;> simp
    · subst h; simp
  all_goals simp

theorem prelude_source {u} (h : u ∈ emittedPrelude) : u.source = .prelude := by
  have : ∀ u ∈ emittedPrelude, u.source = .prelude := by decide
  exact this u h

theorem prelude_names {u} (h : u ∈ emittedPrelude) :
    (u.space = .types ∧ u.name ∈ preludeTypes) ∨
    (u.space = .values ∧ u.name ∈ ["Ok".toList, "Err".toList, "drop".toList]) := by
  have : ∀ u ∈ emittedPrelude, (u.space = .types ∧ u.name ∈ preludeTypes) ∨
      (u.space = .values ∧ u.name ∈ ["Ok".toList, "Err".toList, "drop".toList]) := by decide
  exact this u h

theorem prelude_all : (∀ n ∈ preludeTypes, ∃ u ∈ emittedPrelude, u.space = .types ∧ u.name = n) ∧
    (∀ n ∈ ["Ok".toList, "Err".toList, "drop".toList], ∃ u ∈ emittedPrelude, u.space = .values ∧ u.name = n) := by decide

theorem prelude_free {b : Bool} {roles : List Text} {n} (hn : n ∈ preludeTypes) : n ∉ fixedTypes b roles ∧ aliasLike n = false := by
  have h1 : ∀ n ∈ preludeTypes, aliasLike n = false ∧ n ≠ meshName ∧ n.head? ≠ some 'N' ∧
      (n.head? = some 'R' → n = "Result".toList) := by decide
  have h2 : ∀ b, ∀ n ∈ preludeTypes, n ∉ importNames b := by intro b; cases b <;> decide
  obtain ⟨a1, a2, a3, a4⟩ := h1 n hn
  refine ⟨?_, a1⟩
  intro hf
  rcases List.mem_append.mp hf with hf | hf
  · exact h2 b n hn hf
  · rcases List.mem_cons.mp hf with hf | hf
    · exact a2 hf
    · obtain ⟨r, _, hr⟩ := mem_roleNames.mp hf
      rcases roleTypes_head hr with h | h
      · have := a4 h
        subst this
        simp [roleTypes] at hr
      · exact a3 h

theorem mem_fixed {b roles n} : n ∈ fixedTypes b roles ↔
    (n ∈ ["End", "RecvTimed", "SendTimed", "HashMap", "Error", "Instant"].map String.toList ∨ n = "RoleEnd".toList ∨
    (b = true ∧ n = "RoleBroadcast".toList)) ∨ n = meshName ∨ ∃ r ∈ roles, n ∈ roleTypes r := by
  unfold fixedTypes
  rw [List.mem_append, List.mem_cons, mem_roleNames, mem_importNames]

/-- A generated file whose parts fit together is well named exactly if the names of its roles and structures are free. -/
theorem linked_iff {b ss p lower} (h : Linked b ss p) (hu : ∀ s ∈ ss, '_' ∉ s.1) (hl : ∀ r ∈ p.roles, '_' ∉ lower r) :
    WellNamed (fileOf b lower ss p) ↔ FreeNames b lower p.roles ss := by
  have hth : (p.roles.map (threadName lower)).Nodup ↔ ∀ r ∈ p.roles, ∀ q ∈ p.roles, lower r = lower q → r = q := by
    rw [List.nodup_map_iff_inj_on h.distinct]
    constructor
    · intro hp r hr q hq e
      exact hp r hr q hq (by unfold threadName; rw [e])
    · intro hi r hr q hq e
      exact hi r hr q hq (List.append_cancel_left e)
  have hmemu : ∀ u ∈ emittedPrelude, u ∈ fileUses lower ss p := by
    intro u hu
    unfold fileUses emittedUses
    simp only [List.append_assoc]
    exact List.mem_append_right _ (List.mem_append_left _ hu)
  rw [wellNamed_iff]
  simp only [fileOf, file_types, file_values, types_nodup h hu, hth]
  constructor
  · rintro ⟨⟨⟨h1, h2, h3⟩, h4, h5⟩, h6, _, h8, _, h10⟩
    rw [values_nodup h hu h4 hl h8] at h6
    have hpt : ∀ s ∈ ss, s.1 ∉ preludeTypes := by
      intro s hs hp
      obtain ⟨u, u1, u2, u3⟩ := prelude_all.1 _ hp
      have := h10 u (hmemu u u1) (prelude_source u1)
      rw [u2, file_types, u3] at this
      exact this (List.mem_append_left _ (List.mem_append_right _ (List.mem_map.mpr ⟨s, hs, rfl⟩)))
    refine ⟨h1, ⟨h2, h3⟩, h8, h4, ?_, ?_⟩
    · intro s hs
      have h5 := h5 s hs
      rw [mem_fixed] at h5
      rw [mem_takenTypes]
      have := hpt s hs
      refine ⟨?_, ?_, ?_⟩
      · rintro ((e | e) | e | e)
        · exact h5 (.inl (.inl e))
        · exact h5 (.inl (.inr (.inl e)))
        · exact h5 (.inr (.inl e))
        · exact this e
      · intro hb e; exact h5 (.inl (.inr (.inr ⟨hb, e⟩)))
      · intro r hr e; exact h5 (.inr (.inr ⟨r, hr, e⟩))
    · intro s hs h0 ht
      have hp : s.1 ∈ ["Ok".toList, "Err".toList, "drop".toList] ∨ s.1 = "main".toList ∨ s.1 = "fork_mpst".toList := by
        simp only [takenValues, List.map_cons, List.map_nil, List.mem_cons, List.not_mem_nil, or_false] at ht ⊢
        tauto
      rcases hp with hp | hp | hp
      · obtain ⟨u, u1, u2, u3⟩ := prelude_all.2 _ hp
        have := h10 u (hmemu u u1) (prelude_source u1)
        rw [u2, file_values, u3] at this
        refine this (List.mem_append_left _ (List.mem_append_left _ (List.mem_cons_of_mem _ ?_)))
        exact List.mem_map.mpr ⟨s, List.mem_filter.mpr ⟨hs, by simpa using h0⟩, rfl⟩
      · exact h6 s hs h0 hp
      · exact hu s hs (hp ▸ by decide)
  · rintro ⟨h1, ⟨h2, h3⟩, h8, h4, h5, h6⟩
    refine ⟨⟨⟨h1, h2, h3⟩, h4, ?_⟩, ?_, ?_, h8, ?_, ?_⟩
    · intro s hs
      obtain ⟨k1, k2, k3⟩ := h5 s hs
      rw [mem_takenTypes] at k1
      rw [mem_fixed]
      rintro ((e | e | ⟨hb, e⟩) | e | ⟨r, hr, e⟩)
      · exact k1 (.inl (.inl e))
      · exact k1 (.inl (.inr e))
      · exact k2 hb e
      · exact k1 (.inr (.inl e))
      · exact k3 r hr e
    · rw [values_nodup h hu h4 hl h8]
      intro s hs h0 e
      exact h6 s hs h0 (e ▸ by decide)
    · intro vs hvs
      obtain ⟨d, hd, rfl⟩ := List.mem_map.mp hvs
      exact (h.variants d hd).1
    · intro u hu' hp
      rcases uses_linked h hu' with k | k
      · exact k
      · exact absurd (prelude_source k) hp
    · intro u hu' hp
      have hpre : u ∈ emittedPrelude := by
        rcases uses_linked (b := b) h hu' with k | k
        · exact absurd hp (items_source k)
        · exact k
      rcases prelude_names hpre with ⟨e, hn⟩ | ⟨e, hn⟩
      · rw [e, file_types]
        obtain ⟨f1, f2⟩ := prelude_free (b := b) (roles := p.roles) hn
        intro hm
        rcases List.mem_append.mp hm with hm | hm
        · rcases List.mem_append.mp hm with hm | hm
          · exact f1 hm
          · obtain ⟨s, hs, e⟩ := List.mem_map.mp hm
            exact (h5 s hs).1 (mem_takenTypes.mpr (.inr (.inr (e ▸ hn))))
        · rw [alias_like h hm] at f2; cases f2
      · rw [e, file_values]
        intro hm
        rcases List.mem_append.mp hm with hm | hm
        · rcases List.mem_append.mp hm with hm | hm
          · rcases List.mem_cons.mp hm with hm | hm
            · rw [hm] at hn; exact absurd hn (by decide)
            · obtain ⟨s, hs, e⟩ := List.mem_map.mp hm
              have hs := List.mem_filter.mp hs
              have h0 : s.2 = none := by simpa using hs.2
              refine h6 s hs.1 h0 ?_
              rw [e]
              have : ∀ n ∈ ["Ok".toList, "Err".toList, "drop".toList], n ∈ takenValues := by decide
              exact this _ hn
          · obtain ⟨f, _, e⟩ := List.mem_map.mp hm
            have hun : '_' ∈ u.name := e ▸ under_fnName lower f.1
            have : ∀ n ∈ ["Ok".toList, "Err".toList, "drop".toList], '_' ∉ n := by decide
            exact this _ hn hun
        · simp only [List.mem_cons, List.not_mem_nil, or_false] at hm
          rw [hm] at hn; exact absurd hn (by decide)

end Verif.NuscrSpec
