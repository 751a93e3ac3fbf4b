import Verif.Proof.BakingTypes
import Mathlib.Data.List.Perm.Basic
/-! Names of the emitted structs and macros, and reading the names of the roles. -/
namespace Verif.Baking
open Verif.Spec Verif.Gen Verif.SendRecv Verif.Maths

theorem structNames_append (a b) : structNames (a ++ b) = structNames a ++ structNames b := by
  simp [structNames]

theorem macroNames_append (a b) : macroNames (a ++ b) = macroNames a ++ macroNames b := by
  simp [macroNames]

theorem funcNames_append (a b) : funcNames (a ++ b) = funcNames a ++ funcNames b := by
  simp [funcNames]

/-- The structs of the roles. -/
def roleNames4 (roles : List Str) : List Str :=
  roles.flatMap fun a => [roleId a, dualId a, toAllId a, allToId a]

theorem structNames_roles (roles) : structNames (roleStructs roles) = roleNames4 roles := by
  induction roles with
  | nil => rfl
  | cons a l ih =>
    simp only [roleStructs, roleNames4, List.flatMap_cons, structNames_append] at *
    rw [ih]; rfl

theorem structNames_names (roles) : structNames (nameStructs roles) = roles.map nameId := by
  induction roles with
  | nil => rfl
  | cons a l ih =>
    simp only [nameStructs, List.map_cons, structNames, List.filterMap_cons] at *
    rw [ih]

theorem filterMap_none {α β : Type} {f : α → Option β} {l : List α} (h : ∀ x ∈ l, f x = none) : l.filterMap f = [] := by
  induction l with
  | nil => rfl
  | cons a l ih => rw [List.filterMap_cons, h a (by simp)]; exact ih (fun x hx => h x (by simp [hx]))

theorem structNames_core (timed M roles) :
    structNames (coreItems timed M roles) = M :: (roleNames4 roles ++ roles.map nameId) := by
  unfold coreItems
  dsimp only
  have hb : ∀ {α : Type} (f : α → Block) (l : List α), structNames (l.map fun x => Item.block (f x)) = [] := by
    intro α f l
    apply filterMap_none
    intro x hx
    obtain ⟨y, _, rfl⟩ := List.mem_map.1 hx
    rfl
  simp only [structNames_append, structNames_roles, structNames_names,
    hb (fun p : Nat × Nat => sendBlock timed M roles roles.length p.1 p.2),
    hb (fun p : Nat × Nat => recvBlock timed M roles roles.length p.1 p.2),
    hb (fun p : Nat × Nat => recvFromAllBlock timed M roles roles.length p.1 p.2),
    hb (fun p : Nat × Nat => offerBlock timed M roles roles.length p.2 p.1),
    hb (fun s => choosePat timed M roles s)]
  simp [structNames]

theorem structNames_tail (kind roles) : structNames (tailItems kind roles) = [] := by
  have h : structNames (chooseMacros roles) = [] := by
    apply filterMap_none
    intro x hx
    obtain ⟨y, _, rfl⟩ := List.mem_map.1 hx
    rfl
  cases kind <;> simp only [tailItems, structNames_append, h] <;> rfl

/-- Structs of roles and names, by kind. -/
theorem names_perm (roles : List Str) : (roleNames4 roles ++ roles.map nameId).Perm
    (roles.map roleId ++ (roles.map dualId ++ (roles.map toAllId ++ (roles.map allToId ++ roles.map nameId)))) := by
  have h4 : (roleNames4 roles).Perm (roles.map roleId ++ (roles.map dualId ++ (roles.map toAllId ++ roles.map allToId))) := by
    induction roles with
    | nil => exact .refl _
    | cons a l ih =>
      simp only [roleNames4, List.flatMap_cons, List.map_cons] at ih ⊢
      simp only [List.cons_append, List.nil_append]
      rw [List.perm_iff_count] at ih ⊢
      intro x
      have := ih x
      simp only [List.count_append, List.count_cons] at this ⊢
      omega
  refine (h4.append_right _).trans ?_
  simp only [List.append_assoc]
  exact .refl _

theorem roleId_inj {a b : Str} (h : roleId a = roleId b) : a = b := by simpa [roleId] using h
theorem dualId_inj {a b : Str} (h : dualId a = dualId b) : a = b := by simpa [dualId] using h
theorem toAllId_inj {a b : Str} (h : toAllId a = toAllId b) : a = b := by simpa [toAllId] using h
theorem allToId_inj {a b : Str} (h : allToId a = allToId b) : a = b := by simpa [allToId] using h
theorem nameId_inj {a b : Str} (h : nameId a = nameId b) : a = b := by simpa [nameId] using h

theorem nodup_map_iff {f : Str → Str} (hf : ∀ {a b}, f a = f b → a = b) (l : List Str) : (l.map f).Nodup ↔ l.Nodup :=
  List.nodup_map_iff (fun _ _ h => hf h)

theorem disj_map {f g : Str → Str} {l : List Str} :
    List.Disjoint (l.map f) (l.map g) ↔ ∀ a ∈ l, ∀ b ∈ l, f a ≠ g b := by
  unfold List.Disjoint
  simp only [List.mem_map]
  constructor
  · intro h a ha b hb e; exact h ⟨a, ha, rfl⟩ ⟨b, hb, e.symm⟩
  · rintro h x ⟨a, ha, rfl⟩ ⟨b, hb, e⟩; exact h a ha b hb e.symm

theorem dual_ne_toAll (a b : Str) : dualId a ≠ toAllId b := by
  intro h
  have := congrArg List.reverse h
  simp [dualId, toAllId] at this

theorem name_ne {a b : Str} : roleId a ≠ nameId b ∧ dualId a ≠ nameId b ∧ toAllId a ≠ nameId b ∧ allToId a ≠ nameId b := by
  simp [roleId, dualId, toAllId, allToId, nameId]

theorem names_nodup (roles : List Str) :
    (roleNames4 roles ++ roles.map nameId).Nodup ↔ roles.Nodup ∧ NamesApart roles := by
  rw [(names_perm roles).nodup_iff]
  simp only [List.nodup_append', List.disjoint_append_right, nodup_map_iff roleId_inj, nodup_map_iff dualId_inj,
    nodup_map_iff toAllId_inj, nodup_map_iff allToId_inj, nodup_map_iff nameId_inj, disj_map]
  have e1 : ∀ a b : Str, roleId a ≠ dualId b ↔ a ≠ b ++ "Dual".toList := by
    intro a b; simp [roleId, dualId]
  have e2 : ∀ a b : Str, roleId a ≠ toAllId b ↔ a ≠ b ++ "toAll".toList := by
    intro a b; simp [roleId, toAllId]
  have e3 : ∀ a b : Str, roleId a ≠ allToId b ↔ a ≠ "Allto".toList ++ b := by
    intro a b; simp [roleId, allToId]
  have e4 : ∀ a b : Str, dualId a ≠ allToId b ↔ a ++ "Dual".toList ≠ "Allto".toList ++ b := by
    intro a b; simp [dualId, allToId]
  have e5 : ∀ a b : Str, toAllId a ≠ allToId b ↔ a ++ "toAll".toList ≠ "Allto".toList ++ b := by
    intro a b; simp [toAllId, allToId]
  constructor
  · rintro ⟨h, ⟨-, ⟨-, ⟨-, -, -⟩, h5, -⟩, -, h4, -⟩, h1, h2, h3, -⟩
    refine ⟨h, fun a ha b hb => ⟨(e1 _ _).1 (h1 a ha b hb), (e2 _ _).1 (h2 a ha b hb), (e3 _ _).1 (h3 a ha b hb),
      (e4 _ _).1 (h4 a ha b hb), (e5 _ _).1 (h5 a ha b hb)⟩⟩
  · rintro ⟨h, hA⟩
    refine ⟨h, ⟨h, ⟨h, ⟨h, h, fun a _ b _ => name_ne.2.2.2⟩, fun a ha b hb => (e5 _ _).2 (hA a ha b hb).2.2.2.2,
      fun a _ b _ => name_ne.2.2.1⟩, fun a _ b _ => dual_ne_toAll a b, fun a ha b hb => (e4 _ _).2 (hA a ha b hb).2.2.2.1,
      fun a _ b _ => name_ne.2.1⟩, fun a ha b hb => (e1 _ _).2 (hA a ha b hb).1,
      fun a ha b hb => (e2 _ _).2 (hA a ha b hb).2.1, fun a ha b hb => (e3 _ _).2 (hA a ha b hb).2.2.1,
      fun a _ b _ => name_ne.1⟩

theorem mem_names {M : Str} {roles : List Str} : M ∉ roleNames4 roles ++ roles.map nameId ↔ MeshApart M roles := by
  rw [(names_perm roles).mem_iff]
  simp only [List.mem_append, List.mem_map, not_or, not_exists, not_and, MeshApart]
  constructor
  · rintro ⟨h1, h2, h3, h4, h5⟩ a ha
    exact ⟨fun e => h1 a ha e.symm, fun e => h2 a ha e.symm, fun e => h3 a ha e.symm, fun e => h4 a ha e.symm,
      fun e => h5 a ha e.symm⟩
  · intro h
    exact ⟨fun a ha e => (h a ha).1 e.symm, fun a ha e => (h a ha).2.1 e.symm, fun a ha e => (h a ha).2.2.1 e.symm,
      fun a ha e => (h a ha).2.2.2.1 e.symm, fun a ha e => (h a ha).2.2.2.2 e.symm⟩

theorem roleNames4_append (a b : List Str) : roleNames4 (a ++ b) = roleNames4 a ++ roleNames4 b := by
  simp [roleNames4]

/-- Names free of clashes. -/
theorem namesApart_of {roles : List Str} (h1 : ∀ a ∈ roles, ¬ "Allto".toList <+: a) (h2 : "All".toList ∉ roles)
    (h3 : ∀ a ∈ roles, ¬ "Dual".toList <:+ a) (h4 : ∀ a ∈ roles, ¬ "toAll".toList <:+ a) : NamesApart roles := by
  intro a ha b hb
  refine ⟨?_, ?_, ?_, ?_, ?_⟩
  · intro e; exact h3 a ha ⟨b, e.symm⟩
  · intro e; exact h4 a ha ⟨b, e.symm⟩
  · intro e; exact h1 a ha ⟨b, e.symm⟩
  · intro e
    rcases a with _ | ⟨x1, _ | ⟨x2, _ | ⟨x3, _ | ⟨x4, _ | ⟨x5, a⟩⟩⟩⟩⟩ <;> simp at e
    obtain ⟨rfl, rfl, rfl, rfl, rfl, _⟩ := e
    exact h1 _ ha ⟨a, rfl⟩
  · intro e
    rcases a with _ | ⟨x1, _ | ⟨x2, _ | ⟨x3, _ | ⟨x4, _ | ⟨x5, a⟩⟩⟩⟩⟩ <;> simp at e
    · obtain ⟨rfl, rfl, rfl, _⟩ := e
      exact h2 ha
    · obtain ⟨rfl, rfl, rfl, rfl, rfl, _⟩ := e
      exact h1 _ ha ⟨a, rfl⟩

/-! ## Macros -/

theorem macroNames_choose (roles) : macroNames (chooseMacros roles) = roles.map macroId := by
  induction roles with
  | nil => rfl
  | cons a l ih =>
    simp only [chooseMacros, List.map_cons, macroNames, List.filterMap_cons] at *
    rw [ih]

theorem macroNames_core (timed M roles) : macroNames (coreItems timed M roles) = [] := by
  apply filterMap_none
  intro x hx
  cases x with
  | macroRules s =>
    exfalso
    simp [coreItems, roleStructs, nameStructs] at hx
  | _ => rfl

theorem funcNames_core (timed M roles) : funcNames (coreItems timed M roles) = [] := by
  apply filterMap_none
  intro x hx
  cases x with
  | func s =>
    exfalso
    simp [coreItems, roleStructs, nameStructs] at hx
  | _ => rfl

theorem funcNames_choose (roles) : funcNames (chooseMacros roles) = [] := by
  apply filterMap_none
  intro x hx
  obtain ⟨y, _, rfl⟩ := List.mem_map.1 hx
  rfl

/-- The name of a macro depends on the role up to case. -/
theorem macroId_eq_iff {a b : Str} : macroId a = macroId b ↔ a.map Char.toLower = b.map Char.toLower := by
  unfold macroId
  simp only [List.map_append, List.append_cancel_right_eq, List.append_cancel_left_eq]

theorem macroId_ne_offer (a : Str) : macroId a ≠ offerId := by
  intro h
  have e : macroId a = 'c' :: ("hoose_mpst_".toList ++ a ++ "_to_all".toList).map Char.toLower := rfl
  have e' : offerId = 'o' :: "ffer_mpst".toList := rfl
  rw [e, e'] at h
  injection h with h _
  exact absurd h (by decide)

/-! ## Reading the names -/

theorem idents_commas (roles : List Str) : idents (rolesWithCommas roles) = roles := by
  induction roles with
  | nil => rfl
  | cons a l ih => simp only [rolesWithCommas, List.flatMap_cons, List.cons_append, List.nil_append, idents] at *; rw [ih]

theorem groupIdents_commas (roles : List Str) : groupIdents (rolesWithCommas roles) = [] := by
  induction roles with
  | nil => rfl
  | cons a l ih =>
    simp only [rolesWithCommas, List.flatMap_cons, List.cons_append, List.nil_append, groupIdents] at *; exact ih

theorem getAllRoles_commas (roles : List Str) : getAllRoles (rolesWithCommas roles) = roles := by
  unfold getAllRoles
  rw [groupIdents_commas, if_pos rfl, idents_commas]

theorem groups_roles (roles : List Str) : parenthesisedGroups (rolesInGroups roles) = some roles := by
  induction roles with
  | nil => rfl
  | cons a l ih =>
    simp only [rolesInGroups, List.map_cons] at *
    simp [parenthesisedGroups, ih, groupNames]

theorem idents_map (g : List Str) : idents (g.map .ident) = g := by
  induction g with
  | nil => rfl
  | cons a l ih => simp only [List.map_cons, idents, ih]

theorem groupIdents_groups (gs : List (List Str)) :
    groupIdents (gs.map fun g => .group (rolesWithCommas g)) = gs.flatten := by
  induction gs with
  | nil => rfl
  | cons g l ih => simp only [List.map_cons, groupIdents, idents_commas, ih, List.flatten_cons]

theorem idents_groups (gs : List (List Tok)) : idents (gs.map .group) = [] := by
  induction gs with
  | nil => rfl
  | cons g l ih => simp only [List.map_cons, idents, ih]

theorem getAllRoles_groups (gs : List (List Str)) :
    getAllRoles (gs.map fun g => .group (rolesWithCommas g)) = gs.flatten := by
  unfold getAllRoles
  rw [groupIdents_groups]
  split
  · rename_i h
    rw [h]
    have := idents_groups (gs.map rolesWithCommas)
    rwa [List.map_map] at this
  · rfl

theorem groupNames_map (g : List Str) : groupNames (g.map .ident) = some g := by
  induction g with
  | nil => rfl
  | cons a l ih => simp only [List.map_cons, groupNames, ih, Option.map_some]

theorem parenthesised_groups (gs : List (List Str)) :
    parenthesisedGroups (gs.map fun g => .group (g.map .ident)) = some gs.flatten := by
  induction gs with
  | nil => rfl
  | cons g l ih => simp only [List.map_cons, parenthesisedGroups, groupNames_map, ih, List.flatten_cons]

theorem groupNames_some : ∀ {ts : List Tok} {g : List Str}, groupNames ts = some g → ts = g.map .ident
  | [], g, h => by cases h; rfl
  | .ident s :: ts, g, h => by
    simp only [groupNames, Option.map_eq_some_iff] at h
    obtain ⟨g', h1, rfl⟩ := h
    rw [groupNames_some h1]
    rfl
  | .punct _ :: _, g, h => by cases h
  | .group _ :: _, g, h => by cases h

theorem parenthesised_some : ∀ {gs : List (List Tok)} {names : List Str}, parenthesisedGroups (gs.map .group) = some names →
    ∃ nss : List (List Str), gs = nss.map (fun g => g.map .ident) ∧ names = nss.flatten
  | [], names, h => by cases h; exact ⟨[], rfl, rfl⟩
  | g :: gs, names, h => by
    simp only [List.map_cons, parenthesisedGroups] at h
    split at h
    · rename_i a b h1 h2
      cases h
      obtain ⟨nss, rfl, rfl⟩ := parenthesised_some h2
      exact ⟨a :: nss, by rw [groupNames_some h1]; rfl, rfl⟩
    · cases h

/-! ## Two meshes -/

theorem interleaved_is (timed M₁ r₁ M₂ r₂ f) : expandInterleaved timed M₁ r₁ M₂ r₂ f =
    some (coreItems timed M₁ r₁ ++ chooseMacros r₁ ++ coreItems timed M₂ r₂ ++ chooseMacros r₂ ++ [.func f]
      ++ (if timed then [.macroRules offerId] else [])) := by
  unfold expandInterleaved
  rw [core_is, core_is]

theorem structNames_interleaved {timed M₁ r₁ M₂ r₂ f items} (h : expandInterleaved timed M₁ r₁ M₂ r₂ f = some items) :
    (structNames items).Perm (M₁ :: M₂ :: (roleNames4 (r₁ ++ r₂) ++ (r₁ ++ r₂).map nameId)) := by
  rw [interleaved_is] at h
  injection h with h
  subst h
  have hc : ∀ r : List Str, structNames (chooseMacros r) = [] := by
    intro r
    apply filterMap_none
    intro x hx
    obtain ⟨y, _, rfl⟩ := List.mem_map.1 hx
    rfl
  have ht : structNames (if timed then [.macroRules offerId] else []) = [] := by cases timed <;> rfl
  have hf : structNames [Item.func f] = [] := rfl
  simp only [structNames_append, structNames_core, hc, ht, hf, List.append_nil]
  rw [List.cons_append]
  refine .cons _ ?_
  refine List.perm_middle.trans (.cons _ ?_)
  rw [roleNames4_append, List.map_append]
  simp only [List.append_assoc]
  refine List.Perm.append_left _ ?_
  refine List.perm_append_comm.trans ?_
  simp only [List.append_assoc]
  refine List.Perm.append_left _ ?_
  exact List.perm_append_comm

theorem mem_interleaved {timed M₁ r₁ M₂ r₂ f items} (h : expandInterleaved timed M₁ r₁ M₂ r₂ f = some items) (b : Block) :
    Item.block b ∈ items ↔ Emitted timed M₁ r₁ b ∨ Emitted timed M₂ r₂ b := by
  rw [interleaved_is] at h
  injection h with h
  subst h
  simp only [List.mem_append, mem_core]
  have hc : ∀ r : List Str, Item.block b ∉ chooseMacros r := by intro r; simp [chooseMacros]
  have ht : Item.block b ∉ (if timed then [Item.macroRules offerId] else []) := by cases timed <;> simp
  simp [hc, ht]

/-- A block of a mesh only speaks of that mesh. -/
theorem emitted_here {timed M roles b d σ} (h : Emitted timed M roles b) : ∃ args, inst d σ b.self = .app (.here M) args := by
  rcases h with ⟨i, j, hi, hj, hij, rfl | rfl | rfl | rfl⟩ | ⟨s, hs, rfl⟩ | rfl | rfl
  · exact ⟨_, sendBlock_self d σ timed M roles i j hi hj hij⟩
  · exact ⟨_, recvBlock_self d σ timed M roles i j hi hj hij⟩
  · exact ⟨_, recvFromAllBlock_self d σ timed M roles i j hi hj hij⟩
  · exact ⟨_, offerBlock_self d σ timed M roles i j hi hj hij⟩
  · exact ⟨_, choosePat_self d σ timed M roles s hs⟩
  · exact ⟨_, closeBlock_self d σ M roles⟩
  · exact ⟨_, cancelBlock_self d σ M roles⟩

end Verif.Baking
