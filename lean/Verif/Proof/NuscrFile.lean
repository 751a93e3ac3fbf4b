import Verif.Spec.NuscrFile
import Verif.Proof.BakingNames

/-! Names of the generated file: what has to be shown. -/
namespace Verif.NuscrSpec
open Verif.Nuscr Verif.Spec Verif.Gen

/-! ## Spaces -/

/-- The names of the items of a space. -/
def namesIn (sp : Space) (items : List Entry) : List Text := (items.filter fun d => d.space = sp).map (·.name)

theorem namesIn_append (sp a b) : namesIn sp (a ++ b) = namesIn sp a ++ namesIn sp b := by simp [namesIn]

theorem namesIn_cons (sp d l) : namesIn sp (d :: l) = (if d.space = sp then [d.name] else []) ++ namesIn sp l := by
  unfold namesIn
  by_cases h : d.space = sp <;> simp [h]

theorem mem_namesIn {sp n items} : n ∈ namesIn sp items ↔ ∃ d ∈ items, d.space = sp ∧ d.name = n := by
  simp [namesIn, and_assoc]

theorem keys_nodup (items : List Entry) : (items.map fun d => (d.space, d.name)).Nodup ↔
    (namesIn .types items).Nodup ∧ (namesIn .values items).Nodup := by
  induction items with
  | nil => simp [namesIn]
  | cons d l ih =>
    have e : (d.space, d.name) ∈ l.map (fun d => (d.space, d.name)) ↔ d.name ∈ namesIn d.space l := by
      rw [mem_namesIn, List.mem_map]
      simp only [Prod.mk.injEq]
    rw [List.map_cons, List.nodup_cons, e, ih, namesIn_cons, namesIn_cons]
    cases hs : d.space
    · simp only [if_true, reduceCtorEq, if_false, List.nil_append, List.cons_append, List.nodup_cons, and_assoc]
    · simp only [if_true, reduceCtorEq, if_false, List.nil_append, List.cons_append, List.nodup_cons]
      constructor
      · rintro ⟨h1, h2, h3⟩; exact ⟨h2, h1, h3⟩
      · rintro ⟨h1, h2, h3⟩; exact ⟨h2, h1, h3⟩

theorem candidates_nil {items sp n} : candidates items sp n = [] ↔ n ∉ namesIn sp items := by
  rw [mem_namesIn]
  simp [candidates, List.filter_eq_nil_iff]

theorem candidates_one {items : List Entry} (hn : (items.map fun d => (d.space, d.name)).Nodup) (u : Entry) :
    candidates items u.space u.name = [u] ↔ u ∈ items := by
  constructor
  · intro h
    have : u ∈ candidates items u.space u.name := by rw [h]; simp
    exact (List.mem_filter.mp this).1
  · intro h
    induction items with
    | nil => cases h
    | cons d l ih =>
      rw [List.map_cons, List.nodup_cons] at hn
      have hno : ∀ x ∈ l, ¬ (x.space = d.space ∧ x.name = d.name) := fun x hx e =>
        hn.1 (List.mem_map.mpr ⟨x, hx, by rw [e.1, e.2]⟩)
      rcases List.mem_cons.mp h with rfl | h
      · unfold candidates
        rw [List.filter_cons_of_pos (by simp), List.filter_eq_nil_iff.mpr]
        intro x hx
        simpa using hno x hx
      · have : ¬ (d.space = u.space ∧ d.name = u.name) := fun e => hno u h ⟨e.1.symm, e.2.symm⟩
        unfold candidates
        rw [List.filter_cons_of_neg (by simpa using this)]
        exact ih hn.2 h

/-- What makes a file well named. -/
theorem wellNamed_iff (f : File) : WellNamed f ↔
    (namesIn .types f.items).Nodup ∧ (namesIn .values f.items).Nodup ∧ (∀ vs ∈ f.variants, vs.Nodup) ∧ f.threads.Nodup ∧
    (∀ u ∈ f.uses, u.source ≠ .prelude → u ∈ f.items) ∧
    (∀ u ∈ f.uses, u.source = .prelude → u.name ∉ namesIn u.space f.items) := by
  constructor
  · rintro ⟨h1, h2, h3, h4⟩
    have hk := (keys_nodup _).mp h2
    refine ⟨hk.1, hk.2, h3, h4, ?_, ?_⟩
    · intro u hu hp
      have := h1 u hu
      rw [Refers, if_neg hp, candidates_one h2] at this
      exact this
    · intro u hu hp
      have := h1 u hu
      rw [Refers, if_pos hp, candidates_nil] at this
      exact this
  · rintro ⟨k1, k2, h3, h4, h5, h6⟩
    have h2 := (keys_nodup f.items).mpr ⟨k1, k2⟩
    refine ⟨?_, h2, h3, h4⟩
    intro u hu
    rw [Refers]
    split
    · rename_i hp; rw [candidates_nil]; exact h6 u hu hp
    · rename_i hp; rw [candidates_one h2]; exact h5 u hu hp

/-! ## Names emitted by `generate_atmp!` -/

theorem emittedRoles_types (roles) : namesIn .types (emittedRoles roles) =
    Baking.roleNames4 roles ++ roles.map Baking.nameId := by
  unfold emittedRoles
  rw [namesIn_append]
  congr 1
  · induction roles with
    | nil => rfl
    | cons a l ih =>
      rw [List.flatMap_cons, namesIn_append, ih]
      rfl
  · induction roles with
    | nil => rfl
    | cons a l ih =>
      rw [List.map_cons, namesIn_cons, ih]
      rfl

theorem emittedRoles_values (roles) : namesIn .values (emittedRoles roles) = [] := by
  unfold namesIn emittedRoles
  rw [List.map_eq_nil_iff, List.filter_eq_nil_iff]
  intro d hd
  rcases List.mem_append.mp hd with hd | hd
  · obtain ⟨a, _, hd⟩ := List.mem_flatMap.mp hd
    simp only [List.mem_cons, List.not_mem_nil, or_false] at hd
    rcases hd with rfl | rfl | rfl | rfl <;> simp
  · obtain ⟨a, _, rfl⟩ := List.mem_map.mp hd
    simp

/-- The structures are those of the model of the macro. -/
theorem emitted_structs (roles items) (h : Baking.expand .atmp meshName roles = some items) :
    namesIn .types (emittedItems roles) = Baking.structNames items ∧
    namesIn .values (emittedItems roles) = Baking.funcNames items := by
  constructor
  · rw [Baking.expand_is] at h
    injection h with h
    subst h
    rw [Baking.structNames_append, Baking.structNames_core, Baking.structNames_tail, List.append_nil]
    unfold emittedItems
    rw [List.cons_append, namesIn_cons, namesIn_append, emittedRoles_types]
    simp [namesIn]
  · rw [Baking.expand_is] at h
    injection h with h
    subst h
    rw [Baking.funcNames_append, Baking.funcNames_core]
    unfold emittedItems
    rw [List.cons_append, namesIn_cons, namesIn_append, emittedRoles_values]
    simp only [reduceCtorEq, if_false, List.nil_append, Baking.tailItems, Baking.funcNames_append, Baking.funcNames_choose]
    rfl

theorem patUsesList_eq : ∀ l, patUsesList l = l.flatMap patUses
  | [] => by simp [patUsesList]
  | p :: ps => by simp [patUsesList, patUsesList_eq ps]

theorem roleAt_mem {roles : List Text} {i : Nat} (h : IsRole roles.length i) : Baking.roleAt roles i ∈ roles := by
  unfold Baking.roleAt
  unfold IsRole at h
  rw [List.getElem?_eq_getElem (by omega)]
  simp

section
variable {roles : List Text}

/-- All names in a written type are emitted. -/
def Here (roles : List Text) (p : Baking.Pat) : Prop := ∀ u ∈ patUses p, u ∈ emittedItems roles

theorem here_var (v) : Here roles (.var v) := by intro u hu; simp [patUses] at hu
theorem here_dual (v) : Here roles (.dual v) := by intro u hu; simp [patUses] at hu

theorem here_app {h args} (hh : ∀ s, h ≠ Baking.Head.here s) (ha : ∀ p ∈ args, Here roles p) : Here roles (.app h args) := by
  intro u hu
  have : u ∈ patUsesList args := by
    cases h <;> first | exact absurd rfl (hh _) | simpa [patUses] using hu
  rw [patUsesList_eq] at this
  obtain ⟨p, hp, hu⟩ := List.mem_flatMap.mp this
  exact ha p hp u hu

theorem here_here {s args} (hs : ⟨.types, s, .emitted, args.length⟩ ∈ emittedItems roles) (ha : ∀ p ∈ args, Here roles p) :
    Here roles (.app (.here s) args) := by
  intro u hu
  simp only [patUses, List.mem_cons] at hu
  rcases hu with rfl | hu
  · exact hs
  · rw [patUsesList_eq] at hu
    obtain ⟨p, hp, hu⟩ := List.mem_flatMap.mp hu
    exact ha p hp u hu

theorem mem_emitted_role {a e} (ha : a ∈ roles) (he : e ∈ ([⟨.types, Baking.roleId a, .emitted, 1⟩,
    ⟨.types, Baking.dualId a, .emitted, 1⟩, ⟨.types, Baking.toAllId a, .emitted, 2⟩,
    ⟨.types, Baking.allToId a, .emitted, 2⟩, ⟨.types, Baking.nameId a, .emitted, 0⟩] : List Entry)) :
    e ∈ emittedItems roles := by
  unfold emittedItems emittedRoles
  simp only [List.cons_append, List.mem_cons, List.mem_append, List.mem_flatMap, List.mem_map, List.not_mem_nil,
    or_false] at he ⊢
  rcases he with rfl | rfl | rfl | rfl | rfl
  · exact .inr (.inl (.inl ⟨a, ha, .inl rfl⟩))
  · exact .inr (.inl (.inl ⟨a, ha, .inr (.inl rfl)⟩))
  · exact .inr (.inl (.inl ⟨a, ha, .inr (.inr (.inl rfl))⟩))
  · exact .inr (.inl (.inl ⟨a, ha, .inr (.inr (.inr rfl))⟩))
  · exact .inr (.inl (.inr ⟨a, ha, rfl⟩))

theorem here_name {i} (hi : IsRole roles.length i) : Here roles (.app (.here (Baking.nameId (Baking.roleAt roles i))) []) :=
  here_here (mem_emitted_role (roleAt_mem hi) (by simp)) (by simp)

theorem here_role {i p} (hi : IsRole roles.length i) (hp : Here roles p) :
    Here roles (.app (.here (Baking.roleId (Baking.roleAt roles i))) [p]) :=
  here_here (mem_emitted_role (roleAt_mem hi) (by simp)) (by simpa using hp)

theorem here_toAll {i p q} (hi : IsRole roles.length i) (hp : Here roles p) (hq : Here roles q) :
    Here roles (.app (.here (Baking.toAllId (Baking.roleAt roles i))) [p, q]) :=
  here_here (mem_emitted_role (roleAt_mem hi) (by simp)) (by simp [hp, hq])

theorem here_allTo {i p q} (hi : IsRole roles.length i) (hp : Here roles p) (hq : Here roles q) :
    Here roles (.app (.here (Baking.allToId (Baking.roleAt roles i))) [p, q]) :=
  here_here (mem_emitted_role (roleAt_mem hi) (by simp)) (by simp [hp, hq])

theorem here_mesh {ss st nm} (hl : ss.length + 1 = roles.length) (h1 : ∀ p ∈ ss, Here roles p) (h2 : Here roles st)
    (h3 : Here roles nm) : Here roles (Baking.meshP meshName ss st nm) := by
  refine here_here ?_ ?_
  · have : (ss ++ [st, nm]).length = roles.length + 1 := by simp; omega
    rw [this]
    simp [emittedItems]
  · intro p hp
    simp only [List.mem_append, List.mem_cons, List.not_mem_nil, or_false] at hp
    rcases hp with hp | rfl | rfl
    · exact h1 p hp
    · exact h2
    · exact h3

theorem here_end : Here roles (.app .fin []) := here_app (by simp) (by simp)
theorem here_roleEnd : Here roles (.app .roleEnd []) := here_app (by simp) (by simp)

theorem here_consts : ∀ p ∈ Baking.consts, Here roles p := by
  intro p hp
  obtain ⟨k, _, rfl⟩ := List.mem_map.mp hp
  exact here_var _

theorem here_send {t s} (b) (ht : Here roles t) (hs : Here roles s) : Here roles (Baking.sendP b t s) := by
  unfold Baking.sendP
  split
  · refine here_app (by simp) ?_
    intro p hp
    simp only [List.cons_append, List.mem_cons, List.mem_append, List.not_mem_nil, or_false] at hp
    rcases hp with rfl | hp | rfl
    · exact ht
    · exact here_consts p hp
    · exact hs
  · refine here_app (by simp) (by simp [ht, hs])

theorem here_recv {t s} (b) (ht : Here roles t) (hs : Here roles s) : Here roles (Baking.recvP b t s) := by
  unfold Baking.recvP
  split
  · refine here_app (by simp) ?_
    intro p hp
    simp only [List.cons_append, List.mem_cons, List.mem_append, List.not_mem_nil, or_false] at hp
    rcases hp with rfl | hp | rfl
    · exact ht
    · exact here_consts p hp
    · exact hs
  · refine here_app (by simp) (by simp [ht, hs])

theorem here_either {t s} (ht : Here roles t) (hs : Here roles s) : Here roles (.app .either [t, s]) :=
  here_app (by simp) (by simp [ht, hs])

theorem here_tyP (t) : Here roles (Baking.tyP t) := by
  unfold Baking.tyP
  split
  · exact here_dual _
  · exact here_var _

theorem here_vars (hr : roles ≠ []) {st nm} (a : Nat) (h2 : Here roles st) (h3 : Here roles nm) :
    Here roles (Baking.meshP meshName ((List.range' a (roles.length - 1)).map fun k => .var (.S k)) st nm) := by
  have := List.length_pos_iff.mpr hr
  refine here_mesh (by simp; omega) ?_ h2 h3
  intro p hp
  obtain ⟨k, _, rfl⟩ := List.mem_map.mp hp
  exact here_var _

theorem here_branch {s right j} (hj : IsRole roles.length j) : Here roles (Baking.branchPat meshName roles s right j) := by
  unfold Baking.branchPat
  refine here_mesh ?_ ?_ (here_var _) (here_name hj)
  · unfold IsRole at hj; simp; omega
  · intro p hp
    obtain ⟨k, _, rfl⟩ := List.mem_map.mp hp
    exact here_tyP _

/-- In every emitted block, all names are those of emitted items, with the right number of arguments. -/
theorem here_block (hr : roles ≠ []) {b} (h : Baking.Emitted true meshName roles b) :
    Here roles b.self ∧ ∀ m ∈ b.methods, ∀ p ∈ m.2, Here roles p := by
  have hpos := List.length_pos_iff.mpr hr
  rcases h with ⟨i, j, hi, hj, _, rfl | rfl | rfl | rfl⟩ | ⟨s, hs, rfl⟩ | rfl | rfl
  · refine ⟨?_, ?_⟩
    · refine here_mesh (by simp; omega) ?_ (here_role hj (here_var _)) (here_name hi)
      intro p hp
      obtain ⟨k, _, rfl⟩ := List.mem_map.mp hp
      split
      · exact here_send _ (here_var _) (here_var _)
      · exact here_var _
    · simp only [Baking.sendBlock, List.mem_cons, List.not_mem_nil, or_false, forall_eq]
      exact here_vars hr 1 (here_var _) (here_name hi)
  · refine ⟨?_, ?_⟩
    · refine here_mesh (by simp; omega) ?_ (here_role hj (here_var _)) (here_name hi)
      intro p hp
      obtain ⟨k, _, rfl⟩ := List.mem_map.mp hp
      split
      · exact here_recv _ (here_var _) (here_var _)
      · exact here_var _
    · simp only [Baking.recvBlock, List.mem_cons, List.not_mem_nil, or_false, forall_eq]
      exact here_vars hr 1 (here_var _) (here_name hi)
  · refine ⟨?_, ?_⟩
    · refine here_mesh (by simp; omega) ?_ (here_allTo hj here_roleEnd here_roleEnd) (here_name hi)
      intro p hp
      obtain ⟨k, _, rfl⟩ := List.mem_map.mp hp
      split
      · exact here_recv _ (here_var _) (here_var _)
      · exact here_var _
    · simp only [Baking.recvFromAllBlock, List.mem_cons, List.not_mem_nil, or_false, forall_eq]
      exact here_vars hr 1 here_roleEnd (here_name hi)
  · have h1 := here_vars hr (st := .var (.R 1)) 1 (here_var _) (here_name hi)
    have h2 := here_vars hr (st := .var (.R 2)) roles.length (here_var _) (here_name hi)
    refine ⟨?_, ?_⟩
    · refine here_mesh (by simp; omega) ?_ (here_allTo hj here_roleEnd here_roleEnd) (here_name hi)
      intro p hp
      obtain ⟨k, _, rfl⟩ := List.mem_map.mp hp
      split
      · exact here_recv _ (here_either h1 h2) here_end
      · exact here_end
    · simp only [Baking.offerBlock, List.mem_cons, List.not_mem_nil, or_false, forall_eq, forall_eq_or_imp]
      exact ⟨h1, h2⟩
  · refine ⟨?_, ?_⟩
    · refine here_mesh (by simp; omega) ?_ (here_toAll hs (here_var _) (here_var _)) (here_name hs)
      intro p hp
      obtain ⟨k, hk, rfl⟩ := List.mem_map.mp hp
      have hk := List.mem_range'.mp hk
      have hp := (partner_role hs (by omega : 1 ≤ k) (by omega : k ≤ roles.length - 1)).1
      exact here_send _ (here_either (here_branch hp) (here_branch hp)) here_end
    · simp only [Baking.choosePat, List.mem_cons, List.not_mem_nil, or_false, forall_eq, forall_eq_or_imp]
      refine ⟨?_, ?_⟩ <;>
      · refine here_mesh (by simp; omega) ?_ (here_var _) (here_name hs)
        intro p hp
        obtain ⟨k, _, rfl⟩ := List.mem_map.mp hp
        exact here_tyP _
  · refine ⟨?_, by simp [Baking.closeBlock]⟩
    refine here_mesh (by simp; omega) ?_ here_roleEnd (here_var _)
    intro p hp
    obtain ⟨k, _, rfl⟩ := List.mem_map.mp hp
    exact here_end
  · refine ⟨?_, by simp [Baking.cancelBlock]⟩
    exact here_vars hr 1 (here_var _) (here_var _)

/-- The names in the emitted code are those of emitted items, or of the prelude. -/
theorem emitted_uses (hr : roles ≠ []) {u} (hu : u ∈ emittedUses roles) :
    u ∈ emittedItems roles ∨ u ∈ emittedPrelude := by
  rcases List.mem_append.mp hu with hu | hu
  · refine .inl ?_
    rw [Baking.expand_is, Option.getD_some] at hu
    obtain ⟨x, hx, hu⟩ := List.mem_flatMap.mp hu
    cases x with
    | block b =>
      have hb := (Baking.mem_expand (Baking.expand_is .atmp meshName roles) b).mp hx
      obtain ⟨h1, h2⟩ := here_block hr hb
      rcases List.mem_append.mp hu with hu | hu
      · exact h1 u hu
      · obtain ⟨m, hm, hu⟩ := List.mem_flatMap.mp hu
        obtain ⟨p, hp, hu⟩ := List.mem_flatMap.mp hu
        exact h2 m hm p hp u hu
    | _ => simp [itemUses] at hu
  · exact .inr hu

end

end Verif.NuscrSpec
