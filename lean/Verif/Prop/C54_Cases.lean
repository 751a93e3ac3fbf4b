import Verif.Prop.C54
/-! # C54: concrete cases, and names that clash -/
namespace Verif.Prop
open Verif.Baking Verif.Spec

/-! ## Traits -/

mutual
/-- Duals of closed session types: `Send` and `Recv` are exchanged along the continuations. -/
def c54Dual : RTy → RTy
  | .app .send args => .app .recv (c54Last args)
  | .app .recv args => .app .send (c54Last args)
  | .app .sendTimed args => .app .recvTimed (c54Last args)
  | .app .recvTimed args => .app .sendTimed (c54Last args)
  | .app h args => .app h args
/-- The dual of the last argument. -/
def c54Last : List RTy → List RTy
  | [] => []
  | [s] => [c54Dual s]
  | x :: y :: l => x :: c54Last (y :: l)
end

theorem c54Last_append (l : List RTy) (s : RTy) : c54Last (l ++ [s]) = l ++ [c54Dual s] := by
  induction l with
  | nil => simp [c54Last]
  | cons x l ih =>
    cases l with
    | nil => simp [c54Last]
    | cons y l => simpa [c54Last] using ih

/-- Traits for the examples: all bounds hold. -/
def c54Traits : Traits := ⟨fun _ => True, fun _ => True, fun _ => True, fun _ => True, c54Dual⟩

theorem c54_lawful (timed M roles) : Lawful c54Traits timed M roles where
  end_session := trivial
  send_session := fun _ _ _ _ _ => trivial
  recv_session := fun _ _ _ _ _ => trivial
  end_dual := by simp [c54Traits, endTy, c54Dual]
  send_dual := by
    intro cs t s
    unfold sendTy recvTy
    cases timed
    · simp [c54Traits, c54Dual, c54Last]
    · simp only [c54Traits, if_true, c54Dual]
      rw [c54Last_append]
  recv_dual := by
    intro cs t s
    unfold sendTy recvTy
    cases timed
    · simp [c54Traits, c54Dual, c54Last]
    · simp only [c54Traits, if_true, c54Dual]
      rw [c54Last_append]
  roleEnd_role := trivial
  role_role := fun _ _ _ => trivial
  toAll_role := fun _ _ _ _ _ => trivial
  allTo_role := fun _ => trivial
  name_name := fun _ => trivial
  mesh_payload := fun _ _ _ _ _ _ _ _ _ => trivial

/-! ## A protocol of three roles -/

/-- `A`, `B`, `D`, as in the documentation of `generate!`. -/
def c54Roles : List Str := ["A".toList, "B".toList, "D".toList]

/-- A type from elsewhere. -/
def c54Int : RTy := .app (.other "i32".toList) []

/-- Six constants. -/
def c54Consts : List RTy := List.replicate 6 c54Int

/-- `A` sends to `B`; then `D` chooses: `B` sends to `A`, or the session ends. -/
def c54Proto : Proto :=
  .msg 1 2 c54Consts c54Int (.choice 3 c54Consts (.msg 2 1 c54Consts c54Int .fin) .fin)

theorem c54_valid : c54Proto.Valid c54Traits c54Roles.length := by
  simp [c54Proto, Proto.Valid, IsRole, c54Roles, c54Consts, c54Traits]

theorem c54_nodup : c54Roles.Nodup := by decide +kernel

/-- The hypotheses are met: `D` has a choice, in the untimed and in the timed case. -/
example (kind : Kind) (items) (h : expand kind "Mesh".toList c54Roles = some items) :
    Has c54Traits items .chooseLeft (typeOf kind.timed "Mesh".toList c54Roles c54Proto 3)
      [typeOf kind.timed "Mesh".toList c54Roles (.msg 2 1 c54Consts c54Int .fin) 3] :=
  (C54_protocol c54Traits kind _ _ c54_nodup items h (c54_lawful _ _ _) c54Proto c54_valid 3
    (by simp [IsRole, c54Roles]) _ _).2 (.inl (by simp [c54Proto, Next]))

/-- `A` may not receive before it has sent. -/
example (kind : Kind) (items) (h : expand kind "Mesh".toList c54Roles = some items) (next) :
    ¬ Has c54Traits items .recv (typeOf kind.timed "Mesh".toList c54Roles c54Proto 1) next := by
  rw [C54_protocol c54Traits kind _ _ c54_nodup items h (c54_lawful _ _ _) c54Proto c54_valid 1
    (by simp [IsRole, c54Roles])]
  simp [c54Proto, Next]

/-- A whole program of `B`: it receives, waits for the choice of `D`, sends and closes. -/
example (kind : Kind) (items) (h : expand kind "Mesh".toList c54Roles = some items) :
    Calls c54Traits items (typeOf kind.timed "Mesh".toList c54Roles c54Proto 2) [.recv, .offer, .send, .close] :=
  (C54_runs c54Traits kind _ _ c54_nodup items h (c54_lawful _ _ _) c54Proto c54_valid 2
    (by simp [IsRole, c54Roles]) _).2 (by simp [c54Proto, Path])

/-- `B` may not close right after it has received. -/
example (kind : Kind) (items) (h : expand kind "Mesh".toList c54Roles = some items) :
    ¬ Calls c54Traits items (typeOf kind.timed "Mesh".toList c54Roles c54Proto 2) [.recv, .close] := by
  rw [C54_runs c54Traits kind _ _ c54_nodup items h (c54_lawful _ _ _) c54Proto c54_valid 2
    (by simp [IsRole, c54Roles])]
  simp [c54Proto, Path]

/-- The blocks do not overlap and are well-formed. -/
example (items) (h : expand .recAndCancel "Mesh".toList c54Roles = some items) :
    items.Pairwise Apart ∧ (∀ b, Item.block b ∈ items → WellFormed b) ∧ items.length = 50 := by
  refine ⟨C54_coherent _ _ _ c54_nodup _ h, C54_params _ _ _ (by decide) _ h, ?_⟩
  have : (expand .recAndCancel "Mesh".toList c54Roles).map List.length = some 50 := by decide +kernel
  rw [h] at this
  simpa using this

/-- The names of the example are safe. -/
example (items) (h : expand .recAndCancel "MeshedChannels".toList c54Roles = some items) :
    (structNames items).Nodup ∧ (macroNames items).Nodup := by
  refine ⟨(C54_structs_partial _ _ _ _ h).2 ⟨c54_nodup, C54_structs_safe _ _ ?_ ?_ ?_ ?_ ?_ ?_⟩,
    (C54_macros_partial _ (.inr (.inl rfl)) _ _ _ h).2 ?_⟩ <;> decide +kernel

/-- Two meshes. -/
example (items) (h : expandInterleaved false "MeshA".toList c54Roles "MeshE".toList ["E".toList, "F".toList]
    "fork".toList = some items) : (structNames items).Nodup := by
  have hs := C54_structs_safe "MeshA".toList (c54Roles ++ ["E".toList, "F".toList]) (by decide +kernel)
    (by decide +kernel) (by decide +kernel) (by decide +kernel) (by decide +kernel) (by decide +kernel)
  have hs' := C54_structs_safe "MeshE".toList (c54Roles ++ ["E".toList, "F".toList]) (by decide +kernel)
    (by decide +kernel) (by decide +kernel) (by decide +kernel) (by decide +kernel) (by decide +kernel)
  exact (C54_interleaved_structs_partial _ _ _ _ _ _ _ h).2 ⟨by decide +kernel, by decide +kernel, hs.1, hs.2, hs'.2⟩

/-- Reading the roles. -/
example : getAllRoles [.ident "A".toList, .punct ',', .ident "B".toList, .punct ','] = ["A".toList, "B".toList] := by
  decide +kernel

/-! ## Names that clash -/

/-- A role called `All` gives the struct `RoleAlltoAll` twice, in every kind. -/
theorem C54_clash_all (kind : Kind) (items : List Item)
    (h : expand kind "MeshedChannels".toList ["All".toList, "B".toList] = some items) :
    ¬ (structNames items).Nodup ∧ ["All".toList, "B".toList].Nodup := by
  refine ⟨?_, by decide +kernel⟩
  rw [C54_structs_partial _ _ _ _ h]
  rintro ⟨-, hn, -⟩
  exact (hn "All".toList (by simp) "All".toList (by simp)).2.2.2.2 rfl

/-- Roles `A` and `ADual`, `AtoAll` or `AlltoA` clash as well. -/
theorem C54_clash_suffix (kind : Kind) (items : List Item) (b : Str)
    (hb : b = "ADual".toList ∨ b = "AtoAll".toList ∨ b = "AlltoA".toList)
    (h : expand kind "MeshedChannels".toList ["A".toList, b] = some items) :
    ¬ (structNames items).Nodup ∧ ["A".toList, b].Nodup := by
  constructor
  · rw [C54_structs_partial _ _ _ _ h]
    rintro ⟨-, hn, -⟩
    have := hn b (by simp) "A".toList (by simp)
    rcases hb with rfl | rfl | rfl
    · exact this.1 rfl
    · exact this.2.1 rfl
    · exact this.2.2.1 rfl
  · rcases hb with rfl | rfl | rfl <;> decide +kernel

/-- Roles that differ in case only share the macro of their choices: the later one shadows the earlier one. -/
theorem C54_clash_macros (items : List Item)
    (h : expand .recursive "MeshedChannels".toList ["A".toList, "a".toList] = some items) :
    ¬ (macroNames items).Nodup ∧ (structNames items).Nodup := by
  constructor
  · rw [C54_macros_partial _ (.inl rfl) _ _ _ h]; decide +kernel
  · exact (C54_structs_partial _ _ _ _ h).2 ⟨by decide +kernel, C54_structs_safe _ _ (by decide +kernel)
      (by decide +kernel) (by decide +kernel) (by decide +kernel) (by decide +kernel) (by decide +kernel)⟩

/-- The example in the documentation of `generate!("interleaved", ..)` (`/repo/src/baking/mod.rs:82-93`) gives both
meshes one name, and the struct of the mesh is emitted twice. -/
theorem C54_clash_doc (items : List Item)
    (h : expandInterleaved false "MeshedChannels".toList ["Barber".toList, "ShopBarber".toList]
      "MeshedChannels".toList ["Client".toList, "ShopClient".toList] "fork_mpst".toList = some items) :
    ¬ (structNames items).Nodup := by
  rw [C54_interleaved_structs_partial _ _ _ _ _ _ _ h]
  exact fun h => h.1 rfl

/-- The untimed expansion for two meshes defines no macro `offer_mpst`, the timed one does. -/
theorem C54_no_offer_macro (timed : Bool) (M₁ M₂ f : Str) (r₁ r₂ : List Str) (items : List Item)
    (h : expandInterleaved timed M₁ r₁ M₂ r₂ f = some items) :
    "offer_mpst".toList ∈ macroNames items ↔ timed = true := by
  change offerId ∈ _ ↔ _
  rw [interleaved_is] at h
  injection h with h
  subst h
  have e1 : macroNames [Item.func f] = [] := rfl
  have e2 : macroNames (if timed then [Item.macroRules offerId] else []) = if timed then [offerId] else [] := by
    cases timed <;> rfl
  simp only [macroNames_append, macroNames_core, macroNames_choose, e1, e2, List.nil_append, List.append_nil,
    List.mem_append, List.mem_map]
  constructor
  · rintro ((⟨a, _, e⟩ | ⟨a, _, e⟩) | h)
    · exact absurd e (macroId_ne_offer a)
    · exact absurd e (macroId_ne_offer a)
    · cases timed
      · simp at h
      · rfl
  · rintro rfl
    exact .inr (by simp)

/-- A timed mesh of a single role does not compile: the constants of its choice are undetermined. -/
theorem C54_single_role (M a : Str) (items : List Item) (h : expand .atmp M [a] = some items) :
    ∃ b, Item.block b ∈ items ∧ ¬ WellFormed b := by
  refine ⟨choosePat true M [a] 1, (mem_expand h _).2 (.inr (.inl ⟨1, by simp [IsRole], rfl⟩)), ?_⟩
  rintro ⟨h, -⟩
  have := h (.C 0) (by simp [choosePat, constParams])
  simp [choosePat, shows_meshP, Pat.shows, showsList] at this

end Verif.Prop
