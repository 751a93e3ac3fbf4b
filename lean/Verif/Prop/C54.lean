import Verif.Proof.BakingProto
import Verif.Proof.BakingParams
import Verif.Proof.BakingNames
/-!
# C54: the calls a mesh type allows

What `generate!` emits for any list of roles is read as Rust reads it: the calls that exist on a type, the types they
hand on, overlap of `impl` blocks, undetermined parameters and names of structs and macros.
-/
namespace Verif.Prop
open Verif.Baking Verif.Spec

/-! ## The expansion -/

/-- The expansion never panics. -/
theorem C54_defined (kind : Kind) (M : Str) (roles : List Str) : (expand kind M roles).isSome := by
  rw [expand_is]; rfl

/-- Nor does the one for two meshes. -/
theorem C54_interleaved_defined (timed : Bool) (M₁ M₂ f : Str) (r₁ r₂ : List Str) :
    (expandInterleaved timed M₁ r₁ M₂ r₂ f).isSome := by
  rw [interleaved_is]; rfl

/-- Different roles: no method is defined twice for one type, so that each call is resolved. -/
theorem C54_coherent (kind : Kind) (M : Str) (roles : List Str) (hn : roles.Nodup) (items : List Item)
    (h : expand kind M roles = some items) : items.Pairwise Apart := by
  rw [expand_is] at h
  injection h with h
  subst h
  exact apart_append (coherent_core hn) tail_methods

/-- All parameters of all blocks are declared, and determined by the type of the mesh. -/
theorem C54_params (kind : Kind) (M : Str) (roles : List Str) (h2 : 2 ≤ roles.length) (items : List Item)
    (h : expand kind M roles = some items) (b : Block) (hb : Item.block b ∈ items) : WellFormed b :=
  emitted_wf h2 ((mem_expand h b).1 hb)

/-! ## Calls -/

/-- `send` exists exactly on the meshes whose stack names a partner with which the session is `Send`; only that session
and the stack change. -/
theorem C54_send (W : Traits) (kind : Kind) (M : Str) (roles : List Str) (items : List Item)
    (h : expand kind M roles = some items) (t : RTy) (next : List RTy) : Has W items .send t next ↔
    ∃ i j F cs T S R, IsRole roles.length i ∧ IsRole roles.length j ∧ i ≠ j ∧ cs.length = 6 ∧
      F j = sendTy kind.timed cs T S ∧ t = meshTy M roles i F (roleTy (roleName roles j) R) ∧
      W.payload T ∧ W.session S ∧ W.role R ∧ (∀ q, IsRole roles.length q → q ≠ i → q ≠ j → W.session (F q)) ∧
      next = [meshTy M roles i (fun q => if q = j then S else F q) R] :=
  (has_iff (mem_expand h)).trans offers_send

/-- Timed communications with `generate_atmp!`, untimed ones with all kinds of `generate!`: a mesh that can send has such
a session. -/
theorem C54_timed (W : Traits) (kind : Kind) (M : Str) (roles : List Str) (items : List Item)
    (h : expand kind M roles = some items) (t : RTy) (next : List RTy) (hs : Has W items .send t next) :
    ∃ args a xs, t = .app (.here M) args ∧ a ∈ args ∧
      a = .app (match kind with | .atmp => .sendTimed | _ => .send) xs := by
  obtain ⟨i, j, F, cs, T, S, R, hi, hj, hij, hcs, hF, rfl, _⟩ := (C54_send W kind M roles items h t next).1 hs
  have hr := Gen.slot_range hi hj hij
  have hx : ∃ xs, F j = .app (match kind with | .atmp => .sendTimed | _ => .send) xs := by
    rw [hF]
    cases kind
    case atmp => exact ⟨T :: cs ++ [S], rfl⟩
    all_goals exact ⟨[T, S], rfl⟩
  obtain ⟨xs, hx⟩ := hx
  refine ⟨_, F j, xs, rfl, ?_, hx⟩
  simp only [List.mem_append, List.mem_map, Gen.mem_range']
  exact .inl ⟨Spec.slotOf i j, by omega, by rw [Gen.partner_slot hj hij]⟩

/-- `recv`, in the same way. -/
theorem C54_recv (W : Traits) (kind : Kind) (M : Str) (roles : List Str) (items : List Item)
    (h : expand kind M roles = some items) (t : RTy) (next : List RTy) : Has W items .recv t next ↔
    ∃ i j F cs T S R, IsRole roles.length i ∧ IsRole roles.length j ∧ i ≠ j ∧ cs.length = 6 ∧
      F j = recvTy kind.timed cs T S ∧ t = meshTy M roles i F (roleTy (roleName roles j) R) ∧
      W.payload T ∧ W.session S ∧ W.role R ∧ (∀ q, IsRole roles.length q → q ≠ i → q ≠ j → W.session (F q)) ∧
      next = [meshTy M roles i (fun q => if q = j then S else F q) R] :=
  (has_iff (mem_expand h)).trans offers_recv

/-- `recv_from_all` needs the stack of a broadcast and leaves an empty one. -/
theorem C54_recv_from_all (W : Traits) (kind : Kind) (M : Str) (roles : List Str) (items : List Item)
    (h : expand kind M roles = some items) (t : RTy) (next : List RTy) : Has W items .recvFromAll t next ↔
    ∃ i j F cs T S, IsRole roles.length i ∧ IsRole roles.length j ∧ i ≠ j ∧ cs.length = 6 ∧
      F j = recvTy kind.timed cs T S ∧ t = meshTy M roles i F (allToTy (roleName roles j)) ∧
      W.payload T ∧ W.session S ∧ (∀ q, IsRole roles.length q → q ≠ i → q ≠ j → W.session (F q)) ∧
      next = [meshTy M roles i (fun q => if q = j then S else F q) roleEndTy] :=
  (has_iff (mem_expand h)).trans offers_recvFromAll

/-- `offer` exists exactly on the meshes that wait for a choice of one role and are done with the others. -/
theorem C54_offer (W : Traits) (kind : Kind) (M : Str) (roles : List Str) (items : List Item)
    (h : expand kind M roles = some items) (t : RTy) (next : List RTy) : Has W items .offer t next ↔
    ∃ i j F cs L R SL SR, IsRole roles.length i ∧ IsRole roles.length j ∧ i ≠ j ∧ cs.length = 6 ∧
      F j = recvTy kind.timed cs (eitherTy (meshTy M roles i L SL) (meshTy M roles i R SR)) endTy ∧
      (∀ q, IsRole roles.length q → q ≠ i → q ≠ j → F q = endTy) ∧
      t = meshTy M roles i F (allToTy (roleName roles j)) ∧
      (∀ q, IsRole roles.length q → q ≠ i → W.session (L q)) ∧ (∀ q, IsRole roles.length q → q ≠ i → W.session (R q)) ∧
      W.role SL ∧ W.role SR ∧ next = [meshTy M roles i L SL, meshTy M roles i R SR] :=
  (has_iff (mem_expand h)).trans offers_offer

/-- The two `choose` methods exist exactly on the meshes that tell all others of a choice between two branches in which
the sessions of any two roles fit. -/
theorem C54_choose (W : Traits) (kind : Kind) (M : Str) (roles : List Str) (items : List Item)
    (h : expand kind M roles = some items) (right : Bool) (t : RTy) (next : List RTy) :
    Has W items (if right then .chooseRight else .chooseLeft) t next ↔
    ∃ s cs B P, IsRole roles.length s ∧ cs.length = 6 ∧ (∀ right, BranchOk W roles.length s (B right)) ∧
      (∀ right j, IsRole roles.length j → W.role (P right j)) ∧ t = chooseTy kind.timed M roles s cs B P ∧
      next = [meshTy M roles s (fun q => W.dual (B right q s)) (P right s)] :=
  (has_iff (mem_expand h)).trans (offers_choose right)

/-- `close` exists exactly on the finished meshes. -/
theorem C54_close (W : Traits) (kind : Kind) (M : Str) (roles : List Str) (items : List Item)
    (h : expand kind M roles = some items) (t : RTy) (next : List RTy) : Has W items .close t next ↔
    ∃ N, W.name N ∧ next = [] ∧
      t = .app (.here M) ((List.range' 1 (roles.length - 1)).map (fun _ => endTy) ++ [roleEndTy, N]) :=
  (has_iff (mem_expand h)).trans offers_close

/-- `cancel` exists on every mesh. -/
theorem C54_cancel (W : Traits) (kind : Kind) (M : Str) (roles : List Str) (items : List Item)
    (h : expand kind M roles = some items) (t : RTy) (next : List RTy) : Has W items .cancel t next ↔
    ∃ (F : Nat → RTy) (R N : RTy), (∀ k, 1 ≤ k → k ≤ roles.length - 1 → W.session (F k)) ∧ W.role R ∧ W.name N ∧ next = [] ∧
      t = .app (.here M) ((List.range' 1 (roles.length - 1)).map F ++ [R, N]) :=
  (has_iff (mem_expand h)).trans offers_cancel

/-- The types a call hands on are determined by the type it is called on. -/
theorem C54_unique (W : Traits) (kind : Kind) (M : Str) (roles : List Str) (hn : roles.Nodup) (items : List Item)
    (h : expand kind M roles = some items) (m : Method) (t : RTy) (next next' : List RTy) (h1 : Has W items m t next)
    (h2 : Has W items m t next') : next = next' :=
  offers_unique hn ((has_iff (mem_expand h)).1 h1) ((has_iff (mem_expand h)).1 h2)

/-- A type allows calls of one kind: it cannot both send and receive, or communicate and be closed. -/
theorem C54_exclusive (W : Traits) (kind : Kind) (M : Str) (roles : List Str) (hn : roles.Nodup) (items : List Item)
    (h : expand kind M roles = some items) (m m' : Method) (t : RTy) (next next' : List RTy) (hm : m ≠ .cancel)
    (hm' : m' ≠ .cancel) (h1 : Has W items m t next) (h2 : Has W items m' t next') :
    ∃ group ∈ [[Method.send], [.recv], [.offer, .recvFromAll], [.chooseLeft, .chooseRight], [.close]],
      m ∈ group ∧ m' ∈ group := by
  obtain ⟨a, h1, h2⟩ := offers_group hn ((has_iff (mem_expand h)).1 h1) ((has_iff (mem_expand h)).1 h2) hm hm'
  cases a <;> simp only [Shape.has] at h1 h2
  · exact ⟨[.send], by simp, by simp [h1], by simp [h2]⟩
  · exact ⟨[.recv], by simp, by simp [h1], by simp [h2]⟩
  · exact ⟨[.offer, .recvFromAll], by simp, by simpa using h1, by simpa using h2⟩
  · exact ⟨[.chooseLeft, .chooseRight], by simp, by simpa using h1, by simpa using h2⟩
  · exact ⟨[.close], by simp, by simp [h1], by simp [h2]⟩

/-! ## Protocols -/

/-- On the types of a protocol, the calls that exist are those the protocol prescribes, and `cancel`. -/
theorem C54_protocol (W : Traits) (kind : Kind) (M : Str) (roles : List Str) (hn : roles.Nodup) (items : List Item)
    (h : expand kind M roles = some items) (hW : Lawful W kind.timed M roles) (g : Proto)
    (hg : g.Valid W roles.length) (i : Nat) (hi : IsRole roles.length i) (m : Method) (next : List RTy) :
    Has W items m (typeOf kind.timed M roles g i) next ↔
      Next kind.timed M roles g i m next ∨ (m = .cancel ∧ next = []) :=
  (has_iff (mem_expand h)).trans (offers_protocol hW hn g hg hi)

/-- The programs that compile against the type of a role and go on to `close` make the calls of the runs of the
protocol, and all of these programs compile. -/
theorem C54_runs (W : Traits) (kind : Kind) (M : Str) (roles : List Str) (hn : roles.Nodup) (items : List Item)
    (h : expand kind M roles = some items) (hW : Lawful W kind.timed M roles) (g : Proto)
    (hg : g.Valid W roles.length) (i : Nat) (hi : IsRole roles.length i) (ms : List Method) :
    Calls W items (typeOf kind.timed M roles g i) ms ↔ Path g i ms :=
  ⟨fun hc => calls_path hW hn (mem_expand h) hi hc g hg rfl, fun hp => path_calls hW (mem_expand h) hi g hg ms hp⟩

/-- Two different meshes in one module do not get in each other's way. -/
theorem C54_interleaved_calls (W : Traits) (kind : Kind) (M₁ M₂ f : Str) (r₁ r₂ : List Str) (hM : M₁ ≠ M₂)
    (both one two : List Item) (h : expandInterleaved kind.timed M₁ r₁ M₂ r₂ f = some both)
    (h1 : expand kind M₁ r₁ = some one) (h2 : expand kind M₂ r₂ = some two) (m : Method) (args next : List RTy) :
    (Has W both m (.app (.here M₁) args) next ↔ Has W one m (.app (.here M₁) args) next) ∧
    (Has W both m (.app (.here M₂) args) next ↔ Has W two m (.app (.here M₂) args) next) := by
  constructor
  · constructor
    · rintro ⟨b, hb, ps, hm, σ, hσ, hs, hn⟩
      rcases (mem_interleaved h b).1 hb with e | e
      · exact ⟨b, (mem_expand h1 b).2 e, ps, hm, σ, hσ, hs, hn⟩
      · obtain ⟨x, hx⟩ := emitted_here (d := W.dual) (σ := σ) e
        rw [hs] at hx
        simp only [RTy.app.injEq, Head.here.injEq] at hx
        exact absurd hx.1 hM
    · rintro ⟨b, hb, r⟩
      exact ⟨b, (mem_interleaved h b).2 (.inl ((mem_expand h1 b).1 hb)), r⟩
  · constructor
    · rintro ⟨b, hb, ps, hm, σ, hσ, hs, hn⟩
      rcases (mem_interleaved h b).1 hb with e | e
      · obtain ⟨x, hx⟩ := emitted_here (d := W.dual) (σ := σ) e
        rw [hs] at hx
        simp only [RTy.app.injEq, Head.here.injEq] at hx
        exact absurd hx.1.symm hM
      · exact ⟨b, (mem_expand h2 b).2 e, ps, hm, σ, hσ, hs, hn⟩
    · rintro ⟨b, hb, r⟩
      exact ⟨b, (mem_interleaved h b).2 (.inr ((mem_expand h2 b).1 hb)), r⟩

/-! ## Names -/

/-- When the emitted structs have different names.  The property asks for this for all lists of different roles; it
fails for some names (`C54_clash_all` and further down), so that the names have to be `NamesApart`. -/
theorem C54_structs_partial (kind : Kind) (M : Str) (roles : List Str) (items : List Item)
    (h : expand kind M roles = some items) :
    (structNames items).Nodup ↔ roles.Nodup ∧ NamesApart roles ∧ MeshApart M roles := by
  rw [expand_is] at h
  injection h with h
  subst h
  rw [structNames_append, structNames_core, structNames_tail, List.append_nil, List.nodup_cons, names_nodup, mem_names]
  exact ⟨fun h => ⟨h.2.1, h.2.2, h.1⟩, fun h => ⟨h.2.2, h.1, h.2.1⟩⟩

/-- Names that are safe: no role called `All` or `Allto..`, `..Dual`, `..toAll`, and no mesh called `Role..` or
`Name..`. -/
theorem C54_structs_safe (M : Str) (roles : List Str) (h1 : ∀ a ∈ roles, ¬ "Allto".toList <+: a)
    (h2 : "All".toList ∉ roles) (h3 : ∀ a ∈ roles, ¬ "Dual".toList <:+ a) (h4 : ∀ a ∈ roles, ¬ "toAll".toList <:+ a)
    (h5 : ¬ "Role".toList <+: M) (h6 : ¬ "Name".toList <+: M) : NamesApart roles ∧ MeshApart M roles := by
  refine ⟨namesApart_of h1 h2 h3 h4, fun a _ => ⟨?_, ?_, ?_, ?_, ?_⟩⟩
  · intro e; exact h5 ⟨a, e.symm⟩
  · intro e; exact h5 ⟨a ++ "Dual".toList, by rw [e]; simp⟩
  · intro e; exact h5 ⟨a ++ "toAll".toList, by rw [e]; simp⟩
  · intro e; exact h5 ⟨"Allto".toList ++ a, by rw [e]; rfl⟩
  · intro e; exact h6 ⟨a, e.symm⟩

/-- The same for two meshes: the roles of the two protocols have to differ too. -/
theorem C54_interleaved_structs_partial (timed : Bool) (M₁ M₂ f : Str) (r₁ r₂ : List Str) (items : List Item)
    (h : expandInterleaved timed M₁ r₁ M₂ r₂ f = some items) :
    (structNames items).Nodup ↔ M₁ ≠ M₂ ∧ (r₁ ++ r₂).Nodup ∧ NamesApart (r₁ ++ r₂) ∧ MeshApart M₁ (r₁ ++ r₂) ∧
      MeshApart M₂ (r₁ ++ r₂) := by
  rw [(structNames_interleaved h).nodup_iff, List.nodup_cons, List.nodup_cons, names_nodup, mem_names, List.mem_cons,
    not_or, mem_names]
  exact ⟨fun h => ⟨h.1.1, h.2.2.1, h.2.2.2, h.1.2, h.2.1⟩, fun h => ⟨⟨h.1, h.2.2.2.1⟩, h.2.2.2.2, h.2.1, h.2.2.1⟩⟩

/-- The macros that tell all others of a choice have different names exactly if the roles differ by more than case.
The property asks for this whenever the roles differ (`C54_clash_macros`). -/
theorem C54_macros_partial (kind : Kind) (hk : kind = .recursive ∨ kind = .recAndCancel ∨ kind = .atmp) (M : Str)
    (roles : List Str) (items : List Item) (h : expand kind M roles = some items) :
    (macroNames items).Nodup ↔ (roles.map fun a => a.map Char.toLower).Nodup := by
  rw [expand_is] at h
  injection h with h
  subst h
  have hp : (macroNames (coreItems kind.timed M roles ++ tailItems kind roles)).Perm (offerId :: roles.map macroId) := by
    rw [macroNames_append, macroNames_core, List.nil_append]
    have e1 : macroNames [Item.func forkId] = [] := rfl
    have e2 : macroNames [Item.macroRules offerId] = [offerId] := rfl
    have e3 : macroNames [Item.func forkId, Item.macroRules offerId] = [offerId] := rfl
    rcases hk with rfl | rfl | rfl <;>
      simp only [tailItems, macroNames_append, macroNames_choose, e1, e2, e3, List.nil_append] <;>
      exact List.perm_append_singleton _ _
  rw [hp.nodup_iff, List.nodup_cons]
  have e : (roles.map macroId).Nodup ↔ (roles.map fun a => a.map Char.toLower).Nodup := by
    unfold List.Nodup
    rw [List.pairwise_map, List.pairwise_map]
    simp only [ne_eq, macroId_eq_iff]
  rw [e]
  refine and_iff_right ?_
  intro hm
  obtain ⟨a, _, h⟩ := List.mem_map.1 hm
  exact macroId_ne_offer a h

/-- The macros that each kind defines: the one that offers a choice is `offer_mpst`, or `offer_cancel_mpst` for
`"cancel"`; the kinds with choices of many branches define one more macro for each role, its name in small letters. -/
theorem C54_macro_names (kind : Kind) (M : Str) (roles : List Str) (items : List Item)
    (h : expand kind M roles = some items) :
    (kind = .basic → macroNames items = ["offer_mpst".toList]) ∧
    (kind = .cancel → macroNames items = ["offer_cancel_mpst".toList]) ∧
    (kind = .recursive ∨ kind = .recAndCancel ∨ kind = .atmp → macroNames items =
      roles.map (fun a => ("choose_mpst_".toList ++ a ++ "_to_all".toList).map Char.toLower) ++ ["offer_mpst".toList]) := by
  rw [expand_is] at h
  injection h with h
  subst h
  rw [macroNames_append, macroNames_core, List.nil_append]
  refine ⟨fun hk => ?_, fun hk => ?_, fun hk => ?_⟩
  · subst hk; rfl
  · subst hk; rfl
  · have e1 : macroNames [Item.func forkId] = [] := rfl
    have e2 : macroNames [Item.macroRules offerId] = ["offer_mpst".toList] := rfl
    have e3 : macroNames [Item.func forkId, Item.macroRules offerId] = ["offer_mpst".toList] := rfl
    rcases hk with rfl | rfl | rfl <;>
      simp only [tailItems, macroNames_append, macroNames_choose, e1, e2, e3, List.nil_append] <;> rfl

/-- Every kind emits exactly one function. -/
theorem C54_function (kind : Kind) (M : Str) (roles : List Str) (items : List Item)
    (h : expand kind M roles = some items) : funcNames items = ["fork_mpst".toList] := by
  rw [expand_is] at h
  injection h with h
  subst h
  rw [funcNames_append, funcNames_core]
  have e1 : funcNames [Item.func forkId] = ["fork_mpst".toList] := rfl
  have e2 : funcNames [Item.macroRules offerId] = [] := rfl
  have e3 : funcNames [Item.func forkId, Item.macroRules offerId] = ["fork_mpst".toList] := rfl
  have e4 : funcNames [Item.macroRules offerId, Item.func forkId] = ["fork_mpst".toList] := rfl
  have e5 : funcNames [Item.macroRules offerCancelId, Item.func forkId] = ["fork_mpst".toList] := rfl
  cases kind <;> simp only [tailItems, funcNames_append, funcNames_choose, e1, e2, e3, e4, e5, List.nil_append,
    List.append_nil]

/-! ## Reading the names of the roles -/

/-- The roles reach the expansion in the order in which the user gives them, in both forms in which they are passed
on. -/
theorem C54_reads (roles : List Str) :
    getAllRoles (rolesWithCommas roles) = roles ∧ parenthesisedGroups (rolesInGroups roles) = some roles :=
  ⟨getAllRoles_commas roles, groups_roles roles⟩

/-- Names given in several groups are read in order too, whatever the sizes of the groups. -/
theorem C54_reads_groups (gs : List (List Str)) :
    getAllRoles (gs.map fun g => .group (rolesWithCommas g)) = gs.flatten ∧
    parenthesisedGroups (gs.map fun g => .group (g.map .ident)) = some gs.flatten :=
  ⟨getAllRoles_groups gs, parenthesised_groups gs⟩

/-- The arms that read roles in parentheses refuse everything but groups of names (a group inside a
group, which is no name, counts as refused): what is read is what is written. -/
theorem C54_groups_only_names (gs : List (List Tok)) (names : List Str) :
    parenthesisedGroups (gs.map .group) = some names ↔
      ∃ nss : List (List Str), gs = nss.map (fun g => g.map .ident) ∧ names = nss.flatten := by
  constructor
  · exact parenthesised_some
  · rintro ⟨nss, rfl, rfl⟩
    rw [List.map_map]
    exact parenthesised_groups nss

example : getAllRoles [.group (rolesWithCommas ["A".toList, "B".toList]), .group (rolesWithCommas ["C".toList])] =
    ["A".toList, "B".toList, "C".toList] := (C54_reads_groups [["A".toList, "B".toList], ["C".toList]]).1

end Verif.Prop
