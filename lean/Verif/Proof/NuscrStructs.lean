import Verif.Proof.NuscrChoice
import Verif.Spec.NuscrStructs

/-!
# The types of the messages and the clocks
-/
namespace Verif.Nuscr
open Verif.NuscrSpec

/-! Declarations. -/

section declare
variable (titleCase title : Text → Text)

/-- The structure declared for a request. -/
def made (l : Text × Text) : Struct := (title l.1, if l.2 = [] then none else some (title l.2))

theorem fold_declare : ∀ (R : List (Text × Text)) (d : Declared), ∃ chosen : List (Text × Text),
    (R.foldl (declare titleCase title) d).1 = d.1 ++ chosen.map (fun r => titleCase r.1) ∧
    (R.foldl (declare titleCase title) d).2 = d.2 ++ chosen.map (made title) ∧
    (∀ r ∈ chosen, r ∈ R ∧ titleCase r.1 ∉ d.1) ∧
    (∀ r ∈ R, titleCase r.1 ∈ (R.foldl (declare titleCase title) d).1) ∧
    (d.1.Nodup → (R.foldl (declare titleCase title) d).1.Nodup)
  | [], d => ⟨[], by simp⟩
  | r :: R, d => by
    obtain ⟨chosen, h1, h2, h3, h4, h5⟩ := fold_declare R (declare titleCase title d r)
    simp only [List.foldl_cons]
    by_cases hr : titleCase r.1 ∈ d.1
    · have e : declare titleCase title d r = d := by simp [declare, hr]
      rw [e] at h1 h2 h3 h4 h5 ⊢
      refine ⟨chosen, h1, h2, fun x hx => ⟨List.mem_cons_of_mem _ (h3 x hx).1, (h3 x hx).2⟩, ?_, h5⟩
      intro x hx
      rcases List.mem_cons.mp hx with rfl | hx
      · rw [h1]; exact List.mem_append_left _ hr
      · exact h4 x hx
    · have e : declare titleCase title d r = (d.1 ++ [titleCase r.1], d.2 ++ [made title r]) := by
        simp [declare, hr, made]
      rw [e] at h1 h2 h3 h4 h5 ⊢
      refine ⟨r :: chosen, by rw [h1]; simp, by rw [h2]; simp, ?_, ?_, ?_⟩
      · intro x hx
        rcases List.mem_cons.mp hx with rfl | hx
        · exact ⟨by simp, hr⟩
        · exact ⟨List.mem_cons_of_mem _ (h3 x hx).1, fun hh => (h3 x hx).2 (List.mem_append_left _ hh)⟩
      · intro x hx
        rcases List.mem_cons.mp hx with rfl | hx
        · rw [h1]; simp
        · exact h4 x hx
      · intro hn
        refine h5 ?_
        rw [List.nodup_append]
        refine ⟨hn, by simp, ?_⟩
        intro a ha b hb
        simp only [List.mem_cons, List.not_mem_nil, or_false] at hb
        subst hb
        intro hab
        exact hr (hab ▸ ha)

end declare

mutual
/-- What `generate_structs` goes through. -/
def requests (payloads : List Text) (ord : List Nat → List (Text × Text) → List (Text × Text)) :
    Tree → List (Text × Text)
  | ⟨i, la, _, _, _, _, _, _, _, _, _, subs⟩ =>
    payloads.map (fun p => (p, ([] : Text))) ++ ord i la ++ requestsList payloads ord subs
def requestsList (payloads : List Text) (ord : List Nat → List (Text × Text) → List (Text × Text)) :
    List Tree → List (Text × Text)
  | [] => []
  | t :: ts => requests payloads ord t ++ requestsList payloads ord ts
end

section requests
variable (titleCase title : Text → Text) (payloads : List Text) (ord : List Nat → List (Text × Text) → List (Text × Text))

mutual
theorem declareAll_eq : ∀ (t : Tree) (d : Declared), declareAll titleCase title payloads ord t d =
    (requests payloads ord t).foldl (declare titleCase title) d
  | ⟨i, la, _, _, _, _, _, _, _, _, _, subs⟩, d => by
    simp only [declareAll, requests, List.foldl_append, declareTree]
    rw [declareAllList_eq subs]
theorem declareAllList_eq : ∀ (ts : List Tree) (d : Declared), declareAllList titleCase title payloads ord ts d =
    (requestsList payloads ord ts).foldl (declare titleCase title) d
  | [], d => by simp [declareAllList, requestsList]
  | t :: ts, d => by
    simp only [declareAllList, requestsList, List.foldl_append]
    rw [declareAll_eq t, declareAllList_eq ts]
end

theorem requests_eq (t : Tree) : requests payloads ord t =
    payloads.map (fun p => (p, ([] : Text))) ++ ord t.index t.labels ++ requestsList payloads ord t.subTrees := by
  cases t; simp [requests]

end requests

/-! What is known of a tree. -/

/-- What the tables of a tree contain comes from the messages `M`. -/
def Local (title : Text → Text) (M : List Msg) (T : Tables) (t : Tree) : Prop :=
  (∀ p q ds d ps, t.messages p q = some ds → d ∈ ds → writtenParams d.2 = some ps →
    ∃ m ∈ M, ps = m.params title ∧ ∃ v, (m.message, v) ∈ t.labels) ∧
  (∀ l ∈ t.labels, (∃ m ∈ M, l = (m.message, m.payload)) ∧ (l.2 ≠ [] → l.2 ∈ T.payloads))

mutual
/-- The same in the whole tree. -/
def Good (title : Text → Text) (M : List Msg) (T : Tables) : Tree → Prop
  | ⟨i, la, m, fm, p, lm, s, fs, ls, e, ep, subs⟩ =>
    Local title M T ⟨i, la, m, fm, p, lm, s, fs, ls, e, ep, []⟩ ∧ GoodList title M T subs
def GoodList (title : Text → Text) (M : List Msg) (T : Tables) : List Tree → Prop
  | [] => True
  | t :: ts => Good title M T t ∧ GoodList title M T ts
end

section good
variable {title : Text → Text} {M : List Msg} {T : Tables}

theorem good_iff {t : Tree} : Good title M T t ↔ Local title M T t ∧ GoodList title M T t.subTrees := by
  cases t; simp [Good, Local]

theorem goodList_append : ∀ {a b : List Tree}, GoodList title M T (a ++ b) ↔ GoodList title M T a ∧ GoodList title M T b
  | [], b => by simp [GoodList]
  | t :: a, b => by simp [GoodList, goodList_append (a := a), and_assoc]

theorem Local.mono {T' : Tables} {t : Tree} (h : Local title M T t) (hs : ∀ x ∈ T.payloads, x ∈ T'.payloads) :
    Local title M T' t :=
  ⟨h.1, fun l hl => ⟨(h.2 l hl).1, fun hn => hs _ ((h.2 l hl).2 hn)⟩⟩

mutual
theorem Good.mono {T' : Tables} (hs : ∀ x ∈ T.payloads, x ∈ T'.payloads) : ∀ {t : Tree}, Good title M T t → Good title M T' t
  | ⟨i, la, m, fm, p, lm, s, fs, ls, e, ep, subs⟩, h => by
    simp only [Good] at h ⊢
    exact ⟨h.1.mono hs, GoodList.mono hs h.2⟩
theorem GoodList.mono {T' : Tables} (hs : ∀ x ∈ T.payloads, x ∈ T'.payloads) : ∀ {ts : List Tree},
    GoodList title M T ts → GoodList title M T' ts
  | [], _ => by simp [GoodList]
  | t :: ts, h => by
    simp only [GoodList] at h ⊢
    exact ⟨Good.mono hs h.1, GoodList.mono hs h.2⟩
end

theorem good_new (index : List Nat) : Good title M T (Tree.new index) := by
  rw [good_iff]
  refine ⟨⟨?_, ?_⟩, ?_⟩ <;> simp [Tree.new, GoodList]

theorem good_init {roles : List Text} {idx : Text} {t : Tree} (h : Good title M T t) :
    Good title M T (initTree roles idx t) := by
  rw [good_iff] at h ⊢
  refine ⟨⟨?_, h.1.2⟩, h.2⟩
  intro p q ds d ps hds hd hp
  simp only [initTree] at hds
  split at hds
  · cases hds; cases hd
  · exact h.1.1 p q ds d ps hds hd hp

theorem good_enums {e : Text → Option (Text × Nat)} {t : Tree} (h : Good title M T t) :
    Good title M T { t with enums := e } := by
  rw [good_iff] at h ⊢
  exact h

theorem good_initSub {roles : List Text} {index : List Nat} {s : Text} : Good title M T (initSubTree roles index s) :=
  good_init (good_enums (good_new index))

theorem good_sub {t u : Tree} (h : Good title M T t) (hu : Good title M T u) :
    Good title M T { t with subTrees := t.subTrees ++ [u] } := by
  rw [good_iff] at h ⊢
  exact ⟨h.1, goodList_append.mpr ⟨h.2, hu, trivial⟩⟩

theorem mem_insertKey {k v : Text} : ∀ {l : List (Text × Text)} {x : Text × Text}, x ∈ insertKey k v l →
    x = (k, v) ∨ x ∈ l
  | [], x, h => by simp [insertKey] at h; exact .inl h
  | (a, b) :: l, x, h => by
    unfold insertKey at h
    split at h
    · rename_i e
      rcases List.mem_cons.mp h with h | h
      · exact .inl (by rw [h, e])
      · exact .inr (List.mem_cons_of_mem _ h)
    · rcases List.mem_cons.mp h with h | h
      · exact .inr (by rw [h]; exact List.mem_cons_self ..)
      · exact (mem_insertKey h).imp id (List.mem_cons_of_mem _)

theorem insertKey_self (k v : Text) : ∀ l, (k, v) ∈ insertKey k v l
  | [] => by simp [insertKey]
  | (a, b) :: l => by
    unfold insertKey
    split
    · rename_i e; simp [e]
    · exact List.mem_cons_of_mem _ (insertKey_self k v l)

theorem insertKey_key {k v : Text} : ∀ {l : List (Text × Text)} {x y : Text}, (x, y) ∈ l → ∃ z, (x, z) ∈ insertKey k v l
  | (a, b) :: l, x, y, h => by
    unfold insertKey
    rcases List.mem_cons.mp h with h | h
    · cases h
      split
      · exact ⟨v, List.mem_cons_self ..⟩
      · exact ⟨b, List.mem_cons_self ..⟩
    · split
      · exact ⟨y, List.mem_cons_of_mem _ h⟩
      · obtain ⟨z, hz⟩ := insertKey_key (k := k) (v := v) h
        exact ⟨z, List.mem_cons_of_mem _ hz⟩

/-- What a message changes in the tree. -/
theorem update_change {roles : List Text} {m : Msg} {t t' : Tree} (h : updateMessages title roles m t = .ok t') :
    t'.labels = insertKey m.message m.payload t.labels ∧ t'.subTrees = t.subTrees ∧
    ∀ p q ds d, t'.messages p q = some ds → d ∈ ds →
      (∃ ds', t.messages p q = some ds' ∧ d ∈ ds') ∨ writtenParams d.2 = some (m.params title) := by
  unfold updateMessages at h
  split at h
  · cases h
  · split at h
    · cases h
    · split at h
      · cases h
      · rename_i hne
        split at h
        · cases h
        · unfold messagesAndStacks senderMessages receiverMessages pushStack at h
          obtain ⟨t1, h1, h⟩ := bind_ok h
          obtain ⟨d1, e1, h1⟩ := bind_ok h1
          obtain ⟨_, _, h1⟩ := bind_ok h1
          obtain ⟨_, _, h1⟩ := bind_ok h1
          obtain ⟨t2, h2, h⟩ := bind_ok h
          obtain ⟨d2, e2, h2⟩ := bind_ok h2
          obtain ⟨_, _, h2⟩ := bind_ok h2
          obtain ⟨t3, h3, h⟩ := bind_ok h
          obtain ⟨_, _, h3⟩ := bind_ok h3
          obtain ⟨_, _, h3⟩ := bind_ok h3
          obtain ⟨_, _, h⟩ := bind_ok h
          obtain ⟨_, _, h⟩ := bind_ok h
          simp only [Except.ok.injEq] at h h1 h2 h3
          subst h1 h2 h3 h
          refine ⟨rfl, rfl, ?_⟩
          have u : ∀ {α : Type} {o : Option α} {a : α}, unwrap o = .ok a → o = some a := by
            intro α o a ho
            cases o with
            | none => cases ho
            | some b => simp only [unwrap, Except.ok.injEq] at ho; rw [ho]
          have e1 := u e1
          have e2 := u e2
          simp only at e1 e2
          intro p q ds d hds hd
          simp only [upd2] at hds e2
          split at hds
          · rename_i e
            cases hds
            rcases List.mem_append.mp hd with hd | hd
            · split at e2
              · rename_i e'
                exact absurd e'.2 hne
              · exact .inl ⟨d2, by rw [e.1, e.2]; exact e2, hd⟩
            · simp only [List.mem_cons, List.not_mem_nil, or_false] at hd
              subst hd
              exact .inr rfl
          · split at hds
            · rename_i e
              cases hds
              rcases List.mem_append.mp hd with hd | hd
              · exact .inl ⟨d1, by rw [e.1, e.2]; exact e1, hd⟩
              · simp only [List.mem_cons, List.not_mem_nil, or_false] at hd
                subst hd
                exact .inr rfl
            · exact .inl ⟨ds, hds, hd⟩

theorem good_update {roles : List Text} {m : Msg} {t t' : Tree} (h : updateMessages title roles m t = .ok t')
    (hg : Good title M T t) (hm : m ∈ M) (hp : m.payload ≠ [] → m.payload ∈ T.payloads) : Good title M T t' := by
  obtain ⟨c1, c2, c3⟩ := update_change h
  rw [good_iff] at hg ⊢
  refine ⟨⟨?_, ?_⟩, by rw [c2]; exact hg.2⟩
  · intro p q ds d ps hds hd hps
    rw [c1]
    rcases c3 p q ds d hds hd with ⟨ds', h1, h2⟩ | h1
    · obtain ⟨m', hm', e, v, hv⟩ := hg.1.1 p q ds' d ps h1 h2 hps
      exact ⟨m', hm', e, insertKey_key hv⟩
    · rw [h1] at hps
      cases hps
      exact ⟨m, hm, rfl, _, insertKey_self ..⟩
  · intro l hl
    rw [c1] at hl
    rcases mem_insertKey hl with rfl | hl
    · exact ⟨⟨m, hm, rfl⟩, hp⟩
    · exact hg.1.2 l hl

theorem choiceFor_change {idx x r : Text} {t t' : Tree} (h : choiceFor idx x t r = .ok t') :
    t'.labels = t.labels ∧ t'.subTrees = t.subTrees ∧
    ∀ p q ds d, t'.messages p q = some ds → d ∈ ds →
      (∃ ds', t.messages p q = some ds' ∧ d ∈ ds') ∨ writtenParams d.2 = none := by
  have u : ∀ {α : Type} {o : Option α} {a : α}, unwrap o = .ok a → o = some a := by
    intro α o a ho
    cases o with
    | none => cases ho
    | some b => simp only [unwrap, Except.ok.injEq] at ho; rw [ho]
  unfold choiceFor at h
  split at h
  · rename_i hne
    obtain ⟨d1, e1, h⟩ := bind_ok h
    obtain ⟨_, _, h⟩ := bind_ok h
    obtain ⟨d2, e2, h⟩ := bind_ok h
    obtain ⟨_, _, h⟩ := bind_ok h
    obtain ⟨_, _, h⟩ := bind_ok h
    obtain ⟨_, _, h⟩ := bind_ok h
    simp only [Except.ok.injEq] at h
    subst h
    refine ⟨rfl, rfl, ?_⟩
    have e1 := u e1
    have e2 := u e2
    intro p q ds d hds hd
    simp only [upd2] at hds e2
    split at hds
    · rename_i e
      cases hds
      rcases List.mem_append.mp hd with hd | hd
      · split at e2
        · rename_i e'
          exact absurd e'.1 hne
        · exact .inl ⟨d2, by rw [e.1, e.2]; exact e2, hd⟩
      · simp only [List.mem_cons, List.not_mem_nil, or_false] at hd
        subst hd
        exact .inr rfl
    · split at hds
      · rename_i e
        cases hds
        rcases List.mem_append.mp hd with hd | hd
        · exact .inl ⟨d1, by rw [e.1, e.2]; exact e1, hd⟩
        · simp only [List.mem_cons, List.not_mem_nil, or_false] at hd
          subst hd
          exact .inr rfl
      · exact .inl ⟨ds, hds, hd⟩
  · obtain ⟨_, _, h⟩ := bind_ok h
    obtain ⟨_, _, h⟩ := bind_ok h
    simp only [Except.ok.injEq] at h
    subst h
    exact ⟨rfl, rfl, fun p q ds d hds hd => .inl ⟨ds, hds, hd⟩⟩

theorem good_choiceAll {idx x : Text} : ∀ {roles : List Text} {t t' : Tree}, choiceAll roles idx x t = .ok t' →
    Good title M T t → Good title M T t'
  | [], t, t', h, hg => by
    simp only [choiceAll, List.foldlM_nil, pure, Except.pure, Except.ok.injEq] at h
    subst h
    exact hg
  | r :: roles, t, t', h, hg => by
    unfold choiceAll at h
    rw [List.foldlM_cons] at h
    obtain ⟨t1, h1, h⟩ := bind_ok h
    refine good_choiceAll (roles := roles) h ?_
    obtain ⟨c1, c2, c3⟩ := choiceFor_change h1
    rw [good_iff] at hg ⊢
    refine ⟨⟨?_, by rw [c1]; exact hg.1.2⟩, by rw [c2]; exact hg.2⟩
    intro p q ds d ps hds hd hps
    rw [c1]
    rcases c3 p q ds d hds hd with ⟨ds', h1, h2⟩ | h1
    · exact hg.1.1 p q ds' d ps h1 h2 hps
    · rw [h1] at hps; cases hps

/-- What is noted for a message. -/
def Noted (M : List Msg) (T : Tables) (k : Kind) : Prop :=
  ∀ m, k = .message m → m ∈ M ∧ (m.payload ≠ [] → m.payload ∈ T.payloads)

theorem good_replay {roles : List Text} {loop idx : Text} : ∀ {ks : List Kind} {b : Bool} {t t' : Tree},
    replay title roles loop idx b ks t = .ok t' → (∀ k ∈ ks, Noted M T k) → Good title M T t → Good title M T t' := by
  intro ks
  induction ks with
  | nil => intro b t t' h _ hg; simp only [replay, Except.ok.injEq] at h; subst h; exact hg
  | cons k ks ih =>
    intro b t t' h hk hg
    have hks : ∀ k ∈ ks, Noted M T k := fun x hx => hk x (List.mem_cons_of_mem _ hx)
    unfold replay at h
    split at h
    · rename_i he; cases he
    · rename_i he; cases he; exact ih h hks hg
    · rename_i he
      cases he
      obtain ⟨t1, h1, h⟩ := bind_ok h
      have := hk _ (List.mem_cons_self ..) _ rfl
      exact ih h hks (good_update h1 hg this.1 this.2)
    · exact good_choiceAll h hg
    · rename_i he; cases he; exact ih h hks hg

end good

/-- What the state contains comes from the messages `M`. -/
def GlobOk (M : List Msg) (g : Glob) : Prop :=
  (∀ x ∈ g.tables.payloads, x ≠ [] ∧ ∃ m ∈ M, x = m.payload) ∧
  ∀ x s, g.loops x = some s → ∀ k ∈ s.2, Noted M g.tables k

theorem mem_insertSet {k x : Text} {l : List Text} : x ∈ insertSet k l ↔ x = k ∨ x ∈ l := by
  unfold insertSet
  split
  · constructor
    · exact .inr
    · rintro (rfl | h)
      · assumption
      · exact h
  · simp [or_comm]

theorem note_mono (T : Tables) (k : Kind) : ∀ x ∈ T.payloads, x ∈ (T.note k).payloads := by
  intro x hx
  unfold Tables.note
  split
  · simp only
    split
    · exact hx
    · exact mem_insertSet.mpr (.inr hx)
  · exact hx

theorem note_noted {M : List Msg} {T : Tables} {k : Kind} (h : ∀ m, k = .message m → m ∈ M) : Noted M (T.note k) k := by
  intro m e
  subst e
  refine ⟨h m rfl, fun hp => ?_⟩
  simp only [Tables.note, hp, if_false]
  exact mem_insertSet.mpr (.inl rfl)

theorem Noted.mono {M : List Msg} {T T' : Tables} {k : Kind} (h : Noted M T k) (hs : ∀ x ∈ T.payloads, x ∈ T'.payloads) :
    Noted M T' k := fun m e => ⟨(h m e).1, fun hp => hs _ ((h m e).2 hp)⟩

theorem globOk_save {M : List Msg} {g : Glob} {k : Kind} (h : GlobOk M g) (hk : ∀ m, k = .message m → m ∈ M) :
    GlobOk M (g.save k) := by
  refine ⟨?_, ?_⟩
  · intro x hx
    simp only [Glob.save] at hx
    unfold Tables.note at hx
    split at hx
    · rename_i m
      simp only at hx
      split at hx
      · exact h.1 x hx
      · rename_i hp
        rcases mem_insertSet.mp hx with rfl | hx
        · exact ⟨hp, m, hk m rfl, rfl⟩
        · exact h.1 x hx
    · exact h.1 x hx
  · intro x s hs k' hk'
    simp only [Glob.save] at hs
    cases hl : g.loops x with
    | none => rw [hl] at hs; cases hs
    | some s' =>
      rw [hl] at hs
      simp only [Option.map_some, Option.some.injEq] at hs
      subst hs
      rcases List.mem_append.mp hk' with hk' | hk'
      · exact (h.2 x s' hl k' hk').mono (note_mono _ _)
      · simp only [List.mem_cons, List.not_mem_nil, or_false] at hk'
        subst hk'
        exact note_noted hk

/-- The trees and the tables contain what the text contains. -/
theorem processLine_good (title : Text → Text) (M : List Msg) : ∀ (fuel : Nat) (g : Glob) (parent main : Tree)
    (offset : Nat) (lines : List (Nat × Line)) (d : Done),
    processLine title fuel g parent main offset lines = .ok d → (∀ m ∈ messagesIn (lines.map (·.2)), m ∈ M) →
    GlobOk M g → Good title M g.tables parent → Good title M g.tables main →
    GlobOk M d.glob ∧ Good title M d.glob.tables d.parent ∧ Good title M d.glob.tables d.main ∧
      (∀ x ∈ g.tables.payloads, x ∈ d.glob.tables.payloads) ∧
      (∀ m ∈ messagesIn (d.rest.map (·.2)), m ∈ M)
  | 0, _, _, _, _, _, _, h, _, _, _, _ => by simp only [processLine] at h; cases h
  | fuel + 1, g, parent, main, offset, [], d, h, hl, hg, hp, hm => by
    simp only [processLine, Except.ok.injEq] at h
    subst h
    exact ⟨hg, hp, hm, fun _ h => h, by simp [messagesIn]⟩
  | fuel + 1, g, parent, main, offset, (n, l) :: rest, d, h, hl, hg, hp, hm => by
    have ih := processLine_good title M fuel
    have hr : ∀ m ∈ messagesIn (rest.map (·.2)), m ∈ M := by
      intro m hm
      refine hl m ?_
      simp only [messagesIn, List.map_cons, List.filterMap_cons] at hm ⊢
      split
      · exact hm
      · exact List.mem_cons_of_mem _ hm
    have hk : ∀ m, l.kind = .message m → m ∈ M := by
      intro m e
      refine hl m ?_
      simp [messagesIn, e]
    unfold processLine at h
    simp only at h
    split at h
    · cases h
    · split at h
      · cases h
      · split at h
        · simp only [Except.ok.injEq] at h
          subst h
          exact ⟨hg, hp, hm, fun _ h => h, hr⟩
        · split at h
          · have := ih _ _ _ _ _ _ h hr hg hp hm
            exact this
          · split at h
            · split at h
              · cases h
              · have := ih _ _ _ _ _ _ h hr hg hp (good_init hm)
                exact this
            · rename_i m e
              split at h
              · cases h
              · obtain ⟨t, h1, h⟩ := bind_ok h
                have hmM := hk m e
                have hs : GlobOk M (g.save (.message m)) := globOk_save hg fun m' e' => by cases e'; exact hmM
                obtain ⟨a1, a2, a3, a4, a5⟩ := ih _ _ _ _ _ _ h hr ⟨hs.1, hs.2⟩ (hp.mono (note_mono _ (.message m)))
                  (good_update h1 (hm.mono (note_mono _ (.message m))) hmM
                    (note_noted (T := g.tables) (fun m' e' => by cases e'; exact hmM) m rfl).2)
                exact ⟨a1, a2, a3, fun x hx => a4 x (note_mono _ (.message m) x hx), a5⟩
            · rename_i x e
              split at h
              · cases h
              · obtain ⟨t, h1, h⟩ := bind_ok h
                obtain ⟨d1, h2, h⟩ := bind_ok h
                have hs : GlobOk M (g.save (.choice x)) := globOk_save hg fun m' e' => by cases e'
                obtain ⟨a1, a2, a3, a4, a5⟩ := ih _ _ _ _ _ _ h2 hr ⟨hs.1, hs.2⟩ (good_choiceAll h1 (good_enums hm))
                  good_initSub
                obtain ⟨b1, b2, b3, b4, b5⟩ := ih _ _ _ _ _ _ h a5 a1 (hp.mono a4) (good_sub a2 a3)
                exact ⟨b1, b2, b3, fun x hx => b4 x (a4 x hx), b5⟩
            · split at h
              · cases h
              · obtain ⟨t, h1, h⟩ := bind_ok h
                obtain ⟨d1, h2, h⟩ := bind_ok h
                obtain ⟨a1, a2, a3, a4, a5⟩ := ih _ _ _ _ _ _ h2 hr ⟨hg.1, hg.2⟩ (good_enums hp) good_initSub
                obtain ⟨b1, b2, b3, b4, b5⟩ := ih _ _ _ _ _ _ h a5 a1 (good_sub a2 a3) (hm.mono a4)
                exact ⟨b1, b2, b3, fun x hx => b4 x (a4 x hx), b5⟩
            · rename_i x e
              split at h
              · cases h
              · have hs : GlobOk M ({ g with loops := upd g.loops x (indexText main.index, []) }.save (.loop x)) := ?_
                · have := ih _ _ _ _ _ _ h hr ⟨hs.1, hs.2⟩ hp hm
                  exact this
                refine globOk_save ⟨hg.1, ?_⟩ fun m' e' => by cases e'
                intro y s hs k hk'
                simp only [upd] at hs
                split at hs
                · cases hs; cases hk'
                · exact hg.2 y s hs k hk'
            · rename_i x e
              split at h
              · cases h
              · split at h
                · rename_i idx saved hs
                  obtain ⟨t, h1, h⟩ := bind_ok h
                  have := ih _ _ _ _ _ _ h hr ⟨hg.1, hg.2⟩ hp (good_replay h1 (hg.2 x _ hs) hm)
                  exact this
                · cases h
            · split at h
              · cases h
              · have := ih _ _ _ _ _ _ h hr ⟨hg.1, hg.2⟩ hp hm
                exact this

theorem reading_good {title : Text → Text} {lines : List Line} {k : Known} (h : reading title lines = .ok k) :
    Good title (messagesIn lines) k.tables k.main ∧
    ∀ x ∈ k.tables.payloads, x ≠ [] ∧ ∃ m ∈ messagesIn lines, x = m.payload := by
  unfold reading at h
  obtain ⟨d, hd, h⟩ := bind_ok h
  split at h
  · cases h
  · split at h
    · cases h
    · simp only [Except.ok.injEq] at h
      subst h
      obtain ⟨a1, _, a3, _⟩ := processLine_good title (messagesIn lines) _ _ _ _ _ _ d hd
        (by rw [number_snd]; exact fun _ h => h) ⟨by simp [Glob.start, Tables.empty], by simp [Glob.start]⟩ (good_new _) (good_new _)
      exact ⟨a3, a1.1⟩

section out
variable {title : Text → Text} {M : List Msg} {T : Tables} {payloads : List Text}
  {ord : List Nat → List (Text × Text) → List (Text × Text)} (hord : ∀ i l, (ord i l).Perm l) {roles : List Text}
include hord

theorem sessions_local {t : Tree} (h : Local title M T t) {d : Text × Rhs} (hd : d ∈ genSessions roles t) {ps : Params}
    (hp : writtenParams d.2 = some ps) : ∃ m ∈ M, ps = m.params title ∧ ∃ v, (m.message, v) ∈ ord t.index t.labels := by
  unfold genSessions at hd
  simp only [List.mem_flatMap] at hd
  obtain ⟨p, _, q, _, hd⟩ := hd
  split at hd
  · cases hd
  · rcases List.mem_append.mp hd with hd | hd
    · cases hm : t.messages p q with
      | none => rw [hm] at hd; cases hd
      | some ds =>
        rw [hm] at hd
        obtain ⟨m, h1, h2, v, h3⟩ := h.1 p q ds d ps hm hd hp
        exact ⟨m, h1, h2, v, (hord _ _).mem_iff.mpr h3⟩
    · split at hd
      · simp only [List.mem_cons, List.not_mem_nil, or_false] at hd
        subst hd
        cases hp
      · cases hd

mutual
theorem sessions_requests : ∀ {t : Tree}, Good title M T t → ∀ {d : Text × Rhs}, d ∈ allSessions roles t → ∀ {ps : Params},
    writtenParams d.2 = some ps → ∃ m ∈ M, ps = m.params title ∧ ∃ v, (m.message, v) ∈ requests payloads ord t
  | ⟨i, la, m, fm, p, lm, s, fs, ls, e, ep, subs⟩, h, d, hd, ps, hp => by
    simp only [Good] at h
    simp only [allSessions, List.mem_append] at hd
    rcases hd with hd | hd
    · obtain ⟨m, h1, h2, v, h3⟩ := sessions_local hord h.1 hd hp
      exact ⟨m, h1, h2, v, by simp only [requests, List.mem_append]; exact .inl (.inr h3)⟩
    · obtain ⟨m, h1, h2, v, h3⟩ := sessionsList_requests h.2 hd hp
      exact ⟨m, h1, h2, v, by simp only [requests, List.mem_append]; exact .inr h3⟩
theorem sessionsList_requests : ∀ {ts : List Tree}, GoodList title M T ts → ∀ {d : Text × Rhs}, d ∈ allSessionsList roles ts →
    ∀ {ps : Params}, writtenParams d.2 = some ps → ∃ m ∈ M, ps = m.params title ∧ ∃ v, (m.message, v) ∈ requestsList payloads ord ts
  | [], _, d, hd, _, _ => by simp [allSessionsList] at hd
  | t :: ts, h, d, hd, ps, hp => by
    simp only [GoodList] at h
    simp only [allSessionsList, List.mem_append] at hd
    rcases hd with hd | hd
    · obtain ⟨m, h1, h2, v, h3⟩ := sessions_requests h.1 hd hp
      exact ⟨m, h1, h2, v, by simp only [requestsList, List.mem_append]; exact .inl h3⟩
    · obtain ⟨m, h1, h2, v, h3⟩ := sessionsList_requests h.2 hd hp
      exact ⟨m, h1, h2, v, by simp only [requestsList, List.mem_append]; exact .inr h3⟩
end

mutual
theorem requests_origin : ∀ {t : Tree}, Good title M T t → ∀ {l : Text × Text}, l ∈ requests payloads ord t →
    (l.1 ∈ payloads ∧ l.2 = []) ∨ ((∃ m ∈ M, l = (m.message, m.payload)) ∧ (l.2 ≠ [] → l.2 ∈ T.payloads))
  | ⟨i, la, m, fm, p, lm, s, fs, ls, e, ep, subs⟩, h, l, hl => by
    simp only [Good] at h
    simp only [requests, List.mem_append, List.mem_map] at hl
    rcases hl with (⟨x, hx, rfl⟩ | hl) | hl
    · exact .inl ⟨hx, rfl⟩
    · exact .inr (h.1.2 l ((hord _ _).mem_iff.mp hl))
    · exact requestsList_origin h.2 hl
theorem requestsList_origin : ∀ {ts : List Tree}, GoodList title M T ts → ∀ {l : Text × Text}, l ∈ requestsList payloads ord ts →
    (l.1 ∈ payloads ∧ l.2 = []) ∨ ((∃ m ∈ M, l = (m.message, m.payload)) ∧ (l.2 ≠ [] → l.2 ∈ T.payloads))
  | [], _, l, hl => by simp [requestsList] at hl
  | t :: ts, h, l, hl => by
    simp only [GoodList] at h
    simp only [requestsList, List.mem_append] at hl
    rcases hl with hl | hl
    · exact requests_origin h.1 hl
    · exact requestsList_origin h.2 hl
end

end out

end Verif.Nuscr
