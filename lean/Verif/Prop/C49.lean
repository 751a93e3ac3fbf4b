import Verif.Prop.C47
import Verif.Proof.NuscrStructs

/-!
# C49: the types of the messages and the clocks in the generated file

`structs` are the structures declared in the generated file, whatever the order in which its hash maps are visited
(`ordP`, `ord`).
-/
namespace Verif.Prop
open Verif.Nuscr Verif.NuscrSpec

section
variable {titleCase : Text → Text} {white : Char → Bool} {ordP : List Text → List Text}
  {ord : List Nat → List (Text × Text) → List (Text × Text)}

theorem typeName_congr {a b : Text} (h : titleCase a = titleCase b) :
    typeName titleCase white a = typeName titleCase white b := by
  unfold typeName; rw [h]

/-- What the declarations are made of. -/
theorem structs_chosen {lines : List Line} {ss : List Struct} (h : structs titleCase white ordP ord lines = .ok ss) :
    ∃ k, reading (typeName titleCase white) lines = .ok k ∧ ∃ chosen : List (Text × Text),
      ss = chosen.map (made (typeName titleCase white)) ∧
      (∀ r ∈ chosen, r ∈ requests (ordP k.tables.payloads) ord k.main) ∧
      (chosen.map fun r => titleCase r.1).Nodup ∧
      (∀ r ∈ requests (ordP k.tables.payloads) ord k.main, ∃ r' ∈ chosen, titleCase r'.1 = titleCase r.1) ∧
      (∀ x ∈ ordP k.tables.payloads, (typeName titleCase white x, none) ∈ ss) := by
  unfold structs at h
  obtain ⟨k, hk, h⟩ := bind_ok h
  refine ⟨k, hk, ?_⟩
  simp only [Except.ok.injEq] at h
  rw [declareAll_eq] at h
  obtain ⟨chosen, c1, c2, c3, c4, c5⟩ := fold_declare titleCase (typeName titleCase white)
    (requests (ordP k.tables.payloads) ord k.main) ([], [])
  rw [h] at c2
  simp only [List.nil_append] at c1 c2
  refine ⟨chosen, c2, fun r hr => (c3 r hr).1, by rw [← c1]; exact c5 List.nodup_nil, ?_, ?_⟩
  · intro r hr
    have := c4 r hr
    rw [c1] at this
    obtain ⟨r', h1, h2⟩ := List.mem_map.mp this
    exact ⟨r', h1, h2⟩
  · intro x hx
    rw [requests_eq, List.append_assoc, List.foldl_append] at h
    obtain ⟨pc, p1, p2, p3, p4, _⟩ := fold_declare titleCase (typeName titleCase white)
      ((ordP k.tables.payloads).map fun p => (p, ([] : Text))) ([], [])
    obtain ⟨_, _, q2, _, _, _⟩ := fold_declare titleCase (typeName titleCase white)
      (ord k.main.index k.main.labels ++ requestsList (ordP k.tables.payloads) ord k.main.subTrees)
      (((ordP k.tables.payloads).map fun p => (p, ([] : Text))).foldl (declare titleCase (typeName titleCase white)) ([], []))
    have hx' := p4 (x, []) (List.mem_map.mpr ⟨x, hx, rfl⟩)
    rw [p1] at hx'
    simp only [List.nil_append] at hx' p2
    obtain ⟨r, r1, r2⟩ := List.mem_map.mp hx'
    rw [← h, q2, p2]
    refine List.mem_append_left _ (List.mem_map.mpr ⟨r, r1, ?_⟩)
    obtain ⟨y, _, rfl⟩ := List.mem_map.mp (p3 r r1).1
    simp only [made, if_true, Prod.mk.injEq, and_true]
    exact typeName_congr r2

variable (hordP : ∀ l, (ordP l).Perm l) (hord : ∀ i l, (ord i l).Perm l)
include hordP hord

/-- C49, every type is declared.  Whatever text is accepted, the type of each message exchanged in the generated sessions
is one of the structures, and so is the type of the payload of each structure. -/
theorem C49_declared (lines : List Line) (prog : Program) (ss : List Struct)
    (h : generator (typeName titleCase white) lines = .ok prog) (hs : structs titleCase white ordP ord lines = .ok ss) :
    (∀ d ∈ prog.sessions, ∀ ps, writtenParams d.2 = some ps → ps.message ∈ ss.map (·.1)) ∧
    (∀ s ∈ ss, ∀ x, s.2 = some x → (x, none) ∈ ss) := by
  obtain ⟨k, hk, chosen, c1, c2, c3, c4, c5⟩ := structs_chosen hs
  unfold generator at h
  rw [hk] at h
  simp only [ok_bind, Except.ok.injEq] at h
  subst h
  obtain ⟨g1, g2⟩ := reading_good hk
  constructor
  · intro d hd ps hp
    obtain ⟨m, m1, m2, v, m3⟩ := sessions_requests (payloads := ordP k.tables.payloads) hord g1 hd hp
    obtain ⟨r, r1, r2⟩ := c4 _ m3
    rw [c1, List.map_map]
    refine List.mem_map.mpr ⟨r, r1, ?_⟩
    rw [m2]
    exact typeName_congr r2
  · intro s hs x hx
    rw [c1] at hs
    obtain ⟨r, r1, rfl⟩ := List.mem_map.mp hs
    have e : ∃ y, y ∈ k.tables.payloads ∧ x = typeName titleCase white y := by
      rcases requests_origin hord g1 (c2 r r1) with h | h
      · simp [made, h.2] at hx
      · simp only [made] at hx
        split at hx
        · cases hx
        · rename_i hn
          cases hx
          exact ⟨r.2, h.2 hn, rfl⟩
    obtain ⟨y, y1, rfl⟩ := e
    exact c5 y ((hordP _).mem_iff.mpr y1)

/-- C49, nothing else is declared: each structure is the one of a message of the text, or of its payload. -/
theorem C49_only (lines : List Line) (ss : List Struct) (hs : structs titleCase white ordP ord lines = .ok ss) :
    ∀ s ∈ ss, ∃ m ∈ messagesIn lines, s = structOf (typeName titleCase white) m ∨
      (m.payload ≠ [] ∧ s = (typeName titleCase white m.payload, none)) := by
  obtain ⟨k, hk, chosen, c1, c2, c3, c4, c5⟩ := structs_chosen hs
  obtain ⟨g1, g2⟩ := reading_good hk
  intro s hs
  rw [c1] at hs
  obtain ⟨r, r1, rfl⟩ := List.mem_map.mp hs
  rcases requests_origin hord g1 (c2 r r1) with h | h
  · obtain ⟨h1, m, h2, h3⟩ := g2 r.1 ((hordP _).mem_iff.mp h.1)
    refine ⟨m, h2, .inr ⟨h3 ▸ h1, ?_⟩⟩
    simp [made, h.2, h3]
  · obtain ⟨m, h2, h3⟩ := h.1
    subst h3
    exact ⟨m, h2, .inl rfl⟩

/-- C49, no type is declared twice, if names of the text that differ in title case differ as types. -/
theorem C49_once (lines : List Line) (ss : List Struct) (hs : structs titleCase white ordP ord lines = .ok ss)
    (hd : ∀ a ∈ named (messagesIn lines), ∀ b ∈ named (messagesIn lines),
      typeName titleCase white a = typeName titleCase white b → titleCase a = titleCase b) :
    (ss.map (·.1)).Nodup := by
  obtain ⟨k, hk, chosen, c1, c2, c3, c4, c5⟩ := structs_chosen hs
  obtain ⟨g1, g2⟩ := reading_good hk
  have hn : ∀ r ∈ chosen, r.1 ∈ named (messagesIn lines) := by
    intro r hr
    unfold named
    rcases requests_origin hord g1 (c2 r hr) with h | h
    · obtain ⟨h1, m, h2, h3⟩ := g2 r.1 ((hordP _).mem_iff.mp h.1)
      exact List.mem_append_right _ (List.mem_filter.mpr ⟨List.mem_map.mpr ⟨m, h2, h3.symm⟩, by simpa using h1⟩)
    · obtain ⟨m, h2, h3⟩ := h.1
      exact List.mem_append_left _ (List.mem_map.mpr ⟨m, h2, by rw [h3]⟩)
  rw [c1, List.map_map]
  clear c1 c2 c4 c5 hs
  induction chosen with
  | nil => simp
  | cons r rs ih =>
    simp only [List.map_cons, List.nodup_cons] at c3 ⊢
    refine ⟨?_, ih c3.2 fun x hx => hn x (List.mem_cons_of_mem _ hx)⟩
    intro hm
    obtain ⟨r', h1, h2⟩ := List.mem_map.mp hm
    refine c3.1 (List.mem_map.mpr ⟨r', h1, ?_⟩)
    exact hd _ (hn _ (List.mem_cons_of_mem _ h1)) _ (hn _ (List.mem_cons_self ..)) h2

theorem structOf_mem {lines : List Line} {k : Known} {ss : List Struct} {chosen : List (Text × Text)}
    (hk : reading (typeName titleCase white) lines = .ok k) (c1 : ss = chosen.map (made (typeName titleCase white)))
    (c2 : ∀ r ∈ chosen, r ∈ requests (ordP k.tables.payloads) ord k.main)
    (c4 : ∀ r ∈ requests (ordP k.tables.payloads) ord k.main, ∃ r' ∈ chosen, titleCase r'.1 = titleCase r.1)
    (hc : Consistent titleCase (messagesIn lines)) {m : Msg} (hm : m ∈ messagesIn lines) {v : Text}
    (hv : (m.message, v) ∈ requests (ordP k.tables.payloads) ord k.main) :
    structOf (typeName titleCase white) m ∈ ss := by
  obtain ⟨g1, g2⟩ := reading_good hk
  obtain ⟨r, r1, r2⟩ := c4 _ hv
  simp only at r2
  rcases requests_origin hord g1 (c2 r r1) with h | h
  · obtain ⟨h1, m', h2, h3⟩ := g2 r.1 ((hordP _).mem_iff.mp h.1)
    exact absurd (by rw [← h3, r2]) (hc.apart m hm m' h2 (h3 ▸ h1))
  · obtain ⟨m', h2, h3⟩ := h.1
    subst h3
    simp only at r2
    have e := hc.same m' h2 m hm r2
    rw [c1]
    refine List.mem_map.mpr ⟨_, r1, ?_⟩
    simp only [made, structOf, e, typeName_congr (white := white) r2]

/-- C49, the payloads.  If labels that are the same in title case carry the same payload, and no label is the name of a
payload, then the type of each message exchanged in the generated sessions has the field written in the protocol. -/
theorem C49_payloads (lines : List Line) (prog : Program) (ss : List Struct)
    (h : generator (typeName titleCase white) lines = .ok prog) (hs : structs titleCase white ordP ord lines = .ok ss)
    (hc : Consistent titleCase (messagesIn lines)) :
    ∀ d ∈ prog.sessions, ∀ ps, writtenParams d.2 = some ps → ∃ m ∈ messagesIn lines,
      ps = written (typeName titleCase white) m ∧ structOf (typeName titleCase white) m ∈ ss := by
  obtain ⟨k, hk, chosen, c1, c2, c3, c4, c5⟩ := structs_chosen hs
  unfold generator at h
  rw [hk] at h
  simp only [ok_bind, Except.ok.injEq] at h
  subst h
  obtain ⟨g1, g2⟩ := reading_good hk
  intro d hd ps hp
  obtain ⟨m, m1, m2, v, m3⟩ := sessions_requests (payloads := ordP k.tables.payloads) hord g1 hd hp
  exact ⟨m, m1, (m2.trans (params_written _ _)), structOf_mem hordP hord hk c1 c2 c4 hc m1 m3⟩

end

/-! Protocols with loops and a choice. -/

theorem messagesIn_append (a b : List Line) : messagesIn (a ++ b) = messagesIn a ++ messagesIn b := by
  simp [messagesIn]

theorem messagesIn_messages (msgs : List Msg) :
    messagesIn (msgs.map fun m => (⟨0, 0, false, .message m⟩ : Line)) = msgs := by
  simp [messagesIn, List.filterMap_map, Function.comp_def]

theorem messagesIn_branch (b : Branch) : messagesIn b.lines = b.msgs := by
  unfold Branch.lines
  rw [messagesIn_append, messagesIn_messages]
  cases b.back <;> simp [messagesIn]

theorem messagesIn_items : ∀ is : List Item, messagesIn (is.map Item.line) = messagesOf is
  | [] => rfl
  | .msg m :: is => by
    have := messagesIn_items is
    simp only [messagesIn] at this
    simp [messagesIn, messagesOf, Item.line, this]
  | .loop l :: is => by
    have := messagesIn_items is
    simp only [messagesIn] at this
    simp [messagesIn, messagesOf, Item.line, this]

theorem messagesIn_others : ∀ bs : List Branch,
    messagesIn (bs.flatMap (fun b => ⟨1, 1, false, .or⟩ :: b.lines)) = bs.flatMap (·.msgs)
  | [] => rfl
  | b :: bs => by
    simp only [List.flatMap_cons]
    rw [messagesIn_append, messagesIn_others bs]
    have := messagesIn_branch b
    simp only [messagesIn] at this
    simp [messagesIn, this]

/-- The messages of the text of a protocol are its messages. -/
theorem messagesIn_proto (P : Proto) : messagesIn P.lines = P.messages := by
  unfold Proto.lines
  rw [messagesIn_append, messagesIn_append, messagesIn_append, messagesIn_others]
  have h1 := messagesIn_items P.pre
  have h2 := messagesIn_branch P.first
  simp only [messagesIn] at h1 h2
  have h3 : ∀ n, messagesIn (List.replicate n (⟨0, 1, false, .other⟩ : Line)) = [] := by
    intro n
    induction n with
    | zero => rfl
    | succ n ih => simpa [List.replicate_succ, messagesIn] using ih
  rw [h3]
  simp [messagesIn, h1, h2, Proto.messages, Proto.branches]

/-- What each message leaves among the labels. -/
theorem add_labels {title : Text → Text} {roles : List Text} : ∀ {msgs : List Msg} {t t' : Tree},
    addMessages title roles msgs t = .ok t' → (∀ m ∈ msgs, ∃ v, (m.message, v) ∈ t'.labels) ∧
      ∀ x y, (x, y) ∈ t.labels → ∃ z, (x, z) ∈ t'.labels
  | [], t, t', h => by
    simp only [addMessages, List.foldlM_nil, pure, Except.pure, Except.ok.injEq] at h
    subst h
    exact ⟨by simp, fun x y h => ⟨y, h⟩⟩
  | m :: msgs, t, t', h => by
    unfold addMessages at h
    rw [List.foldlM_cons] at h
    obtain ⟨t1, h1, h⟩ := bind_ok h
    obtain ⟨c1, _, _⟩ := update_change h1
    obtain ⟨b1, b2⟩ := add_labels (msgs := msgs) h
    refine ⟨?_, ?_⟩
    · intro x hx
      rcases List.mem_cons.mp hx with rfl | hx
      · exact b2 _ _ (by rw [c1]; exact insertKey_self ..)
      · exact b1 x hx
    · intro x y hxy
      obtain ⟨z, hz⟩ := insertKey_key (k := m.message) (v := m.payload) hxy
      exact b2 x z (by rw [c1]; exact hz)

theorem choiceAll_labels {idx x : Text} : ∀ {roles : List Text} {t t' : Tree}, choiceAll roles idx x t = .ok t' →
    t'.labels = t.labels
  | [], t, t', h => by
    simp only [choiceAll, List.foldlM_nil, pure, Except.pure, Except.ok.injEq] at h
    subst h
    rfl
  | r :: roles, t, t', h => by
    unfold choiceAll at h
    rw [List.foldlM_cons] at h
    obtain ⟨t1, h1, h⟩ := bind_ok h
    rw [choiceAll_labels (roles := roles) h, (choiceFor_change h1).1]

theorem branch_labels {title : Text → Text} {roles : List Text} {idx : Text} {pre : List Item} {x : Text} {b : Branch}
    {t t' : Tree} (h : branchTree title roles idx pre x b t = .ok t') : ∀ m ∈ b.msgs, ∃ v, (m.message, v) ∈ t'.labels := by
  unfold branchTree at h
  obtain ⟨t1, h1, h⟩ := bind_ok h
  obtain ⟨a1, _⟩ := add_labels h1
  cases hb : b.back with
  | none =>
    rw [hb] at h
    simp only [Except.ok.injEq] at h
    subst h
    exact a1
  | some l =>
    rw [hb] at h
    simp only at h
    cases hl : loopBody l pre with
    | none => rw [hl] at h; cases h
    | some ms =>
      rw [hl] at h
      obtain ⟨t2, h2, h⟩ := bind_ok h
      obtain ⟨_, b2⟩ := add_labels h2
      intro m hm
      obtain ⟨v, hv⟩ := a1 m hm
      rw [choiceAll_labels h]
      exact b2 _ _ hv

theorem trees_mem {F : Nat → Branch → Except Fault Tree} : ∀ {bs : List Branch} {j : Nat} {ts : List Tree},
    treesFrom F j bs = .ok ts → ∀ b ∈ bs, ∃ i, ∃ t ∈ ts, F i b = .ok t
  | [], _, _, _, _, hb => by cases hb
  | b :: bs, j, ts, h, b', hb => by
    unfold treesFrom at h
    obtain ⟨t, h1, h⟩ := bind_ok h
    obtain ⟨ts', h2, h⟩ := bind_ok h
    simp only [Except.ok.injEq] at h
    subst h
    rcases List.mem_cons.mp hb with rfl | hb
    · exact ⟨j, t, by simp, h1⟩
    · obtain ⟨i, t', t1, t2⟩ := trees_mem h2 b' hb
      exact ⟨i, t', List.mem_cons_of_mem _ t1, t2⟩

theorem requestsList_mem {payloads : List Text} {ord : List Nat → List (Text × Text) → List (Text × Text)} :
    ∀ {ts : List Tree} {t : Tree}, t ∈ ts → ∀ l ∈ requests payloads ord t, l ∈ requestsList payloads ord ts
  | u :: ts, t, ht, l, hl => by
    simp only [requestsList, List.mem_append]
    rcases List.mem_cons.mp ht with rfl | ht
    · exact .inl hl
    · exact .inr (requestsList_mem ht l hl)

theorem note_payloads : ∀ (msgs : List Msg) (T : Tables) (x : Text), x ∈ ((msgs.map Kind.message).foldl Tables.note T).payloads ↔
    x ∈ T.payloads ∨ ∃ m ∈ msgs, m.payload ≠ [] ∧ x = m.payload
  | [], T, x => by simp
  | m :: msgs, T, x => by
    simp only [List.map_cons, List.foldl_cons]
    rw [note_payloads msgs]
    simp only [Tables.note, List.mem_cons, exists_eq_or_imp]
    by_cases h : m.payload = []
    · simp [h]
    · simp only [h, if_false, mem_insertSet]
      constructor
      · rintro ((rfl | h) | h)
        · exact .inr (.inl ⟨fun h' => h h', rfl⟩)
        · exact .inl h
        · exact .inr (.inr h)
      · rintro (h | ⟨_, rfl⟩ | h)
        · exact .inl (.inr h)
        · exact .inl (.inl rfl)
        · exact .inr h

/-- C49, for protocols with loops and a choice: every message has the type that it needs, and so has every payload. -/
theorem C49_protocol {titleCase : Text → Text} {white : Char → Bool} {ordP : List Text → List Text}
    {ord : List Nat → List (Text × Text) → List (Text × Text)} (hordP : ∀ l, (ordP l).Perm l)
    (hord : ∀ i l, (ord i l).Perm l) (P : Proto) (ss : List Struct)
    (hs : structs titleCase white ordP ord P.lines = .ok ss) (hc : Consistent titleCase P.messages) :
    (∀ m ∈ P.messages, structOf (typeName titleCase white) m ∈ ss ∧
      (m.payload ≠ [] → (typeName titleCase white m.payload, none) ∈ ss)) ∧
    ∀ s ∈ ss, ∃ m ∈ P.messages, s = structOf (typeName titleCase white) m ∨
      (m.payload ≠ [] ∧ s = (typeName titleCase white m.payload, none)) := by
  refine ⟨?_, messagesIn_proto P ▸ C49_only hordP hord P.lines ss hs⟩
  intro m hm
  obtain ⟨k, hk, chosen, c1, c2, c3, c4, c5⟩ := structs_chosen hs
  have hk' := hk
  rw [reading_choice] at hk'
  obtain ⟨m1, h1, hk'⟩ := bind_ok hk'
  obtain ⟨m2, h2, hk'⟩ := bind_ok hk'
  obtain ⟨ts, h3, hk'⟩ := bind_ok hk'
  simp only [Except.ok.injEq] at hk'
  constructor
  · have : ∃ v, (m.message, v) ∈ requests (ordP k.tables.payloads) ord k.main := by
      rw [requests_eq]
      simp only [List.mem_append]
      rcases List.mem_append.mp hm with hm | hm
      · obtain ⟨v, hv⟩ := (add_labels h1).1 m hm
        refine ⟨v, .inl (.inr ((hord _ _).mem_iff.mpr ?_))⟩
        subst hk'
        simp only
        rw [choiceAll_labels h2]
        exact hv
      · obtain ⟨b, hb, hmb⟩ := List.mem_flatMap.mp hm
        obtain ⟨i, t, t1, t2⟩ := trees_mem h3 b hb
        obtain ⟨v, hv⟩ := branch_labels t2 m hmb
        refine ⟨v, .inr (requestsList_mem (t := t) ?_ _ ?_)⟩
        · subst hk'
          simp only [List.mem_append, List.mem_reverse]
          have : t ∈ ts.take 1 ++ ts.drop 1 := by rw [List.take_append_drop]; exact t1
          rcases List.mem_append.mp this with h | h
          · exact .inr h
          · exact .inl (.inr h)
        · rw [requests_eq]
          simp only [List.mem_append]
          exact .inl (.inr ((hord _ _).mem_iff.mpr hv))
    obtain ⟨v, hv⟩ := this
    exact structOf_mem hordP hord hk c1 c2 c4 (by rw [messagesIn_proto]; exact hc) (by rw [messagesIn_proto]; exact hm) hv
  · intro hp
    refine c5 _ ((hordP _).mem_iff.mpr ?_)
    subst hk'
    exact (note_payloads _ _ _).mpr (.inr ⟨m, hm, hp, rfl⟩)

/-! Clocks. -/

theorem note_clocks : ∀ (msgs : List Msg) (T : Tables) (r c : Text), c ∈ ((msgs.map Kind.message).foldl Tables.note T).clocks r ↔
    c ∈ T.clocks r ∨ ∃ m ∈ msgs, Involved r m ∧ c = m.clock
  | [], T, r, c => by simp
  | m :: msgs, T, r, c => by
    simp only [List.map_cons, List.foldl_cons]
    rw [note_clocks msgs]
    simp only [Tables.note, List.mem_cons, exists_eq_or_imp]
    by_cases h : r = m.sender ∨ r = m.receiver
    · rw [if_pos h, mem_insertSet]
      have h' : Involved r m := h.imp Eq.symm Eq.symm
      simp only [h', true_and]
      constructor
      · rintro ((h | h) | h)
        · exact .inr (.inl h)
        · exact .inl h
        · exact .inr (.inr h)
      · rintro (h | h | h)
        · exact .inl (.inr h)
        · exact .inl (.inl h)
        · exact .inr h
    · rw [if_neg h]
      have h' : ¬ Involved r m := fun x => h (x.imp Eq.symm Eq.symm)
      simp only [h', false_and, false_or]

theorem insertSet_nodup {k : Text} {l : List Text} (h : l.Nodup) : (insertSet k l).Nodup := by
  unfold insertSet
  split
  · exact h
  · rename_i hk
    rw [List.nodup_append]
    refine ⟨h, by simp, ?_⟩
    intro a ha b hb hab
    simp only [List.mem_cons, List.not_mem_nil, or_false] at hb
    exact hk (hb ▸ hab ▸ ha)

theorem note_nodup (r : Text) : ∀ (msgs : List Msg) (T : Tables), (T.clocks r).Nodup →
    (((msgs.map Kind.message).foldl Tables.note T).clocks r).Nodup
  | [], T, h => h
  | m :: msgs, T, h => by
    simp only [List.map_cons, List.foldl_cons]
    refine note_nodup r msgs _ ?_
    simp only [Tables.note]
    split
    · exact insertSet_nodup h
    · exact h

/-- C49, clocks.  Each function of a role, also those for the branches, starts, once each, the clocks of the messages in
which the role takes part, and no other.  `f.1` is the role, `f.2` says which function it is. -/
theorem C49_clocks (title : Text → Text) (P : Proto) (fs : List ((Text × Text × Nat) × List Text))
    (h : bodies title P.lines = .ok fs) :
    ∀ f cs, (f, cs) ∈ fs → cs.Nodup ∧ ∀ c, c ∈ cs ↔ ∃ m ∈ P.messages, Involved f.1 m ∧ c = m.clock := by
  unfold bodies at h
  rw [reading_choice] at h
  simp only [bind_assoc', ok_bind] at h
  obtain ⟨m1, h1, h⟩ := bind_ok h
  obtain ⟨m2, h2, h⟩ := bind_ok h
  obtain ⟨ts, h3, h⟩ := bind_ok h
  simp only [Except.ok.injEq] at h
  subst h
  intro f cs hf
  obtain ⟨x, _, e⟩ := List.mem_map.mp hf
  cases e
  refine ⟨note_nodup _ _ _ (by simp [Tables.empty]), fun c => ?_⟩
  rw [note_clocks]
  simp [Tables.empty]

/-- The same for protocols without a choice. -/
theorem C49_clocks_plain (title : Text → Text) (name : Text) (roles : List Text) (msgs : List Msg)
    (fs : List ((Text × Text × Nat) × List Text)) (h : bodies title (protocol name roles msgs) = .ok fs) :
    ∀ f cs, (f, cs) ∈ fs → cs.Nodup ∧ ∀ c, c ∈ cs ↔ ∃ m ∈ msgs, Involved f.1 m ∧ c = m.clock := by
  unfold bodies at h
  rw [reading_protocol] at h
  simp only [bind_assoc', ok_bind] at h
  obtain ⟨m1, h1, h⟩ := bind_ok h
  simp only [Except.ok.injEq] at h
  subst h
  intro f cs hf
  obtain ⟨x, _, e⟩ := List.mem_map.mp hf
  cases e
  refine ⟨note_nodup _ _ _ (by simp [Tables.empty]), fun c => ?_⟩
  rw [note_clocks]
  simp [Tables.empty]

def Step.params : Step → Params
  | .send p => p
  | .recv p => p

theorem view_origin {title : Text → Text} {p q : Text} {msgs : List Msg} {s : Step} (h : s ∈ view title p q msgs) :
    ∃ m ∈ msgs, Involved p m ∧ Step.params s = written title m := by
  unfold view at h
  obtain ⟨m, h1, h2⟩ := List.mem_filterMap.mp h
  refine ⟨m, h1, ?_⟩
  split at h2
  · rename_i e; cases h2; exact ⟨.inl e.1, rfl⟩
  · split at h2
    · rename_i e; cases h2; exact ⟨.inr e.2, rfl⟩
    · cases h2

theorem loopBody_mem {l : Text} : ∀ {is : List Item} {ms : List Msg}, loopBody l is = some ms → ∀ m ∈ ms, m ∈ messagesOf is
  | .msg x :: is, ms, h, m, hm => List.mem_cons_of_mem _ (loopBody_mem (is := is) h m hm)
  | .loop x :: is, ms, h, m, hm => by
    simp only [loopBody] at h
    split at h
    · rename_i b hb; cases h; exact loopBody_mem (is := is) hb m hm
    · split at h
      · cases h; exact hm
      · cases h

theorem exchanges_mem (P : Proto) {b : Branch} (hb : b ∈ P.branches) : ∀ m ∈ P.exchanges b, m ∈ P.messages := by
  intro m hm
  unfold Proto.exchanges at hm
  rcases List.mem_append.mp hm with hm | hm
  · exact List.mem_append_right _ (List.mem_flatMap.mpr ⟨b, hb, hm⟩)
  · split at hm
    · rename_i l _
      cases hl : loopBody l P.pre with
      | none => rw [hl] at hm; cases hm
      | some ms =>
        rw [hl] at hm
        exact List.mem_append_left _ (loopBody_mem hl m hm)
    · cases hm

/-- C49, the clock is there.  What role `p` does with `q` before the choice, or in a branch (`C47_projection` says that
the generated types are these), uses only clocks that the functions of `p` start; if each message resets no other clock
than its own, also the clock to be reset has been started. -/
theorem C49_clocks_used (title : Text → Text) (P : Proto) (fs : List ((Text × Text × Nat) × List Text))
    (h : bodies title P.lines = .ok fs) (p q : Text) (i : Text × Nat) (cs : List Text) (hf : ((p, i), cs) ∈ fs)
    (msgs : List Msg) (hm : msgs = messagesOf P.pre ∨ ∃ b ∈ P.branches, msgs = P.exchanges b) :
    ∀ s ∈ view title p q msgs, (Step.params s).clock ∈ cs ∧
      ((∀ m ∈ P.messages, m.reset = none ∨ m.reset = some m.clock) →
        (Step.params s).reset = [' '] ∨ (Step.params s).reset ∈ cs) := by
  intro s hs
  obtain ⟨m, h1, h2, h3⟩ := view_origin hs
  have hmem : m ∈ P.messages := by
    rcases hm with rfl | ⟨b, hb, rfl⟩
    · exact List.mem_append_left _ h1
    · exact exchanges_mem P hb m h1
  have hin : m.clock ∈ cs := ((C49_clocks title P fs h _ _ hf).2 _).mpr ⟨m, hmem, h2, rfl⟩
  rw [h3]
  refine ⟨hin, fun hr => ?_⟩
  simp only [written]
  rcases hr m hmem with e | e
  · rw [e]; exact .inl rfl
  · rw [e]; exact .inr hin

theorem allFunctions_split (roles : List Text) (t : Tree) : allFunctions roles t =
    genFunctions roles t ++ allFunctionsList roles t.subTrees := by
  cases t; simp [allFunctions, genFunctions]

theorem allFunctionsList_mem {roles : List Text} : ∀ {ts : List Tree} {t : Tree}, t ∈ ts → ∀ f ∈ allFunctions roles t,
    f ∈ allFunctionsList roles ts
  | u :: ts, t, ht, f, hf => by
    simp only [allFunctionsList, List.mem_append]
    rcases List.mem_cons.mp ht with rfl | ht
    · exact .inl hf
    · exact .inr (allFunctionsList_mem ht f hf)

theorem trees_index {F : Nat → Branch → Except Fault Tree} : ∀ {bs : List Branch} {j : Nat} {ts : List Tree},
    treesFrom F j bs = .ok ts → ∀ i b, bs[i]? = some b → ∃ t ∈ ts, F (j + i) b = .ok t
  | [], _, _, _, _, _, hb => by simp at hb
  | b :: bs, j, ts, h, i, b', hb => by
    unfold treesFrom at h
    obtain ⟨t, h1, h⟩ := bind_ok h
    obtain ⟨ts', h2, h⟩ := bind_ok h
    simp only [Except.ok.injEq] at h
    subst h
    cases i with
    | zero =>
      simp only [List.getElem?_cons_zero, Option.some.injEq] at hb
      subst hb
      exact ⟨t, by simp, h1⟩
    | succ i =>
      obtain ⟨t', t1, t2⟩ := trees_index h2 i b' (by simpa using hb)
      exact ⟨t', List.mem_cons_of_mem _ t1, by rw [← t2]; congr 1; omega⟩

/-- C49, clocks start again in a branch.  Every role has a function for each branch, and this function starts again the
clocks of the messages before the choice, whether the protocol resets them or not. -/
theorem C49_restart (title : Text → Text) (P : Proto) (fs : List ((Text × Text × Nat) × List Text))
    (h : bodies title P.lines = .ok fs) (p : Text) (hp : p ∈ P.roles) (i : Nat) (hi : i < P.branches.length) :
    ∃ cs, ((p, indexText [0, i], i), cs) ∈ fs ∧ ∀ m ∈ messagesOf P.pre, Involved p m → m.clock ∈ cs := by
  have key : ∃ cs, ((p, indexText [0, i], i), cs) ∈ fs := by
    unfold bodies at h
    rw [reading_choice] at h
    simp only [bind_assoc', ok_bind] at h
    obtain ⟨m1, h1, h⟩ := bind_ok h
    obtain ⟨m2, h2, h⟩ := bind_ok h
    obtain ⟨ts, h3, h⟩ := bind_ok h
    simp only [Except.ok.injEq] at h
    subst h
    obtain ⟨t, t1, t2⟩ := trees_index h3 i _ (List.getElem?_eq_getElem hi)
    refine ⟨_, List.mem_map.mpr ⟨((p, indexText [0, i], i), ((t.endpoints p).getD []).headD []), ?_, rfl⟩⟩
    rw [allFunctions_split]
    refine List.mem_append_right _ (allFunctionsList_mem (t := t) ?_ _ ?_)
    · simp only [List.mem_append, List.mem_reverse]
      have : t ∈ ts.take 1 ++ ts.drop 1 := by rw [List.take_append_drop]; exact t1
      rcases List.mem_append.mp this with h | h
      · exact .inr h
      · exact .inl (.inr h)
    · rw [allFunctions_split]
      refine List.mem_append_left _ ?_
      have e : t.index = [0, i] := by
        rw [(branch_index t2).1]
        simp [initSubTree, initTree, Tree.new]
      unfold genFunctions
      refine List.mem_flatMap.mpr ⟨p, (mem_sorted _ _).mpr hp, List.mem_map.mpr ⟨i, ?_, ?_⟩⟩
      · rw [e]; simp
      · rw [e]
  obtain ⟨cs, hcs⟩ := key
  refine ⟨cs, hcs, fun m hm hv => ?_⟩
  exact ((C49_clocks title P fs h _ _ hcs).2 _).mpr ⟨m, List.mem_append_left _ hm, hv, rfl⟩

end Verif.Prop
