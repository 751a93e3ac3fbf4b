import Verif.Proof.NuscrChoice

/-!
# The generator on protocols with loops and a choice: the trees
-/
namespace Verif.Nuscr
open Verif.NuscrSpec

theorem add_iff (title : Text → Text) (roles : List Text) (idx : List Nat) : ∀ (msgs done : List Msg) (t : Tree),
    Shape title roles idx t done →
    (∀ t', addMessages title roles msgs t = .ok t' → (∀ m ∈ msgs, Valid roles m) ∧
      Shape title roles idx t' (done ++ msgs) ∧ msgs.foldlM (fun bs m => previousMessage m bs) t.prev = .ok t'.prev) ∧
    (∀ b, (∀ m ∈ msgs, Valid roles m) → msgs.foldlM (fun bs m => previousMessage m bs) t.prev = .ok b →
      ∃ t', addMessages title roles msgs t = .ok t' ∧ Shape title roles idx t' (done ++ msgs) ∧ t'.prev = b)
  | [], done, t, hs => by
    refine ⟨?_, ?_⟩
    · intro t' h
      simp only [addMessages, List.foldlM_nil, pure, Except.pure, Except.ok.injEq] at h
      subst h
      exact ⟨by simp, by simpa using hs, rfl⟩
    · intro b _ hb
      simp only [List.foldlM_nil, pure, Except.pure, Except.ok.injEq] at hb
      exact ⟨t, rfl, by simpa using hs, hb⟩
  | m :: msgs, done, t, hs => by
    obtain ⟨u1, u2⟩ := update_iff title roles idx t done m hs
    refine ⟨?_, ?_⟩
    · intro t' h
      unfold addMessages at h
      rw [List.foldlM_cons] at h
      obtain ⟨t1, h1, h⟩ := bind_ok h
      obtain ⟨v, s1, p1⟩ := u1 t1 h1
      obtain ⟨r1, r2, r3⟩ := (add_iff title roles idx msgs (done ++ [m]) t1 s1).1 t' h
      refine ⟨?_, by rw [List.append_assoc] at r2; exact r2, by rw [List.foldlM_cons, p1]; exact r3⟩
      intro y hy
      rcases List.mem_cons.mp hy with e | e
      · subst e; exact v
      · exact r1 y e
    · intro b hv hb
      rw [List.foldlM_cons] at hb
      obtain ⟨b1, hb1, hb2⟩ := bind_ok hb
      obtain ⟨t1, h1, s1, p1⟩ := u2 b1 (hv m (by simp)) hb1
      subst p1
      obtain ⟨t', h', s', p'⟩ := (add_iff title roles idx msgs (done ++ [m]) t1 s1).2 b (fun y hy => hv y (by simp [hy])) hb2
      refine ⟨t', ?_, by rw [List.append_assoc] at s'; exact s', p'⟩
      unfold addMessages
      rw [List.foldlM_cons, h1]
      exact h'

/-- What ends a session of `p` with `q`: nothing, or a choice of `e.1` in the tree `e.2`. -/
def closing (e : Option (Text × Text)) (p q : Text) : Option Rhs :=
  match e with
  | none => none
  | some (x, c) => if p = x then some (.sendChoice (choiceName c x q))
      else if q = x then some (.recvChoice (choiceName c x p)) else none

def closingStack (e : Option (Text × Text)) (p : Text) : Option StackRhs :=
  match e with
  | none => none
  | some (x, _) => some (if p = x then .broadcast else .last x)

/-- The tree of a part of the protocol: its messages and its end. -/
structure Part (title : Text → Text) (roles : List Text) (idx : List Nat) (e : Option (Text × Text)) (t : Tree)
    (done : List Msg) : Prop where
  index : t.index = idx
  messages : ∀ p q, p ∈ roles → q ∈ roles → q ≠ p → t.messages p q =
    some (sessDefs (indexText idx) p q 0 (view title p q done) ++
      (closing e p q).toList.map fun r => (messageName (indexText idx) (view title p q done).length p q, r))
  lastMessage : ∀ p q, p ∈ roles → q ∈ roles → q ≠ p → t.lastMessage p q =
    some (if (closing e p q).isSome then [] else messageName (indexText idx) (view title p q done).length p q)
  firstMessage : ∀ p q, p ∈ roles → q ∈ roles → q ≠ p → t.firstMessage p q = some (messageName (indexText idx) 0 p q)
  stacks : ∀ p, p ∈ roles → t.stacks p = some (stackDefs (indexText idx) p 0 (partners p done) ++
      (closingStack e p).toList.map fun r => (orderingName (indexText idx) (partners p done).length p, r))
  lastStack : ∀ p, p ∈ roles → t.lastStack p =
    some (if (closingStack e p).isSome then [] else orderingName (indexText idx) (partners p done).length p)
  firstStack : ∀ p, p ∈ roles → t.firstStack p = some (orderingName (indexText idx) 0 p)
  endpoints : ∀ p, p ∈ roles → t.endpoints p = some [endpointName (indexText idx) p]

theorem Shape.part {title : Text → Text} {roles : List Text} {idx : List Nat} {t : Tree} {done : List Msg}
    (h : Shape title roles idx t done) : Part title roles idx none t done where
  index := h.index
  messages p q hp hq hqp := by rw [h.messages p q hp hq hqp]; simp [closing]
  lastMessage p q hp hq hqp := by rw [h.lastMessage p q hp hq hqp]; simp [closing]
  firstMessage := h.firstMessage
  stacks p hp := by rw [h.stacks p hp]; simp [closingStack]
  lastStack p hp := by rw [h.lastStack p hp]; simp [closingStack]
  firstStack := h.firstStack
  endpoints := h.endpoints

/-- The choice once the roles `seen` have been treated. -/
def closingMid (x c : Text) (seen : List Text) (p q : Text) : Option Rhs :=
  if p = x ∧ q ∈ seen then some (.sendChoice (choiceName c x q))
  else if q = x ∧ p ∈ seen then some (.recvChoice (choiceName c x p)) else none

def closingStackMid (x : Text) (seen : List Text) (p : Text) : Option StackRhs :=
  if p ∈ seen then some (if p = x then .broadcast else .last x) else none

structure Mid (title : Text → Text) (roles : List Text) (idx : List Nat) (x c : Text) (seen : List Text) (t : Tree)
    (done : List Msg) : Prop where
  messages : ∀ p q, p ∈ roles → q ∈ roles → q ≠ p → t.messages p q =
    some (sessDefs (indexText idx) p q 0 (view title p q done) ++ (closingMid x c seen p q).toList.map fun r =>
      (messageName (indexText idx) (view title p q done).length p q, r))
  lastMessage : ∀ p q, p ∈ roles → q ∈ roles → q ≠ p → t.lastMessage p q =
    some (if (closingMid x c seen p q).isSome then []
      else messageName (indexText idx) (view title p q done).length p q)
  stacks : ∀ p, p ∈ roles → t.stacks p = some (stackDefs (indexText idx) p 0 (partners p done) ++
      (closingStackMid x seen p).toList.map fun r => (orderingName (indexText idx) (partners p done).length p, r))
  lastStack : ∀ p, p ∈ roles → t.lastStack p =
    some (if (closingStackMid x seen p).isSome then []
      else orderingName (indexText idx) (partners p done).length p)

theorem mid_step (title : Text → Text) (roles : List Text) (idx : List Nat) (x c : Text) (seen : List Text) (r : Text)
    (t : Tree) (done : List Msg) (hm : Mid title roles idx x c seen t done) (hx : x ∈ roles) (hr : r ∈ roles)
    (hn : r ∉ seen) :
    ∃ t', choiceFor c x t r = .ok t' ∧ Mid title roles idx x c (seen ++ [r]) t' done ∧
      t'.firstMessage = t.firstMessage ∧ t'.firstStack = t.firstStack ∧ t'.endpoints = t.endpoints ∧ t'.prev = t.prev := by
  unfold choiceFor
  by_cases h : r = x
  · subst h
    rw [if_neg (by simp)]
    rw [hm.stacks r hr, hm.lastStack r hr]
    simp only [unwrap, ok_bind]
    refine ⟨_, rfl, ?_, rfl, rfl, rfl, rfl⟩
    constructor
    · intro p q hp hq hqp
      simp only
      rw [hm.messages p q hp hq hqp]
      have : closingMid r c (seen ++ [r]) p q = closingMid r c seen p q := by
        unfold closingMid
        by_cases hp1 : p = r
        · subst hp1; simp [hqp]
        · by_cases hq1 : q = r
          · subst hq1; simp [hp1]
          · simp [hp1, hq1]
      rw [this]
    · intro p q hp hq hqp
      simp only
      rw [hm.lastMessage p q hp hq hqp]
      have : closingMid r c (seen ++ [r]) p q = closingMid r c seen p q := by
        unfold closingMid
        by_cases hp1 : p = r
        · subst hp1; simp [hqp]
        · by_cases hq1 : q = r
          · subst hq1; simp [hp1]
          · simp [hp1, hq1]
      rw [this]
    · intro p hp
      simp only [upd]
      by_cases hp1 : p = r
      · subst hp1
        simp [closingStackMid, hn]
      · rw [if_neg hp1, hm.stacks p hp]
        simp [closingStackMid, hp1]
    · intro p hp
      simp only [upd]
      by_cases hp1 : p = r
      · subst hp1
        simp [closingStackMid]
      · rw [if_neg hp1, hm.lastStack p hp]
        simp [closingStackMid, hp1]
  · rw [if_pos h]
    have hxr : x ≠ r := fun e => h e.symm
    rw [hm.messages x r hx hr h, hm.lastMessage x r hx hr h]
    simp only [unwrap, ok_bind, upd2, hxr, h, and_self, if_false, false_and]
    rw [hm.messages r x hr hx hxr, hm.lastMessage r x hr hx hxr, hm.stacks r hr, hm.lastStack r hr]
    simp only [ok_bind]
    refine ⟨_, rfl, ?_, rfl, rfl, rfl, rfl⟩
    constructor
    · intro p q hp hq hqp
      simp only [upd2]
      by_cases h1 : p = r ∧ q = x
      · obtain ⟨rfl, rfl⟩ := h1
        simp [closingMid, h, hn]
      · rw [if_neg h1]
        by_cases h2 : p = x ∧ q = r
        · obtain ⟨rfl, rfl⟩ := h2
          simp [closingMid, h, hn]
        · rw [if_neg h2, hm.messages p q hp hq hqp]
          have : closingMid x c (seen ++ [r]) p q = closingMid x c seen p q := by
            unfold closingMid
            have e1 : (p = x ∧ q ∈ seen ++ [r]) ↔ (p = x ∧ q ∈ seen) := by simp; tauto
            have e2 : (q = x ∧ p ∈ seen ++ [r]) ↔ (q = x ∧ p ∈ seen) := by simp; tauto
            simp only [e1, e2]
          rw [this]
    · intro p q hp hq hqp
      simp only [upd2]
      by_cases h1 : p = r ∧ q = x
      · obtain ⟨rfl, rfl⟩ := h1
        simp [closingMid, h]
      · rw [if_neg h1]
        by_cases h2 : p = x ∧ q = r
        · obtain ⟨rfl, rfl⟩ := h2
          simp [closingMid]
        · rw [if_neg h2, hm.lastMessage p q hp hq hqp]
          have : closingMid x c (seen ++ [r]) p q = closingMid x c seen p q := by
            unfold closingMid
            have e1 : (p = x ∧ q ∈ seen ++ [r]) ↔ (p = x ∧ q ∈ seen) := by simp; tauto
            have e2 : (q = x ∧ p ∈ seen ++ [r]) ↔ (q = x ∧ p ∈ seen) := by simp; tauto
            simp only [e1, e2]
          rw [this]
    · intro p hp
      simp only [upd]
      by_cases hp1 : p = r
      · subst hp1
        simp [closingStackMid, hn, h]
      · rw [if_neg hp1, hm.stacks p hp]
        simp [closingStackMid, hp1]
    · intro p hp
      simp only [upd]
      by_cases hp1 : p = r
      · subst hp1
        simp [closingStackMid]
      · rw [if_neg hp1, hm.lastStack p hp]
        simp [closingStackMid, hp1]

theorem mid_all (title : Text → Text) (roles : List Text) (idx : List Nat) (x c : Text) (hx : x ∈ roles)
    (done : List Msg) : ∀ (rest seen : List Text) (t : Tree), (∀ r ∈ rest, r ∈ roles) → rest.Nodup →
    (∀ r ∈ rest, r ∉ seen) → Mid title roles idx x c seen t done →
    ∃ t', choiceAll rest c x t = .ok t' ∧ Mid title roles idx x c (seen ++ rest) t' done ∧
      t'.firstMessage = t.firstMessage ∧ t'.firstStack = t.firstStack ∧ t'.endpoints = t.endpoints ∧ t'.prev = t.prev
  | [], seen, t, _, _, _, hm => ⟨t, rfl, by simpa using hm, rfl, rfl, rfl, rfl⟩
  | r :: rest, seen, t, h1, h2, h3, hm => by
    rw [List.nodup_cons] at h2
    obtain ⟨t1, e1, m1, a1, a2, a3, a4⟩ := mid_step title roles idx x c seen r t done hm hx (h1 r (by simp)) (h3 r (by simp))
    obtain ⟨t', e', m', b1, b2, b3, b4⟩ := mid_all title roles idx x c hx done rest (seen ++ [r]) t1
      (fun y hy => h1 y (by simp [hy])) h2.2
      (fun y hy e => by
        rcases List.mem_append.mp e with e | e
        · exact h3 y (by simp [hy]) e
        · rw [List.mem_singleton.mp e] at hy; exact h2.1 hy) m1
    refine ⟨t', ?_, by rw [List.append_assoc] at m'; exact m', b1.trans a1, b2.trans a2, b3.trans a3, b4.trans a4⟩
    unfold choiceAll
    rw [List.foldlM_cons, e1]
    exact e'

/-- A choice after the messages. -/
theorem choice_part (title : Text → Text) (roles : List Text) (idx : List Nat) (x c : Text) (t : Tree) (done : List Msg)
    (hs : Shape title roles idx t done) (hd : roles.Nodup) (hx : x ∈ roles) :
    ∃ t', choiceAll roles c x t = .ok t' ∧ Part title roles idx (some (x, c)) t' done ∧ t'.prev = t.prev := by
  have h0 : Mid title roles idx x c [] t done := by
    constructor
    · intro p q hp hq hqp; rw [hs.messages p q hp hq hqp]; simp [closingMid]
    · intro p q hp hq hqp; rw [hs.lastMessage p q hp hq hqp]; simp [closingMid]
    · intro p hp; rw [hs.stacks p hp]; simp [closingStackMid]
    · intro p hp; rw [hs.lastStack p hp]; simp [closingStackMid]
  obtain ⟨t', e, m, a1, a2, a3, a4⟩ := mid_all title roles idx x c hx done roles [] t (fun _ h => h) hd (by simp) h0
  have hc : ∀ p q, p ∈ roles → q ∈ roles → closingMid x c ([] ++ roles) p q = closing (some (x, c)) p q := by
    intro p q hp hq
    simp [closingMid, closing, hp, hq]
  have hcs : ∀ p, p ∈ roles → closingStackMid x ([] ++ roles) p = closingStack (some (x, c)) p := by
    intro p hp
    simp [closingStackMid, closingStack, hp]
  refine ⟨t', e, ?_, a4⟩
  constructor
  · rw [(choiceAll_index e).1]; exact hs.index
  · intro p q hp hq hqp; rw [m.messages p q hp hq hqp, hc p q hp hq]
  · intro p q hp hq hqp; rw [m.lastMessage p q hp hq hqp, hc p q hp hq]
  · rw [a1]; exact hs.firstMessage
  · intro p hp; rw [m.stacks p hp, hcs p hp]
  · intro p hp; rw [m.lastStack p hp, hcs p hp]
  · rw [a2]; exact hs.firstStack
  · rw [a3]; exact hs.endpoints

/-- Only a role can choose. -/
theorem choice_role (title : Text → Text) (roles : List Text) (idx : List Nat) (x c : Text) (t t' : Tree)
    (done : List Msg) (hs : Shape title roles idx t done) (h : choiceAll roles c x t = .ok t') (hr : roles ≠ []) :
    x ∈ roles := by
  cases roles with
  | nil => exact absurd rfl hr
  | cons r rs =>
    refine Decidable.byContradiction fun hx => ?_
    unfold choiceAll at h
    rw [List.foldlM_cons] at h
    obtain ⟨t1, h1, _⟩ := bind_ok h
    unfold choiceFor at h1
    rw [if_pos (fun e => hx (by simp [e])), hs.outside x r hx] at h1
    cases h1

theorem shape_enums {title : Text → Text} {roles : List Text} {idx : List Nat} {t : Tree} {done : List Msg}
    (h : Shape title roles idx t done) (e : Text → Option (Text × Nat)) :
    Shape title roles idx { t with enums := e } done where
  index := h.index
  messages := h.messages
  lastMessage := h.lastMessage
  firstMessage := h.firstMessage
  stacks := h.stacks
  lastStack := h.lastStack
  firstStack := h.firstStack
  endpoints := h.endpoints
  subTrees := h.subTrees
  outside := h.outside

theorem shape_sub (title : Text → Text) (roles : List Text) (idx : List Nat) (x : Text) :
    Shape title roles idx (initSubTree roles idx x) [] :=
  shape_enums (shape_header title roles idx) (upd (fun _ => none) (indexText idx) (x, 0))

/-- How a branch ends. -/
def branchEnd (x : Text) (b : Branch) : Option (Text × Text) := b.back.map fun _ => (x, ['0'])

def afterMsgs (pre : List Item) (b : Branch) : List Msg :=
  match b.back with
  | some l => (loopBody l pre).getD []
  | none => []

/-- A branch is sound: its messages name roles, its loop exists, its windows fit. -/
def Sound (roles : List Text) (pre : List Item) (b : Branch) : Prop :=
  (∀ m ∈ b.msgs ++ afterMsgs pre b, Valid roles m) ∧ (∀ l, b.back = some l → (loopBody l pre).isSome) ∧
    ∃ bs, boundsOf (b.msgs ++ afterMsgs pre b) = .ok bs

theorem branch_part (title : Text → Text) (roles : List Text) (pre : List Item) (x : Text) (b : Branch) (j : Nat)
    (hd : roles.Nodup) (hx : x ∈ roles) :
    (∀ t, branchTree title roles ['0'] pre x b (initSubTree roles [0, j] x) = .ok t →
      Sound roles pre b ∧ Part title roles [0, j] (branchEnd x b) t (b.msgs ++ afterMsgs pre b)) ∧
    (Sound roles pre b → ∃ t, branchTree title roles ['0'] pre x b (initSubTree roles [0, j] x) = .ok t) := by
  have hs := shape_sub title roles [0, j] x
  have hp : (initSubTree roles [0, j] x).prev = fun _ => none := rfl
  obtain ⟨u1, u2⟩ := add_iff title roles [0, j] b.msgs [] _ hs
  obtain ⟨msgs, back⟩ := b
  cases back with
  | none =>
    constructor
    · intro t h
      simp only [branchTree] at h
      obtain ⟨t1, h1, h⟩ := bind_ok h
      simp only [Except.ok.injEq] at h
      subst h
      obtain ⟨v, s, p⟩ := u1 t1 h1
      refine ⟨⟨by simpa [afterMsgs] using v, by simp, t1.prev, ?_⟩, ?_⟩
      · simpa [afterMsgs, boundsOf, hp] using p
      · simpa [afterMsgs, branchEnd] using s.part
    · rintro ⟨v, _, bs, hb⟩
      simp only [afterMsgs, List.append_nil] at v hb
      obtain ⟨t1, h1, _, _⟩ := u2 bs v hb
      exact ⟨t1, by simp only [branchTree]; rw [h1]; rfl⟩
  | some l =>
    cases hl : loopBody l pre with
    | none =>
      constructor
      · intro t h
        simp only [branchTree, hl] at h
        obtain ⟨t1, h1, h⟩ := bind_ok h
        cases h
      · rintro ⟨_, h, _⟩
        have := h l rfl
        rw [hl] at this
        cases this
    | some ms =>
      constructor
      · intro t h
        simp only [branchTree, hl] at h
        obtain ⟨t1, h1, h⟩ := bind_ok h
        obtain ⟨t2, h2, h⟩ := bind_ok h
        obtain ⟨v1, s1, p1⟩ := u1 t1 h1
        obtain ⟨v2, s2, p2⟩ := (add_iff title roles [0, j] ms _ t1 s1).1 t2 h2
        obtain ⟨t', h', part, _⟩ := choice_part title roles [0, j] x ['0'] t2 _ s2 hd hx
        rw [h] at h'
        simp only [Except.ok.injEq] at h'
        subst h'
        refine ⟨⟨?_, ?_, t2.prev, ?_⟩, ?_⟩
        · intro m hm
          simp only [afterMsgs, hl, Option.getD_some] at hm
          rcases List.mem_append.mp hm with e | e
          · exact v1 m e
          · exact v2 m e
        · intro l' e
          simp only [Option.some.injEq] at e
          rw [← e, hl]; rfl
        · simp only [afterMsgs, hl, Option.getD_some, boundsOf, List.foldlM_append]
          rw [hp] at p1
          simp only at p1
          rw [p1]
          exact p2
        · simpa [afterMsgs, hl, branchEnd] using part
      · rintro ⟨v, _, bs, hb⟩
        simp only [afterMsgs, hl, Option.getD_some, boundsOf, List.foldlM_append] at v hb
        obtain ⟨b1, hb1, hb2⟩ := bind_ok hb
        obtain ⟨t1, h1, s1, p1⟩ := u2 b1 (fun m hm => v m (by simp [hm])) hb1
        subst p1
        obtain ⟨t2, h2, s2, p2⟩ := (add_iff title roles [0, j] ms _ t1 s1).2 bs (fun m hm => v m (by simp [hm])) hb2
        obtain ⟨t', h', _, _⟩ := choice_part title roles [0, j] x ['0'] t2 _ s2 hd hx
        refine ⟨t', ?_⟩
        simp only [branchTree, hl]
        rw [h1, ok_bind, h2, ok_bind, h']

/-- The trees of the branches, one by one. -/
theorem trees_iff (F : Nat → Branch → Except Fault Tree) : ∀ (bs : List Branch) (j : Nat),
    (∀ ts, treesFrom F j bs = .ok ts → ts.length = bs.length ∧
      ∀ i b, bs[i]? = some b → ∃ t, ts[i]? = some t ∧ F (j + i) b = .ok t) ∧
    ((∀ i b, bs[i]? = some b → ∃ t, F (j + i) b = .ok t) → ∃ ts, treesFrom F j bs = .ok ts)
  | [], j => by
    refine ⟨?_, fun _ => ⟨[], rfl⟩⟩
    intro ts h
    simp only [treesFrom, Except.ok.injEq] at h
    subst h
    simp
  | b :: bs, j => by
    obtain ⟨ih1, ih2⟩ := trees_iff F bs (j + 1)
    refine ⟨?_, ?_⟩
    · intro ts h
      simp only [treesFrom] at h
      obtain ⟨t, h1, h⟩ := bind_ok h
      obtain ⟨ts', h2, h⟩ := bind_ok h
      simp only [Except.ok.injEq] at h
      subst h
      obtain ⟨e, f⟩ := ih1 ts' h2
      refine ⟨by simp [e], ?_⟩
      intro i b' hb
      cases i with
      | zero =>
        simp only [List.getElem?_cons_zero, Option.some.injEq] at hb
        subst hb
        exact ⟨t, by simp, h1⟩
      | succ i =>
        simp only [List.getElem?_cons_succ] at hb ⊢
        obtain ⟨t', a, a'⟩ := f i b' hb
        exact ⟨t', a, by rw [← a']; congr 1; omega⟩
    · intro h
      obtain ⟨t, ht⟩ := h 0 b (by simp)
      obtain ⟨ts, hts⟩ := ih2 fun i b' hb => by
        obtain ⟨t', ht'⟩ := h (i + 1) b' (by simpa using hb)
        exact ⟨t', by rw [← ht']; congr 1; omega⟩
      refine ⟨t :: ts, ?_⟩
      simp only [treesFrom]
      rw [show F j b = .ok t from ht, ok_bind, hts]
      rfl

end Verif.Nuscr
