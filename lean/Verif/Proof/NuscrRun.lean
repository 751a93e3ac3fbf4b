import Verif.Proof.Nuscr
import Verif.Spec.Nuscr

/-!
# The generator on choice-free protocols
-/
namespace Verif.Nuscr
open Verif.NuscrSpec

/-- Definitions of a binary session, from version `n` on. -/
def sessDefs (i p q : Text) : Nat → List Step → List (Text × Rhs)
  | _, [] => []
  | n, .send x :: ss =>
    (messageName i n p q, .send x (messageName i (n + 1) p q)) :: sessDefs i p q (n + 1) ss
  | n, .recv x :: ss =>
    (messageName i n p q, .recv x (messageName i (n + 1) p q)) :: sessDefs i p q (n + 1) ss

def stackDefs (i p : Text) : Nat → List Text → List (Text × StackRhs)
  | _, [] => []
  | n, r :: rs => (orderingName i n p, .role r (orderingName i (n + 1) p)) :: stackDefs i p (n + 1) rs

theorem sessDefs_length (i p q : Text) : ∀ (ss : List Step) (n : Nat), (sessDefs i p q n ss).length = ss.length
  | [], _ => rfl
  | .send _ :: ss, n => by simp [sessDefs, sessDefs_length]
  | .recv _ :: ss, n => by simp [sessDefs, sessDefs_length]

theorem sessDefs_append (i p q : Text) : ∀ (ss ss' : List Step) (n : Nat),
    sessDefs i p q n (ss ++ ss') = sessDefs i p q n ss ++ sessDefs i p q (n + ss.length) ss'
  | [], _, _ => rfl
  | .send _ :: ss, ss', n => by
    simp only [List.cons_append, sessDefs, sessDefs_append i p q ss ss', List.length_cons]
    rw [Nat.add_assoc n 1, Nat.add_comm 1]
  | .recv _ :: ss, ss', n => by
    simp only [List.cons_append, sessDefs, sessDefs_append i p q ss ss', List.length_cons]
    rw [Nat.add_assoc n 1, Nat.add_comm 1]

theorem stackDefs_length (i p : Text) : ∀ (ss : List Text) (n : Nat), (stackDefs i p n ss).length = ss.length
  | [], _ => rfl
  | _ :: ss, n => by simp [stackDefs, stackDefs_length]

theorem stackDefs_append (i p : Text) : ∀ (ss ss' : List Text) (n : Nat),
    stackDefs i p n (ss ++ ss') = stackDefs i p n ss ++ stackDefs i p (n + ss.length) ss'
  | [], _, _ => rfl
  | _ :: ss, ss', n => by
    simp only [List.cons_append, stackDefs, stackDefs_append i p ss ss', List.length_cons]
    rw [Nat.add_assoc n 1, Nat.add_comm 1]

theorem means_sessDefs (defs : List (Text × Rhs)) (i p q : Text) : ∀ (ss : List Step) (n : Nat),
    (∀ d ∈ sessDefs i p q n ss, d ∈ defs) → (messageName i (n + ss.length) p q, Rhs.fin) ∈ defs →
    Means defs (messageName i n p q) ss
  | [], n, _, hf => .fin _ hf
  | .send x :: ss, n, h, hf => by
    refine .send _ _ _ _ (h _ (by simp [sessDefs])) (means_sessDefs defs i p q ss (n + 1) ?_ ?_)
    · intro d hd; exact h d (by simp [sessDefs, hd])
    · rw [List.length_cons] at hf; rwa [Nat.add_assoc n 1, Nat.add_comm 1]
  | .recv x :: ss, n, h, hf => by
    refine .recv _ _ _ _ (h _ (by simp [sessDefs])) (means_sessDefs defs i p q ss (n + 1) ?_ ?_)
    · intro d hd; exact h d (by simp [sessDefs, hd])
    · rw [List.length_cons] at hf; rwa [Nat.add_assoc n 1, Nat.add_comm 1]

theorem means_stackDefs (defs : List (Text × StackRhs)) (i p : Text) : ∀ (ss : List Text) (n : Nat),
    (∀ d ∈ stackDefs i p n ss, d ∈ defs) → (orderingName i (n + ss.length) p, StackRhs.fin) ∈ defs →
    MeansStack defs (orderingName i n p) ss
  | [], n, _, hf => .fin _ hf
  | x :: ss, n, h, hf => by
    refine .role _ _ _ _ (h _ (by simp [stackDefs])) (means_stackDefs defs i p ss (n + 1) ?_ ?_)
    · intro d hd; exact h d (by simp [stackDefs, hd])
    · rw [List.length_cons] at hf; rwa [Nat.add_assoc n 1, Nat.add_comm 1]

/-- The tree after the messages `done`. -/
structure Shape (title : Text → Text) (roles : List Text) (idx : List Nat) (t : Tree) (done : List Msg) : Prop where
  index : t.index = idx
  messages : ∀ p q, p ∈ roles → q ∈ roles → q ≠ p → t.messages p q = some (sessDefs (indexText idx) p q 0 (view title p q done))
  lastMessage : ∀ p q, p ∈ roles → q ∈ roles → q ≠ p →
    t.lastMessage p q = some (messageName (indexText idx) (view title p q done).length p q)
  firstMessage : ∀ p q, p ∈ roles → q ∈ roles → q ≠ p → t.firstMessage p q = some (messageName (indexText idx) 0 p q)
  stacks : ∀ p, p ∈ roles → t.stacks p = some (stackDefs (indexText idx) p 0 (partners p done))
  lastStack : ∀ p, p ∈ roles → t.lastStack p = some (orderingName (indexText idx) (partners p done).length p)
  firstStack : ∀ p, p ∈ roles → t.firstStack p = some (orderingName (indexText idx) 0 p)
  endpoints : ∀ p, p ∈ roles → t.endpoints p = some [endpointName (indexText idx) p]
  subTrees : t.subTrees = []
  outside : ∀ p q, p ∉ roles → t.messages p q = none

theorem view_append (title : Text → Text) (p q : Text) (a b : List Msg) :
    view title p q (a ++ b) = view title p q a ++ view title p q b := by simp [view]

theorem partners_append (p : Text) (a b : List Msg) : partners p (a ++ b) = partners p a ++ partners p b := by
  simp [partners]

/-- The tree after one more message. -/
def nextTree (title : Text → Text) (idx : List Nat) (m : Msg) (ds dr : List (Text × Rhs)) (ss sr : List (Text × StackRhs)) (t : Tree)
    (b : Bounds) : Tree :=
  { t with
    messages := upd2 (upd2 t.messages m.sender m.receiver
        (ds ++ [(messageName (indexText idx) ds.length m.sender m.receiver,
          Rhs.send (m.params title) (messageName (indexText idx) (ds.length + 1) m.sender m.receiver))]))
      m.receiver m.sender
        (dr ++ [(messageName (indexText idx) dr.length m.receiver m.sender,
          Rhs.recv (m.params title) (messageName (indexText idx) (dr.length + 1) m.receiver m.sender))])
    lastMessage := upd2 (upd2 t.lastMessage m.sender m.receiver (messageName (indexText idx) (ds.length + 1) m.sender m.receiver))
      m.receiver m.sender (messageName (indexText idx) (dr.length + 1) m.receiver m.sender)
    prev := b
    stacks := upd (upd t.stacks m.sender (ss ++ [(orderingName (indexText idx) ss.length m.sender,
          StackRhs.role m.receiver (orderingName (indexText idx) (ss.length + 1) m.sender))]))
      m.receiver (sr ++ [(orderingName (indexText idx) sr.length m.receiver,
          StackRhs.role m.sender (orderingName (indexText idx) (sr.length + 1) m.receiver))])
    lastStack := upd (upd t.lastStack m.sender (orderingName (indexText idx) (ss.length + 1) m.sender))
      m.receiver (orderingName (indexText idx) (sr.length + 1) m.receiver) }

theorem messagesAndStacks_eq (title : Text → Text) (idx : List Nat) (m : Msg) (t : Tree) (ds dr : List (Text × Rhs))
    (ss sr : List (Text × StackRhs)) (hi : t.index = idx) (hne : m.sender ≠ m.receiver)
    (h1 : t.messages m.sender m.receiver = some ds) (h2 : t.messages m.receiver m.sender = some dr)
    (h3 : (t.lastMessage m.sender m.receiver).isSome) (h4 : (t.lastMessage m.receiver m.sender).isSome)
    (h5 : t.stacks m.sender = some ss) (h6 : t.stacks m.receiver = some sr)
    (h7 : (t.lastStack m.sender).isSome) (h8 : (t.lastStack m.receiver).isSome) :
    messagesAndStacks title m t = (previousMessage m t.prev).map (nextTree title idx m ds dr ss sr t) := by
  obtain ⟨a3, h3⟩ := Option.isSome_iff_exists.mp h3
  obtain ⟨a4, h4⟩ := Option.isSome_iff_exists.mp h4
  obtain ⟨a7, h7⟩ := Option.isSome_iff_exists.mp h7
  obtain ⟨a8, h8⟩ := Option.isSome_iff_exists.mp h8
  have hne' : m.receiver ≠ m.sender := Ne.symm hne
  unfold messagesAndStacks senderMessages
  cases hp : previousMessage m t.prev with
  | error e => simp [h1, h3, unwrap, bind, Except.bind, Except.map, hp]
  | ok b =>
    simp [hi, h1, h3, h2, h4, h5, h6, h7, h8, unwrap, bind, Except.bind, Except.map, hp, receiverMessages, pushStack,
      upd2, upd, hne, hne', nextTree]

theorem view_one (title : Text → Text) (p q : Text) (m : Msg) : view title p q [m] =
    if m.sender = p ∧ m.receiver = q then [.send (m.params title)]
    else if m.sender = q ∧ m.receiver = p then [.recv (m.params title)] else [] := by
  unfold view
  simp only [List.filterMap_cons, List.filterMap_nil, params_written]
  by_cases h1 : m.sender = p ∧ m.receiver = q
  · simp [h1]
  · by_cases h2 : m.sender = q ∧ m.receiver = p
    · rw [if_neg h1, if_pos h2, if_neg h1, if_pos h2]
    · rw [if_neg h1, if_neg h2, if_neg h1, if_neg h2]

theorem partners_one (p : Text) (m : Msg) : partners p [m] =
    if m.sender = p then [m.receiver] else if m.receiver = p then [m.sender] else [] := by
  unfold partners
  simp only [List.filterMap_cons, List.filterMap_nil]
  by_cases h1 : m.sender = p
  · simp [h1]
  · by_cases h2 : m.receiver = p
    · simp [h1, h2]
    · simp [h1, h2]

theorem shape_next (title : Text → Text) (roles : List Text) (idx : List Nat) (t : Tree) (done : List Msg) (m : Msg) (b : Bounds)
    (hs : Shape title roles idx t done) (hv : Valid roles m) :
    Shape title roles idx (nextTree title idx m (sessDefs (indexText idx) m.sender m.receiver 0 (view title m.sender m.receiver done))
      (sessDefs (indexText idx) m.receiver m.sender 0 (view title m.receiver m.sender done))
      (stackDefs (indexText idx) m.sender 0 (partners m.sender done)) (stackDefs (indexText idx) m.receiver 0 (partners m.receiver done)) t b)
      (done ++ [m]) := by
  obtain ⟨v1, v2, v3⟩ := hv
  constructor
  · exact hs.index
  · intro p q hp hq hqp
    simp only [nextTree, upd2, view_append, view_one]
    by_cases c1 : p = m.receiver ∧ q = m.sender
    · obtain ⟨rfl, rfl⟩ := c1
      rw [if_pos ⟨rfl, rfl⟩, if_neg (fun h => v3 h.1), if_pos ⟨rfl, rfl⟩, sessDefs_append, sessDefs_length]
      simp [sessDefs]
    · rw [if_neg c1]
      by_cases c2 : p = m.sender ∧ q = m.receiver
      · obtain ⟨rfl, rfl⟩ := c2
        rw [if_pos ⟨rfl, rfl⟩, if_pos ⟨rfl, rfl⟩, sessDefs_append, sessDefs_length]
        simp [sessDefs]
      · rw [if_neg c2, if_neg (fun h => c2 ⟨h.1.symm, h.2.symm⟩), if_neg (fun h => c1 ⟨h.2.symm, h.1.symm⟩),
          List.append_nil]
        exact hs.messages p q hp hq hqp
  · intro p q hp hq hqp
    simp only [nextTree, upd2, view_append, view_one]
    by_cases c1 : p = m.receiver ∧ q = m.sender
    · obtain ⟨rfl, rfl⟩ := c1
      rw [if_pos ⟨rfl, rfl⟩, if_neg (fun h => v3 h.1), if_pos ⟨rfl, rfl⟩, sessDefs_length]
      simp
    · rw [if_neg c1]
      by_cases c2 : p = m.sender ∧ q = m.receiver
      · obtain ⟨rfl, rfl⟩ := c2
        rw [if_pos ⟨rfl, rfl⟩, if_pos ⟨rfl, rfl⟩, sessDefs_length]
        simp
      · rw [if_neg c2, if_neg (fun h => c2 ⟨h.1.symm, h.2.symm⟩), if_neg (fun h => c1 ⟨h.2.symm, h.1.symm⟩),
          List.append_nil]
        exact hs.lastMessage p q hp hq hqp
  · exact hs.firstMessage
  · intro p hp
    simp only [nextTree, upd, partners_append, partners_one]
    by_cases c1 : p = m.receiver
    · subst c1
      rw [if_pos rfl, if_neg v3, if_pos rfl, stackDefs_append, stackDefs_length]
      simp [stackDefs]
    · rw [if_neg c1]
      by_cases c2 : p = m.sender
      · subst c2
        rw [if_pos rfl, if_pos rfl, stackDefs_append, stackDefs_length]
        simp [stackDefs]
      · rw [if_neg c2, if_neg (Ne.symm c2), if_neg (Ne.symm c1), List.append_nil]
        exact hs.stacks p hp
  · intro p hp
    simp only [nextTree, upd, partners_append, partners_one]
    by_cases c1 : p = m.receiver
    · subst c1
      rw [if_pos rfl, if_neg v3, if_pos rfl, stackDefs_length]
      simp
    · rw [if_neg c1]
      by_cases c2 : p = m.sender
      · subst c2
        rw [if_pos rfl, if_pos rfl, stackDefs_length]
        simp
      · rw [if_neg c2, if_neg (Ne.symm c2), if_neg (Ne.symm c1), List.append_nil]
        exact hs.lastStack p hp
  · exact hs.firstStack
  · exact hs.endpoints
  · exact hs.subTrees
  · intro p q hp
    simp only [nextTree, upd2]
    rw [if_neg (by rintro ⟨rfl, _⟩; exact hp v2), if_neg (by rintro ⟨rfl, _⟩; exact hp v1)]
    exact hs.outside p q hp

theorem previous_interval {m : Msg} {bs b : Bounds} (h : previousMessage m bs = .ok b) :
    Check.strLe m.leftBound m.rightBound = true := by
  unfold previousMessage at h
  split at h
  · cases h
  · rename_i h'; simpa using h'

/-- One message, in a tree in order. -/
theorem update_iff (title : Text → Text) (roles : List Text) (idx : List Nat) (t : Tree) (done : List Msg) (m : Msg)
    (hs : Shape title roles idx t done) :
    (∀ t', updateMessages title roles m t = .ok t' →
      Valid roles m ∧ Shape title roles idx t' (done ++ [m]) ∧ previousMessage m t.prev = .ok t'.prev) ∧
    (∀ b, Valid roles m → previousMessage m t.prev = .ok b →
      ∃ t', updateMessages title roles m t = .ok t' ∧ Shape title roles idx t' (done ++ [m]) ∧ t'.prev = b) := by
  have hl : Shape title roles idx { t with labels := insertKey m.message m.payload t.labels } done :=
    ⟨hs.index, hs.messages, hs.lastMessage, hs.firstMessage, hs.stacks, hs.lastStack, hs.firstStack, hs.endpoints,
      hs.subTrees, hs.outside⟩
  have key : Valid roles m → messagesAndStacks title m { t with labels := insertKey m.message m.payload t.labels } = _ := fun v =>
    messagesAndStacks_eq title idx m { t with labels := insertKey m.message m.payload t.labels } _ _ _ _ hs.index v.2.2 (hs.messages _ _ v.1 v.2.1 (Ne.symm v.2.2))
      (hs.messages _ _ v.2.1 v.1 v.2.2) (by rw [hs.lastMessage _ _ v.1 v.2.1 (Ne.symm v.2.2)]; rfl)
      (by rw [hs.lastMessage _ _ v.2.1 v.1 v.2.2]; rfl) (hs.stacks _ v.1) (hs.stacks _ v.2.1)
      (by rw [hs.lastStack _ v.1]; rfl) (by rw [hs.lastStack _ v.2.1]; rfl)
  unfold updateMessages
  constructor
  · intro t' h
    split at h
    · cases h
    · rename_i v1
      split at h
      · cases h
      · rename_i v2
        split at h
        · cases h
        · rename_i v3
          split at h
          · cases h
          · have v : Valid roles m := ⟨by simpa using v1, by simpa using v2, v3⟩
            rw [key v] at h
            cases hp : previousMessage m t.prev with
            | error e => rw [hp] at h; cases h
            | ok b =>
              rw [hp] at h
              simp only [Except.map, Except.ok.injEq] at h
              subst h
              exact ⟨v, shape_next title roles idx _ done m b hl v, rfl⟩
  · intro b v hp
    have hi := previous_interval hp
    refine ⟨_, ?_, shape_next title roles idx _ done m b hl v, rfl⟩
    rw [if_neg (by simpa using v.1), if_neg (by simpa using v.2.1), if_neg v.2.2, if_neg (by simp [hi]), key v, hp]
    rfl

/-- The bounds after a list of messages. -/
def boundsOf (msgs : List Msg) : Except Fault Bounds := msgs.foldlM (fun bs m => previousMessage m bs) fun _ => none

/-- The messages of a protocol one after another. -/
theorem process_messages (title : Text → Text) : ∀ (msgs done : List Msg) (fuel n : Nat) (g : Glob) (parent main : Tree),
    msgs.length + 1 < fuel → 0 < n → g.opening = 1 → g.closing = 0 → Shape title g.roles [0] main done →
    (∀ d, processLine title fuel g parent main 0
        (number n ((msgs.map fun m => (⟨0, 0, false, .message m⟩ : Line)) ++ [⟨0, 1, false, .other⟩])) = .ok d →
      (∀ m ∈ msgs, Valid g.roles m) ∧ (msgs.foldlM (fun bs m => previousMessage m bs) main.prev = .ok d.main.prev) ∧
      Shape title g.roles [0] d.main (done ++ msgs) ∧ d.glob.roles = g.roles ∧ d.glob.output = g.output ∧
      d.glob.opening = 1 ∧ d.glob.closing = 1) ∧
    (∀ b, (∀ m ∈ msgs, Valid g.roles m) → msgs.foldlM (fun bs m => previousMessage m bs) main.prev = .ok b →
      ∃ d, processLine title fuel g parent main 0
        (number n ((msgs.map fun m => (⟨0, 0, false, .message m⟩ : Line)) ++ [⟨0, 1, false, .other⟩])) = .ok d)
  | [], done, 0, n, g, parent, main, hf, hn, ho, hc, hs => by omega
  | [], done, fuel + 1, n, g, parent, main, hf, hn, ho, hc, hs => by
    have e : processLine title (fuel + 1) g parent main 0 (number n (([] : List Msg).map (fun m =>
        (⟨0, 0, false, .message m⟩ : Line)) ++ [⟨0, 1, false, .other⟩])) =
        .ok ⟨{ g with opening := 1, closing := 1 }, parent, main, 0, []⟩ := by
      simp only [List.map_nil, List.nil_append, number, processLine, ho, hc]
      rfl
    rw [e]
    refine ⟨?_, fun b _ _ => ⟨_, rfl⟩⟩
    intro d hd
    simp only [Except.ok.injEq] at hd
    subst hd
    exact ⟨by simp, rfl, by simpa using hs, rfl, rfl, rfl, rfl⟩
  | m :: msgs, done, 0, n, g, parent, main, hf, hn, ho, hc, hs => by omega
  | m :: msgs, done, fuel + 1, n, g, parent, main, hf, hn, ho, hc, hs => by
    have e : processLine title (fuel + 1) g parent main 0 (number n ((m :: msgs).map (fun m =>
        (⟨0, 0, false, .message m⟩ : Line)) ++ [⟨0, 1, false, .other⟩])) =
        (updateMessages title g.roles m main >>= fun main' =>
          processLine title fuel (g.save (.message m)) parent main' 0
            (number (n + 1) (msgs.map (fun m => (⟨0, 0, false, .message m⟩ : Line)) ++ [⟨0, 1, false, .other⟩]))) := by
      simp only [List.map_cons, List.cons_append, number]
      conv => lhs; unfold processLine
      simp only [ho, hc, Nat.add_zero]
      rw [if_neg (by omega), if_neg (by omega), if_neg (by omega)]
      simp only [Bool.false_eq_true, if_false, Glob.save]
      rw [if_neg (by omega)]
      rw [ho, hc]
    rw [e]
    obtain ⟨u1, u2⟩ := update_iff title g.roles [0] main done m hs
    constructor
    · intro d hd
      obtain ⟨t, ht, hd⟩ := bind_ok hd
      obtain ⟨v, s', hp⟩ := u1 t ht
      obtain ⟨r1, r2, r3, r4⟩ := (process_messages title msgs (done ++ [m]) fuel (n + 1) (g.save (.message m)) parent t
        (by simp at hf; omega) (by omega) ho hc s').1 d hd
      refine ⟨?_, ?_, by rw [List.append_assoc] at r3; exact r3, r4⟩
      · intro x hx
        rcases List.mem_cons.mp hx with e | e
        · subst e; exact v
        · exact r1 x e
      · rw [List.foldlM_cons, hp]; exact r2
    · intro b hv hb
      rw [List.foldlM_cons] at hb
      obtain ⟨b1, hb1, hb2⟩ := bind_ok hb
      obtain ⟨t, ht, s', hp⟩ := u2 b1 (hv m (by simp)) hb1
      subst hp
      obtain ⟨d, hd⟩ := (process_messages title msgs (done ++ [m]) fuel (n + 1) (g.save (.message m)) parent t
        (by simp at hf; omega) (by omega) ho hc s').2 b (fun x hx => hv x (by simp [hx])) hb2
      exact ⟨d, by rw [ht]; exact hd⟩

theorem mem_insertBy {α : Type} (le : α → α → Bool) (x y : α) : ∀ l, y ∈ Check.insertBy le x l ↔ y = x ∨ y ∈ l
  | [] => by simp [Check.insertBy]
  | a :: l => by
    unfold Check.insertBy
    split
    · simp
    · simp only [List.mem_cons, mem_insertBy le x y l]
      constructor
      · rintro (h | h | h) <;> simp [h]
      · rintro (h | h | h) <;> simp [h]

theorem mem_sortBy {α : Type} (le : α → α → Bool) (y : α) : ∀ l, y ∈ Check.sortBy le l ↔ y ∈ l
  | [] => by simp [Check.sortBy]
  | a :: l => by
    have : Check.sortBy le (a :: l) = Check.insertBy le a (Check.sortBy le l) := rfl
    rw [this, mem_insertBy, mem_sortBy le y l]
    simp

/-- The tree after the header. -/
theorem shape_header (title : Text → Text) (roles : List Text) (idx : List Nat) :
    Shape title roles idx (initTree roles (indexText idx) (Tree.new idx)) [] := by
  constructor
  · rfl
  · intro p q hp hq h; simp only [initTree]; rw [if_pos ⟨hp, hq, h⟩]; rfl
  · intro p q hp hq h; simp only [initTree]; rw [if_pos ⟨hp, hq, h⟩]; rfl
  · intro p q hp hq h; simp only [initTree]; rw [if_pos ⟨hp, hq, h⟩]
  · intro p hp; simp only [initTree]; rw [if_pos hp]; rfl
  · intro p hp; simp only [initTree]; rw [if_pos hp]; rfl
  · intro p hp; simp only [initTree]; rw [if_pos hp]
  · intro p hp; simp only [initTree]; rw [if_pos hp]
  · rfl
  · intro p q hp; simp only [initTree]; rw [if_neg (fun h => hp h.1)]; rfl

/-- The roles in the order of the generated file. -/
def sorted (roles : List Text) : List Text := Check.sortBy Check.strLe roles

theorem mem_sorted (roles : List Text) (p : Text) : p ∈ sorted roles ↔ p ∈ roles := mem_sortBy _ _ _

/-- The generator on a choice-free protocol. -/
theorem generator_iff (title : Text → Text) (name : Text) (roles : List Text) (msgs : List Msg) :
    (∀ prog, generator title (protocol name roles msgs) = .ok prog →
      (∀ m ∈ msgs, Valid roles m) ∧ (∃ b, boundsOf msgs = .ok b) ∧
      ∃ t, Shape title (sorted roles) [0] t msgs ∧ prog = programOf (sorted roles) t) ∧
    ((∀ m ∈ msgs, Valid roles m) → (∃ b, boundsOf msgs = .ok b) →
      ∃ prog, generator title (protocol name roles msgs) = .ok prog) := by
  have hval : ∀ m, Valid (sorted roles) m ↔ Valid roles m := by
    intro m; simp only [Valid, mem_sorted]
  have e : processLine title ((protocol name roles msgs).length + 1) Glob.start (Tree.new []) (Tree.new [0]) 0
      (number 0 (protocol name roles msgs)) =
      processLine title (protocol name roles msgs).length
        ⟨some name, sorted roles, fun _ => none, 1, 0, Tables.empty⟩ (Tree.new []) (initTree (sorted roles) ['0'] (Tree.new [0])) 0
        (number 1 ((msgs.map fun m => (⟨0, 0, false, .message m⟩ : Line)) ++ [⟨0, 1, false, .other⟩])) := by
    conv => lhs; unfold protocol; simp only [List.cons_append, number]; unfold processLine
    simp [Glob.start, header, protocol, sorted]
  obtain ⟨p1, p2⟩ := process_messages title msgs [] (protocol name roles msgs).length 1
    ⟨some name, sorted roles, fun _ => none, 1, 0, Tables.empty⟩ (Tree.new []) (initTree (sorted roles) ['0'] (Tree.new [0]))
    (by simp [protocol]) (by omega) rfl rfl (shape_header title (sorted roles) [0])
  rw [generator_eq]
  rw [e]
  constructor
  · intro prog h
    obtain ⟨d, hd, h⟩ := bind_ok h
    obtain ⟨r1, r2, r3, r4, r5, r6, r7⟩ := p1 d hd
    rw [r4, r5, r6, r7] at h
    simp only [ne_eq, not_true_eq_false, if_false, reduceCtorEq, Except.ok.injEq] at h
    exact ⟨fun m hm => (hval m).mp (r1 m hm), ⟨_, r2⟩, d.main, by simpa using r3, h.symm⟩
  · rintro hv ⟨b, hb⟩
    obtain ⟨d, hd⟩ := p2 b (fun m hm => (hval m).mpr (hv m hm)) hb
    obtain ⟨r1, r2, r3, r4, r5, r6, r7⟩ := p1 d hd
    rw [hd]
    refine ⟨programOf d.glob.roles d.main, ?_⟩
    simp only [bind, Except.bind, r5, r6, r7]
    rfl

end Verif.Nuscr
