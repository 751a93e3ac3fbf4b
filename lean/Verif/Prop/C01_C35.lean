import Verif.Model.Types
/-!
# C01 (duality) and C35 (printed types)
-/
namespace Verif.Prop
open Verif.Types

/-! ## Specification -/

/-- One step of a binary session as seen from outside: direction (`true` = send), time window, payload. -/
structure Act (P : Type) where
  out : Bool
  window : Option Window
  payload : P
  deriving DecidableEq

/-- The sequence of steps of a session type, outermost first. -/
def acts {P : Type} : STy P → List (Act P)
  | .send w t s => ⟨true, w, t⟩ :: acts s
  | .recv w t s => ⟨false, w, t⟩ :: acts s
  | .fin => []

/-- The complementary step: direction flipped, everything else kept. -/
def Act.flip {P : Type} (a : Act P) : Act P := ⟨!a.out, a.window, a.payload⟩

/-! ## C01 -/

theorem C01_session {P : Type} (s : STy P) :
    s.dual.dual = s ∧ acts s.dual = (acts s).map Act.flip := by
  induction s with
  | send w t s ih => exact ⟨by simp [STy.dual, ih.1], by simp [STy.dual, acts, Act.flip, ih.2]⟩
  | recv w t s ih => exact ⟨by simp [STy.dual, ih.1], by simp [STy.dual, acts, Act.flip, ih.2]⟩
  | fin => simp [STy.dual, acts]

theorem acts_inj {P : Type} (s s' : STy P) (h : acts s = acts s') : s = s' := by
  induction s generalizing s' with
  | send w t s ih =>
    cases s' with
    | send w' t' s' => simp [acts] at h; rw [h.1.1, h.1.2, ih _ h.2]
    | recv _ _ _ => simp [acts] at h
    | fin => simp [acts] at h
  | recv w t s ih =>
    cases s' with
    | recv w' t' s' => simp [acts] at h; rw [h.1.1, h.1.2, ih _ h.2]
    | send _ _ _ => simp [acts] at h
    | fin => simp [acts] at h
  | fin => cases s' <;> simp_all [acts]

/-- Duality as a relation is exactly "same length, every step complementary", so it is symmetric and each
type has exactly one dual. -/
theorem C01_dual_iff {P : Type} (s s' : STy P) : s' = s.dual ↔ acts s' = (acts s).map Act.flip := by
  constructor
  · rintro rfl; exact (C01_session s).2
  · intro h; exact acts_inj _ _ (h.trans (C01_session s).2.symm)

/-- What stands at a place of a stack; places are reached by going to the continuation (of a choice: `false` for
the first branch, `true` for the second). -/
inductive Place where
  | role (a : List Char) (isDual : Bool)
  | toAll (a : List Char) (isDual : Bool)
  | fin
  | broadcast
  deriving DecidableEq

def placeAt : Stack → List Bool → Option Place
  | .role a d _, [] => some (.role a d)
  | .toAll a d _ _, [] => some (.toAll a d)
  | .fin, [] => some .fin
  | .broadcast, [] => some .broadcast
  | .role _ _ r, false :: p => placeAt r p
  | .toAll _ _ l r, b :: p => if b then placeAt r p else placeAt l p
  | _, _ => none

/-- Same role, other direction. -/
def Place.flip : Place → Place
  | .role a d => .role a (!d)
  | .toAll a d => .toAll a (!d)
  | .fin => .fin
  | .broadcast => .broadcast

/-- The dual of a stack has at every place the same role with the direction flipped; applied twice it gives back
the stack. -/
theorem C01_stack (r : Stack) : r.dual.dual = r ∧ ∀ p, placeAt r.dual p = (placeAt r p).map Place.flip := by
  refine ⟨by induction r <;> simp_all [Stack.dual], ?_⟩
  induction r with
  | role a d r ih =>
    intro p
    match p with
    | [] => rfl
    | false :: p => simp only [Stack.dual, placeAt, ih]
    | true :: p => simp only [Stack.dual, placeAt, Option.map_none]
  | toAll a d l r ihl ihr =>
    intro p
    match p with
    | [] => rfl
    | b :: p => cases b <;> simp [Stack.dual, placeAt, ihl, ihr]
  | fin => intro p; cases p <;> rfl
  | broadcast => intro p; cases p <;> rfl

theorem C01_mesh {P : Type} (m : Mesh P) :
    m.dual.dual = m ∧ m.dual.name = m.name ∧ m.dual.stack = m.stack.dual ∧ m.dual.sessions.length = m.sessions.length ∧
    ∀ (k : Nat) (s : STy P), m.sessions[k]? = some s → m.dual.sessions[k]? = some s.dual := by
  refine ⟨?_, rfl, rfl, by simp [Mesh.dual], ?_⟩
  · cases m with
    | mk ss r nm =>
      simp only [Mesh.dual, Mesh.mk.injEq, and_true, List.map_map]
      refine ⟨?_, (C01_stack r).1⟩
      have : STy.dual ∘ STy.dual = (id : STy P → STy P) := funext fun s => (C01_session s).1
      rw [this, List.map_id]
  · intro k s h
    simp [Mesh.dual, h]

example : (STy.send none 0 (STy.recv (some ⟨'a', 0, true, 5, false, ' '⟩) 1 STy.fin)).dual
    = STy.recv none 0 (STy.send (some ⟨'a', 0, true, 5, false, ' '⟩) 1 STy.fin) := by decide

/-! ## C35 -/

/-- The directions of a session: what `head_str`/`tail_str` are meant to show. -/
def spine {P : Type} (s : STy P) : List Bool := (acts s).map Act.out

/-- `"Send"` and `"Recv"` exchanged. -/
def wordOf (out : Bool) : List Char := if out then ['S', 'e', 'n', 'd'] else ['R', 'e', 'c', 'v']

/-- What a session with the given directions is expected to print in full. -/
def render : List Bool → List Char
  | [] => ['E', 'n', 'd', '<', '>']
  | d :: ds => wordOf d ++ '<' :: (render ds ++ ['>'])

/-- `head_str` and `tail_str` together print exactly the directions of the session. -/
theorem C35_session_render {P : Type} (s : STy P) :
    s.headStr ++ '<' :: (s.tailStr ++ ['>']) = render (spine s) := by
  induction s with
  | send w t s ih =>
    rw [STy.tailStr, ih]; rfl
  | recv w t s ih =>
    rw [STy.tailStr, ih]; rfl
  | fin => rfl

theorem render_prefix : ∀ (l l' : List Bool) (x y : List Char), render l ++ x = render l' ++ y →
    l = l' ∧ x = y := by
  intro l
  induction l with
  | nil =>
    intro l' x y h
    cases l' with
    | nil => exact ⟨rfl, List.append_cancel_left h⟩
    | cons d ds => cases d <;> simp [render, wordOf] at h
  | cons d ds ih =>
    intro l' x y h
    cases l' with
    | nil => cases d <;> simp [render, wordOf] at h
    | cons d' ds' =>
      have h2 : d = d' ∧ render ds ++ ('>' :: x) = render ds' ++ ('>' :: y) := by
        cases d <;> cases d' <;> simpa [render, wordOf] using h
      obtain ⟨e, f⟩ := ih _ _ _ h2.2
      exact ⟨by rw [h2.1, e], (List.cons.inj f).2⟩

/-- C35: two sessions print the same iff they have the same directions. -/
theorem C35_session_iff {P : Type} (s s' : STy P) :
    (s.headStr = s'.headStr ∧ s.tailStr = s'.tailStr) ↔ spine s = spine s' := by
  constructor
  · rintro ⟨h1, h2⟩
    have h := C35_session_render s
    rw [h1, h2, C35_session_render s'] at h
    exact (render_prefix _ _ [] [] (by simpa using h.symm)).1
  · intro h
    have hh : s.headStr = s'.headStr := by
      cases s <;> cases s' <;> simp_all [spine, acts, STy.headStr]
    refine ⟨hh, ?_⟩
    have := (C35_session_render s).trans ((congrArg render h).trans (C35_session_render s').symm)
    rw [hh] at this
    have := (List.cons.inj (List.append_cancel_left this)).2
    exact List.append_cancel_right this

/-- C35, duals: the dual session prints the complementary directions. -/
theorem C35_dual {P : Type} (s : STy P) :
    s.dual.headStr ++ '<' :: (s.dual.tailStr ++ ['>']) = render ((spine s).map (!·)) := by
  rw [C35_session_render]
  congr 1
  simp only [spine, (C01_session s).2, List.map_map]
  rfl

/-- The tree of constructor names of a stack. -/
inductive Shape where
  | leaf (h : List Char)
  | one (h : List Char) (r : Shape)
  | two (h : List Char) (l r : Shape)
  deriving DecidableEq

/-- The constructor name of a stack, as documented: `RoleX`, `RoleXDual`, `RoleXtoAll`, `RoleAlltoX`. -/
def shape : Stack → Shape
  | .role a d r => .one (['R', 'o', 'l', 'e'] ++ a ++ (if d then ['D', 'u', 'a', 'l'] else [])) (shape r)
  | .toAll a d l r => .two
      (if d then ['R', 'o', 'l', 'e', 'A', 'l', 'l', 't', 'o'] ++ a else ['R', 'o', 'l', 'e'] ++ a ++ ['t', 'o', 'A', 'l', 'l']) (shape l) (shape r)
  | .fin => .leaf ['R', 'o', 'l', 'e', 'E', 'n', 'd']
  | .broadcast => .leaf ['R', 'o', 'l', 'e', 'B', 'r', 'o', 'a', 'd', 'c', 'a', 's', 't']

/-- Role identifiers contain no punctuation used by the printer (they are Rust identifiers). -/
def CleanNames : Stack → Prop
  | .role a _ r => '<' ∉ a ∧ CleanNames r
  | .toAll a _ l r => '<' ∉ a ∧ CleanNames l ∧ CleanNames r
  | .fin => True
  | .broadcast => True

theorem sep_inj {c : Char} : ∀ (x y a b : List Char), c ∉ x → c ∉ y → x ++ c :: a = y ++ c :: b →
    x = y ∧ a = b := by
  intro x
  induction x with
  | nil =>
    intro y a b _ hy h
    cases y with
    | nil => simpa using h
    | cons d y => simp at h hy; exact absurd h.1 hy.1
  | cons d x ih =>
    intro y a b hx hy h
    cases y with
    | nil => simp at h hx; exact absurd h.1.symm hx.1
    | cons d' y =>
      simp at h hx hy
      obtain ⟨e, f⟩ := ih y a b hx.2 hy.2 h.2
      exact ⟨by rw [h.1, e], f⟩

/-- Root of a shape. -/
def Shape.root : Shape → List Char
  | .leaf h => h
  | .one h _ => h
  | .two h _ _ => h

theorem head_shape (r : Stack) : r.headStr = (shape r).root := by
  cases r with
  | role a d r => rfl
  | toAll a d l r => rfl
  | fin => rfl
  | broadcast => rfl

theorem head_clean (r : Stack) (h : CleanNames r) : '<' ∉ r.headStr := by
  cases r with
  | role a d r => cases d <;> simp_all [Stack.headStr, CleanNames]
  | toAll a d l r => cases d <;> simp_all [Stack.headStr, CleanNames]
  | fin => simp [Stack.headStr]
  | broadcast => simp [Stack.headStr]

theorem head_R (r : Stack) : ∃ t, r.headStr = 'R' :: t := by
  cases r with
  | role a d r => cases d <;> simp [Stack.headStr]
  | toAll a d l r => cases d <;> simp [Stack.headStr]
  | fin => simp [Stack.headStr]
  | broadcast => simp [Stack.headStr]

/-- Full printed form of a stack. -/
def stackStr (r : Stack) : List Char := r.headStr ++ '<' :: (r.tailStr ++ ['>'])

theorem stack_prefix : ∀ (r r' : Stack) (x y : List Char), CleanNames r → CleanNames r' →
    stackStr r ++ x = stackStr r' ++ y → shape r = shape r' ∧ x = y := by
  intro r
  induction r with
  | role a d r ih =>
    intro r' x y hc hc' h
    unfold stackStr at h
    simp only [List.append_assoc, List.cons_append, List.nil_append] at h
    obtain ⟨hh, ht⟩ := sep_inj _ _ _ _ (head_clean _ hc) (head_clean _ hc') h
    rw [head_shape, head_shape] at hh
    cases r' with
    | role a' d' r' =>
      obtain ⟨e, f⟩ := ih r' ('>' :: x) ('>' :: y) hc.2 hc'.2
        (by simpa [stackStr, Stack.tailStr] using ht)
      simp only [shape, Shape.root] at hh ⊢
      exact ⟨by rw [hh, e], (List.cons.inj f).2⟩
    | toAll a' d' l' r' =>
      obtain ⟨e, f⟩ := ih l' ('>' :: x) (' ' :: '+' :: ' ' :: (stackStr r' ++ '>' :: y)) hc.2 hc'.2.1
        (by simpa [stackStr, Stack.tailStr] using ht)
      simp at f
    | fin =>
      obtain ⟨t, e⟩ := head_R r
      simp [Stack.tailStr, e] at ht
    | broadcast =>
      obtain ⟨t, e⟩ := head_R r
      simp [Stack.tailStr, e] at ht
  | toAll a d l r ihl ihr =>
    intro r' x y hc hc' h
    unfold stackStr at h
    simp only [List.append_assoc, List.cons_append, List.nil_append] at h
    obtain ⟨hh, ht⟩ := sep_inj _ _ _ _ (head_clean _ hc) (head_clean _ hc') h
    rw [head_shape, head_shape] at hh
    cases r' with
    | role a' d' r' =>
      obtain ⟨e, f⟩ := ihl r' (' ' :: '+' :: ' ' :: (stackStr r ++ '>' :: x)) ('>' :: y) hc.2.1 hc'.2
        (by simpa [stackStr, Stack.tailStr] using ht)
      simp at f
    | toAll a' d' l' r' =>
      obtain ⟨e, f⟩ := ihl l' (' ' :: '+' :: ' ' :: (stackStr r ++ '>' :: x))
        (' ' :: '+' :: ' ' :: (stackStr r' ++ '>' :: y)) hc.2.1 hc'.2.1
        (by simpa [stackStr, Stack.tailStr] using ht)
      obtain ⟨e2, f2⟩ := ihr r' ('>' :: x) ('>' :: y) hc.2.2 hc'.2.2 (by simpa using f)
      simp only [shape, Shape.root] at hh ⊢
      exact ⟨by rw [hh, e, e2], (List.cons.inj f2).2⟩
    | fin =>
      obtain ⟨t, e⟩ := head_R l
      simp [Stack.tailStr, e] at ht
    | broadcast =>
      obtain ⟨t, e⟩ := head_R l
      simp [Stack.tailStr, e] at ht
  | fin =>
    intro r' x y hc hc' h
    unfold stackStr at h
    simp only [List.append_assoc, List.cons_append, List.nil_append] at h
    obtain ⟨hh, ht⟩ := sep_inj _ _ _ _ (head_clean _ hc) (head_clean _ hc') h
    rw [head_shape, head_shape] at hh
    cases r' with
    | role a' d' r' => obtain ⟨t, e⟩ := head_R r'; simp [Stack.tailStr, e] at ht
    | toAll a' d' l' r' => obtain ⟨t, e⟩ := head_R l'; simp [Stack.tailStr, e] at ht
    | fin => exact ⟨rfl, by simpa [Stack.tailStr] using ht⟩
    | broadcast => simp [shape, Shape.root] at hh
  | broadcast =>
    intro r' x y hc hc' h
    unfold stackStr at h
    simp only [List.append_assoc, List.cons_append, List.nil_append] at h
    obtain ⟨hh, ht⟩ := sep_inj _ _ _ _ (head_clean _ hc) (head_clean _ hc') h
    rw [head_shape, head_shape] at hh
    cases r' with
    | role a' d' r' => obtain ⟨t, e⟩ := head_R r'; simp [Stack.tailStr, e] at ht
    | toAll a' d' l' r' => obtain ⟨t, e⟩ := head_R l'; simp [Stack.tailStr, e] at ht
    | fin => simp [shape, Shape.root] at hh
    | broadcast => exact ⟨rfl, by simpa [Stack.tailStr] using ht⟩

/-- C35 for ordering stacks: two stacks that print the same have the same tree of constructors. -/
theorem C35_stack (r r' : Stack) (hc : CleanNames r) (hc' : CleanNames r')
    (h1 : r.headStr = r'.headStr) (h2 : r.tailStr = r'.tailStr) : shape r = shape r' :=
  (stack_prefix r r' [] [] hc hc' (by simp [stackStr, h1, h2])).1

/-- C35 for meshes: two endpoints of the same mesh type (same number of sessions) that print the same
agree on the directions of every session and on the shape of the stack. -/
theorem C35_mesh {P : Type} (m m' : Mesh P) (hl : m.sessions.length = m'.sessions.length)
    (hc : CleanNames m.stack) (hc' : CleanNames m'.stack)
    (h : m.tailStr = m'.tailStr) :
    m.sessions.map spine = m'.sessions.map spine ∧ shape m.stack = shape m'.stack ∧ m.name = m'.name := by
  cases m with
  | mk ss r nm =>
  cases m' with
  | mk ss' r' nm' =>
  simp only [Mesh.tailStr] at *
  induction ss generalizing ss' with
  | nil =>
    cases ss' with
    | cons _ _ => simp at hl
    | nil =>
      have h2 : stackStr r ++ ('\n' :: (['N', 'a', 'm', 'e'] ++ nm ++ ['<', '>']))
          = stackStr r' ++ ('\n' :: (['N', 'a', 'm', 'e'] ++ nm' ++ ['<', '>'])) := by
        simpa [stackStr] using h
      obtain ⟨e, f⟩ := stack_prefix _ _ _ _ hc hc' h2
      refine ⟨rfl, e, ?_⟩
      have f := (List.cons.inj f).2
      exact List.append_cancel_left (List.append_cancel_right f)
  | cons s ss ih =>
    cases ss' with
    | nil => simp at hl
    | cons s' ss' =>
      have key : ∀ (u : STy P) (R : List Char), (u.headStr ++ '<' :: (u.tailStr ++ '>' :: ['\n'])) ++ R
          = render (spine u) ++ ('\n' :: R) := by
        intro u R; rw [← C35_session_render]; simp
      simp only [List.flatMap_cons, List.append_assoc] at h
      have h3 := key s (List.flatMap (fun s => s.headStr ++ '<' :: (s.tailStr ++ '>' :: ['\n'])) ss ++
        (r.headStr ++ '<' :: (r.tailStr ++ '>' :: '\n' :: (['N', 'a', 'm', 'e'] ++ nm ++ ['<', '>']))))
      have h4 := key s' (List.flatMap (fun s => s.headStr ++ '<' :: (s.tailStr ++ '>' :: ['\n'])) ss' ++
        (r'.headStr ++ '<' :: (r'.tailStr ++ '>' :: '\n' :: (['N', 'a', 'm', 'e'] ++ nm' ++ ['<', '>']))))
      simp only [List.append_assoc] at h3 h4
      rw [h3, h4] at h
      obtain ⟨e, f⟩ := render_prefix _ _ _ _ h
      have f := (List.cons.inj f).2
      obtain ⟨a, b, c⟩ := ih (ss' := ss') (by simpa using hl) (by simpa using f)
      exact ⟨by rw [List.map_cons, List.map_cons, e, a], b, c⟩

example : CleanNames (.role ['A'] false (.toAll ['B'] true .fin .fin)) := by
  simp [CleanNames]
example : (STy.send none 0 (STy.recv none 1 STy.fin)).tailStr = ['R', 'e', 'c', 'v', '<', 'E', 'n', 'd', '<', '>', '>'] := by decide

end Verif.Prop
