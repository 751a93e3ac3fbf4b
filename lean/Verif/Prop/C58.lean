import Verif.Proof.Indexed
import Verif.Prop.C12_C13
import Verif.Prop.C18
/-!
# C58: functions made by macros that are given an index

Specification vocabulary: `Verif/Spec/Indexed.lean` (`Compiles`, `fieldsOf`), `Verif/Spec/Wiring.lean` (`Wired`,
`Connected`), `Verif/Spec/Pairs.lean` (`slotOf`).  Emitted functions: `Verif/Model/Indexed.lean`.
-/
namespace Verif.Prop
open Verif.Indexed Verif.Spec

/-- C58, the types declared by the functions that send or receive: on a mesh of role `b` whose stack begins with role `a`
and whose session `k` is a communication of a `T`; handed on is the mesh with the continuation of this session, the other
sessions and the rest of the stack. -/
theorem C58_types (a b : Str) (n k : Nat) (f : Fn)
    (hf : f = sendFn a b n k ∨ f = sendCancelFn a b n k ∨ f = recvFn a b n k) :
    f.stack = .role a (.var 0) ∧ f.name = b ∧ (f.arg = true ↔ f ≠ recvFn a b n k) ∧
    f.sessions.length = n - 1 ∧
    (∀ i, 1 ≤ i → i < n → f.sessions[i - 1]? = some (if i = k then
      (if f = recvFn a b n k then .recv .T (.var i) else .send .T (.var i)) else .var i)) ∧
    ∃ ss, (f.ret = if f = recvFn a b n k then .pair ss (.var 0) else .mesh ss (.var 0)) ∧ ss.length = n - 1 ∧
      ∀ i, 1 ≤ i → i < n → ss[i - 1]? = some (.var i) := by
  have get : ∀ (g : Nat → Ty) (i : Nat), 1 ≤ i → i < n → ((List.range' 1 (n - 1)).map g)[i - 1]? = some (g i) := by
    intro g i h1 h2
    rw [List.getElem?_map, List.getElem?_range' (by omega), Option.map_some, show 1 + 1 * (i - 1) = i by omega]
  have ne1 : sendFn a b n k ≠ recvFn a b n k := fun e => by have := congrArg Fn.arg e; cases this
  have ne2 : sendCancelFn a b n k ≠ recvFn a b n k := fun e => by have := congrArg Fn.arg e; cases this
  rcases hf with rfl | rfl | rfl
  · refine ⟨rfl, rfl, ⟨fun _ => ne1, fun _ => rfl⟩, by simp [sendFn], ?_, _, by rw [if_neg ne1]; rfl, by simp, get _⟩
    intro i h1 h2; rw [if_neg ne1]; exact get _ i h1 h2
  · refine ⟨rfl, rfl, ⟨fun _ => ne2, fun _ => rfl⟩, by simp [sendCancelFn], ?_, _, by rw [if_neg ne2]; rfl, by simp, get _⟩
    intro i h1 h2; rw [if_neg ne2]; exact get _ i h1 h2
  · refine ⟨rfl, rfl, by simp [recvFn], by simp [recvFn], ?_, _, by rw [if_pos rfl]; rfl, by simp, get _⟩
    intro i h1 h2; rw [if_pos rfl]; exact get _ i h1 h2

/-- C58, the types declared by the checking variant: as above, with the first session finished. -/
theorem C58_check_types (a b : Str) (n k : Nat) :
    (sendCheckFn a b n k).stack = .role a (.var 0) ∧ (sendCheckFn a b n k).name = b ∧
    (sendCheckFn a b n k).sessions[0]? = some .fin ∧
    (∀ i, 2 ≤ i → i < n → (sendCheckFn a b n k).sessions[i - 1]? = some (if i = k then .send .T (.var i) else .var i)) ∧
    ∃ ss, (sendCheckFn a b n k).ret = .mesh ss (.var 0) ∧ ss[0]? = some .fin ∧
      ∀ i, 2 ≤ i → i < n → ss[i - 1]? = some (.var i) := by
  have get : ∀ (g : Nat → Ty) (i : Nat), 2 ≤ i → i < n →
      (Ty.fin :: (List.range' 2 (n - 2)).map g)[i - 1]? = some (g i) := by
    intro g i h1 h2
    rw [show i - 1 = (i - 2) + 1 by omega, List.getElem?_cons_succ, List.getElem?_map, List.getElem?_range' (by omega),
      Option.map_some, show 2 + 1 * (i - 2) = i by omega]
  exact ⟨rfl, rfl, rfl, get _, _, rfl, rfl, get _⟩

/-- C58, the types declared by the functions that offer, beside meshes for as many roles: on a mesh of role `b` whose stack
is `a` with two ends, whose session `k` brings one of two meshes and whose other sessions are finished; the meshes of the
branches have all different parameters, and are those the functions for the branches take. -/
theorem C58_offer_types (a b : Str) (n k : Nat) (hn : 1 ≤ n) :
    ∃ f left right, offerFn n a b n k = some f ∧ f.stack = .two a .fin .fin ∧ f.name = b ∧ f.arg = false ∧
      f.sessions.length = n - 1 ∧
      (∀ i, 1 ≤ i → i < n → f.sessions[i - 1]? = some (if i = k then .recv (.either left 1 right 2 b) .fin else .fin)) ∧
      f.ret = .branches left 1 right 2 ∧ left.length = n - 1 ∧ right.length = n - 1 ∧ (left ++ right).Nodup := by
  have hty : offerType n (List.range' 1 (2 * n - 2)) 1 2 b =
      some (.recv (.either (List.range' 1 (n - 1)) 1 (List.range' n (n - 1)) 2 b) .fin) := by
    have get : ∀ i, 1 ≤ i → i ≤ 2 * n - 2 → (List.range' 1 (2 * n - 2)).getD (i - 1) 0 = i := by
      intro i h1 h2
      rw [List.getD_eq_getElem?_getD, List.getElem?_range' (by omega), Option.getD_some]; omega
    unfold offerType
    rw [if_pos (by simp)]
    congr 3
    · apply List.map_congr_left (g := id) _ |>.trans (List.map_id _)
      intro i hi
      rw [List.mem_range'_1] at hi
      exact get i (by omega) (by omega)
    · apply List.map_congr_left (g := id) _ |>.trans (List.map_id _)
      intro i hi
      rw [List.mem_range'_1] at hi
      exact get i (by omega) (by omega)
  have hm : ((List.range' 1 (n - 1)).mapM fun i =>
      if i ≠ k then some .fin else offerType n (List.range' 1 (2 * n - 2)) 1 2 b) =
      some ((List.range' 1 (n - 1)).map fun i => if i = k then
        Ty.recv (.either (List.range' 1 (n - 1)) 1 (List.range' n (n - 1)) 2 b) .fin else .fin) := by
    rw [hty]
    have := mapM_map_some (fun i => if i ≠ k then some Ty.fin else
      some (Ty.recv (.either (List.range' 1 (n - 1)) 1 (List.range' n (n - 1)) 2 b) .fin)) id
      (fun i => if i = k then Ty.recv (.either (List.range' 1 (n - 1)) 1 (List.range' n (n - 1)) 2 b) .fin else .fin)
      (List.range' 1 (n - 1)) (by intro i _; by_cases e : i = k <;> simp [e])
    rwa [List.map_id] at this
  refine ⟨_, List.range' 1 (n - 1), List.range' n (n - 1), by unfold offerFn; rw [if_neg (by omega), hm], rfl, rfl, rfl,
    by simp, ?_, rfl, by simp, by simp, ?_⟩
  · intro i h1 h2
    simp only
    rw [List.getElem?_map, List.getElem?_range' (by omega), Option.map_some, show 1 + 1 * (i - 1) = i by omega]
  · rw [List.nodup_append]
    refine ⟨List.nodup_range', List.nodup_range', ?_⟩
    intro x hx y hy
    rw [List.mem_range'_1] at hx hy
    omega

section calls
variable {E α X K : Type} (o : Ops E α X K) (slots : List α) (stack : K) (a b : Str) (n k : Nat)

/-- C58, `create_send_mpst_session!` with an index in range.  Whatever sending does, the function sends its argument on
session `k`, fails as sending fails, and gives back the mesh with the continuation at `k`, all other sessions unchanged,
and the rest of the stack. -/
theorem C58_send (hk : 1 ≤ k) (hn : k < n) (hl : slots.length = n - 1) (x : X) :
    ∃ s, slots[k - 1]? = some s ∧
      (∀ e, o.send x s = some (.error e) → (sendFn a b n k).call o (some x) slots stack = some (.error e)) ∧
      (∀ s' q, o.send x s = some (.ok s') → o.pop stack = some q →
        (sendFn a b n k).call o (some x) slots stack = some (.ok ⟨fieldsOf (slots.set (k - 1) s'), q, none⟩)) := by
  obtain ⟨s, rest, e1, e2, e3⟩ := slot_in X K slots n k hk hn hl
  refine ⟨s, e1, ?_, ?_⟩
  · intro e he
    simp only [call_eq, sendFn, body_eq, if_pos (And.intro hk hn), List.cons_append, List.nil_append, steps, step, e2, he,
      Option.map_some, Except.map]
  · intro s' q he hq
    have := e3 s' { slots := fieldsOf slots, x := none, stack := none, newStack := some q }
    simp only [call_eq, sendFn, body_eq, if_pos (And.intro hk hn), List.cons_append, List.nil_append, steps, step, e2, he,
      Option.map_some, Except.map, hq, this]

/-- C58, `create_send_mpst_cancel!` with an index in range: the same with `send_canceled`. -/
theorem C58_send_cancel (hk : 1 ≤ k) (hn : k < n) (hl : slots.length = n - 1) (x : X) :
    ∃ s, slots[k - 1]? = some s ∧
      (∀ e, o.sendCanceled x s = some (.error e) →
        (sendCancelFn a b n k).call o (some x) slots stack = some (.error e)) ∧
      (∀ s' q, o.sendCanceled x s = some (.ok s') → o.pop stack = some q →
        (sendCancelFn a b n k).call o (some x) slots stack
          = some (.ok ⟨fieldsOf (slots.set (k - 1) s'), q, none⟩)) := by
  obtain ⟨s, rest, e1, e2, e3⟩ := slot_in X K slots n k hk hn hl
  refine ⟨s, e1, ?_, ?_⟩
  · intro e he
    simp only [call_eq, sendCancelFn, body_eq, if_pos (And.intro hk hn), List.cons_append, List.nil_append, steps, step,
      e2, he, Option.map_some, Except.map]
  · intro s' q he hq
    have := e3 s' { slots := fieldsOf slots, x := none, stack := none, newStack := some q }
    simp only [call_eq, sendCancelFn, body_eq, if_pos (And.intro hk hn), List.cons_append, List.nil_append, steps, step,
      e2, he, Option.map_some, Except.map, hq, this]

theorem fieldsOf_one (l : List α) (h : l ≠ []) : ∃ s, l[0]? = some s ∧ (fieldsOf l).lookup 1 = some s := by
  cases l with
  | nil => exact absurd rfl h
  | cons x l => exact ⟨x, rfl, by unfold fieldsOf; rw [zip_range_cons]; rfl⟩

/-- C58, `create_send_check_cancel!` with an index in range: the first session is looked at before anything is sent. -/
theorem C58_send_check (hk : 1 ≤ k) (hn : k < n) (hl : slots.length = n - 1) (x : X) :
    ∃ s t, slots[k - 1]? = some s ∧ slots[0]? = some t ∧
      (∀ e, o.poll t = some (.error e) → (sendCheckFn a b n k).call o (some x) slots stack = some (.error e)) ∧
      (∀ e, o.poll t = some (.ok ()) → o.sendCanceled x s = some (.error e) →
        (sendCheckFn a b n k).call o (some x) slots stack = some (.error e)) ∧
      (∀ s' q, o.poll t = some (.ok ()) → o.sendCanceled x s = some (.ok s') → o.pop stack = some q →
        (sendCheckFn a b n k).call o (some x) slots stack
          = some (.ok ⟨fieldsOf (slots.set (k - 1) s'), q, none⟩)) := by
  obtain ⟨s, rest, e1, e2, e3⟩ := slot_in X K slots n k hk hn hl
  obtain ⟨t, e4, e5⟩ := fieldsOf_one slots (by rintro rfl; simp at e1)
  refine ⟨s, t, e1, e4, ?_, ?_, ?_⟩
  · intro e he
    simp only [call_eq, sendCheckFn, body_eq, if_pos (And.intro hk hn), List.cons_append, List.nil_append, steps, step,
      e5, he, Option.map_some, Except.map]
  · intro e hp he
    simp only [call_eq, sendCheckFn, body_eq, if_pos (And.intro hk hn), List.cons_append, List.nil_append, steps, step,
      e5, hp, e2, he, Option.map_some, Except.map]
  · intro s' q hp he hq
    have := e3 s' { slots := fieldsOf slots, x := none, stack := none, newStack := some q }
    simp only [call_eq, sendCheckFn, body_eq, if_pos (And.intro hk hn), List.cons_append, List.nil_append, steps, step,
      e5, hp, e2, he, Option.map_some, Except.map, hq, this]

/-- C58, `create_recv_mpst_session!` with an index in range: the message is the one received on session `k`. -/
theorem C58_recv (hk : 1 ≤ k) (hn : k < n) (hl : slots.length = n - 1) :
    ∃ s, slots[k - 1]? = some s ∧
      (∀ e, o.recv s = some (.error e) → (recvFn a b n k).call o none slots stack = some (.error e)) ∧
      (∀ v s' q, o.recv s = some (.ok (v, s')) → o.pop stack = some q →
        (recvFn a b n k).call o none slots stack = some (.ok ⟨fieldsOf (slots.set (k - 1) s'), q, some v⟩)) := by
  obtain ⟨s, rest, e1, e2, e3⟩ := slot_in X K slots n k hk hn hl
  refine ⟨s, e1, ?_, ?_⟩
  · intro e he
    simp only [call_eq, recvFn, body_eq, if_pos (And.intro hk hn), List.cons_append, List.nil_append, steps, step, e2, he,
      Option.map_some, Except.map]
  · intro v s' q he hq
    have := e3 s' { slots := fieldsOf slots, x := none, stack := none, newStack := some q, got := some v }
    simp only [call_eq, recvFn, body_eq, if_pos (And.intro hk hn), List.cons_append, List.nil_append, steps, step, e2, he,
      Option.map_some, Except.map, hq, this]

/-- C58, `create_offer_mpst_session_multi!` with an index in range: the branch is the one received on session `k`. -/
theorem C58_offer (m : Nat) (f : Fn) (hf : offerFn m a b n k = some f) (hk : 1 ≤ k) (hn : k < n)
    (hl : slots.length = n - 1) :
    ∃ s, slots[k - 1]? = some s ∧
      (∀ e, o.recv s = some (.error e) → f.call o none slots stack = some (.error e)) ∧
      (∀ v s' q, o.recv s = some (.ok (v, s')) → o.popLeft stack = some q →
        f.call o none slots stack = some (.ok ⟨fieldsOf (slots.set (k - 1) s'), q, some v⟩)) := by
  obtain ⟨s, rest, e1, e2, e3⟩ := slot_in X K slots n k hk hn hl
  unfold offerFn at hf
  rw [if_neg (by omega)] at hf
  split at hf
  · cases hf
  · cases hf
    refine ⟨s, e1, ?_, ?_⟩
    · intro e he
      simp only [call_eq, body_eq, if_pos (And.intro hk hn), List.cons_append, List.nil_append, steps, step, e2, he,
        Option.map_some, Except.map]
    · intro v s' q he hq
      have := e3 s' { slots := fieldsOf slots, x := none, stack := none, newStack := some q, got := some v }
      simp only [call_eq, body_eq, if_pos (And.intro hk hn), List.cons_append, List.nil_append, steps, step, e2, he,
        Option.map_some, Except.map, hq, this]

end calls

/-! ### Which calls of the macros compile -/

theorem range_set (a m k : Nat) (hk : a ≤ k) (g : Ty) :
    ((List.range' a m).map fun i => if i = k then g else Ty.var i).set (k - a) (.var k) = (List.range' a m).map .var := by
  apply List.ext_getElem?
  intro i
  rw [List.getElem?_set]
  simp only [List.length_map, List.length_range', List.getElem?_map]
  by_cases h : k - a = i
  · rw [if_pos h]
    by_cases h2 : i < m
    · rw [if_pos (by omega), List.getElem?_range' h2]
      simp only [Option.map_some]
      congr 2; omega
    · rw [if_neg (by omega), List.getElem?_eq_none (by simp; omega)]; rfl
  · rw [if_neg h]
    by_cases h2 : i < m
    · rw [List.getElem?_range' h2]
      simp only [Option.map_some]
      rw [if_neg (by omega)]
    · rw [List.getElem?_eq_none (by simp; omega)]; rfl

theorem range_get (a m k : Nat) (hk : a ≤ k) (hn : k < a + m) (g : Ty) :
    ((List.range' a m).map fun i => if i = k then g else Ty.var i)[k - a]? = some g := by
  rw [List.getElem?_map, List.getElem?_range' (by omega), Option.map_some, if_pos (by omega)]

theorem range_out (a m k : Nat) (h : ¬ (a ≤ k ∧ k < a + m)) (g : Ty) :
    ((List.range' a m).map fun i => if i = k then g else Ty.var i) = (List.range' a m).map .var := by
  apply List.map_congr_left
  intro i hi
  simp only [List.mem_range'_1] at hi
  rw [if_neg (by omega)]

section lost
variable {E α X K : Type} (o : Ops E α X K) (slots : List α) (stack : K) (a b : Str) (n k : Nat)

/-- C58, refuted: with an index that belongs to no session, the functions that send do not send.  They hand the mesh
on as if they had: no call is made on any session, the message is dropped, the stack is taken apart. -/
theorem C58_lost (h : ¬ (1 ≤ k ∧ k < n)) (hl : slots.length = n - 1) (x : X) (q : K) (hq : o.pop stack = some q) :
    (sendFn a b n k).call o (some x) slots stack = some (.ok ⟨fieldsOf slots, q, none⟩) ∧
    (sendCancelFn a b n k).call o (some x) slots stack = some (.ok ⟨fieldsOf slots, q, none⟩) ∧
    (∀ t, slots[0]? = some t → o.poll t = some (.ok ()) →
      (sendCheckFn a b n k).call o (some x) slots stack = some (.ok ⟨fieldsOf slots, q, none⟩)) := by
  have := slot_out slots n k h hl { slots := fieldsOf slots, x := some x, stack := (none : Option K), newStack := some q }
  refine ⟨?_, ?_, ?_⟩
  · simp only [call_eq, sendFn, body_eq, if_neg h, List.nil_append, steps, step, Option.map_some, hq, this]
  · simp only [call_eq, sendCancelFn, body_eq, if_neg h, List.nil_append, steps, step, Option.map_some, hq, this]
  · intro t ht hp
    obtain ⟨t', e4, e5⟩ := fieldsOf_one slots (by rintro rfl; simp at ht)
    rw [ht] at e4; cases e4
    simp only [call_eq, sendCheckFn, body_eq, if_neg h, List.nil_append, List.cons_append, steps, step, Option.map_some,
      Except.map, e5, hp, hq, this]

end lost

theorem compiles_send (a b : Str) (n k : Nat) : Compiles n (sendFn a b n k) ∧ Compiles n (sendCancelFn a b n k) := by
  by_cases h : 1 ≤ k ∧ k < n
  · have hl : ((List.range' 1 (n - 1)).map fun i => if i = k then Ty.send .T (.var i) else .var i).length = n - 1 := by
      simp
    have hg : ((List.range' 1 (n - 1)).map fun i => if i = k then Ty.send .T (.var i) else .var i)
        = (List.range' 1 (n - 1)).map fun i => if i = k then Ty.send .T (.var k) else .var i := by
      apply List.map_congr_left; intro i _; by_cases e : i = k <;> simp [e]
    constructor
    · refine ⟨hl, ?_⟩
      obtain ⟨s, e1, -, e3⟩ := C58_send tyOps (sendFn a b n k).sessions (.role a (.var 0)) a b n k h.1 h.2 hl .T
      have e4 : (sendFn a b n k).sessions[k - 1]? = some (.send .T (.var k)) := by
        show (List.map _ _)[k - 1]? = _
        rw [hg]; exact range_get 1 (n - 1) k h.1 (by omega) _
      rw [e4] at e1; cases e1
      refine ⟨_, e3 (.var k) (.var 0) rfl rfl, by simp, ?_, rfl⟩
      show (fieldsOf (List.set (List.map _ _) _ _)).Perm _
      rw [hg, range_set 1 (n - 1) k h.1]
    · refine ⟨hl, ?_⟩
      obtain ⟨s, e1, -, e3⟩ := C58_send_cancel tyOps (sendFn a b n k).sessions (.role a (.var 0)) a b n k h.1 h.2 hl .T
      have e4 : (sendFn a b n k).sessions[k - 1]? = some (.send .T (.var k)) := by
        show (List.map _ _)[k - 1]? = _
        rw [hg]; exact range_get 1 (n - 1) k h.1 (by omega) _
      rw [e4] at e1; cases e1
      refine ⟨_, e3 (.var k) (.var 0) rfl rfl, by simp, ?_, rfl⟩
      show (fieldsOf (List.set (List.map _ _) _ _)).Perm _
      rw [hg, range_set 1 (n - 1) k h.1]
  · have hl : ((List.range' 1 (n - 1)).map fun i => if i = k then Ty.send .T (.var i) else .var i).length = n - 1 := by
      simp
    have hg : ((List.range' 1 (n - 1)).map fun i => if i = k then Ty.send .T (.var i) else .var i)
        = (List.range' 1 (n - 1)).map .var := by
      apply List.map_congr_left
      intro i hi
      simp only [List.mem_range'_1] at hi
      rw [if_neg (by omega)]
    obtain ⟨e1, e2, -⟩ := C58_lost tyOps (sendFn a b n k).sessions (.role a (.var 0)) a b n k h hl .T (.var 0) rfl
    constructor
    · refine ⟨hl, _, e1, by simp, ?_, rfl⟩
      show (fieldsOf (List.map _ _)).Perm _
      rw [hg]
    · refine ⟨hl, _, e2, by simp, ?_, rfl⟩
      show (fieldsOf (List.map _ _)).Perm _
      rw [hg]

theorem compiles_check (a b : Str) (n k : Nat) (h2 : 2 ≤ n) (h1 : k ≠ 1) : Compiles n (sendCheckFn a b n k) := by
  have hl : (sendCheckFn a b n k).sessions.length = n - 1 := by
    show (_ :: List.map _ _).length = _
    simp; omega
  by_cases h : 1 ≤ k ∧ k < n
  · have hg : ((List.range' 2 (n - 2)).map fun i => if i = k then Ty.send .T (.var i) else .var i)
        = (List.range' 2 (n - 2)).map fun i => if i = k then Ty.send .T (.var k) else .var i := by
      apply List.map_congr_left; intro i _; by_cases e : i = k <;> simp [e]
    have ek : k - 1 = (k - 2) + 1 := by omega
    refine ⟨hl, ?_⟩
    obtain ⟨s, t, e1, e2, -, -, e3⟩ :=
      C58_send_check tyOps (sendCheckFn a b n k).sessions (.role a (.var 0)) a b n k h.1 h.2 hl .T
    have e4 : (sendCheckFn a b n k).sessions[k - 1]? = some (.send .T (.var k)) := by
      show (_ :: List.map _ _)[k - 1]? = _
      rw [hg, ek, List.getElem?_cons_succ]
      exact range_get 2 (n - 2) k (by omega) (by omega) _
    rw [e4] at e1; cases e1
    cases e2
    refine ⟨_, e3 (.var k) (.var 0) rfl rfl rfl, by simp; omega, ?_, rfl⟩
    show (fieldsOf (List.set (_ :: List.map _ _) _ _)).Perm _
    rw [hg, ek, List.set_cons_succ, range_set 2 (n - 2) k (by omega)]
  · have hg : ((List.range' 2 (n - 2)).map fun i => if i = k then Ty.send .T (.var i) else .var i)
        = (List.range' 2 (n - 2)).map .var := by
      apply List.map_congr_left
      intro i hi
      simp only [List.mem_range'_1] at hi
      rw [if_neg (by omega)]
    obtain ⟨-, -, e1⟩ := C58_lost tyOps (sendCheckFn a b n k).sessions (.role a (.var 0)) a b n k h hl .T (.var 0) rfl
    refine ⟨hl, _, e1 .fin rfl rfl, by simp; omega, ?_, rfl⟩
    show (fieldsOf (_ :: List.map _ _)).Perm _
    rw [hg]

theorem compiles_recv (a b : Str) (n k : Nat) (h : 1 ≤ k ∧ k < n) : Compiles n (recvFn a b n k) := by
  have hl : (recvFn a b n k).sessions.length = n - 1 := by
    show (List.map _ _).length = _
    simp
  have hg : ((List.range' 1 (n - 1)).map fun i => if i = k then Ty.recv .T (.var i) else .var i)
      = (List.range' 1 (n - 1)).map fun i => if i = k then Ty.recv .T (.var k) else .var i := by
    apply List.map_congr_left; intro i _; by_cases e : i = k <;> simp [e]
  refine ⟨hl, ?_⟩
  obtain ⟨s, e1, -, e3⟩ := C58_recv tyOps (recvFn a b n k).sessions (.role a (.var 0)) a b n k h.1 h.2 hl
  have e4 : (recvFn a b n k).sessions[k - 1]? = some (.recv .T (.var k)) := by
    show (List.map _ _)[k - 1]? = _
    rw [hg]; exact range_get 1 (n - 1) k h.1 (by omega) _
  rw [e4] at e1; cases e1
  refine ⟨_, e3 .T (.var k) (.var 0) rfl rfl, by simp, ?_, rfl, rfl⟩
  show (fieldsOf (List.set (List.map _ _) _ _)).Perm _
  rw [hg, range_set 1 (n - 1) k h.1]

theorem range_getD (m l j : Nat) (h : l + m ≤ j + 1) (hl : 1 ≤ l) :
    (List.range' l m).map (fun i => (List.range' 1 j).getD (i - 1) 0) = List.range' l m := by
  conv => rhs; rw [← List.map_id (List.range' l m)]
  apply List.map_congr_left
  intro i hi
  simp only [List.mem_range'_1] at hi
  rw [List.getD_eq_getElem?_getD, List.getElem?_range' (by omega)]
  simp; omega

theorem offerType_eq (n : Nat) (name : Str) (hn : 1 ≤ n) : offerType n (List.range' 1 (2 * n - 2)) 1 2 name
    = some (.recv (.either (List.range' 1 (n - 1)) 1 (List.range' n (n - 1)) 2 name) .fin) := by
  unfold offerType
  rw [if_pos (by simp), range_getD _ _ _ (by omega) (by omega), range_getD _ _ _ (by omega) (by omega)]

theorem mapM_some_map {α β : Type} (g : α → β) : ∀ l : List α, l.mapM (fun i => some (g i)) = some (l.map g) := by
  intro l
  induction l with
  | nil => rfl
  | cons x l ih => rw [List.mapM_cons, ih]; rfl

theorem mapM_congr_mem {α β : Type} (f g : α → Option β) : ∀ l : List α, (∀ i ∈ l, f i = g i) → l.mapM f = l.mapM g := by
  intro l
  induction l with
  | nil => intro _; rfl
  | cons x l ih =>
    intro h
    rw [List.mapM_cons, List.mapM_cons, h x (by simp), ih (fun i hi => h i (by simp [hi]))]

theorem mapM_none_mem {α β : Type} (f : α → Option β) : ∀ l : List α, (∃ i ∈ l, f i = none) → l.mapM f = none := by
  intro l
  induction l with
  | nil => rintro ⟨i, hi, -⟩; cases hi
  | cons x l ih =>
    rintro ⟨i, hi, e⟩
    rw [List.mapM_cons]
    rcases List.mem_cons.1 hi with rfl | hi
    · rw [e]; rfl
    · cases f x with
      | none => rfl
      | some y => rw [ih ⟨i, hi, e⟩]; rfl

theorem offerFn_eq (a b : Str) (n k : Nat) (hn : 1 ≤ n) : offerFn n a b n k = some
    { arg := false
      sessions := (List.range' 1 (n - 1)).map fun i =>
        if i ≠ k then .fin else .recv (.either (List.range' 1 (n - 1)) 1 (List.range' n (n - 1)) 2 b) .fin
      stack := .two a .fin .fin
      name := b
      body := ((List.range' 1 (n - 1)).flatMap fun i => if i ≠ k then [] else [.recv i]) ++ [.popLeft]
      fields := newFields n k
      ret := .branches (List.range' 1 (n - 1)) 1 (List.range' n (n - 1)) 2 } := by
  unfold offerFn
  rw [if_neg (by omega)]
  have := mapM_congr_mem (fun i => if i ≠ k then some Ty.fin else offerType n (List.range' 1 (2 * n - 2)) 1 2 b)
    (fun i => some (if i ≠ k then Ty.fin else
      .recv (.either (List.range' 1 (n - 1)) 1 (List.range' n (n - 1)) 2 b) .fin)) (List.range' 1 (n - 1)) (by
      intro i _
      rw [offerType_eq n b hn]
      by_cases e : i = k <;> simp [e])
  rw [mapM_some_map] at this
  rw [this]

theorem compiles_offer (a b : Str) (n k : Nat) (h : 1 ≤ k ∧ k < n) : ∃ f, offerFn n a b n k = some f ∧ Compiles n f := by
  refine ⟨_, offerFn_eq a b n k (by omega), ?_⟩
  have hl : ((List.range' 1 (n - 1)).map fun i =>
      if i ≠ k then Ty.fin else .recv (.either (List.range' 1 (n - 1)) 1 (List.range' n (n - 1)) 2 b) .fin).length
        = n - 1 := by simp
  refine ⟨hl, ?_⟩
  obtain ⟨s, e1, -, e3⟩ := C58_offer tyOps _ (.two a .fin .fin) a b n k n _ (offerFn_eq a b n k (by omega)) h.1 h.2 hl
  rw [List.getElem?_map, List.getElem?_range' (by omega), Option.map_some, if_neg (by simp; omega)] at e1
  cases e1
  refine ⟨_, e3 _ .fin .fin rfl rfl, by simp, by simp, ?_, rfl⟩
  unfold fieldsOf
  rw [List.map_fst_zip (by simp)]
  simp

/-- C58: exactly these calls of the macros give a function that compiles beside a mesh for `m` roles.  Receiving and
offering need an index of a session; sending needs none, and `create_send_check_cancel!` only excludes the first one,
which carries the signals. -/
theorem C58_compiles (a b : Str) (m n k : Nat) (hm : 1 ≤ m) (hn : 1 ≤ n) :
    (Compiles m (sendFn a b n k) ↔ m = n) ∧
    (Compiles m (sendCancelFn a b n k) ↔ m = n) ∧
    (Compiles m (sendCheckFn a b n k) ↔ m = n ∧ 2 ≤ n ∧ k ≠ 1) ∧
    (Compiles m (recvFn a b n k) ↔ m = n ∧ 1 ≤ k ∧ k < n) ∧
    ((∃ f, offerFn m a b n k = some f ∧ Compiles m f) ↔ m = n ∧ 1 ≤ k ∧ k < n) := by
  have len : ∀ g : Nat → Ty, ((List.range' 1 (n - 1)).map g).length = m - 1 → m = n := by
    intro g h; simp at h; omega
  refine ⟨⟨fun h => len _ h.1, ?_⟩, ⟨fun h => len _ h.1, ?_⟩, ⟨?_, ?_⟩, ⟨?_, ?_⟩, ⟨?_, ?_⟩⟩
  · rintro rfl; exact (compiles_send a b m k).1
  · rintro rfl; exact (compiles_send a b m k).2
  · rintro ⟨hlen, out, hc, hf⟩
    have hlen' : 1 + (n - 2) = m - 1 := by
      have : (_ :: List.map _ (List.range' 2 (n - 2))).length = m - 1 := hlen
      simp at this; omega
    by_cases h2 : 2 ≤ n
    · refine ⟨by omega, h2, ?_⟩
      rintro rfl
      have e5 : ∀ l : List Ty, (fieldsOf (Ty.fin :: l)).lookup 1 = some .fin := by
        intro l; unfold fieldsOf; rw [zip_range_cons]; rfl
      have e6 : ∀ l : List Ty, takeField 1 (fieldsOf (Ty.fin :: l)) = some (.fin, (List.range' 2 l.length).zip l) := by
        intro l; unfold fieldsOf; rw [zip_range_cons]; rfl
      have hb : (sendCheckFn a b n 1).body = [.check, .sendCanceled 1, .pop] := by
        show (_ :: _) ++ _ = _
        rw [body_eq, if_pos (by omega)]; rfl
      rw [call_eq, hb] at hc
      simp only [steps, step, e5, e6, tyOps, Except.map, sendCheckFn, Option.map_some, if_true, Option.map_none] at hc
      cases hc
    · have : n = 1 := by omega
      subst this
      have hk : (sendCheckFn a b 1 k).call tyOps (some .T) (sendCheckFn a b 1 k).sessions (sendCheckFn a b 1 k).stack
          = some (.ok ⟨[], .var 0, none⟩) := rfl
      have hc' : (sendCheckFn a b 1 k).call tyOps (some .T) (sendCheckFn a b 1 k).sessions (sendCheckFn a b 1 k).stack
          = some (.ok out) := hc
      rw [hk] at hc'
      cases hc'
      have := hf.2.1.length_eq
      simp [fieldsOf] at this
  · rintro ⟨rfl, h2, h1⟩; exact compiles_check a b m k h2 h1
  · rintro ⟨hlen, out, hc, hf⟩
    have e := len _ hlen
    subst e
    refine ⟨rfl, ?_⟩
    by_cases h : 1 ≤ k ∧ k < m
    · exact h
    · exfalso
      have hb : (recvFn a b m k).body = [.pop] := by
        show _ ++ _ = _
        rw [body_eq, if_neg h]; rfl
      rw [call_eq, hb] at hc
      simp only [steps, step, tyOps, recvFn, Option.map_some] at hc
      split at hc
      · cases hc
        have := hf.2.2.2
        cases this
      · cases hc
  · rintro ⟨rfl, h⟩; exact compiles_recv a b m k h
  · rintro ⟨f, hof, hlen, out, hc, hf⟩
    by_cases h : 1 ≤ k ∧ k < n
    · refine ⟨?_, h⟩
      by_cases e : m = n
      · exact e
      · exfalso
        unfold offerFn at hof
        rw [if_neg (by omega), mapM_none_mem _ _ ⟨k, by simp; omega, by
          rw [if_neg (by simp)]
          unfold offerType
          rw [if_neg (by simp; omega)]⟩] at hof
        cases hof
    · exfalso
      unfold offerFn at hof
      rw [if_neg (by omega)] at hof
      split at hof
      · cases hof
      · rename_i tys htys
        cases hof
        rw [call_eq] at hc
        simp only [body_eq, if_neg h, List.nil_append, steps, step, tyOps, Option.map_some] at hc
        split at hc
        · cases hc
          have := hf.2.2.2
          cases this
        · cases hc
  · rintro ⟨rfl, h⟩; exact compiles_offer a b m k h

/-! ### Indices and roles -/

/-- C58, together with the wiring of `fork` and of the choices (C12, C15, C46).  If `i` uses the index of its session with
`j`, and `j` that of its session with `i`, they use the two ends of one channel.  The index alone decides who the partner
is: any other index in range belongs to the session with another role, whatever role is named in the call of the
macro. -/
theorem C58_partner (n fresh : Nat) (mesh : Nat → Gen.MeshV) (hw : Wired n fresh mesh) (i j : Nat) (hi : IsRole n i)
    (hj : IsRole n j) (hij : i ≠ j) :
    (1 ≤ slotOf i j ∧ slotOf i j < n) ∧
    (∃ e f, (mesh i).slot (slotOf i j) = some e ∧ (mesh j).slot (slotOf j i) = some f ∧ Connected e f) ∧
    (∀ k, 1 ≤ k → k < n → k ≠ slotOf i j → ∃ q e f, IsRole n q ∧ q ≠ i ∧ q ≠ j ∧ (mesh i).slot k = some e ∧
      (mesh q).slot (slotOf q i) = some f ∧ Connected e f) := by
  have hr := Gen.slot_range hi hj hij
  refine ⟨by omega, hw.linked i j hi hj hij, ?_⟩
  intro k hk hkn hne
  have hp := Gen.partner_role hi hk (by omega : k ≤ n - 1)
  have hs : slotOf i (partner i k) = k := by
    unfold slotOf partner
    (repeat' split) <;> omega
  obtain ⟨e, f, e1, e2, e3⟩ := hw.linked i (partner i k) hi hp.1 (Ne.symm hp.2)
  refine ⟨partner i k, e, f, hp.1, hp.2, ?_, by rw [← hs]; exact e1, e2, e3⟩
  intro h
  rw [h] at hs
  exact hne hs.symm

/-! ### The choice macro for three roles -/

/-- What the roles of a three-role mesh hold once role `s` has made the choice whose body is that of role 3
(`choose_mpst_to_all!` always gives the index 3 to `choose_mpst_multi_to_all!`,
/repo/src/macros_simple/choose.rs:1124-1140): `s` holds the mesh that is given back, `j` the one sent on the session of
`s` with `j`. -/
def HeldBy (s : Nat) (st : Gen.St) (mesh : Nat → Gen.MeshV) : Prop :=
  st.out = some (mesh s) ∧ ∀ j, IsRole 3 j → j ≠ s → (slotOf s j, mesh j) ∈ st.sent

/-- C58, `choose_mpst_to_all!`: made by the third role, the choice wires the three roles. -/
theorem C58_to_all_third (fresh : Nat) :
    ∃ body st mesh, Gen.toAllBody 3 3 = some body ∧ Gen.run (Gen.St.init fresh) body = some st ∧ HeldBy 3 st mesh ∧
      Wired 3 fresh mesh := by
  obtain ⟨body, st, mesh, h1, h2, h3, h4, h5, -⟩ := C12_to_all_wired 3 3 fresh ⟨by decide, by decide⟩
  exact ⟨body, st, mesh, h1, h2, ⟨h4, h5⟩, h3⟩

/-- C58, refuted for `choose_mpst_to_all!` in the hands of the first or the second role: what the roles then hold is not
wired. -/
theorem C58_to_all_others (fresh : Nat) (s : Nat) (hs : s = 1 ∨ s = 2) :
    ∃ body st, Gen.toAllBody 3 3 = some body ∧ Gen.run (Gen.St.init fresh) body = some st ∧ (∃ mesh, HeldBy s st mesh) ∧
      ∀ mesh, HeldBy s st mesh → ¬ Wired 3 fresh mesh := by
  obtain ⟨body, st, h1, h2, h3, h4⟩ : ∃ body st, Gen.toAllBody 3 3 = some body ∧
      Gen.run (Gen.St.init fresh) body = some st ∧
      st.out = some ⟨[(1, ⟨fresh + 1, 2, true⟩), (2, ⟨fresh + 2, 3, true⟩)], 3⟩ ∧
      st.sent = [(1, ⟨[(1, ⟨fresh, 1, false⟩), (2, ⟨fresh + 1, 2, false⟩)], 1⟩),
        (2, ⟨[(1, ⟨fresh, 1, true⟩), (2, ⟨fresh + 2, 3, false⟩)], 2⟩)] := ⟨_, _, rfl, rfl, rfl, rfl⟩
  have role3 : ∀ j, IsRole 3 j → j = 1 ∨ j = 2 ∨ j = 3 := by intro j h; unfold IsRole at h; omega
  refine ⟨body, st, h1, h2, ?_, ?_⟩
  · refine ⟨fun j => if j = s then ⟨[(1, ⟨fresh + 1, 2, true⟩), (2, ⟨fresh + 2, 3, true⟩)], 3⟩
      else if slotOf s j = 1 then ⟨[(1, ⟨fresh, 1, false⟩), (2, ⟨fresh + 1, 2, false⟩)], 1⟩
      else ⟨[(1, ⟨fresh, 1, true⟩), (2, ⟨fresh + 2, 3, false⟩)], 2⟩, by rw [h3]; simp, ?_⟩
    intro j hj hjs
    rw [h4]
    rcases hs with rfl | rfl <;> rcases role3 j hj with rfl | rfl | rfl <;> first | exact absurd rfl hjs | simp [slotOf]
  · intro mesh hm hw
    obtain ⟨m1, m2⟩ := hm
    rw [h3] at m1
    rw [h4] at m2
    obtain ⟨e, f, l1, l2, l3⟩ := hw.linked 1 2 ⟨by decide, by decide⟩ ⟨by decide, by decide⟩ (by decide)
    rcases hs with rfl | rfl
    · have := m2 2 ⟨by decide, by decide⟩ (by decide)
      injection m1 with m1
      rw [← m1] at l1
      simp only [slotOf, List.mem_cons, Prod.mk.injEq, List.not_mem_nil, or_false] at this
      rcases this with ⟨-, e2⟩ | ⟨e1, -⟩
      · rw [e2] at l2
        cases l1; cases l2
        have := l3.1
        simp at this
      · simp at e1
    · have := m2 1 ⟨by decide, by decide⟩ (by decide)
      injection m1 with m1
      rw [← m1] at l2
      simp only [slotOf, List.mem_cons, Prod.mk.injEq, List.not_mem_nil, or_false] at this
      rcases this with ⟨-, e2⟩ | ⟨e1, -⟩
      · rw [e2] at l1
        cases l1; cases l2
        have := l3.1
        simp at this
      · simp at e1

/-! ### Concrete cases -/

/-- Channels of numbers: sending `x` on session `s` gives session `s + x`. -/
private def numOps : Ops Unit Nat Nat (List Nat) where
  poll s := some (if s = 0 then .error () else .ok ())
  send x s := some (.ok (s + x))
  sendCanceled x s := some (if s = 7 then .error () else .ok (s + x))
  recv s := some (.ok (s, s + 1))
  pop q := q.tail?
  popLeft q := q.tail?

example : ((sendFn "RoleB".toList "NameA".toList 4 2).call numOps (some 100) [5, 6, 7] [1, 2]).map
    (fun r => r.toOption.map fun x => (x.mesh, x.stack)) = some (some ([(1, 5), (2, 106), (3, 7)], [2])) := by decide
example : ((sendFn "RoleB".toList "NameA".toList 4 4).call numOps (some 100) [5, 6, 7] [1, 2]).map
    (fun r => r.toOption.map fun x => (x.mesh, x.stack)) = some (some ([(1, 5), (2, 6), (3, 7)], [2])) := by decide
example : ((sendCancelFn "RoleB".toList "NameA".toList 4 3).call numOps (some 100) [5, 6, 7] [1, 2]).map
    (fun r => r.toOption.map fun x => (x.mesh, x.stack)) = some none := by decide
example : ((sendCheckFn "RoleB".toList "NameA".toList 4 2).call numOps (some 100) [0, 6, 7] [1, 2]).map
    (fun r => r.toOption.map fun x => (x.mesh, x.stack)) = some none := by decide
example : ((recvFn "RoleB".toList "NameA".toList 4 2).call numOps none [5, 6, 7] [1, 2]).map
    (fun r => r.toOption.map fun x => (x.mesh, x.got)) = some (some ([(1, 5), (2, 7), (3, 7)], some 6)) := by decide
example : ∃ f, offerFn 3 "RoleAlltoB".toList "NameA".toList 3 1 = some f ∧ Compiles 3 f :=
  (C58_compiles "RoleAlltoB".toList "NameA".toList 3 3 1 (by decide) (by decide)).2.2.2.2.2 (by decide)
example : ¬ Compiles 3 (recvFn "RoleB".toList "NameA".toList 3 3) := fun h =>
  absurd ((C58_compiles "RoleB".toList "NameA".toList 3 3 3 (by decide) (by decide)).2.2.2.1.1 h) (by decide)
example : ∃ mesh, Wired 3 0 mesh := by
  obtain ⟨_, _, mesh, _, _, h, _⟩ := C12_to_all_wired 3 1 0 ⟨by decide, by decide⟩
  exact ⟨mesh, h⟩

end Verif.Prop
