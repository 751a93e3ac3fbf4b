import Verif.Spec.Stacks
import Verif.Prop.C01_C35
/-!
# C59: ordering stacks never stand in the way

Specification vocabulary: `Verif/Spec/Stacks.lean`.  Values: `Verif/Model/Stacks.lean`.
-/
namespace Verif.Prop
open Verif.Stacks Verif.Types

/-- What holds in every store: channels are numbered below `next`, all are empty, and those for stacks have no receiver. -/
structure StoreOk (st : Store) : Prop where
  below : ∀ c ch, st.chan c = some ch → c < st.next
  empty : ∀ c ch, st.chan c = some ch → ch.buf = []
  alone : ∀ c ch r, st.chan c = some ch → ch.load = .stack r → ch.rx = false

/-- Loads are kept. -/
def Keeps (st st' : Store) : Prop :=
  ∀ c l, (st.chan c).map Chan.load = some l → (st'.chan c).map Chan.load = some l

theorem Keeps.typed {st st' : Store} (h : Keeps st st') {x : Obj} (hx : Typed st x) : Typed st' x := by
  have aux : ∀ (cs : List Nat) (ls : List Load), cs.map (fun c => (st.chan c).map Chan.load) = ls.map some →
      cs.map (fun c => (st'.chan c).map Chan.load) = ls.map some := by
    intro cs
    induction cs with
    | nil => intro ls e; simpa using e
    | cons c cs ih =>
      intro ls e
      cases ls with
      | nil => simp at e
      | cons l ls =>
        simp only [List.map_cons, List.cons.injEq] at e ⊢
        exact ⟨h c l e.1, ih ls e.2⟩
  exact ⟨aux _ _ hx.1, aux _ _ hx.2⟩

theorem Keeps.rfl' (st : Store) : Keeps st st := fun _ _ h => h

theorem Keeps.trans {a b c : Store} (h : Keeps a b) (h' : Keeps b c) : Keeps a c := fun x l e => h' x l (h x l e)

theorem bounded_ok {st : Store} (h : StoreOk st) (l : Load) (rx : Bool) (hl : ∀ r, l = .stack r → rx = false) :
    StoreOk (st.bounded l rx) ∧ Keeps st (st.bounded l rx) ∧ (st.bounded l rx).chan st.next = some ⟨l, rx, []⟩ := by
  refine ⟨⟨?_, ?_, ?_⟩, ?_, by simp [Store.bounded]⟩
  · intro c ch e
    simp only [Store.bounded] at e ⊢
    split at e
    · omega
    · have := h.below c ch e; omega
  · intro c ch e
    simp only [Store.bounded] at e
    split at e
    · cases e; rfl
    · exact h.empty c ch e
  · intro c ch r e e'
    simp only [Store.bounded] at e
    split at e
    · cases e; exact hl r e'
    · exact h.alone c ch r e e'
  · intro c l' e
    simp only [Store.bounded]
    split
    · rename_i hc
      cases hch : st.chan c with
      | none => rw [hch] at e; simp at e
      | some ch => have := h.below c ch hch; omega
    · exact e

/-- C59, `new`: two values, one of the type and one of its dual, with fields of the declared types; what there was before is
kept. -/
theorem newStack_ok (r : Stack) (st : Store) (h : StoreOk st) :
    (newStack r st).1.kind = .stack r ∧ (newStack r st).2.1.kind = .stack r.dual ∧
    StoreOk (newStack r st).2.2 ∧ Keeps st (newStack r st).2.2 ∧
    Typed (newStack r st).2.2 (newStack r st).1 ∧ Typed (newStack r st).2.2 (newStack r st).2.1 := by
  cases r with
  | role a d r =>
    obtain ⟨o1, k1, g1⟩ := bounded_ok h (.stack r) false (fun _ _ => rfl)
    obtain ⟨o2, k2, g2⟩ := bounded_ok o1 (.stack r.dual) false (fun _ _ => rfl)
    refine ⟨rfl, rfl, o2, k1.trans k2, ⟨?_, rfl⟩, ⟨?_, rfl⟩⟩
    · simp only [newStack, declared, List.map_cons, List.map_nil, g2, Option.map_some]
    · have := k2 st.next (.stack r) (by rw [g1]; rfl)
      simp only [newStack, declared, List.map_cons, List.map_nil, this, C01_stack]
  | toAll a d l r =>
    obtain ⟨o1, k1, g1⟩ := bounded_ok h (.stack l) false (fun _ _ => rfl)
    obtain ⟨o2, k2, g2⟩ := bounded_ok o1 (.stack r) false (fun _ _ => rfl)
    obtain ⟨o3, k3, g3⟩ := bounded_ok o2 (.stack l.dual) false (fun _ _ => rfl)
    obtain ⟨o4, k4, g4⟩ := bounded_ok o3 (.stack r.dual) false (fun _ _ => rfl)
    have e1 := k4 _ _ (k3 _ _ (k2 st.next (.stack l) (by rw [g1]; rfl)))
    have e2 := k4 _ _ (k3 _ (.stack r) (by rw [g2]; rfl))
    have e3 := k4 _ (.stack l.dual) (by rw [g3]; rfl)
    refine ⟨rfl, rfl, o4, ((k1.trans k2).trans k3).trans k4, ⟨?_, rfl⟩, ⟨?_, rfl⟩⟩
    · simp only [newStack, declared, List.map_cons, List.map_nil, g4, e3, Option.map_some]
    · simp only [newStack, declared, List.map_cons, List.map_nil, e1, e2, C01_stack]
  | fin =>
    obtain ⟨o1, k1, g1⟩ := bounded_ok h .unit true (fun _ e => by cases e)
    obtain ⟨o2, k2, g2⟩ := bounded_ok o1 .unit true (fun _ e => by cases e)
    have e1 := k2 st.next .unit (by rw [g1]; rfl)
    refine ⟨rfl, rfl, o2, k1.trans k2, ⟨?_, ?_⟩, ⟨?_, ?_⟩⟩ <;>
      simp only [newStack, declared, List.map_cons, List.map_nil, g2, e1, Option.map_some]
  | broadcast =>
    obtain ⟨o1, k1, g1⟩ := bounded_ok h .unit true (fun _ e => by cases e)
    obtain ⟨o2, k2, g2⟩ := bounded_ok o1 .unit true (fun _ e => by cases e)
    have e1 := k2 st.next .unit (by rw [g1]; rfl)
    refine ⟨rfl, rfl, o2, k1.trans k2, ⟨?_, ?_⟩, ⟨?_, ?_⟩⟩ <;>
      simp only [newStack, declared, List.map_cons, List.map_nil, g2, e1, Option.map_some]

theorem newName_ok (n : List Char) (st : Store) (h : StoreOk st) :
    (newName n st).1.kind = .name n ∧ (newName n st).2.1.kind = .name n ∧
    StoreOk (newName n st).2.2 ∧ Keeps st (newName n st).2.2 ∧
    Typed (newName n st).2.2 (newName n st).1 ∧ Typed (newName n st).2.2 (newName n st).2.1 := by
  obtain ⟨o1, k1, g1⟩ := bounded_ok h .unit true (fun _ e => by cases e)
  obtain ⟨o2, k2, g2⟩ := bounded_ok o1 .unit true (fun _ e => by cases e)
  have e1 := k2 st.next .unit (by rw [g1]; rfl)
  refine ⟨rfl, rfl, o2, k1.trans k2, ⟨?_, ?_⟩, ⟨?_, ?_⟩⟩ <;>
    simp only [newName, declared, List.map_cons, List.map_nil, g2, e1, Option.map_some]

theorem methodOf_iff (side : Side) (r rest : Stack) : (∃ i, methodOf side r = some (rest, i)) ↔ Rest side r rest := by
  constructor
  · rintro ⟨i, h⟩
    cases side <;> cases r <;> simp [methodOf] at h <;> obtain ⟨rfl, rfl⟩ := h <;> constructor
  · intro h
    cases h <;> exact ⟨_, rfl⟩

/-- A call on a well-typed value returns exactly if the method exists. -/
theorem cont_ok (x : Obj) (r : Stack) (hk : x.kind = .stack r) (side : Side) (st : Store) (h : StoreOk st)
    (hx : Typed st x) :
    (∀ rest, Rest side r rest → ∃ y st', x.continuation side st = .done (y, st') ∧ y.kind = .stack rest ∧ StoreOk st' ∧
      Keeps st st' ∧ Typed st' y) ∧
    ((∀ rest, ¬ Rest side r rest) → x.continuation side st = .noCall) := by
  constructor
  · intro rest hr
    obtain ⟨i, hm⟩ := (methodOf_iff side r rest).2 hr
    have hc : ∃ c, x.senders[i]? = some c ∧ (st.chan c).map Chan.load = some (.stack rest.dual) := by
      obtain ⟨h1, -⟩ := hx
      rw [hk] at h1
      have := congrArg (fun l => l[i]?) h1
      simp only [List.getElem?_map] at this
      have hd : (declared (.stack r)).1[i]? = some (.stack rest.dual) := by
        cases hr <;> simp only [methodOf, Option.some.injEq, Prod.mk.injEq, true_and] at hm <;> subst hm <;> rfl
      rw [hd] at this
      cases hs : x.senders[i]? with
      | none => rw [hs] at this; cases this
      | some c =>
        rw [hs] at this
        exact ⟨c, rfl, Option.some.inj this⟩
    obtain ⟨c, h1, h2⟩ := hc
    obtain ⟨n1, -, n3, n4, n5, -⟩ := newStack_ok rest st h
    have hd : (newStack rest st).2.2.send c (newStack rest st).2.1 = .disconnected := by
      have := n4 c _ h2
      unfold Store.send
      cases hch : (newStack rest st).2.2.chan c with
      | none => rfl
      | some ch =>
        rw [hch] at this
        simp only [Option.map_some, Option.some.injEq] at this
        simp only
        rw [if_pos (n3.alone c ch _ hch this)]
    refine ⟨(newStack rest st).1, (newStack rest st).2.2, ?_, n1, n3, n4, n5⟩
    simp only [Obj.continuation, hk, hm, h1, hd]
  · intro hr
    have hm : methodOf side r = none := by
      cases hm : methodOf side r with
      | none => rfl
      | some p => exact absurd ((methodOf_iff side r p.1).1 ⟨p.2, hm⟩) (hr p.1)
    simp only [Obj.continuation, hk, hm]

/-- The invariant. -/
def WorldOk (w : World) : Prop := StoreOk w.store ∧ ∀ x ∈ w.held, Typed w.store x

theorem close_ok {st : Store} (h : StoreOk st) (cs : List Nat) : StoreOk (st.close cs) ∧ Keeps st (st.close cs) := by
  refine ⟨⟨?_, ?_, ?_⟩, ?_⟩
  · intro c ch e
    simp only [Store.close] at e ⊢
    split at e
    · obtain ⟨ch', e1, -⟩ := Option.map_eq_some_iff.mp e
      exact h.below c ch' e1
    · exact h.below c ch e
  · intro c ch e
    simp only [Store.close] at e
    split at e
    · obtain ⟨ch', -, rfl⟩ := Option.map_eq_some_iff.mp e; rfl
    · exact h.empty c ch e
  · intro c ch r e e'
    simp only [Store.close] at e
    split at e
    · obtain ⟨ch', -, rfl⟩ := Option.map_eq_some_iff.mp e; rfl
    · exact h.alone c ch r e e'
  · intro c l e
    simp only [Store.close]
    split
    · obtain ⟨ch', e1, e2⟩ := Option.map_eq_some_iff.mp e
      rw [e1]; simpa using e2
    · exact e

theorem step_worldOk (w : World) (h : WorldOk w) (o : Op) :
    w.step o ≠ .waits ∧ ∀ w', w.step o = .done w' → WorldOk w' := by
  cases o with
  | newStack r =>
    obtain ⟨-, -, n3, n4, n5, n6⟩ := newStack_ok r w.store h.1
    refine ⟨by simp [World.step], ?_⟩
    intro w' e
    simp only [World.step] at e
    cases e
    refine ⟨n3, ?_⟩
    intro x hx
    rcases List.mem_cons.mp hx with rfl | hx
    · exact n5
    · rcases List.mem_cons.mp hx with rfl | hx
      · exact n6
      · exact n4.typed (h.2 x hx)
  | newName n =>
    obtain ⟨-, -, n3, n4, n5, n6⟩ := newName_ok n w.store h.1
    refine ⟨by simp [World.step], ?_⟩
    intro w' e
    simp only [World.step] at e
    cases e
    refine ⟨n3, ?_⟩
    intro x hx
    rcases List.mem_cons.mp hx with rfl | hx
    · exact n5
    · rcases List.mem_cons.mp hx with rfl | hx
      · exact n6
      · exact n4.typed (h.2 x hx)
  | next i side =>
    simp only [World.step]
    cases hi : w.held[i]? with
    | none => exact ⟨by simp, by intro w' e; cases e⟩
    | some x =>
      have hx := h.2 x (List.mem_of_getElem? hi)
      simp only
      cases hk : x.kind with
      | name n => simp [Obj.continuation, hk]
      | stack r =>
        obtain ⟨c1, c2⟩ := cont_ok x r hk side w.store h.1 hx
        by_cases hr : ∃ rest, Rest side r rest
        · obtain ⟨rest, hr⟩ := hr
          obtain ⟨y, st', e1, e2, e3, e4, e5⟩ := c1 rest hr
          rw [e1]
          refine ⟨by simp, ?_⟩
          intro w' e
          simp only [Res.done.injEq] at e
          subst e
          refine ⟨e3, ?_⟩
          intro z hz
          rcases List.mem_cons.mp hz with rfl | hz
          · exact e5
          · exact e4.typed (h.2 z hz)
        · rw [c2 (by simpa using hr)]
          exact ⟨by simp, by intro w' e; cases e⟩
  | drop i =>
    simp only [World.step]
    cases hi : w.held[i]? with
    | none => exact ⟨by simp, by intro w' e; cases e⟩
    | some x =>
      refine ⟨by simp, ?_⟩
      intro w' e
      simp only [Res.done.injEq] at e
      subst e
      obtain ⟨k1, k2⟩ := close_ok h.1 x.receivers
      exact ⟨k1, fun y hy => k2.typed (h.2 y (List.mem_of_mem_eraseIdx hy))⟩

theorem run_worldOk (ops : List Op) : ∀ w, WorldOk w → w.run ops ≠ .waits ∧ ∀ w', w.run ops = .done w' → WorldOk w' := by
  induction ops with
  | nil =>
    intro w h
    refine ⟨by simp [World.run], ?_⟩
    intro w' e
    simp only [World.run, Res.done.injEq] at e
    exact e ▸ h
  | cons o os ih =>
    intro w h
    obtain ⟨h1, h2⟩ := step_worldOk w h o
    simp only [World.run]
    cases hs : w.step o with
    | noCall => exact ⟨by simp, by intro w' e; cases e⟩
    | waits => exact absurd hs h1
    | done w1 => exact ih w1 (h2 w1 hs)

theorem init_worldOk : WorldOk World.init :=
  ⟨⟨fun _ _ e => (nomatch e), fun _ _ e => (nomatch e), fun _ _ _ e => (nomatch e)⟩, fun _ hx => (nomatch hx)⟩

/-- C59: whatever a program does with stacks and names, no call waits; and nothing stays in a channel, so dropping the values
leaves nothing behind. -/
theorem C59_never_waits (ops : List Op) :
    World.init.run ops ≠ .waits ∧
    ∀ w, World.init.run ops = .done w → ∀ c ch, w.store.chan c = some ch → ch.buf = [] :=
  ⟨(run_worldOk ops _ init_worldOk).1, fun w h => ((run_worldOk ops _ init_worldOk).2 w h).1.empty⟩

/-- C59, what is held always has fields of the declared types. -/
theorem C59_typed (w : World) (h : Reachable w) (x : Obj) (hx : x ∈ w.held) : Typed w.store x := by
  obtain ⟨ops, h⟩ := h
  exact ((run_worldOk ops _ init_worldOk).2 w h).2 x hx

/-- C59, `new`: two values, the second of the dual type; the second of `RoleEnd`, `RoleBroadcast` and of a name is the other
end of the first; what was held stays. -/
theorem C59_new (w : World) (r : Stack) (n : List Char) :
    (∃ x y w', w.step (.newStack r) = .done w' ∧ w'.held = x :: y :: w.held ∧ x.kind = .stack r ∧
      y.kind = .stack r.dual ∧ (r = .fin ∨ r = .broadcast → y.senders = x.receivers ∧ x.senders = y.receivers) ∧
      (∀ c ∈ x.senders ++ y.senders, w.store.next ≤ c) ∧ (x.senders ++ y.senders).Nodup) ∧
    (∃ x y w', w.step (.newName n) = .done w' ∧ w'.held = x :: y :: w.held ∧ x.kind = .name n ∧ y.kind = .name n ∧
      y.senders = x.receivers ∧ x.senders = y.receivers ∧
      (∀ c ∈ x.senders ++ y.senders, w.store.next ≤ c) ∧ (x.senders ++ y.senders).Nodup) := by
  constructor
  · refine ⟨_, _, _, rfl, rfl, ?_⟩
    cases r <;> simp [Store.bounded, Stack.dual] <;> omega
  · refine ⟨_, _, _, rfl, rfl, ?_⟩
    simp [Store.bounded]

/-- C59, going on: on a stack that is held, the methods of its type exist and no others; a call gives a new value whose type
is the rest, and all values held before stay. -/
theorem C59_continuation (w : World) (h : Reachable w) (i : Nat) (x : Obj) (hi : w.held[i]? = some x) (r : Stack)
    (hk : x.kind = .stack r) (side : Side) :
    (∀ rest, Rest side r rest → ∃ y w', w.step (.next i side) = .done w' ∧ w'.held = y :: w.held ∧
      y.kind = .stack rest) ∧
    ((∀ rest, ¬ Rest side r rest) → w.step (.next i side) = .noCall) := by
  obtain ⟨ops, h⟩ := h
  have hw := (run_worldOk ops _ init_worldOk).2 w h
  obtain ⟨c1, c2⟩ := cont_ok x r hk side w.store hw.1 (hw.2 x (List.mem_of_getElem? hi))
  constructor
  · intro rest hr
    obtain ⟨y, st', e1, e2, -⟩ := c1 rest hr
    exact ⟨y, ⟨y :: w.held, st'⟩, by simp only [World.step, hi, e1], rfl, e2⟩
  · intro hr
    simp only [World.step, hi, c2 hr]

theorem run_worldAppend (w : World) (a b : List Op) :
    w.run (a ++ b) = match w.run a with | .noCall => .noCall | .waits => .waits | .done w' => w'.run b := by
  induction a generalizing w with
  | nil => rfl
  | cons o os ih =>
    simp only [List.cons_append, World.run]
    cases w.step o with
    | noCall => rfl
    | waits => rfl
    | done w1 => exact ih w1

/-- C59, a whole stack: going on along any path of its type works, and ends with a value of the type the path leads to.
The newest value is the first one held. -/
theorem C59_path (w : World) (h : Reachable w) (x : Obj) (hx : w.held[0]? = some x) (r r' : Stack) (hk : x.kind = .stack r)
    (ss : List Side) (hp : Path ss r r') :
    ∃ y w', w.run (ss.map (.next 0)) = .done w' ∧ w'.held[0]? = some y ∧ y.kind = .stack r' := by
  induction hp generalizing w x with
  | nil r => exact ⟨x, w, rfl, hx, hk⟩
  | @cons s ss r r1 r2 hr _ ih =>
    obtain ⟨y, w1, e1, e2, e3⟩ := (C59_continuation w h 0 x hx r hk s).1 r1 hr
    have h1 : Reachable w1 := by
      obtain ⟨ops, h⟩ := h
      refine ⟨ops ++ [.next 0 s], ?_⟩
      rw [run_worldAppend, h]
      simp only [World.run, e1]
    obtain ⟨z, w2, f1, f2, f3⟩ := ih w1 h1 y (by rw [e2]; rfl) e3
    exact ⟨z, w2, by simp only [List.map_cons, World.run, e1, f1], f2, f3⟩

/-! ### Concrete cases -/

private def exStack : Stack := .role ['B'] false (.toAll ['A'] true (.role ['C'] false .fin) .fin)

example : ∃ y w', (World.init.run [.newStack exStack]) = .done w' ∧ w'.held[0]? = some y ∧ y.kind = .stack exStack :=
  ⟨_, _, rfl, rfl, rfl⟩
example : Path [.only, .left, .only] exStack .fin := .cons (.only _ _ _) (.cons (.left _ _ _ _) (.cons (.only _ _ _) (.nil _)))
example : ∃ w, World.init.run [.newStack exStack, .next 0 .only, .next 1 .only, .drop 0, .next 0 .left, .next 1 .right,
    .newName ['A'], .drop 3] = .done w ∧ w.held.length = 6 := ⟨_, rfl, rfl⟩
example : World.init.run [.newStack exStack, .next 0 .left] = .noCall := rfl

end Verif.Prop
