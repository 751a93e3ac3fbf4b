import Verif.Proof.Maths
import Verif.Model.Gen
import Verif.Spec.Wiring
/-! Helper lemmas for the generated straight-line code. -/
namespace Verif.Gen
open Verif.Maths Verif.Spec

theorem run_append (a b : List Stmt) : ∀ st, run st (a ++ b) =
    match run st a with | none => none | some st' => run st' b := by
  induction a with
  | nil => intro st; rfl
  | cons s ss ih =>
    intro st
    simp only [List.cons_append, run]
    cases step st s with
    | none => rfl
    | some st' => exact ih st'

theorem run_append_some {a b : List Stmt} {st st' : St} (h : run st a = some st') :
    run st (a ++ b) = run st' b := by rw [run_append, h]

theorem mapM_some {α β : Type} (F : α → Option β) (G : α → β) : ∀ (l : List α),
    (∀ x ∈ l, F x = some (G x)) → l.mapM F = some (l.map G) := by
  intro l
  induction l with
  | nil => intro _; rfl
  | cons a as ih =>
    intro h
    rw [List.mapM_cons, h a (by simp), ih (fun x hx => h x (by simp [hx]))]
    rfl

theorem mapM_range_eq {α β : Type} (F : Nat → Option β) (G : α → β) : ∀ (l : List α) (s : Nat),
    (∀ i (hi : i < l.length), F (s + i) = some (G l[i])) →
    (List.range' s l.length).mapM F = some (l.map G) := by
  intro l
  induction l with
  | nil => intro s _; rfl
  | cons a as ih =>
    intro s h
    rw [List.length_cons, List.range'_succ, List.mapM_cons]
    have h0 := h 0 (by simp)
    simp only [Nat.add_zero, List.getElem_cons_zero] at h0
    rw [h0, ih (s + 1) (fun i hi => by
      have := h (i + 1) (by simpa using hi)
      simp only [List.getElem_cons_succ] at this
      rw [← this]; congr 1; omega)]
    rfl

/-- Running a batch of channel creations with pairwise distinct names. -/
theorem run_newChans {α : Type} (A B : α → Name) (s : α → Nat) : ∀ (l : List α) (st : St),
    (∀ x ∈ l, A x ≠ B x) →
    l.Pairwise (fun x y => A x ≠ A y ∧ A x ≠ B y ∧ B x ≠ A y ∧ B x ≠ B y) →
    ∃ env', run st (l.map fun x => .newChan (A x) (B x) (s x))
        = some { st with env := env', fresh := st.fresh + l.length } ∧
      (∀ i x, l[i]? = some x → env' (A x) = some ⟨st.fresh + i, s x, false⟩ ∧
        env' (B x) = some ⟨st.fresh + i, s x, true⟩) ∧
      (∀ nm, (∀ x ∈ l, nm ≠ A x ∧ nm ≠ B x) → env' nm = st.env nm) := by
  intro l
  induction l with
  | nil => intro st _ _; exact ⟨st.env, rfl, by simp, by simp⟩
  | cons a as ih =>
    intro st hAB hp
    rw [List.pairwise_cons] at hp
    obtain ⟨env', h1, h2, h3⟩ := ih { st with
      env := fun x => if x = B a then some ⟨st.fresh, s a, true⟩
                      else if x = A a then some ⟨st.fresh, s a, false⟩ else st.env x
      fresh := st.fresh + 1 } (fun x hx => hAB x (by simp [hx])) hp.2
    refine ⟨env', ?_, ?_, ?_⟩
    · simp only [List.map_cons, run, step]
      rw [h1]
      simp only [List.length_cons]
      congr 2; omega
    · intro i x hx
      cases i with
      | zero =>
        simp only [List.getElem?_cons_zero, Option.some.injEq] at hx
        subst hx
        have hA : env' (A a) = _ := h3 (A a) (fun y hy => ⟨(hp.1 y hy).1, (hp.1 y hy).2.1⟩)
        have hB : env' (B a) = _ := h3 (B a) (fun y hy => ⟨(hp.1 y hy).2.2.1, (hp.1 y hy).2.2.2⟩)
        rw [hA, hB]
        simp [hAB a (by simp)]
      | succ i =>
        simp only [List.getElem?_cons_succ] at hx
        have := h2 i x hx
        simp only at this
        have e : st.fresh + 1 + i = st.fresh + (i + 1) := by omega
        rw [e] at this
        exact this
    · intro nm hnm
      rw [h3 nm (fun x hx => hnm x (by simp [hx]))]
      have := hnm a (by simp)
      simp [this.1, this.2]

theorem run_newStacks {α : Type} (v r : α → Nat) : ∀ (l : List α) (st : St),
    l.Pairwise (fun x y => v x ≠ v y) →
    ∃ stk', run st (l.map fun x => .newStack (v x) (r x)) = some { st with stacks := stk' } ∧
      (∀ x ∈ l, stk' (v x) = some (r x)) ∧ (∀ k, (∀ x ∈ l, k ≠ v x) → stk' k = st.stacks k) := by
  intro l
  induction l with
  | nil => intro st _; exact ⟨st.stacks, rfl, by simp, by simp⟩
  | cons a as ih =>
    intro st hp
    rw [List.pairwise_cons] at hp
    obtain ⟨stk', h1, h2, h3⟩ := ih { st with
      stacks := fun x => if x = v a then some (r a) else st.stacks x } hp.2
    refine ⟨stk', ?_, ?_, ?_⟩
    · simp only [List.map_cons, run, step]; rw [h1]
    · intro x hx
      rcases List.mem_cons.1 hx with rfl | hx
      · rw [h3 _ (fun y hy => hp.1 y hy)]; simp
      · exact h2 x hx
    · intro k hk
      rw [h3 k (fun x hx => hk x (by simp [hx]))]
      have := hk a (by simp)
      simp [this]

theorem take_ok (E : Name → EP) : ∀ (fs : List (Nat × Name)) (env : Name → Option EP),
    (fs.map Prod.snd).Nodup → (∀ f ∈ fs, env f.2 = some (E f.2)) →
    take env fs = some (fun nm => if nm ∈ fs.map Prod.snd then none else env nm,
      fs.map fun f => (f.1, E f.2)) := by
  intro fs
  induction fs with
  | nil => intro env _ _; simp [take]
  | cons f fs ih =>
    intro env hn he
    obtain ⟨k, nm⟩ := f
    simp only [List.map_cons, List.nodup_cons] at hn
    have h0 := he (k, nm) (by simp)
    simp only at h0
    simp only [take, h0]
    rw [ih (fun x => if x = nm then none else env x) hn.2 (by
      intro f hf
      have : f.2 ≠ nm := fun e => hn.1 (by rw [← e]; exact List.mem_map_of_mem hf)
      simp [this, he f (by simp [hf])])]
    simp only [List.map_cons]
    congr 2
    funext x
    by_cases hx : x = nm
    · subst hx; simp
    · simp only [hx, if_false, List.mem_cons, false_or]

theorem build_ok (E : Name → EP) (st : St) (fs : List (Nat × Name)) (stk r : Nat)
    (hn : (fs.map Prod.snd).Nodup) (he : ∀ f ∈ fs, st.env f.2 = some (E f.2))
    (hs : st.stacks stk = some r) :
    build st fs stk = some ({ st with
        env := fun nm => if nm ∈ fs.map Prod.snd then none else st.env nm,
        stacks := fun x => if x = stk then none else st.stacks x },
      ⟨fs.map fun f => (f.1, E f.2), r⟩) := by
  unfold build
  rw [take_ok E fs st.env hn he, hs]

theorem ite_cons {α β : Type} (a : α) (as : List α) (p : α → Prop) [Decidable (∃ y ∈ as, p y)]
    [Decidable (∃ y ∈ a :: as, p y)] [Decidable (p a)] (x : Option β) :
    (if ∃ y ∈ as, p y then none else if p a then none else x)
      = if ∃ y ∈ a :: as, p y then none else x := by
  by_cases h : p a
  · have : ∃ x ∈ a :: as, p x := ⟨a, by simp, h⟩
    rw [if_pos this, if_pos h]
    split <;> rfl
  · rw [if_neg h]
    by_cases h' : ∃ x ∈ as, p x
    · have : ∃ x ∈ a :: as, p x := by
        obtain ⟨x, hx, hh⟩ := h'; exact ⟨x, by simp [hx], hh⟩
      rw [if_pos h', if_pos this]
    · have : ¬ ∃ x ∈ a :: as, p x := by
        rintro ⟨x, hx, hh⟩
        rcases List.mem_cons.1 hx with rfl | hx
        · exact h hh
        · exact h' ⟨x, hx, hh⟩
      rw [if_neg h', if_neg this]

/-- Building a batch of meshes; the fields of mesh `x` all carry the first index `own x`. -/
theorem run_meshes {α : Type} (E : Name → EP) (v own stk r : α → Nat) (fs : α → List (Nat × Name)) :
    ∀ (l : List α) (st : St),
    l.Pairwise (fun x y => v x ≠ v y ∧ own x ≠ own y ∧ stk x ≠ stk y) →
    (∀ x ∈ l, ((fs x).map Prod.snd).Nodup) →
    (∀ x ∈ l, ∀ f ∈ fs x, f.2.1 = own x ∧ st.env f.2 = some (E f.2)) →
    (∀ x ∈ l, st.stacks (stk x) = some (r x)) →
    ∃ ms', run st (l.map fun x => .mesh (v x) (fs x) (stk x)) = some { st with
        env := fun nm => if (∃ x ∈ l, nm ∈ (fs x).map Prod.snd) then none else st.env nm,
        stacks := fun k => if (∃ x ∈ l, k = stk x) then none else st.stacks k,
        meshes := ms' } ∧
      (∀ x ∈ l, ms' (v x) = some ⟨(fs x).map fun f => (f.1, E f.2), r x⟩) ∧
      (∀ k, (∀ x ∈ l, k ≠ v x) → ms' k = st.meshes k) := by
  intro l
  induction l with
  | nil => intro st _ _ _ _; exact ⟨st.meshes, by simp [run], by simp, by simp⟩
  | cons a as ih =>
    intro st hp hn he hs
    rw [List.pairwise_cons] at hp
    have hb := build_ok E st (fs a) (stk a) (r a) (hn a (by simp))
      (fun f hf => (he a (by simp) f hf).2) (hs a (by simp))
    obtain ⟨ms', h1, h2, h3⟩ := ih { st with
        env := fun nm => if nm ∈ (fs a).map Prod.snd then none else st.env nm,
        stacks := fun x => if x = stk a then none else st.stacks x,
        meshes := fun x => if x = v a then some ⟨(fs a).map fun f => (f.1, E f.2), r a⟩ else st.meshes x }
      hp.2 (fun x hx => hn x (by simp [hx]))
      (by
        intro x hx f hf
        have h := he x (by simp [hx]) f hf
        refine ⟨h.1, ?_⟩
        have hnot : f.2 ∉ (fs a).map Prod.snd := by
          intro hm
          obtain ⟨g, hg, hge⟩ := List.mem_map.1 hm
          have := (he a (by simp) g hg).1
          rw [hge, h.1] at this
          exact (hp.1 x hx).2.1 this.symm
        simp only [hnot, if_false]
        exact h.2)
      (by
        intro x hx
        have := (hp.1 x hx).2.2
        simp [this.symm, hs x (by simp [hx])])
    refine ⟨ms', ?_, ?_, ?_⟩
    · simp only [List.map_cons, run, step, hb]
      rw [h1]
      congr 2
      · funext nm
        exact ite_cons a as (fun x => nm ∈ (fs x).map Prod.snd) (st.env nm)
      · funext k
        exact ite_cons a as (fun x => k = stk x) (st.stacks k)
    · intro x hx
      rcases List.mem_cons.1 hx with rfl | hx
      · rw [h3 _ (fun y hy => (hp.1 y hy).1)]; simp
      · exact h2 x hx
    · intro k hk
      rw [h3 k (fun x hx => hk x (by simp [hx]))]
      have := hk a (by simp)
      simp [this]

/-- Sending a batch of mesh variables on distinct session fields. -/
theorem run_sendVars (M : Nat → MeshV) : ∀ (l : List Nat) (st : St),
    l.Nodup → (∀ j ∈ l, st.meshes j = some (M j)) → (∀ j ∈ l, j ∉ st.sent.map Prod.fst) →
    run st (l.map fun j => .sendVar j j) = some { st with
      meshes := fun k => if k ∈ l then none else st.meshes k,
      sent := st.sent ++ l.map fun j => (j, M j) } := by
  intro l
  induction l with
  | nil => intro st _ _ _; simp [run]
  | cons a as ih =>
    intro st hn hm hs
    rw [List.nodup_cons] at hn
    have h0 := hs a (by simp)
    simp only [List.map_cons, run, step, hm a (by simp), h0, if_false]
    rw [ih _ hn.2 (by
        intro j hj
        have : j ≠ a := fun e => hn.1 (e ▸ hj)
        simp [this, hm j (by simp [hj])]) (by
        intro j hj
        have : j ≠ a := fun e => hn.1 (e ▸ hj)
        have h1 := hs j (by simp [hj])
        simp only [List.map_append, List.map_cons, List.map_nil, List.mem_append, List.mem_singleton]
        rintro (h | h)
        · exact h1 h
        · exact this h)]
    congr 2
    · funext k
      by_cases h : k ∈ as
      · simp [h]
      · by_cases h' : k = a <;> simp [h, h']
    · simp

/-- Sending a batch of freshly built meshes. -/
theorem run_sendMeshes {α : Type} (E : Name → EP) (ses own stk r : α → Nat) (fs : α → List (Nat × Name)) :
    ∀ (l : List α) (st : St),
    l.Pairwise (fun x y => ses x ≠ ses y ∧ own x ≠ own y ∧ stk x ≠ stk y) →
    (∀ x ∈ l, ((fs x).map Prod.snd).Nodup) →
    (∀ x ∈ l, ∀ f ∈ fs x, f.2.1 = own x ∧ st.env f.2 = some (E f.2)) →
    (∀ x ∈ l, st.stacks (stk x) = some (r x)) →
    (∀ x ∈ l, ses x ∉ st.sent.map Prod.fst) →
    run st (l.map fun x => .sendMesh (fs x) (stk x) (ses x)) = some { st with
        env := fun nm => if (∃ x ∈ l, nm ∈ (fs x).map Prod.snd) then none else st.env nm,
        stacks := fun k => if (∃ x ∈ l, k = stk x) then none else st.stacks k,
        sent := st.sent ++ l.map fun x => (ses x, ⟨(fs x).map fun f => (f.1, E f.2), r x⟩) } := by
  intro l
  induction l with
  | nil => intro st _ _ _ _ _; simp [run]
  | cons a as ih =>
    intro st hp hn he hs hk
    rw [List.pairwise_cons] at hp
    have hb := build_ok E st (fs a) (stk a) (r a) (hn a (by simp))
      (fun f hf => (he a (by simp) f hf).2) (hs a (by simp))
    have h0 := hk a (by simp)
    simp only [List.map_cons, run, step, hb, h0, if_false]
    rw [ih { st with
        env := fun nm => if nm ∈ (fs a).map Prod.snd then none else st.env nm,
        stacks := fun x => if x = stk a then none else st.stacks x,
        sent := st.sent ++ [(ses a, ⟨(fs a).map fun f => (f.1, E f.2), r a⟩)] }
      hp.2 (fun x hx => hn x (by simp [hx]))
      (by
        intro x hx f hf
        have h := he x (by simp [hx]) f hf
        refine ⟨h.1, ?_⟩
        have hnot : f.2 ∉ (fs a).map Prod.snd := by
          intro hm
          obtain ⟨g, hg, hge⟩ := List.mem_map.1 hm
          have := (he a (by simp) g hg).1
          rw [hge, h.1] at this
          exact (hp.1 x hx).2.1 this.symm
        simp only [hnot, if_false]
        exact h.2)
      (by
        intro x hx
        have := (hp.1 x hx).2.2
        simp [this.symm, hs x (by simp [hx])])
      (by
        intro x hx
        have h1 := hk x (by simp [hx])
        have h2 := (hp.1 x hx).1
        simp only [List.map_append, List.map_cons, List.map_nil, List.mem_append, List.mem_singleton]
        rintro (h | h)
        · exact h1 h
        · exact h2 h.symm)]
    congr 2
    · funext nm
      exact ite_cons a as (fun x => nm ∈ (fs x).map Prod.snd) (st.env nm)
    · funext k
      exact ite_cons a as (fun x => k = stk x) (st.stacks k)
    · simp

/-- Spawning threads that each take one mesh. -/
theorem run_spawns (M : Nat → MeshV) (o : Nat → Nat) : ∀ (l : List Nat) (st : St),
    l.Pairwise (fun x y => o x ≠ o y) → (∀ j ∈ l, st.meshes (o j) = some (M (o j))) →
    run st (l.map fun j => .spawn j [o j]) = some { st with
      meshes := fun k => if (∃ j ∈ l, k = o j) then none else st.meshes k,
      spawned := st.spawned ++ l.map fun j => (j, [M (o j)]) } := by
  intro l
  induction l with
  | nil => intro st _ _; simp [run]
  | cons a as ih =>
    intro st hn hm
    rw [List.pairwise_cons] at hn
    simp only [List.map_cons, run, step, takeMeshes, hm a (by simp)]
    rw [ih _ hn.2 (by
        intro j hj
        have := hn.1 j hj
        simp [this.symm, hm j (by simp [hj])])]
    congr 2
    · funext k
      exact ite_cons a as (fun x => k = o x) (st.meshes k)
    · simp

end Verif.Gen
