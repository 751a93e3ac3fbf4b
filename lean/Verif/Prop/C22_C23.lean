import Verif.Model.Select
import Verif.Prop.C03_C04
import Verif.Proof.HeapDemo
/-!
# C22: `attempt!`; C23: `select`
-/
namespace Verif.Prop
open Verif.Types Verif.Heap Verif.Spec Verif.Attempt Verif.Select

/-! ## C22 -/

/-- Specification: running the statements one after the other from `s` to `s'`, all succeeding; `v` is the last
value (`none` for no statement). -/
inductive AllOk {σ ε ν : Type} : List (Stmt σ ε ν) → σ → σ → Option ν → Prop
  | nil (s : σ) : AllOk [] s s none
  | snoc {fs : List (Stmt σ ε ν)} {f : Stmt σ ε ν} {s s1 s2 : σ} {v : Option ν} {x : ν} :
      AllOk fs s s1 v → f s1 = (s2, .ok x) → AllOk (fs ++ [f]) s s2 (some x)

variable {σ ε ν : Type}

theorem recurse_spec (tail : List (Stmt σ ε ν)) (x : Ex (Stmt σ ε ν)) (done : List (Stmt σ ε ν)) (s : σ)
    (h : (∃ s1 v, AllOk done s s1 (some v) ∧ eval x s = (s1, .ok v)) ∨
      ∃ pre f post s1 s2 v e, done = pre ++ f :: post ∧ AllOk pre s s1 v ∧ f s1 = (s2, .error e) ∧
        eval x s = (s2, .error e)) :
    (∃ s1 v, AllOk (done ++ tail) s s1 (some v) ∧ eval (recurse x tail) s = (s1, .ok v)) ∨
      ∃ pre f post s1 s2 v e, done ++ tail = pre ++ f :: post ∧ AllOk pre s s1 v ∧ f s1 = (s2, .error e) ∧
        eval (recurse x tail) s = (s2, .error e) := by
  induction tail generalizing x done with
  | nil => simpa [recurse] using h
  | cons f tail ih =>
    have := ih (.andThen x (.stmt f)) (done ++ [f]) ?_
    · simpa [recurse] using this
    · rcases h with ⟨s1, v, h1, h2⟩ | ⟨pre, g, post, s1, s2, v, e, h1, h2, h3, h4⟩
      · cases hf : f s1 with
        | mk s2 r =>
          cases r with
          | ok y => exact .inl ⟨s2, y, .snoc h1 hf, by simp [eval, h2, hf]⟩
          | error e => exact .inr ⟨done, f, [], s1, s2, _, e, rfl, h1, hf, by simp [eval, h2, hf]⟩
      · exact .inr ⟨pre, g, post ++ [f], s1, s2, v, e, by simp [h1], h2, h3, by simp [eval, h4]⟩

/-- C22.  Either every statement, executed in order, succeeds and the catch block is not run; or some statement
is the first to fail, with error `e`: the statements before it have been executed in order, those after it are not
executed, and the catch block is run once, with `e`. -/
theorem C22_attempt (stmts : List (Stmt σ ε ν)) (hne : stmts ≠ []) (handler : ε → σ → σ) (s : σ) :
    (∃ s1 v, AllOk stmts s s1 v ∧ attempt stmts handler s = some s1) ∨
    (∃ pre f post s1 s2 v e, stmts = pre ++ f :: post ∧ AllOk pre s s1 v ∧ f s1 = (s2, .error e) ∧
      attempt stmts handler s = some (handler e s2)) := by
  cases stmts with
  | nil => exact absurd rfl hne
  | cons f tail =>
    have := recurse_spec tail (.stmt f) [f] s ?_
    · rcases this with ⟨s1, v, h1, h2⟩ | ⟨pre, g, post, s1, s2, v, e, h1, h2, h3, h4⟩
      · exact .inl ⟨s1, _, h1, by simp [attempt, expand, h2]⟩
      · exact .inr ⟨pre, g, post, s1, s2, v, e, h1, h2, h3, by simp [attempt, expand, h4]⟩
    · cases hf : f s with
      | mk s2 r =>
        cases r with
        | ok y => exact .inl ⟨s2, y, .snoc (fs := []) (.nil s) hf, by simp [eval, hf]⟩
        | error e => exact .inr ⟨[], f, [], s, s2, _, e, rfl, .nil s, hf, by simp [eval, hf]⟩

/-- Three statements that log their number, the second of which fails: the third is not executed. -/
example : attempt (σ := List Nat) (ε := String) (ν := Unit)
    [fun l => (l ++ [1], .ok ()), fun l => (l ++ [2], .error "two"), fun l => (l ++ [3], .ok ())]
    (fun e l => l ++ [e.length]) [] = some [1, 2, 3] := rfl

/-! ## C23 -/

variable {P : Type} [DecidableEq P] {G : Env P}

/-- An endpoint is ready: a message is waiting for it, or its partner's sending half is gone. -/
def Ready (st : St P) (e : Entry P) : Prop :=
  pending st.trace e.ep.sid e.ep.side ≠ [] ∨ ∃ c, e.ep.node = .rcv c ∧ cnt st (.tx c) = 0

theorem swapRemove_perm {α : Type} (l : List α) (i : Nat) (a : α) (h : l[i]? = some a) :
    l.Perm (a :: swapRemove l i) := by
  rcases List.eq_nil_or_concat l with rfl | ⟨init, b, rfl⟩
  · simp at h
  · have hg : (init ++ [b]).getLast? = some b := by simp
    unfold swapRemove
    simp only [List.concat_eq_append] at *
    rw [hg]; simp only
    by_cases hi : i < init.length
    · rw [List.set_append_left _ _ hi, List.dropLast_concat]
      rw [List.getElem?_append_left hi] at h
      have hlt := hi
      have e : init = init.take i ++ a :: init.drop (i + 1) := by
        have h2 : init[i] = a := by
          rw [List.getElem?_eq_getElem hi] at h; exact Option.some.inj h
        rw [← h2, List.getElem_cons_drop]
        simp
      have e2 : init.set i b = init.take i ++ b :: init.drop (i + 1) := by
        rw [List.set_eq_take_append_cons_drop]; simp [hi]
      rw [e2]
      calc init ++ [b] = (init.take i ++ a :: init.drop (i + 1)) ++ [b] := by rw [← e]
        _ |>.Perm (a :: (init.take i ++ b :: init.drop (i + 1))) := by
          simp only [List.append_assoc, List.cons_append]
          refine List.perm_middle.trans (.cons _ ?_)
          exact .append_left _ (List.perm_append_singleton _ _)
    · have : i = init.length := by
        have := (List.getElem?_eq_some_iff.1 h).1
        simp at this; omega
      subst this
      simp at h
      subst h
      simp

omit [DecidableEq P] in
theorem pos_of_mem {l : List (Entry P)} {i : Nat} {e : Entry P} (h : l[i]? = some e) : e ∈ l := List.mem_of_getElem? h

/-- C23.  What `select_mut` can do on a vector of receiving endpoints, whatever other threads do meanwhile and
however often it is woken up for nothing: only an empty vector gives `EmptyVec`; otherwise one endpoint `e` of the vector,
ready at that moment, is received from (its oldest pending message, or an error if its partner has gone), exactly `e`
is removed from the vector, and the remaining endpoints are still in the caller's hands. -/
theorem C23_select {st st' : St P} (h : Reach G st) {es rest : List (Entry P)} {r : SelRes}
    (hrecv : ∀ e ∈ es, ∃ w t k, e.ty = .recv w t k)
    (hs : SelectMut G es st r rest st') :
    (es = [] ∧ r = .emptyVec ∧ rest = [] ∧ st' = st) ∨
    ∃ e st1, e ∈ es ∧ Steps G st st1 ∧ Ready st1 e ∧ es.Perm (e :: rest) ∧ Owned st' rest ∧
      match pending st1.trace e.ep.sid e.ep.side with
      | (t, v) :: _ => r = .out (.value v) ∧ st'.trace = st1.trace ++ [.rcvd e.ep.sid e.ep.side t v]
      | [] => r = .out .err ∧ st'.trace = st1.trace := by
  induction hs with
  | empty he => exact .inl ⟨he, rfl, rfl, rfl⟩
  | @spin st st1 st2 st' i e r rest hst ho hi hrc hsel ih =>
    have hr1 := steps_reach h hst
    have h2 : st2 = st1 := by
      obtain ⟨w, t, k, hty⟩ := hrecv e (pos_of_mem hi)
      have hep : e ∈ st1.pool := by
        have h1 := ho e
        have : 0 < es.count e := List.count_pos_iff.2 (pos_of_mem hi)
        exact List.count_pos_iff.1 (by omega)
      obtain ⟨c, st3, o, hn, hstep, hm⟩ := C04_recv hr1 hep hty
      rw [hrc] at hstep
      injection hstep with hstep; injection hstep with e1 e2
      subst e1; subst e2
      split at hm
      · exact absurd hm.2.1 (by simp)
      · split at hm
        · exact hm.2
        · exact absurd hm.1 (by simp)
    subst h2
    rcases ih hr1 with ⟨h1, h2, h3, h4⟩ | ⟨f, st3, h1, h2, h3⟩
    · rw [h1] at hi; simp at hi
    · refine .inr ⟨f, st3, h1, ?_, h3⟩
      clear h3
      induction h2 with
      | refl => exact hst
      | step _ hs ih => exact (ih).step hs
  | @hit st st1 st2 i e o hst ho hi hrc hob =>
    have hr1 := steps_reach h hst
    have hmem := pos_of_mem hi
    obtain ⟨w, t, k, hty⟩ := hrecv e hmem
    have hep : e ∈ st1.pool := by
      have h1 := ho e
      have : 0 < es.count e := List.count_pos_iff.2 hmem
      exact List.count_pos_iff.1 (by omega)
    obtain ⟨c, st3, o', hn, hstep, hm⟩ := C04_recv hr1 hep hty
    rw [hrc] at hstep
    injection hstep with hstep; injection hstep with e1 e2
    subst e1; subst e2
    have hperm := swapRemove_perm es i e hi
    have hown : ∀ extra, st2.pool = extra ++ st1.pool.erase e → Owned st2 (swapRemove es i) := by
      intro extra hp x
      have h1 := ho x
      rw [hperm.count_eq] at h1
      rw [hp, List.count_append]
      have h2 : st1.pool.count x = (e :: st1.pool.erase e).count x := (List.perm_cons_erase hep).count_eq x
      rw [List.count_cons] at h1 h2
      omega
    refine .inr ⟨e, st1, hmem, hst, ?_, hperm, ?_⟩
    · split at hm
      · next hp => left; rw [hp]; simp
      · split at hm
        · exact absurd hm.1 hob
        · next hc => right; exact ⟨c, hn, by omega⟩
    · split at hm
      · next t' v tl hp =>
        obtain ⟨h1, h2, h3, there, tys, h4, h5, h6, h7⟩ := hm
        subst h1
        rw [hp]
        exact ⟨hown (entries v.eps tys ++ [⟨there, k⟩]) (by rw [h7]; simp), by rw [h2], h3⟩
      · next hp =>
        rw [hp]
        split at hm
        · exact absurd hm.1 hob
        · exact ⟨hown [] (by rw [hm.2.2]; rfl), by rw [hm.1], hm.2.1⟩

/-- C23, liveness: as soon as one endpoint of the vector is ready, waking up for it makes `select_mut` return. -/
theorem C23_blocks_only_while_none_ready {st : St P} (h : Reach G st) {es : List (Entry P)}
    (hrecv : ∀ e ∈ es, ∃ w t k, e.ty = .recv w t k) (ho : Owned st es) {e : Entry P} (he : e ∈ es)
    (hr : Ready st e) : ∃ r rest st', SelectMut G es st r rest st' ∧ es.Perm (e :: rest) := by
  obtain ⟨i, hi⟩ := List.mem_iff_getElem?.1 he
  obtain ⟨w, t, k, hty⟩ := hrecv e he
  have hep : e ∈ st.pool := by
    have h1 := ho e
    have : 0 < es.count e := List.count_pos_iff.2 he
    exact List.count_pos_iff.1 (by omega)
  obtain ⟨c, st', o, hn, hstep, hm⟩ := C04_recv h hep hty
  refine ⟨.out o, swapRemove es i, st', .hit (.refl _) ho hi hstep ?_, swapRemove_perm es i e hi⟩
  rintro rfl
  split at hm
  · exact absurd hm.2.1 (by simp)
  · next hp =>
    split at hm
    · next hc =>
      rcases hr with hr | ⟨c', hn', hc'⟩
      · exact hr hp
      · rw [hn] at hn'; cases hn'; omega
    · exact absurd hm.1 (by simp)

/-- Two sessions; a message waits on the second.  `select` on both receivers can return, and leaves the first. -/
def selOps : List (Op Nat) :=
  [ .new (.send none 0 .fin), .new (.send none 0 .fin),
    .send ⟨⟨.snd 1, 1, true⟩, .send none 0 .fin⟩ ⟨0, 7, []⟩ ]

def selVec : List (Entry Nat) :=
  [⟨⟨.rcv 0, 0, false⟩, .recv none 0 .fin⟩, ⟨⟨.rcv 1, 1, false⟩, .recv none 0 .fin⟩]

example : ∃ st, Reach demoEnv st ∧ (∀ e ∈ selVec, ∃ w t k, e.ty = .recv w t k) ∧ Owned st selVec ∧
    Ready st ⟨⟨.rcv 1, 1, false⟩, .recv none 0 .fin⟩ ∧
    ∃ st', SelectMut demoEnv selVec st (.out (.value ⟨0, 7, []⟩)) [⟨⟨.rcv 0, 0, false⟩, .recv none 0 .fin⟩] st' := by
  have key : ∃ st, Reach demoEnv st ∧ Owned st selVec ∧ pending st.trace 1 false = [(0, ⟨0, 7, []⟩)] ∧
      ∃ st', step demoEnv st (.recv ⟨⟨.rcv 1, 1, false⟩, .recv none 0 .fin⟩) = some (st', .value ⟨0, 7, []⟩) := by
    refine ⟨_, runOps_reach (ops := selOps) rfl, ?_, rfl, _, rfl⟩
    intro x
    have hs : List.Sublist selVec [⟨⟨.fin 2 3, 1, true⟩, .fin⟩, ⟨⟨.snd 0, 0, true⟩, .send none 0 .fin⟩,
      ⟨⟨.rcv 0, 0, false⟩, .recv none 0 .fin⟩, ⟨⟨.rcv 1, 1, false⟩, .recv none 0 .fin⟩] := by simp [selVec]
    have hp : List.Perm (([⟨⟨.fin 2 3, 1, true⟩, .fin⟩, ⟨⟨.snd 0, 0, true⟩, .send none 0 .fin⟩,
      ⟨⟨.rcv 0, 0, false⟩, .recv none 0 .fin⟩, ⟨⟨.rcv 1, 1, false⟩, .recv none 0 .fin⟩] : List (Entry Nat)))
      [⟨⟨.fin 2 3, 1, true⟩, .fin⟩, ⟨⟨.rcv 1, 1, false⟩, .recv none 0 .fin⟩, ⟨⟨.snd 0, 0, true⟩, .send none 0 .fin⟩,
      ⟨⟨.rcv 0, 0, false⟩, .recv none 0 .fin⟩] := by decide
    have := hs.count_le x
    rw [hp.count_eq] at this
    exact this
  obtain ⟨st, h1, h2, h3, st', h4⟩ := key
  refine ⟨st, h1, ?_, h2, .inl (by simp [h3]), st', ?_⟩
  · intro e he; simp [selVec] at he; rcases he with rfl | rfl <;> exact ⟨_, _, _, rfl⟩
  · exact SelectMut.hit (i := 1) (.refl _) h2 rfl h4 (by simp)

/-- `select` on an empty vector returns the error. -/
example (st : St P) : SelectMut G [] st .emptyVec [] st := .empty rfl

end Verif.Prop
