import Verif.Prop.C29
import Verif.Prop.C44
import Verif.Prop.C45
import Verif.Prop.C47
import Verif.Prop.C48
import Verif.Proof.EndToEnd
/-!
# C53: from the text of a protocol to the end of its program

The text of a timed global protocol is given to the generator (C29, C47, C48).  The types of the file it writes are read by
`Spec/EndToEnd.lean`, as mesh types; the programs with these types run on the channels of C44 and C45.
-/
namespace Verif.Prop
open Verif.Nuscr Verif.NuscrSpec Verif.NuscrText Verif.EndToEnd
open Verif.Runtime
open Verif.Mesh (project actsOf)

section
variable {title : Text → Text} {C : Classes} {s : Plan} {text : List Text} {prog : Program}

theorem accepted_generator (h : Accepted title C s text prog) : generator title s.lines = .ok prog := by
  rw [← C48_generator title C h.usual s.lines text h.written]
  exact h.ok

theorem plan_nonempty (h : Accepted title C s text prog) : s.roles ≠ [] := by
  intro e
  have := h.two
  rw [e] at this
  simp at this

theorem accepted_roles (h : Accepted title C s text prog) : prog.roles = sorted s.roles := by
  have hg := accepted_generator h
  cases s with
  | straight name roles msgs =>
    obtain ⟨_, _, t, _, rfl⟩ := (generator_iff title name roles msgs).1 prog hg
    rfl
  | choice P =>
    obtain ⟨_, M, ts, _, rfl⟩ := (parts_iff title P h.distinct (plan_nonempty h)).1 prog hg
    rfl

theorem accepted_mem (h : Accepted title C s text prog) (p : Text) : p ∈ prog.roles ↔ p ∈ s.roles := by
  rw [accepted_roles h]
  exact mem_sorted _ _

theorem accepted_length (h : Accepted title C s text prog) : prog.roles.length = s.roles.length := by
  rw [accepted_roles h]
  exact ((List.perm_ext_iff_of_nodup (sorted_nodup _ h.distinct) h.distinct).mpr (mem_sorted s.roles)).length_eq

theorem loopBody_messages {l : Text} {m : Msg} : ∀ {is : List Item} {b : List Msg}, loopBody l is = some b → m ∈ b → m ∈ messagesOf is
  | [], b, h, _ => by cases h
  | .msg x :: is, b, h, hm => List.mem_cons_of_mem _ (loopBody_messages (is := is) h hm)
  | .loop x :: is, b, h, hm => by
    simp only [loopBody] at h
    simp only [messagesOf]
    split at h
    · rename_i e; cases h; exact loopBody_messages e hm
    · split at h
      · cases h; exact hm
      · cases h

/-- What acceptance says of messages, chooser and loops. -/
theorem accepted_valid (h : Accepted title C s text prog) :
    PlanValid prog s ∧
    ∀ P, s = .choice P → Loops P := by
  have hg := accepted_generator h
  have hv : ∀ m, Valid s.roles m → Valid prog.roles m := by
    intro m hm
    exact ⟨(accepted_mem h _).mpr hm.1, (accepted_mem h _).mpr hm.2.1, hm.2.2⟩
  cases s with
  | straight name roles msgs =>
    obtain ⟨h1, _⟩ := (generator_iff title name roles msgs).1 prog hg
    exact ⟨fun m hm => hv m (h1 m hm), fun P e => by cases e⟩
  | choice P =>
    obtain ⟨h1, h2, h3⟩ := C47_checked title P prog h.distinct (plan_nonempty h) hg
    refine ⟨⟨(accepted_mem h _).mpr h1, fun m hm => hv m (h2 m hm), fun b hb m hm => ?_⟩, ?_⟩
    · unfold Proto.exchanges at hm
      rcases List.mem_append.mp hm with e | e
      · exact hv m ((h3 b hb).1 m e)
      · cases hk : b.back with
        | none => rw [hk] at e; cases e
        | some l =>
          rw [hk] at e
          simp only at e
          cases hl : loopBody l P.pre with
          | none => rw [hl] at e; cases e
          | some body => rw [hl] at e; exact hv m (h2 m (loopBody_messages hl e))
    · rintro _ ⟨⟩ b hb l hl
      exact (h3 b hb).2 l hl

theorem accepted_wf (h : Accepted title C s text prog) (code : Params → Nat) :
    Mesh.Global.Wf prog.roles.length (globalOf prog code title s) :=
  global_wf (by rw [accepted_length h]; exact h.two) (accepted_valid h).1

/-- C53, the types: what the generated file stands for is the projection of the protocol to its roles. -/
theorem C53_types (h : Accepted title C s text prog) (code : Params → Nat) : Reads prog code (system prog code title s) := by
  have hg := accepted_generator h
  have hv := accepted_valid h
  have hmem := accepted_mem h
  cases s with
  | straight name roles msgs =>
    obtain ⟨_, _, t, ht, rfl⟩ := (generator_iff title name roles msgs).1 prog hg
    refine ⟨fun _ => id, 0, rfl, by simp [programOf, Function.comp_def], ?_, by intro i hi; omega⟩
    intro f hf
    obtain ⟨r, hr, rfl⟩ := List.mem_map.mp hf
    have part := ht.part
    refine ⟨endpointName ['0'] r, ?_, ?_⟩
    · have hs : t.subTrees = [] := ht.subTrees
      simp only [programOf]
      rw [allFunctions_flat _ _ (by rw [hs]; simp), hs, part_functions part]
      simp only [List.flatMap_nil, List.append_nil]
      exact List.mem_flatMap.mpr ⟨r, hr, List.mem_map.mpr ⟨0, by simp, rfl⟩⟩
    · exact endpoint_is (x := none) (enum := choiceName ['0'] [])
        (part_endpoint (x := none) (y := []) (programOf (sorted roles) t) rfl part (fun z e => by cases e)
          (mem_allSessions _ _) (mem_allStacks _ _) (mem_allEndpoints _ _) r hr) hr hv.1 (fun y e => by cases e)
          (fun y e => by cases e)
  | choice P =>
    obtain ⟨h1, h2, h3, h4⟩ := projection_named title P prog h.distinct (plan_nonempty h) hg
    have hcar : ∀ q ∈ prog.roles, q ≠ P.chooser →
        Carries prog (fun i => endpointName (indexText [0, i])) P.branches.length (choiceName ['0'] P.chooser q) q := by
      intro q hq hqx
      obtain ⟨vs, e1, _, e3⟩ := h3 q ((hmem q).mp hq) hqx
      exact ⟨vs, e1, e3⟩
    refine ⟨fun i => endpointName (indexText [0, i]), P.branches.length, rfl, ?_, ?_, ?_⟩
    · exact (C47_functions title P prog h.distinct (plan_nonempty h) hg).2.2.1
    · intro f hf
      have hfr : f.1 ∈ prog.roles := by
        rw [← (C47_functions title P prog h.distinct (plan_nonempty h) hg).2.2.1]
        exact List.mem_map_of_mem hf
      refine ⟨endpointName ['0'] f.1, ?_, ?_⟩
      · obtain ⟨_, M, ts, hp, rfl⟩ := (parts_iff title P h.distinct (plan_nonempty h)).1 prog hg
        obtain ⟨r, hr, rfl⟩ := List.mem_map.mp hf
        simp only [programOf]
        rw [allFunctions_flat _ _ (parts_subs hp), part_functions hp.main]
        exact List.mem_append_left _ (List.mem_flatMap.mpr ⟨r, hr, List.mem_map.mpr ⟨0, by simp, rfl⟩⟩)
      · exact endpoint_is (h1 f.1 ((hmem _).mp hfr)) hfr hv.1.2.1 (fun y e => by cases e; exact hv.1.1)
          (fun y e q hq hqy => by cases e; exact hcar q hq hqy)
    · intro i hi p hp
      have hb : P.branches[i]? = some P.branches[i] := List.getElem?_eq_getElem hi
      have e : (system prog code title (.choice P)).types (i + 1) (number prog p) =
          Mesh.meshOf (number prog p) ((P.exchanges P.branches[i]).map (comm prog code title))
            (EndToEnd.tailOf prog P.branches.length (P.branches[i].back.map fun _ => P.chooser)) := by
        simp only [system, Mesh.project, globalOf, hb]
      rw [e]
      have hback : ∀ y, (P.branches[i].back.map fun _ => P.chooser) = some y → y = P.chooser := by
        intro y e
        cases hk : P.branches[i].back with
        | none => rw [hk] at e; cases e
        | some l => rw [hk] at e; exact (Option.some.inj e).symm
      refine endpoint_is (h2 i _ hb p ((hmem p).mp hp)) hp (hv.1.2.2 _ (List.getElem_mem _)) ?_ ?_
      · intro y e; rw [hback y e]; exact hv.1.1
      · intro y e q hq hqy
        rw [hback y e] at hqy
        exact hcar q hq hqy

/-- C53, the types are determined by the file, if no name of a role contains `To`: whatever an endpoint type is taken to
stand for, the sessions with the partners and the stack are the same. -/
theorem C53_unique (h : Accepted title C s text prog) (hto : ∀ p ∈ s.roles, NoTo p) (code : Params → Nat)
    (branch branch' : Nat → Text → Text) (k k' : Nat) (e p : Text) (M M' : Mesh.Mesh)
    (hM : EndpointIs prog code branch k e p M) (hM' : EndpointIs prog code branch' k' e p M') :
    (∀ q ∈ prog.roles, q ≠ p → M.sess (number prog q) = M'.sess (number prog q)) ∧ M.stack = M'.stack := by
  have hg := accepted_generator h
  cases s with
  | straight name roles msgs =>
    obtain ⟨h1, h2⟩ := C29_aliases title name roles msgs prog hg h.distinct hto
    obtain ⟨_, _, t, ht, rfl⟩ := (generator_iff title name roles msgs).1 prog hg
    have hs : t.subTrees = [] := ht.subTrees
    refine endpoint_unique h1 h2 ?_ ?_ hM hM'
    · simp only [programOf]
      have : allEnums (sorted roles) t = [] := by
        cases t
        simp only at hs
        subst hs
        simp [allEnums, allEnumsList, genEnums]
      rw [this]
      exact List.nodup_nil
    · simp only [programOf]
      rw [allEndpoints_eq _ _ hs, part_endpoint_names ht.part]
      refine List.Nodup.map ?_ (sorted_nodup _ h.distinct)
      intro a b hab
      unfold endpointName at hab
      simpa using hab
  | choice P =>
    obtain ⟨h1, h2, h3, h4⟩ := C47_aliases title P prog h.distinct (plan_nonempty h) hto hg
    exact endpoint_unique h1 h2 h3 h4 hM hM'

/-! ## Running the program -/

/-- C53, `main` can start the roles. -/
theorem C53_start (h : Accepted title C s text prog) (code : Params → Nat) : ∃ st, RRun (system prog code title s) 0 [] st :=
  C44_start _ _ (accepted_wf h code) 0

/-- C53, safety: whatever was done before, the next call of a role delivers its message, or returns the value it expects, or
waits. -/
theorem C53_safe (h : Accepted title C s text prog) (code : Params → Nat) (ls : List RLabel) (st : RS)
    (hr : RRun (system prog code title s) 0 ls st) (p : Text) (hp : p ∈ s.roles) (op : Heap.Op Pay)
    (hc : Call (system prog code title s) (number prog p) (st.pos (number prog p)) op) :
    ∃ h' o, Heap.step (env (system prog code title s)) st.heap op = some (h', o) ∧ Fine op o :=
  C44_safe _ _ (accepted_wf h code) 0 ls st hr _ (number_pos ((accepted_mem h p).mpr hp)) op hc

/-- The role of a number. -/
theorem number_surj (h : Accepted title C s text prog) (r : Nat) (hr : 1 ≤ r ∧ r ≤ prog.roles.length) :
    ∃ p ∈ s.roles, number prog p = r := by
  have hlt : r - 1 < prog.roles.length := by omega
  refine ⟨prog.roles[r - 1], (accepted_mem h _).mp (List.getElem_mem _), ?_⟩
  have hn : prog.roles.Nodup := by rw [accepted_roles h]; exact sorted_nodup _ h.distinct
  unfold EndToEnd.number
  rw [hn.idxOf_getElem]
  omega

/-- C53, no deadlock: unless all roles have returned from `close`, some role can take a step. -/
theorem C53_progress (h : Accepted title C s text prog) (code : Params → Nat) (ls : List RLabel) (st : RS)
    (hr : RRun (system prog code title s) 0 ls st) (hc : ¬ AllClosed (system prog code title s) st) :
    ∃ p ∈ s.roles, CanGo (system prog code title s) st (number prog p) := by
  obtain ⟨r, h1, h2⟩ := C44_progress _ _ (accepted_wf h code) 0 ls st hr hc
  obtain ⟨p, hp, rfl⟩ := number_surj h r h1
  exact ⟨p, hp, h2⟩

/-- C53, order: there is one execution of the protocol such that what every role has done is the first part of what that
execution asks of it. -/
theorem C53_order (h : Accepted title C s text prog) (code : Params → Nat) (ls : List RLabel) (st : RS)
    (hr : RRun (system prog code title s) 0 ls st) :
    ∃ c tr, Execution s c tr ∧
      ∀ p ∈ s.roles, actsOf (number prog p) (sims ls) <+: tr.filterMap (does prog code title p) := by
  obtain ⟨tr, h1, h2⟩ := C44_order _ _ (accepted_wf h code) 0 ls st hr
  obtain ⟨c, tr', h3, rfl⟩ := follows_execution (accepted_valid h).2 h1
  refine ⟨c, tr', h3, fun p hp => ?_⟩
  have := h2 _ (number_pos ((accepted_mem h p).mpr hp))
  rwa [view_tr tr' (known_execution (accepted_valid h).1 h3)] at this

/-- C53, the end: when all roles have returned from `close`, they have done exactly what one complete execution of the
protocol asks of them, and nobody holds an endpoint. -/
theorem C53_done (h : Accepted title C s text prog) (code : Params → Nat) (ls : List RLabel) (st : RS)
    (hr : RRun (system prog code title s) 0 ls st) (hc : AllClosed (system prog code title s) st) :
    (∃ tr, Execution s true tr ∧
      ∀ p ∈ s.roles, actsOf (number prog p) (sims ls) = tr.filterMap (does prog code title p)) ∧
    st.heap.pool = [] := by
  obtain ⟨⟨tr, h1, h2⟩, h3, _⟩ := C44_done _ _ (accepted_wf h code) 0 ls st hr hc
  obtain ⟨tr', h4, rfl⟩ := completes_execution (accepted_valid h).2 h1
  refine ⟨⟨tr', h4, fun p hp => ?_⟩, h3⟩
  have := h2 _ (number_pos ((accepted_mem h p).mpr hp))
  rwa [view_tr tr' (known_execution (accepted_valid h).1 h4)] at this

/-- C53, nothing is lost: every execution of the protocol, up to a choice or to the end, is performed by some run. -/
theorem C53_possible (h : Accepted title C s text prog) (code : Params → Nat) (c : Bool) (tr : List Happening)
    (he : Execution s c tr) :
    ∃ ls st, RRun (system prog code title s) 0 ls st ∧
      (∀ p ∈ s.roles, actsOf (number prog p) (sims ls) = tr.filterMap (does prog code title p)) ∧
      (c = true → AllClosed (system prog code title s) st) := by
  have hk := known_execution (accepted_valid h).1 he
  have key : ∀ ls : List RLabel, (∀ r, 1 ≤ r ∧ r ≤ prog.roles.length → actsOf r (sims ls) =
      (tr.map (ev prog code title)).filterMap (Mesh.view r)) →
      ∀ p ∈ s.roles, actsOf (number prog p) (sims ls) = tr.filterMap (does prog code title p) := by
    intro ls h2 p hp
    have := h2 _ (number_pos ((accepted_mem h p).mpr hp))
    rwa [view_tr tr hk] at this
  cases c with
  | false =>
    obtain ⟨ls, st, h1, h2⟩ := C44_possible _ _ (accepted_wf h code) 0 _ (execution_follows he)
    exact ⟨ls, st, h1, key ls h2, fun e => by cases e⟩
  | true =>
    obtain ⟨ls, st, h1, h3, h2⟩ := C44_completable _ _ (accepted_wf h code) 0 _ (execution_completes he)
    exact ⟨ls, st, h1, key ls h2, fun _ => h3⟩

/-- C53, nobody is left behind: under every fair schedule, once one role has nothing left to do but `close`, all
roles return from `close`. -/
theorem C53_ends (h : Accepted title C s text prog) (code : Params → Nat) (σ : Nat → RS) (lab : Nat → Option RLabel)
    (hs : RSchedule (system prog code title s) 0 σ lab) (hf : RFair (system prog code title s) σ lab)
    (p : Text) (hp : p ∈ s.roles) (k : Nat) (he : AtEnd (σ k) (number prog p)) :
    ∃ j, k ≤ j ∧ AllClosed (system prog code title s) (σ j) :=
  C44_ends _ _ (accepted_wf h code) 0 σ lab hs hf _ (number_pos ((accepted_mem h p).mpr hp)) k he

/-- C53, nobody starves: under every fair schedule every role, at every moment, has returned from `close` or will take
another step. -/
theorem C53_live (h : Accepted title C s text prog) (code : Params → Nat) (σ : Nat → RS) (lab : Nat → Option RLabel)
    (hs : RSchedule (system prog code title s) 0 σ lab) (hf : RFair (system prog code title s) σ lab)
    (p : Text) (hp : p ∈ s.roles) (k : Nat) :
    (σ k).pos (number prog p) = .closed ∨ ∃ j, k ≤ j ∧ RMoves lab (number prog p) j :=
  C44_live _ _ (accepted_wf h code) 0 σ lab hs hf _ (number_pos ((accepted_mem h p).mpr hp)) k

/-- A protocol without jumps has no endless sequence of choices. -/
theorem plan_acc (prog : Program) (code : Params → Nat) (title : Text → Text)
    (hj : ∀ P, s = .choice P → ∀ b ∈ P.branches, b.back = none) :
    Acc (fun N' N => ∃ p bs, (globalOf prog code title s N).tail = .choice p bs ∧ N' ∈ bs) 0 := by
  have none : ∀ i, Acc (fun N' N => ∃ p bs, (globalOf prog code title s N).tail = .choice p bs ∧ N' ∈ bs) (i + 1) := by
    intro i
    constructor
    rintro y ⟨p, bs, h1, _⟩
    cases s with
    | straight name roles msgs => cases h1
    | choice P =>
      simp only [globalOf] at h1
      cases hb : P.branches[i]? with
      | none => rw [hb] at h1; cases h1
      | some b =>
        rw [hb] at h1
        simp only [hj P rfl b (List.mem_of_getElem? hb), Option.map_none, EndToEnd.tailOf] at h1
        cases h1
  constructor
  rintro y ⟨p, bs, h1, h2⟩
  cases s with
  | straight name roles msgs => cases h1
  | choice P =>
    simp only [globalOf, EndToEnd.tailOf, Mesh.Tail.choice.injEq] at h1
    rw [← h1.2] at h2
    have := (List.mem_range'_1.mp h2).1
    rw [← Nat.sub_add_cancel this]
    exact none _

/-- C53, termination: if no branch jumps back, every fair schedule brings all roles back from `close`. -/
theorem C53_terminates (h : Accepted title C s text prog) (code : Params → Nat)
    (hj : ∀ P, s = .choice P → ∀ b ∈ P.branches, b.back = none) (σ : Nat → RS) (lab : Nat → Option RLabel)
    (hs : RSchedule (system prog code title s) 0 σ lab) (hf : RFair (system prog code title s) σ lab) :
    ∃ j, AllClosed (system prog code title s) (σ j) :=
  C44_terminates _ _ (accepted_wf h code) 0 σ lab hs hf (plan_acc prog code title hj)

/-! ## When roles fail -/

/-- C53, failures: whatever roles have failed, what all have done is the first part of one execution of the protocol, and
the next call of a living role returns what it expects, or waits, or returns an error, the latter only if somebody has
failed. -/
theorem C53_failure (h : Accepted title C s text prog) (code : Params → Nat) (ls : List FLabel) (st : FS)
    (hr : FRun (system prog code title s) 0 ls st) :
    (∃ c tr, Execution s c tr ∧
      ∀ p ∈ s.roles, actsOf (number prog p) (fsims ls) <+: tr.filterMap (does prog code title p)) ∧
    ∀ p ∈ s.roles, st.dead (number prog p) = false → ∀ op,
      Call (system prog code title s) (number prog p) (st.pos (number prog p)) op →
      ∃ h' o, Heap.step (env (system prog code title s)) st.heap op = some (h', o) ∧ Graceful op o ∧
        (o = .err → SomeDead (system prog code title s) st) := by
  constructor
  · obtain ⟨tr, h1, h2⟩ := C45_order _ _ (accepted_wf h code) 0 ls st hr
    obtain ⟨c, tr', h3, rfl⟩ := follows_execution (accepted_valid h).2 h1
    refine ⟨c, tr', h3, fun p hp => ?_⟩
    have := h2 _ (number_pos ((accepted_mem h p).mpr hp))
    rwa [view_tr tr' (known_execution (accepted_valid h).1 h3)] at this
  · intro p hp hd op hc
    exact C45_safe _ _ (accepted_wf h code) 0 ls st hr _ (number_pos ((accepted_mem h p).mpr hp)) hd op hc

/-- C53, `close` vouches for the others: if one role has returned from `close`, then together the roles have done exactly
what one complete execution of the protocol asks of them, whoever fails. -/
theorem C53_close (h : Accepted title C s text prog) (code : Params → Nat) (ls : List FLabel) (st : FS)
    (hr : FRun (system prog code title s) 0 ls st) (p : Text) (hp : p ∈ s.roles)
    (hc : st.pos (number prog p) = .closed) :
    ∃ tr, Execution s true tr ∧
      ∀ q ∈ s.roles, actsOf (number prog q) (fsims ls) = tr.filterMap (does prog code title q) := by
  obtain ⟨_, tr, h1, h2⟩ := C45_close _ _ (accepted_wf h code) 0 ls st hr _ (number_pos ((accepted_mem h p).mpr hp)) hc
  obtain ⟨tr', h4, rfl⟩ := completes_execution (accepted_valid h).2 h1
  refine ⟨tr', h4, fun q hq => ?_⟩
  have := h2 _ (number_pos ((accepted_mem h q).mpr hq))
  rwa [view_tr tr' (known_execution (accepted_valid h).1 h4)] at this

/-- C53, failures: every fair schedule, with whatever failures, of a protocol without jumps comes to an end in
which every channel has been freed. -/
theorem C53_failure_terminates (h : Accepted title C s text prog) (code : Params → Nat)
    (hj : ∀ P, s = .choice P → ∀ b ∈ P.branches, b.back = none) (σ : Nat → FS) (lab : Nat → Option FLabel)
    (hs : FSchedule (system prog code title s) 0 σ lab) (hf : FFair (system prog code title s) σ lab) :
    ∃ j, Over (system prog code title s) (σ j) ∧ (∀ i, j ≤ i → σ i = σ j) ∧
      ∀ c, ((σ j).heap.chan c).tx = false ∧ ((σ j).heap.chan c).rx = false ∧ ((σ j).heap.chan c).buf = none :=
  C45_terminates _ _ (accepted_wf h code) 0 σ lab hs hf (plan_acc prog code title hj)

end

end Verif.Prop
