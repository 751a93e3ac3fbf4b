import Verif.Spec.EndToEnd
/-! The types of a generated file are the projections of the protocol. -/
namespace Verif.EndToEnd
open Verif.Nuscr Verif.NuscrSpec

variable {prog : Program} {code : Params → Nat} {title : Text → Text}

theorem number_inj {p q : Text} (hp : p ∈ prog.roles) (h : number prog p = number prog q) : p = q := by
  unfold number at h
  exact (List.idxOf_inj hp).mp (by omega)

theorem number_pos {p : Text} (hp : p ∈ prog.roles) : 1 ≤ number prog p ∧ number prog p ≤ prog.roles.length := by
  unfold number
  have := List.idxOf_lt_length_iff.mpr hp
  omega

/-- The tail of an alias, in numbers. -/
def tailSess (k : Nat) : NuscrSpec.Tail → Mesh.Sess
  | .fin => .fin
  | .sends _ => .sendChoice (List.range' 1 k)
  | .receives _ => .recvChoice (List.range' 1 k)

def stepSess (code : Params → Nat) (T : Mesh.Sess) : List NuscrSpec.Step → Mesh.Sess
  | [] => T
  | .send x :: ss => .send (code x) (stepSess code T ss)
  | .recv x :: ss => .recv (code x) (stepSess code T ss)

theorem means_session {branch : Nat → Text → Text} {k : Nat} {p q a : Text} {ss : List NuscrSpec.Step} {t : NuscrSpec.Tail}
    (h : MeansTo prog.sessions a ss t) (h1 : ∀ e, t = .sends e → Carries prog branch k e q)
    (h2 : ∀ e, t = .receives e → Carries prog branch k e p) :
    SessionIs prog code branch k p q a (stepSess code (tailSess k t) ss) := by
  induction h with
  | fin a h => exact .fin a h
  | sends a e h => exact .sendChoice a e h (h1 e rfl)
  | receives a e h => exact .recvChoice a e h (h2 e rfl)
  | send a x b ss t h _ ih => exact .send a x b _ h (ih h1 h2)
  | recv a x b ss t h _ ih => exact .recv a x b _ h (ih h1 h2)

theorem sess_view {p q : Text} (hp : p ∈ prog.roles) (hq : q ∈ prog.roles) (t : Mesh.Tail) : ∀ msgs : List Msg,
    (∀ m ∈ msgs, Valid prog.roles m) →
    Mesh.sessOf (number prog p) (number prog q) (msgs.map (comm prog code title)) t =
      stepSess code (Mesh.sessOf (number prog p) (number prog q) [] t) (view title p q msgs)
  | [], _ => by simp [view, stepSess]
  | m :: msgs, hv => by
    have ih := sess_view hp hq t msgs (fun x hx => hv x (by simp [hx]))
    have hm := hv m (by simp)
    have e1 : ∀ {x : Text}, x ∈ prog.roles → ∀ {y : Text}, (number prog x = number prog y ↔ x = y) :=
      fun hx _ => ⟨number_inj hx, fun e => by rw [e]⟩
    simp only [List.map_cons, Mesh.sessOf, comm, e1 hm.1, e1 hm.2.1, view, List.filterMap_cons]
    by_cases c1 : m.sender = p ∧ m.receiver = q
    · rw [if_pos c1, if_pos c1]
      simp only [stepSess]
      rw [← view, ← ih]
    · rw [if_neg c1, if_neg c1]
      by_cases c2 : m.sender = q ∧ m.receiver = p
      · rw [if_pos c2, if_pos c2]
        simp only [stepSess]
        rw [← view, ← ih]
      · rw [if_neg c2, if_neg c2, ← view, ← ih]

def pushes (prog : Program) (T : Mesh.Stack) : List Text → Mesh.Stack
  | [] => T
  | r :: rs => .role (number prog r) (pushes prog T rs)

theorem stack_partners {p : Text} (t : Mesh.Tail) : ∀ msgs : List Msg, (∀ m ∈ msgs, Valid prog.roles m) →
    Mesh.stackOf (number prog p) (msgs.map (comm prog code title)) t =
      pushes prog (Mesh.stackOf (number prog p) [] t) (partners p msgs)
  | [], _ => by simp [partners, pushes]
  | m :: msgs, hv => by
    have ih := stack_partners (p := p) t msgs (fun x hx => hv x (by simp [hx]))
    have hm := hv m (by simp)
    have e1 : ∀ {x : Text}, x ∈ prog.roles → ∀ {y : Text}, (number prog x = number prog y ↔ x = y) :=
      fun hx _ => ⟨number_inj hx, fun e => by rw [e]⟩
    simp only [List.map_cons, Mesh.stackOf, comm, e1 hm.1, e1 hm.2.1, partners, List.filterMap_cons]
    by_cases c1 : m.sender = p
    · rw [if_pos c1, if_pos c1]
      simp only [pushes]
      rw [← partners, ← ih]
    · rw [if_neg c1, if_neg c1]
      by_cases c2 : m.receiver = p
      · rw [if_pos c2, if_pos c2]
        simp only [pushes]
        rw [← partners, ← ih]
      · rw [if_neg c2, if_neg c2, ← partners, ← ih]

theorem means_stack {a : Text} {rs : List Text} {b : Bool} (h : MeansStackTo prog.stacks a rs b) :
    StackIs prog a (pushes prog (if b then .broadcast else .fin) rs) := by
  induction h with
  | fin a h => exact .fin a h
  | broadcast a h => exact .broadcast a h
  | last a r h => exact .last a r h
  | role a r b rs c h _ ih => exact .role a r b _ h ih

theorem pushes_append (T : Mesh.Stack) : ∀ rs rs' : List Text, pushes prog T (rs ++ rs') = pushes prog (pushes prog T rs') rs
  | [], _ => rfl
  | r :: rs, rs' => by simp [pushes, pushes_append T rs rs']

/-- The endpoints of C47 are the projections. -/
theorem endpoint_is {branch : Nat → Text → Text} {k : Nat} {e p : Text} {enum : Text → Text} {msgs : List Msg}
    {x : Option Text} (h : IsEndpoint title prog enum e p msgs x) (hp : p ∈ prog.roles)
    (hv : ∀ m ∈ msgs, Valid prog.roles m) (hx : ∀ y, x = some y → y ∈ prog.roles)
    (hc : ∀ y, x = some y → ∀ q ∈ prog.roles, q ≠ y → Carries prog branch k (enum q) q) :
    EndpointIs prog code branch k e p
      (Mesh.meshOf (number prog p) (msgs.map (comm prog code title)) (tailOf prog k x)) := by
  obtain ⟨sessions, stack, h1, h2, h3⟩ := h
  have e1 : ∀ {x : Text}, x ∈ prog.roles → ∀ {y : Text}, (number prog x = number prog y ↔ x = y) :=
      fun hx _ => ⟨number_inj hx, fun e => by rw [e]⟩
  refine ⟨sessions, stack, h1, ?_, ?_⟩
  · have hmem : ∀ q ∈ prog.roles.filter (· ≠ p), q ∈ prog.roles ∧ q ≠ p := by
      intro q hq
      have := List.mem_filter.mp hq
      exact ⟨this.1, by simpa using this.2⟩
    clear h1
    revert hmem
    generalize prog.roles.filter (· ≠ p) = qs at h2
    intro hmem
    induction h2 with
    | nil => exact .nil
    | @cons q s qs ss hs _ ih =>
      refine .cons ?_ (ih fun q hq => hmem q (by simp [hq]))
      obtain ⟨hq, hqp⟩ := hmem q (by simp)
      simp only [Mesh.meshOf]
      rw [sess_view hp hq _ msgs hv]
      cases x with
      | none => exact means_session hs (fun e h => by cases h) (fun e h => by cases h)
      | some y =>
        have hy := hx y rfl
        have ht : Mesh.sessOf (number prog p) (number prog q) [] (tailOf prog k (some y)) =
            tailSess k (atChoice y enum p q) := by
          simp only [tailOf, Mesh.sessOf, e1 hy, atChoice]
          by_cases c1 : y = p
          · rw [if_pos c1, if_pos c1.symm]; rfl
          · rw [if_neg c1, if_neg (Ne.symm c1)]
            by_cases c2 : y = q
            · rw [if_pos c2, if_pos c2.symm]; rfl
            · rw [if_neg c2, if_neg (Ne.symm c2)]; rfl
        rw [ht]
        refine means_session hs (fun e h => ?_) (fun e h => ?_)
        · unfold atChoice at h
          split at h
          · rename_i c
            cases h
            exact hc y rfl q hq (fun e => hqp (e.trans c.symm))
          · split at h <;> cases h
        · unfold atChoice at h
          split at h
          · cases h
          · rename_i c
            split at h
            · cases h
              exact hc y rfl p hp c
            · cases h
  · simp only [Mesh.meshOf]
    rw [stack_partners _ msgs hv]
    cases x with
    | none => exact means_stack h3
    | some y =>
      have hy := hx y rfl
      simp only at h3
      split at h3
      · rename_i c
        have := means_stack h3
        simpa [tailOf, Mesh.stackOf, c] using this
      · rename_i c
        have := means_stack h3
        rw [pushes_append] at this
        have c' : ¬ number prog y = number prog p := fun e => c (number_inj hy e).symm
        simpa [tailOf, Mesh.stackOf, c', pushes] using this

/-- Chooser, senders and receivers are roles. -/
def PlanValid (prog : Program) : Plan → Prop
  | .straight _ _ msgs => ∀ m ∈ msgs, Valid prog.roles m
  | .choice P => P.chooser ∈ prog.roles ∧ (∀ m ∈ messagesOf P.pre, Valid prog.roles m) ∧
      ∀ b ∈ P.branches, ∀ m ∈ P.exchanges b, Valid prog.roles m

/-- In numbers, the protocol is well formed. -/
theorem global_wf {s : Plan} (h2 : 2 ≤ prog.roles.length)
    (hm : PlanValid prog s) :
    Mesh.Global.Wf prog.roles.length (globalOf prog code title s) := by
  have hcs : ∀ msgs : List Msg, (∀ m ∈ msgs, Valid prog.roles m) → ∀ c ∈ msgs.map (comm prog code title),
      (1 ≤ c.p ∧ c.p ≤ prog.roles.length) ∧ (1 ≤ c.q ∧ c.q ≤ prog.roles.length) ∧ c.p ≠ c.q := by
    intro msgs hv c hc
    obtain ⟨m, hm, rfl⟩ := List.mem_map.mp hc
    obtain ⟨h1, h2, h3⟩ := hv m hm
    exact ⟨number_pos h1, number_pos h2, fun e => h3 (number_inj h1 e)⟩
  refine ⟨h2, fun N => ?_⟩
  cases s with
  | straight name roles msgs => exact ⟨hcs msgs hm, fun p bs h => by cases h⟩
  | choice P =>
    obtain ⟨hx, h3, h4⟩ := hm
    have ht : ∀ (o : Option Text) p bs, (∀ y, o = some y → y = P.chooser) → tailOf prog P.branches.length o = .choice p bs →
        (1 ≤ p ∧ p ≤ prog.roles.length) ∧ bs ≠ [] := by
      intro o p bs ho h
      cases o with
      | none => cases h
      | some y =>
        simp only [tailOf, Mesh.Tail.choice.injEq] at h
        obtain ⟨rfl, rfl⟩ := h
        rw [ho y rfl]
        exact ⟨number_pos hx, by simp [Proto.branches, List.range'_eq_nil_iff]⟩
    cases N with
    | zero => exact ⟨hcs _ h3, fun p bs h => ht _ p bs (fun y e => (Option.some.inj e).symm) h⟩
    | succ i =>
      simp only [globalOf]
      cases hb : P.branches[i]? with
      | none => exact ⟨by simp, fun p bs h => by cases h⟩
      | some b =>
        refine ⟨hcs _ (h4 b (List.mem_of_getElem? hb)), fun p bs h => ht _ p bs (fun y e => ?_) h⟩
        cases hk : b.back with
        | none => rw [hk] at e; cases e
        | some l => rw [hk] at e; exact (Option.some.inj e).symm

/-! ## Executions -/

/-- An event, in numbers. -/
def ev (prog : Program) (code : Params → Nat) (title : Text → Text) : Happening → Mesh.Ev
  | .exchange m => .comm (comm prog code title m)
  | .choice x i => .sel (number prog x) (i + 1)

theorem view_ev {p : Text} (h : Happening) (hv : match h with
      | .exchange m => m.sender ∈ prog.roles ∧ m.receiver ∈ prog.roles
      | .choice x _ => x ∈ prog.roles) :
    Mesh.view (number prog p) (ev prog code title h) = does prog code title p h := by
  have e1 : ∀ {x : Text}, x ∈ prog.roles → ∀ {y : Text}, (number prog x = number prog y ↔ x = y) :=
      fun hx _ => ⟨number_inj hx, fun e => by rw [e]⟩
  cases h with
  | exchange m => simp only [ev, Mesh.view, comm, does, e1 hv.1, e1 hv.2]
  | choice x i => simp only [ev, Mesh.view, does, e1 hv]

/-- All roles named in an event are roles. -/
def Known (prog : Program) : Happening → Prop
  | .exchange m => m.sender ∈ prog.roles ∧ m.receiver ∈ prog.roles
  | .choice x _ => x ∈ prog.roles

theorem known_after {P : Proto} (hv : PlanValid prog (.choice P)) {c : Bool} {tr : List Happening} (h : After P c tr) :
    ∀ x ∈ tr, Known prog x := by
  obtain ⟨h1, _, h3⟩ := hv
  have hm : ∀ i b, P.branches[i]? = some b → ∀ m ∈ P.exchanges b, Known prog (.exchange m) := fun i b hb m hm =>
    ⟨(h3 b (List.mem_of_getElem? hb) m hm).1, (h3 b (List.mem_of_getElem? hb) m hm).2.1⟩
  induction h with
  | wait => intro x hx; cases hx
  | @ends i b hb hk =>
    intro x hx
    rcases List.mem_cons.mp hx with rfl | hx
    · exact h1
    · obtain ⟨m, hmm, rfl⟩ := List.mem_map.mp hx
      exact hm i b hb m (by simp [Proto.exchanges, hmm])
  | @again i b l body c tr hb hk hbody _ ih =>
    intro x hx
    rcases List.mem_cons.mp hx with rfl | hx
    · exact h1
    · rcases List.mem_append.mp hx with hx | hx
      · obtain ⟨m, hmm, rfl⟩ := List.mem_map.mp hx
        exact hm i b hb m (by simp [Proto.exchanges, hmm])
      · rcases List.mem_append.mp hx with hx | hx
        · obtain ⟨m, hmm, rfl⟩ := List.mem_map.mp hx
          exact hm i b hb m (by simp [Proto.exchanges, hk, hbody, hmm])
        · exact ih x hx

theorem known_execution {s : Plan} (hv : PlanValid prog s) {c : Bool} {tr : List Happening} (h : Execution s c tr) :
    ∀ x ∈ tr, Known prog x := by
  cases h with
  | straight =>
    intro x hx
    obtain ⟨m, hm, rfl⟩ := List.mem_map.mp hx
    exact ⟨(hv m hm).1, (hv m hm).2.1⟩
  | choice h =>
    intro x hx
    rcases List.mem_append.mp hx with hx | hx
    · obtain ⟨m, hm, rfl⟩ := List.mem_map.mp hx
      exact ⟨(hv.2.1 m hm).1, (hv.2.1 m hm).2.1⟩
    · exact known_after hv h x hx

theorem view_tr {p : Text} : ∀ tr : List Happening, (∀ x ∈ tr, Known prog x) →
    (tr.map (ev prog code title)).filterMap (Mesh.view (number prog p)) = tr.filterMap (does prog code title p)
  | [], _ => rfl
  | x :: tr, h => by
    have ih := view_tr (p := p) tr (fun y hy => h y (by simp [hy]))
    have hx : Mesh.view (number prog p) (ev prog code title x) = does prog code title p x := view_ev x (by
      have := h x (by simp)
      cases x <;> exact this)
    rw [List.map_cons, List.filterMap_cons, List.filterMap_cons, hx, ih]

theorem map_ev (msgs : List Msg) : (msgs.map Happening.exchange).map (ev prog code title) =
    (msgs.map (comm prog code title)).map Mesh.Ev.comm := by
  simp [List.map_map, Function.comp_def, ev]

/-- The loops that are jumped to exist. -/
def Loops (P : Proto) : Prop := ∀ b ∈ P.branches, ∀ l, b.back = some l → loopBody l P.pre ≠ none

theorem branch_of {k i : Nat} {bs : List Branch} (hk : k = bs.length) (h : i + 1 ∈ List.range' 1 k) : ∃ b, bs[i]? = some b := by
  have := List.mem_range'_1.mp h
  exact ⟨_, List.getElem?_eq_getElem (by omega)⟩

theorem branch_mem {i : Nat} {bs : List Branch} {b : Branch} (h : bs[i]? = some b) : i + 1 ∈ List.range' 1 bs.length := by
  have := (List.getElem?_eq_some_iff.mp h).1
  exact List.mem_range'_1.mpr (by omega)

/-- The branches, from their numbers. -/
theorem follows_after {P : Proto} (hl : Loops P) {N : Nat} {tr : List Mesh.Ev}
    (h : Mesh.Follows (globalOf prog code title (.choice P)) N tr) : ∀ i b, N = i + 1 → P.branches[i]? = some b →
    ∃ c tr', After P c (.choice P.chooser i :: tr') ∧ tr'.map (ev prog code title) = tr := by
  induction h with
  | stop N =>
    rintro i b rfl hb
    simp only [globalOf, hb]
    cases hk : b.back with
    | none =>
      refine ⟨true, _, .ends hb hk, ?_⟩
      simp [Function.comp_def, Proto.exchanges, hk, ev]
    | some l =>
      obtain ⟨body, hbody⟩ := Option.ne_none_iff_exists'.mp (hl b (List.mem_of_getElem? hb) l hk)
      refine ⟨false, _, .again hb hk hbody .wait, ?_⟩
      simp [Function.comp_def, Proto.exchanges, hk, hbody, ev]
  | @go N p bs N' tr ht hN _ ih =>
    rintro i b rfl hb
    simp only [globalOf, hb] at ht
    cases hk : b.back with
    | none => rw [hk] at ht; cases ht
    | some l =>
      rw [hk] at ht
      simp only [Option.map_some, tailOf, Mesh.Tail.choice.injEq] at ht
      obtain ⟨rfl, rfl⟩ := ht
      obtain ⟨body, hbody⟩ := Option.ne_none_iff_exists'.mp (hl b (List.mem_of_getElem? hb) l hk)
      obtain ⟨j, rfl⟩ : ∃ j, N' = j + 1 := ⟨N' - 1, (Nat.sub_add_cancel (List.mem_range'_1.mp hN).1).symm⟩
      obtain ⟨b', hb'⟩ := branch_of rfl hN
      obtain ⟨c, tr', h1, rfl⟩ := ih j b' rfl hb'
      refine ⟨c, _, .again hb hk hbody h1, ?_⟩
      simp [globalOf, hb, Function.comp_def, Proto.exchanges, hk, hbody, ev]

theorem follows_execution {s : Plan} (hl : ∀ P, s = .choice P → Loops P) {tr : List Mesh.Ev}
    (h : Mesh.Follows (globalOf prog code title s) 0 tr) :
    ∃ c tr', Execution s c tr' ∧ tr'.map (ev prog code title) = tr := by
  cases s with
  | straight name roles msgs =>
    cases h with
    | stop => exact ⟨true, _, .straight, by simp [Function.comp_def, globalOf, ev]⟩
    | go ht _ _ => cases ht
  | choice P =>
    cases h with
    | stop => exact ⟨false, _, .choice .wait, by simp [Function.comp_def, globalOf, ev]⟩
    | @go _ p bs N' tr ht hN h =>
      simp only [globalOf, tailOf, Mesh.Tail.choice.injEq] at ht
      obtain ⟨rfl, rfl⟩ := ht
      obtain ⟨j, rfl⟩ : ∃ j, N' = j + 1 := ⟨N' - 1, (Nat.sub_add_cancel (List.mem_range'_1.mp hN).1).symm⟩
      obtain ⟨b', hb'⟩ := branch_of rfl hN
      obtain ⟨c, tr', h1, rfl⟩ := follows_after (hl P rfl) h j b' rfl hb'
      exact ⟨c, _, .choice h1, by simp [Function.comp_def, globalOf, ev]⟩

theorem completes_after {P : Proto} (hl : Loops P) {N : Nat} {tr : List Mesh.Ev}
    (h : Mesh.Completes (globalOf prog code title (.choice P)) N tr) : ∀ i b, N = i + 1 → P.branches[i]? = some b →
    ∃ tr', After P true (.choice P.chooser i :: tr') ∧ tr'.map (ev prog code title) = tr := by
  induction h with
  | @stop N ht =>
    rintro i b rfl hb
    simp only [globalOf, hb] at ht ⊢
    cases hk : b.back with
    | none =>
      refine ⟨_, .ends hb hk, ?_⟩
      simp [Function.comp_def, Proto.exchanges, hk, ev]
    | some l => rw [hk] at ht; cases ht
  | @go N p bs N' tr ht hN _ ih =>
    rintro i b rfl hb
    simp only [globalOf, hb] at ht
    cases hk : b.back with
    | none => rw [hk] at ht; cases ht
    | some l =>
      rw [hk] at ht
      simp only [Option.map_some, tailOf, Mesh.Tail.choice.injEq] at ht
      obtain ⟨rfl, rfl⟩ := ht
      obtain ⟨body, hbody⟩ := Option.ne_none_iff_exists'.mp (hl b (List.mem_of_getElem? hb) l hk)
      obtain ⟨j, rfl⟩ : ∃ j, N' = j + 1 := ⟨N' - 1, (Nat.sub_add_cancel (List.mem_range'_1.mp hN).1).symm⟩
      obtain ⟨b', hb'⟩ := branch_of rfl hN
      obtain ⟨tr', h1, rfl⟩ := ih j b' rfl hb'
      refine ⟨_, .again hb hk hbody h1, ?_⟩
      simp [globalOf, hb, Function.comp_def, Proto.exchanges, hk, hbody, ev]

theorem completes_execution {s : Plan} (hl : ∀ P, s = .choice P → Loops P) {tr : List Mesh.Ev}
    (h : Mesh.Completes (globalOf prog code title s) 0 tr) :
    ∃ tr', Execution s true tr' ∧ tr'.map (ev prog code title) = tr := by
  cases s with
  | straight name roles msgs =>
    cases h with
    | stop => exact ⟨_, .straight, by simp [Function.comp_def, globalOf, ev]⟩
    | go ht _ _ => cases ht
  | choice P =>
    cases h with
    | stop ht => cases ht
    | @go _ p bs N' tr ht hN h =>
      simp only [globalOf, tailOf, Mesh.Tail.choice.injEq] at ht
      obtain ⟨rfl, rfl⟩ := ht
      obtain ⟨j, rfl⟩ : ∃ j, N' = j + 1 := ⟨N' - 1, (Nat.sub_add_cancel (List.mem_range'_1.mp hN).1).symm⟩
      obtain ⟨b', hb'⟩ := branch_of rfl hN
      obtain ⟨tr', h1, rfl⟩ := completes_after (hl P rfl) h j b' rfl hb'
      exact ⟨_, .choice h1, by simp [Function.comp_def, globalOf, ev]⟩

/-- From the choice on, in numbers: `pre` is what was exchanged before in the block. -/
theorem after_follows {P : Proto} {c : Bool} {tr : List Happening} (h : After P c tr) : ∀ N,
    (globalOf prog code title (.choice P) N).tail = tailOf prog P.branches.length (some P.chooser) →
    Mesh.Follows (globalOf prog code title (.choice P)) N
      ((globalOf prog code title (.choice P) N).comms.map .comm ++ tr.map (ev prog code title)) := by
  induction h with
  | wait => intro N _; simpa using Mesh.Follows.stop N
  | @ends i b hb hk =>
    intro N ht
    have h0 := Mesh.Follows.stop (D := globalOf prog code title (.choice P)) (i + 1)
    have := Mesh.Follows.go (D := globalOf prog code title (.choice P)) ht (branch_mem hb) h0
    simpa [Function.comp_def, globalOf, hb, Proto.exchanges, hk, ev] using this
  | @again i b l body c tr hb hk hbody _ ih =>
    intro N ht
    have := Mesh.Follows.go (D := globalOf prog code title (.choice P)) ht (branch_mem hb)
      (ih (i + 1) (by simp [globalOf, hb, hk]))
    simpa [Function.comp_def, globalOf, hb, Proto.exchanges, hk, hbody, ev] using this

theorem after_completes {P : Proto} {c : Bool} {tr : List Happening} (h : After P c tr) : c = true → ∀ N,
    (globalOf prog code title (.choice P) N).tail = tailOf prog P.branches.length (some P.chooser) →
    Mesh.Completes (globalOf prog code title (.choice P)) N
      ((globalOf prog code title (.choice P) N).comms.map .comm ++ tr.map (ev prog code title)) := by
  induction h with
  | wait => intro h; cases h
  | @ends i b hb hk =>
    intro _ N ht
    have h0 := Mesh.Completes.stop (D := globalOf prog code title (.choice P)) (N := i + 1) (by simp [globalOf, hb, hk, tailOf])
    have := Mesh.Completes.go (D := globalOf prog code title (.choice P)) ht (branch_mem hb) h0
    simpa [Function.comp_def, globalOf, hb, Proto.exchanges, hk, ev] using this
  | @again i b l body c tr hb hk hbody _ ih =>
    intro hc N ht
    have := Mesh.Completes.go (D := globalOf prog code title (.choice P)) ht (branch_mem hb)
      (ih hc (i + 1) (by simp [globalOf, hb, hk]))
    simpa [Function.comp_def, globalOf, hb, Proto.exchanges, hk, hbody, ev] using this

theorem execution_follows {s : Plan} {c : Bool} {tr : List Happening} (h : Execution s c tr) :
    Mesh.Follows (globalOf prog code title s) 0 (tr.map (ev prog code title)) := by
  cases h with
  | straight => simpa [Function.comp_def, globalOf, ev] using Mesh.Follows.stop (D := globalOf prog code title (.straight _ _ _)) 0
  | choice h => simpa [Function.comp_def, globalOf, ev] using after_follows h 0 rfl

theorem execution_completes {s : Plan} {tr : List Happening} (h : Execution s true tr) :
    Mesh.Completes (globalOf prog code title s) 0 (tr.map (ev prog code title)) := by
  cases h with
  | straight => simpa [Function.comp_def, globalOf, ev] using Mesh.Completes.stop (D := globalOf prog code title (.straight _ _ _)) (N := 0) rfl
  | choice h => simpa [Function.comp_def, globalOf, ev] using after_completes h rfl 0 rfl

/-! ## Uniqueness -/

theorem def_unique {α : Type} : ∀ {l : List (Text × α)} {a : Text} {x y : α}, (l.map (·.1)).Nodup → (a, x) ∈ l → (a, y) ∈ l → x = y
  | [], _, _, _, _, h, _ => by cases h
  | c :: l, a, x, y, hn, h1, h2 => by
    rw [List.map_cons, List.nodup_cons] at hn
    rcases List.mem_cons.mp h1 with e1 | e1 <;> rcases List.mem_cons.mp h2 with e2 | e2
    · rw [← e1] at e2; exact (Prod.mk.inj e2).2.symm
    · exact absurd (List.mem_map.mpr ⟨_, e2, by rw [← e1]⟩) hn.1
    · exact absurd (List.mem_map.mpr ⟨_, e1, by rw [← e2]⟩) hn.1
    · exact def_unique hn.2 e1 e2

theorem session_unique (hs : (prog.sessions.map (·.1)).Nodup) (he : (prog.enums.map (·.1)).Nodup)
    {branch branch' : Nat → Text → Text} {k k' : Nat} {p q a : Text} {T T' : Mesh.Sess}
    (h : SessionIs prog code branch k p q a T) (h' : SessionIs prog code branch' k' p q a T') : T = T' := by
  have hk : ∀ e r, Carries prog branch k e r → Carries prog branch' k' e r → k = k' := by
    rintro e r ⟨v, h1, h2⟩ ⟨v', h3, h4⟩
    have := def_unique he h1 h3
    subst this
    have := congrArg List.length h2
    rw [h4] at this
    simpa using this.symm
  induction h generalizing T' with
  | fin a h =>
    cases h' with
    | fin _ h' => rfl
    | send _ x' b' T' h' hT => have := def_unique hs h h'; cases this
    | recv _ x' b' T' h' hT => have := def_unique hs h h'; cases this
    | sendChoice _ e' h' hc' => have := def_unique hs h h'; cases this
    | recvChoice _ e' h' hc' => have := def_unique hs h h'; cases this
  | send a x b T h _ ih =>
    cases h' with
    | fin _ h' => have := def_unique hs h h'; cases this
    | send _ x' b' T' h' hT => have := def_unique hs h h'; cases this; rw [ih hT]
    | recv _ x' b' T' h' hT => have := def_unique hs h h'; cases this
    | sendChoice _ e' h' hc' => have := def_unique hs h h'; cases this
    | recvChoice _ e' h' hc' => have := def_unique hs h h'; cases this
  | recv a x b T h _ ih =>
    cases h' with
    | fin _ h' => have := def_unique hs h h'; cases this
    | send _ x' b' T' h' hT => have := def_unique hs h h'; cases this
    | recv _ x' b' T' h' hT => have := def_unique hs h h'; cases this; rw [ih hT]
    | sendChoice _ e' h' hc' => have := def_unique hs h h'; cases this
    | recvChoice _ e' h' hc' => have := def_unique hs h h'; cases this
  | sendChoice a e h hc =>
    cases h' with
    | fin _ h' => have := def_unique hs h h'; cases this
    | send _ x' b' T' h' hT => have := def_unique hs h h'; cases this
    | recv _ x' b' T' h' hT => have := def_unique hs h h'; cases this
    | sendChoice _ e' h' hc' => have := def_unique hs h h'; cases this; rw [hk _ _ hc hc']
    | recvChoice _ e' h' hc' => have := def_unique hs h h'; cases this
  | recvChoice a e h hc =>
    cases h' with
    | fin _ h' => have := def_unique hs h h'; cases this
    | send _ x' b' T' h' hT => have := def_unique hs h h'; cases this
    | recv _ x' b' T' h' hT => have := def_unique hs h h'; cases this
    | sendChoice _ e' h' hc' => have := def_unique hs h h'; cases this
    | recvChoice _ e' h' hc' => have := def_unique hs h h'; cases this; rw [hk _ _ hc hc']

theorem stack_unique (hs : (prog.stacks.map (·.1)).Nodup) {a : Text} {T T' : Mesh.Stack}
    (h : StackIs prog a T) (h' : StackIs prog a T') : T = T' := by
  induction h generalizing T' with
  | fin a h =>
    cases h' with
    | fin _ h' => rfl
    | broadcast _ h' => have := def_unique hs h h'; cases this
    | last _ r h' => have := def_unique hs h h'; cases this
    | role _ r b T h' _ => have := def_unique hs h h'; cases this
  | broadcast a h =>
    cases h' with
    | fin _ h' => have := def_unique hs h h'; cases this
    | broadcast _ h' => rfl
    | last _ r h' => have := def_unique hs h h'; cases this
    | role _ r b T h' _ => have := def_unique hs h h'; cases this
  | last a r h =>
    cases h' with
    | fin _ h' => have := def_unique hs h h'; cases this
    | broadcast _ h' => have := def_unique hs h h'; cases this
    | last _ r' h' => have := def_unique hs h h'; cases this; rfl
    | role _ r b T h' _ => have := def_unique hs h h'; cases this
  | role a r b T h _ ih =>
    cases h' with
    | fin _ h' => have := def_unique hs h h'; cases this
    | broadcast _ h' => have := def_unique hs h h'; cases this
    | last _ r' h' => have := def_unique hs h h'; cases this
    | role _ r b T h' hT => have := def_unique hs h h'; cases this; rw [ih hT]

theorem endpoint_unique (hs : (prog.sessions.map (·.1)).Nodup) (hk : (prog.stacks.map (·.1)).Nodup)
    (he : (prog.enums.map (·.1)).Nodup) (hp : (prog.endpoints.map (·.1)).Nodup)
    {branch branch' : Nat → Text → Text} {k k' : Nat} {e p : Text} {M M' : Mesh.Mesh}
    (h : EndpointIs prog code branch k e p M) (h' : EndpointIs prog code branch' k' e p M') :
    (∀ q ∈ prog.roles, q ≠ p → M.sess (number prog q) = M'.sess (number prog q)) ∧ M.stack = M'.stack := by
  obtain ⟨ss, st, h1, h2, h3⟩ := h
  obtain ⟨ss', st', h1', h2', h3'⟩ := h'
  have := def_unique hp h1 h1'
  simp only [Prod.mk.injEq, and_true] at this
  obtain ⟨rfl, rfl⟩ := this
  refine ⟨fun q hq hqp => ?_, stack_unique hk h3 h3'⟩
  have hmem : q ∈ prog.roles.filter (· ≠ p) := List.mem_filter.mpr ⟨hq, by simpa using hqp⟩
  clear h1 h1'
  revert hmem h2 h2'
  generalize prog.roles.filter (· ≠ p) = qs
  intro h2 h2' hmem
  induction h2 with
  | nil => cases hmem
  | @cons x s xs ss hx _ ih =>
    cases h2' with
    | cons hx' ht =>
      rcases List.mem_cons.mp hmem with rfl | hmem
      · exact session_unique hs he hx hx'
      · exact ih ht hmem

end Verif.EndToEnd
