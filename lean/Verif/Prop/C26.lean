import Verif.Proof.CheckGraph

/-!
# C26, C42: the graph and the machine the checker builds from an endpoint
-/
namespace Verif.Prop
open Verif.Check Verif.Spec

/-- A communication of a role: does it send, with whom, which payload type. -/
structure Step where
  out : Bool
  partner : Nat
  payload : Ty

/-- The session with `x` in a choice-free protocol: the communications with `x`, in order. -/
def sessionWith (x : Nat) : List Step → Sess
  | [] => .fin
  | s :: t =>
    if s.partner = x then
      if s.out then .send s.payload (sessionWith x t) else .recv s.payload (sessionWith x t)
    else sessionWith x t

/-- The ordering stack: `RoleX<RoleY<...RoleEnd>>`. -/
def stackOf (roles : List Str) : List Step → Ty
  | [] => .mk ['R', 'o', 'l', 'e', 'E', 'n', 'd'] []
  | s :: t => .mk (roles.getD s.partner []) [stackOf roles t]

/-- The sessions of role `me`, one for each other role, in order. -/
def sessionsOf (roles : List Str) (me : Nat) (steps : List Step) : List Ty :=
  (List.range (roles.length - 1)).map fun i => (sessionWith (partner me i) steps).ty

/-- The state of the machine file between its fixed first and last lines. -/
def machineFile (me : Str) (ts : List Trans) : List Str :=
  [".outputs".toList, ".state graph".toList] ++ ts.map (Trans.line me) ++
    [".marking ".toList ++ me ++ ['0'], ".end".toList]

/-- The number of a communication in the sequence is its source state; the target state is the next number. -/
def consecutive : List Step → Nat → List Trans
  | [], _ => []
  | s :: t, n => ⟨n, s.out, s.partner, s.payload.print, n + 1⟩ :: consecutive t (n + 1)

def behOf : List Step → Beh
  | [] => .fin
  | s :: t => .comm s.out s.partner s.payload.print (behOf t)

theorem partner_slot {me x : Nat} (h : x ≠ me) : partner me (slotOf me x) = x := by
  unfold partner slotOf
  repeat' split
  all_goals omega

theorem slot_lt {me x n : Nat} (h : x ≠ me) (hx : x < n) (hm : me < n) : slotOf me x < n - 1 := by
  unfold slotOf
  split <;> omega

theorem partner_inj {me i j : Nat} (h : partner me i = partner me j) : i = j := by
  unfold partner at h
  split at h <;> split at h <;> omega

theorem describes_steps {roles : List Str} {me : Nat} (hme : me < roles.length) : ∀ (steps : List Step),
    (∀ s ∈ steps, s.partner < roles.length ∧ s.partner ≠ me) →
    Describes roles me (sessionsOf roles me steps) (stackOf roles steps) (behOf steps)
  | [], _ => by
    have : sessionsOf roles me [] = List.replicate (roles.length - 1) endTy := by
      rw [List.eq_replicate_iff]
      simp only [sessionsOf, sessionWith, List.length_map, List.length_range, true_and, List.mem_map]
      rintro b ⟨_, _, rfl⟩
      rfl
    rw [this]
    exact .fin
  | s :: t, h => by
    obtain ⟨hx, hne⟩ := h s List.mem_cons_self
    have ih := describes_steps hme t fun s hs => h s (List.mem_cons_of_mem _ hs)
    have hset : sessionsOf roles me t =
        (sessionsOf roles me (s :: t)).set (slotOf me s.partner) (sessionWith s.partner t).ty := by
      refine List.ext_getElem (by simp [sessionsOf]) fun i h1 h2 => ?_
      rw [List.getElem_set]
      simp only [sessionsOf, List.getElem_map, List.getElem_range]
      split
      · rename_i he
        rw [← he, partner_slot hne]
      · rename_i he
        rw [sessionWith, if_neg]
        intro hp
        refine he (partner_inj (me := me) ?_)
        rw [partner_slot hne, hp]
    have hget : (sessionsOf roles me (s :: t))[slotOf me s.partner]? = some
        (if s.out then sendTy s.payload (sessionWith s.partner t).ty else recvTy s.payload (sessionWith s.partner t).ty) := by
      have := slot_lt hne hx hme
      simp only [sessionsOf, List.getElem?_map, List.getElem?_range this, Option.map_some, partner_slot hne, sessionWith,
        if_true]
      split <;> rfl
    rw [hset] at ih
    have hro : roles.getD s.partner [] = roles[s.partner] := by simp [hx]
    simp only [stackOf, behOf, hro]
    cases ho : s.out with
    | true =>
      rw [ho, if_pos rfl] at hget
      exact .send hx hne hget ih
    | false =>
      rw [ho, if_neg (by simp)] at hget
      exact .recv hx hne hget ih

theorem stack_ok {roles : List Str} (hp : ∀ r ∈ roles, ∀ c ∈ r, Plain c) : ∀ (steps : List Step),
    (∀ s ∈ steps, s.partner < roles.length) → (stackOf roles steps).Ok
  | [], _ => by simp [stackOf, Ty.Ok, AllOk, Plain]; decide
  | s :: t, h => by
    have hx := h s List.mem_cons_self
    simp only [stackOf, Ty.Ok, AllOk]
    refine ⟨?_, stack_ok hp t fun s hs => h s (List.mem_cons_of_mem _ hs), trivial⟩
    have hro : roles.getD s.partner [] = roles[s.partner] := by simp [hx]
    rw [hro]
    exact hp _ (List.getElem_mem hx)

theorem session_ok (x : Nat) : ∀ (steps : List Step), (∀ s ∈ steps, s.payload.Ok) → (sessionWith x steps).Ok
  | [], _ => trivial
  | s :: t, h => by
    have ih := session_ok x t fun s hs => h s (List.mem_cons_of_mem _ hs)
    have := h s List.mem_cons_self
    unfold sessionWith
    split
    · split
      · exact ⟨this, ih⟩
      · exact ⟨this, ih⟩
    · exact ih

theorem trans_steps : ∀ (steps : List Step) (n : Nat), transOf (behOf steps) n (n + 1) = consecutive steps n
  | [], _ => rfl
  | s :: t, n => by simp only [behOf, transOf, consecutive, trans_steps t (n + 1)]

theorem edges_steps (roles : List Str) (me : Str) : ∀ (steps : List Step) (n : Nat),
    edgesOf roles me (behOf steps) n (n + 1) =
      (consecutive steps n).map (Trans.edge roles me) ++ [(n + steps.length, n + steps.length + 1, ['0'])]
  | [], _ => rfl
  | s :: t, n => by
    simp only [behOf, edgesOf, consecutive, edges_steps roles me t (n + 1), List.map_cons, List.cons_append,
      List.length_cons]
    rw [show n + 1 + t.length = n + (t.length + 1) by omega]

theorem names_steps : ∀ (steps : List Step) (n : Nat),
    (behOf steps).stateNames [] n = (List.range' (n + 1) (steps.length + 1)).map (Nat.toDigits 10)
  | [], n => by simp [behOf, Beh.stateNames, dotted]
  | s :: t, n => by
    rw [behOf, Beh.stateNames, names_steps t (n + 1), List.length_cons, List.range'_succ (n := t.length + 1)]
    simp [dotted]

theorem received_steps : ∀ (steps : List Step), ∀ p ∈ (behOf steps).received, ∃ s ∈ steps, s.out = false ∧ p = s.payload.print
  | [], p, hp => by simp [behOf, Beh.received] at hp
  | s :: t, p, hp => by
    simp only [behOf, Beh.received] at hp
    cases ho : s.out with
    | true =>
      rw [ho, if_pos rfl] at hp
      obtain ⟨s', h1, h2⟩ := received_steps t p hp
      exact ⟨s', List.mem_cons_of_mem _ h1, h2⟩
    | false =>
      rw [ho, if_neg (by simp), List.mem_cons] at hp
      rcases hp with rfl | hp
      · exact ⟨s, List.mem_cons_self, ho, rfl⟩
      · obtain ⟨s', h1, h2⟩ := received_steps t p hp
        exact ⟨s', List.mem_cons_of_mem _ h1, h2⟩

/-- C26.  For every choice-free sequence of communications of a role, over any number of roles: from the printed
endpoint type the checker builds the path `0 → 1 → ... → n → n+1`, whose nodes carry their numbers and whose edges are labelled in order with the
communications (the last, `0`, marks the end), and a machine whose transitions are the same, with consecutive
states.  (No received payload may be the name of an enum of branches.) -/
theorem C26_graph (roles : List Str) (me : Nat) (hn : roles.Nodup) (hplain : ∀ r ∈ roles, ∀ c ∈ r, Plain c)
    (hme : me < roles.length) (steps : List Step) (hs : ∀ s ∈ steps, s.partner < roles.length ∧ s.partner ≠ me)
    (hp : ∀ s ∈ steps, s.payload.Ok) (receivers : Str → Option (List (Str × List Str)))
    (branching : Str → Option (List Str)) (group : Str → Option Int) (keys : List Str)
    (hr : ∀ s ∈ steps, s.out = false → receivers s.payload.print = none) :
    ∃ f, ∀ fuel, f ≤ fuel → ∃ g,
      getGraphSession fuel roles[me] ((sessionsOf roles me steps).map Ty.print ++ [(stackOf roles steps).print]) roles
        receivers branching group keys = some (g, machineFile roles[me] (consecutive steps 0)) ∧
      g.nodes = (List.range (steps.length + 2)).map (Nat.toDigits 10) ∧
      g.edges = (consecutive steps 0).map (Trans.edge roles roles[me]) ++ [(steps.length, steps.length + 1, ['0'])] := by
  refine ⟨size (behOf steps) + 1, fun fuel hf => ?_⟩
  obtain ⟨g, h1, h2, h3, h4⟩ := session_describes fuel (receivers := receivers) (branching := branching) (group := group)
    (keys := keys) hn hplain hme (by simp [sessionsOf]) (by
      intro t ht
      obtain ⟨i, -, rfl⟩ := List.mem_map.1 ht
      exact sess_ok _ (session_ok _ _ hp)) (stack_ok hplain steps fun s h => (hs s h).1) (by
      intro p hp'
      obtain ⟨s, a, b, rfl⟩ := received_steps steps p hp'
      exact hr s a b) (describes_steps hme steps hs) hf
  refine ⟨g, ?_, ?_, ?_⟩
  · rw [h1]; simp only [trans_steps steps 0, machineFile]
  · rw [h4, names_steps, List.range_eq_range', List.range'_succ (n := steps.length + 1)]
    rfl
  · rw [h3, edges_steps]; simp

/-- Three roles, two communications of the middle one with generic payload: the hypotheses hold. -/
example : let roles : List Str := [['A'], ['B'], ['C']]
    let steps : List Step := [⟨true, 0, .mk ['V'] [.mk ['i'] []]⟩, ⟨false, 2, .mk ['u'] []⟩]
    roles.Nodup ∧ (∀ r ∈ roles, ∀ c ∈ r, Plain c) ∧ (∀ s ∈ steps, s.partner < roles.length ∧ s.partner ≠ 1) ∧
    (∀ s ∈ steps, s.payload.Ok) ∧
    (sessionsOf roles 1 steps).map Ty.print ++ [(stackOf roles steps).print] =
      ["Send<V<i>,End>".toList, "Recv<u,End>".toList, "A<C<RoleEnd>>".toList] := by
  refine ⟨by decide, ?_, ?_, ?_, ?_⟩
  · simp only [Plain]; decide
  · simp
  · simp [Ty.Ok, AllOk, Plain]; decide
  · simp only [sessionsOf, stackOf, sessionWith, List.map, List.range, List.range.loop, List.length_cons, List.length_nil,
      partner, Sess.ty, Ty.print, printMore]
    decide

/-- C42.  For every endpoint with messages and binary choices, nested in any way (described by `Describes`), the
checker builds a tree: its nodes are numbered as `Beh.stateNames` says, every node but the root has exactly one incoming edge, from a smaller node; the label
sequences of the complete paths from the root are exactly the sequences of communications the role can perform;
and the machine has exactly the transitions of the graph. -/
theorem C42_tree (roles : List Str) (me : Nat) (hn : roles.Nodup) (hplain : ∀ r ∈ roles, ∀ c ∈ r, Plain c)
    (hme : me < roles.length) (ss : List Ty) (stack : Ty) (b : Beh) (hlen : ss.length = roles.length - 1)
    (hok : ∀ t ∈ ss, t.Ok) (hst : stack.Ok) (receivers : Str → Option (List (Str × List Str)))
    (branching : Str → Option (List Str)) (group : Str → Option Int) (keys : List Str)
    (hrec : ∀ p ∈ b.received, receivers p = none) (hd : Describes roles me ss stack b) :
    ∃ f, ∀ fuel, f ≤ fuel → ∃ g ts,
      getGraphSession fuel roles[me] (ss.map Ty.print ++ [stack.print]) roles receivers branching group keys =
        some (g, machineFile roles[me] ts) ∧
      g.edges.filter (fun e => e.2.2 ≠ ['0']) = ts.map (Trans.edge roles roles[me]) ∧
      g.nodes = ['0'] :: b.stateNames [] 0 ∧
      g.edges.map (fun e => e.2.1) = List.range' 1 (g.nodes.length - 1) ∧ (∀ e ∈ g.edges, e.1 < e.2.1) ∧
      ∀ w, w ∈ b.traces roles roles[me] ↔ ∃ c, Path g 0 w c ∧ Sink g c := by
  refine ⟨size b + 1, fun fuel hf => ?_⟩
  obtain ⟨g, h1, h2, h3, h4⟩ := session_describes fuel (receivers := receivers) (branching := branching) (group := group)
    (keys := keys) hn hplain hme hlen hok hst hrec hd hf
  refine ⟨g, transOf b 0 1, ?_, ?_, h4, ?_, ?_, ?_⟩
  · rw [h1]; rfl
  · rw [h3, edges_trans]
  · rw [h3, edges_targets, h2, Nat.add_sub_cancel_left]
  · rw [h3]; exact edges_up b 0 1 (by omega)
  · intro w
    rw [words (g := g) b 0 1 (by omega) (fun e he => by rw [h3]; exact he) (fun e he _ _ => by rw [← h3]; exact he)]
    constructor
    · rintro ⟨m, lab, w', c, rfl, hm, hpath, hsink⟩
      exact ⟨c, .cons (by rw [h3]; exact hm) hpath, hsink⟩
    · rintro ⟨c, hpath, hsink⟩
      cases hpath with
      | nil =>
        obtain ⟨m, lab, h⟩ := edges_root (roles := roles) (me := roles[me]) b 0 1
        exact absurd rfl (hsink _ (by rw [h3]; exact h))
      | cons h t => exact ⟨_, _, _, _, rfl, by rw [← h3]; exact h, t, hsink⟩

/-- A role that chooses between sending on and stopping, and the role it offers that choice to, are described. -/
example : let roles : List Str := [['A'], ['B']]
    let stop (n : Str) : Ty := .mk ['M'] [endTy, .mk ['R', 'o', 'l', 'e', 'E', 'n', 'd'] [], .mk n []]
    let more (n : Str) : Ty := .mk ['M'] [recvTy (.mk ['i'] []) endTy, .mk ['A'] [.mk ['R', 'o', 'l', 'e', 'E', 'n', 'd'] []],
      .mk n []]
    (∃ s, Describes roles 0 [sendTy (.mk ['E'] [more ['B'], stop ['B']]) endTy] s
      (.branch (.comm true 1 ['i'] .fin) .fin)) ∧
    ∃ s, Describes roles 1 [recvTy (.mk ['E'] [more ['B'], stop ['B']]) endTy] s
      (.branch (.comm false 0 ['i'] .fin) .fin) := by
  refine ⟨⟨.mk ['X'] [.mk ['B'] [.mk ['R', 'o', 'l', 'e', 'E', 'n', 'd'] []], .mk ['R', 'o', 'l', 'e', 'E', 'n', 'd'] []], ?_⟩,
    ⟨.mk ['X'] [.mk ['i'] [], .mk ['i'] []], ?_⟩⟩
  · refine Describes.choose (ds := [.recv (.mk ['i'] []) .fin]) (es := [.fin]) (by simp) rfl rfl ?_ ?_ .fin
    · intro i hi
      have : i = 0 := by simp only [List.length_cons, List.length_nil] at hi; omega
      subst this
      exact ⟨['B'], _, _, _, _, _, _, _, rfl, rfl, rfl, rfl, rfl⟩
    · have := Describes.send (roles := [['A'], ['B']]) (me := 0) (x := 1) (ss := [sendTy (.mk ['i'] []) endTy])
        (p := .mk ['i'] []) (s := endTy) (k := .mk ['R', 'o', 'l', 'e', 'E', 'n', 'd'] []) (by decide) (by decide) rfl .fin
      rw [Ty.print] at this
      exact this
  · refine Describes.offer (i := 0) (ls := [recvTy (.mk ['i'] []) endTy]) (rs := [endTy]) rfl ?_ (by simp) (by simp) ?_ .fin
    · intro j hj hne
      simp only [List.length_cons, List.length_nil] at hj
      omega
    · have := Describes.recv (roles := [['A'], ['B']]) (me := 1) (x := 0) (ss := [recvTy (.mk ['i'] []) endTy])
        (p := .mk ['i'] []) (s := endTy) (k := .mk ['R', 'o', 'l', 'e', 'E', 'n', 'd'] []) (by decide) (by decide) rfl .fin
      simpa [Ty.print] using this

/-- There is a choice somewhere. -/
def HasChoice : Beh → Prop
  | .fin => False
  | .comm _ _ _ k => HasChoice k
  | .branch _ _ => True

theorem names_head {b : Beh} (h : ∀ l r, b ≠ .branch l r) (path : List Nat) (n : Nat) :
    dotted (path ++ [n + 1]) ∈ b.stateNames path n := by
  cases b with
  | fin => simp [Beh.stateNames]
  | comm _ _ _ k => simp [Beh.stateNames]
  | branch l r => exact absurd rfl (h l r)

/-- What the picture does not tell: as soon as a role has a choice, two different states carry the same text, since the
states of both branches are numbered in the same way. -/
theorem C42_names_repeat : ∀ (b : Beh) (path : List Nat) (n : Nat), HasChoice b → ¬ (b.stateNames path n).Nodup
  | .fin, _, _, h => h.elim
  | .comm _ _ _ k, path, n, h => fun hn => C42_names_repeat k path (n + 1) h (List.nodup_cons.1 hn).2
  | .branch l r, path, n, _ => by
    intro hn
    simp only [Beh.stateNames, List.nodup_append] at hn
    obtain ⟨h1, h2, h3⟩ := hn
    by_cases hl : HasChoice l
    · exact C42_names_repeat l _ _ hl h1
    by_cases hr : HasChoice r
    · exact C42_names_repeat r _ _ hr h2
    refine h3 _ (names_head (b := l) ?_ _ _) _ (names_head (b := r) ?_ _ _) rfl
    · intro a b e; subst e; exact hl trivial
    · intro a b e; subst e; exact hr trivial

example : (Beh.branch (.comm true 1 ['i'] .fin) .fin).stateNames [] 0 = ["0.1".toList, "0.2".toList, "0.1".toList] := by
  decide +kernel

end Verif.Prop
