import Verif.Spec.LocalTree
import Verif.Prop.C24_C25

/-! # The graph of an endpoint -/
namespace Verif.Check
open Verif.Spec Verif.Prop

def size : Beh → Nat
  | .fin => 1
  | .comm _ _ _ k => 1 + size k
  | .branch l r => size l + size r

theorem size_pos : ∀ b : Beh, 1 ≤ size b
  | .fin => by simp [size]
  | .comm _ _ _ _ => by simp only [size]; omega
  | .branch l r => by have := size_pos l; simp only [size]; omega

/-- The transitions added below node `prev` when the next free node is `n`. -/
def transOf : Beh → Nat → Nat → List Trans
  | .fin, _, _ => []
  | .comm out x p k, prev, n => ⟨prev, out, x, p, n⟩ :: transOf k n (n + 1)
  | .branch l r, prev, n => transOf l prev n ++ transOf r prev (n + size l)

/-- The edges added below node `prev` when the next free node is `n`. -/
def edgesOf (roles : List Str) (me : Str) : Beh → Nat → Nat → List (Nat × Nat × Str)
  | .fin, prev, n => [(prev, n, ['0'])]
  | .comm out x p k, prev, n => (Trans.edge roles me ⟨prev, out, x, p, n⟩) :: edgesOf roles me k n (n + 1)
  | .branch l r, prev, n => edgesOf roles me l prev n ++ edgesOf roles me r prev (n + size l)

theorem bump_some {idx : List Nat} {d : Nat} (h : d < idx.length) :
    ∃ idx', bump idx d = some idx' ∧ idx'.length = idx.length := by
  unfold bump
  rw [List.getElem?_eq_getElem h]
  exact ⟨_, rfl, by simp⟩

theorem extract_some {idx : List Nat} {d : Nat} (h : idx.length = d + 1) : ∃ l, extractIndex idx d = some l := by
  unfold extractIndex
  rw [if_neg (by omega)]
  match idx, h with
  | [a], _ => exact ⟨_, rfl⟩
  | a :: b :: rest, h =>
    simp only [List.length_cons] at h
    simp only
    rw [if_pos (by simp only [List.length_cons]; omega)]
    exact ⟨_, rfl⟩

theorem position_get {roles : List Str} (hn : roles.Nodup) {x : Nat} (hx : x < roles.length) :
    position roles[x] roles = some x := by
  unfold position
  rw [List.findIdx?_eq_some_iff_getElem]
  refine ⟨hx, by simp, ?_⟩
  intro j hj
  simp only [beq_iff_eq]
  intro he
  have := (List.nodup_iff_pairwise_ne.1 hn)
  have := (List.pairwise_iff_getElem.1 this) j x (by omega) hx hj
  exact this he

theorem allOk_iff {ss : List Ty} : AllOk ss ↔ ∀ t ∈ ss, t.Ok := by
  induction ss with
  | nil => simp [AllOk]
  | cons a as ih => simp [AllOk, ih]

theorem lt_mem_print {h : Str} {a : Ty} {as : List Ty} : '<' ∈ (Ty.mk h (a :: as)).print := by
  rw [Ty.print]; simp

/-- A mesh whose stack has an argument is not finished. -/
theorem not_end {n : Nat} {full : List Str} {h : Str} {a : Ty} {as : List Ty} {ss : List Str}
    (hf : full = ss ++ [(Ty.mk h (a :: as)).print]) :
    ¬ (List.replicate n ['E', 'n', 'd'] ++ [['R', 'o', 'l', 'e', 'E', 'n', 'd']] = full) := by
  intro he
  have h1 := congrArg List.getLast? he
  rw [hf, List.getLast?_concat, List.getLast?_concat] at h1
  have h2 := @lt_mem_print h a as
  rw [← Option.some.inj h1] at h2
  simp at h2

theorem getHead_ty (h : Str) (as : List Ty) (hok : (Ty.mk h as).Ok) : getHead (Ty.mk h as).print = h :: as.map Ty.print :=
  getHead_print h as hok

theorem ok_sess : ∀ (s : Sess), s.ty.Ok → s.Ok
  | .fin, _ => trivial
  | .send p k, h => by
    simp only [Sess.ty, Ty.Ok, AllOk] at h
    exact ⟨h.2.1, ok_sess k h.2.2.1⟩
  | .recv p k, h => by
    simp only [Sess.ty, Ty.Ok, AllOk] at h
    exact ⟨h.2.1, ok_sess k h.2.2.1⟩

structure WfCtx (C : Ctx) : Prop where
  nodup : C.roles.Nodup
  me : C.me < C.roles.length
  plain : ∀ r ∈ C.roles, ∀ c ∈ r, Plain c
  cend : C.compareEnd = List.replicate (C.roles.length - 1) ['E', 'n', 'd'] ++ [['R', 'o', 'l', 'e', 'E', 'n', 'd']]

theorem slot_offset {me x : Nat} (h : x ≠ me) : x - (if me < x then 1 else 0) = slotOf me x := by
  unfold slotOf
  split <;> split <;> omega

theorem set_stack {α : Type} (ss : List α) (st k y : α) (i : Nat) (hi : i < ss.length) :
    ((ss ++ [st]).set i y).set ((ss ++ [st]).length - 1) k = ss.set i y ++ [k] := by
  rw [List.set_append_left i y hi]
  have : (ss ++ [st]).length - 1 = (ss.set i y).length := by simp
  rw [this, List.set_append_right _ _ (Nat.le_refl _)]
  simp

theorem choiceScan_offer {C : Ctx} : ∀ (ss : List Ty) (pos i : Nat) (s : ChoiceScan), s.nSend = 0 →
    (∀ t ∈ ss, t.Ok) →
    (∃ p tl, ss[i]? = some (recvTy p tl)) → (∀ j, j < ss.length → j ≠ i → ss[j]? = some endTy) → s.nRecv = 0 →
    choiceScan C (ss.map Ty.print) pos s = some { s with nRecv := 1, posRecv := pos + i } := by
  have hend : ∀ s pos, s.nSend = 0 → choiceStep C s pos endTy.print = some s := by
    intro s pos hs
    unfold choiceStep
    have : getHead endTy.print = [['E', 'n', 'd']] := rfl
    simp only [this, List.getElem?_cons_zero]
    rw [if_neg (by simp), if_neg (by simp), if_pos ⟨trivial, hs⟩]
  have ends : ∀ (ss : List Ty) (pos : Nat) (s : ChoiceScan), s.nSend = 0 →
      (∀ j, j < ss.length → ss[j]? = some endTy) → choiceScan C (ss.map Ty.print) pos s = some s := by
    intro ss
    induction ss with
    | nil => intro pos s _ _; rfl
    | cons a as ih =>
      intro pos s hs h
      have h0 := h 0 (by simp)
      simp only [List.getElem?_cons_zero, Option.some.injEq] at h0
      subst h0
      simp only [List.map_cons, choiceScan, hend s pos hs, Option.bind_some]
      refine ih _ _ hs fun j hj => ?_
      have := h (j + 1) (by simpa using hj)
      simpa using this
  intro ss
  induction ss with
  | nil => intro pos i s _ _ h; obtain ⟨p, tl, h⟩ := h; simp at h
  | cons a as ih =>
    intro pos i s hs hok hx hj hr
    cases i with
    | zero =>
      obtain ⟨p, tl, hx⟩ := hx
      simp only [List.getElem?_cons_zero, Option.some.injEq] at hx
      subst hx
      have hh : getHead (recvTy p tl).print = [['R', 'e', 'c', 'v'], p.print, tl.print] :=
        getHead_ty _ _ (hok _ List.mem_cons_self)
      have : choiceStep C s pos (recvTy p tl).print = some { s with nRecv := s.nRecv + 1, posRecv := pos } := by
        unfold choiceStep
        simp only [hh, List.getElem?_cons_zero]
        rw [if_neg (by simp), if_pos ⟨trivial, hs, hr⟩]
      simp only [List.map_cons, choiceScan, this, Option.bind_some]
      rw [ends as _ _ (by exact hs)]
      · simp [hr]
      · intro j hj'
        have := hj (j + 1) (by simpa using hj') (by omega)
        simpa using this
    | succ i =>
      have h0 := hj 0 (by simp) (by omega)
      simp only [List.getElem?_cons_zero, Option.some.injEq] at h0
      subst h0
      simp only [List.map_cons, choiceScan, hend s pos hs, Option.bind_some]
      rw [ih (pos + 1) i s hs (fun t ht => hok t (List.mem_cons_of_mem _ ht)) (by simpa using hx) ?_ hr]
      · simp only [Option.some.injEq, ChoiceScan.mk.injEq, true_and, and_true]; omega
      · intro j hj' hne
        have := hj (j + 1) (by simpa using hj') (by omega)
        simpa using this

theorem choiceScan_choose {C : Ctx} (wf : WfCtx C) : ∀ (ss : List Ty) (ds es : List Sess) (pos : Nat) (s : ChoiceScan),
    s.nRecv = 0 → s.nSend = pos → (∀ t ∈ ss, t.Ok) → ds.length = ss.length → es.length = ss.length →
    (∀ i (hi : i < ss.length) (hd : i < ds.length) (he : i < es.length),
      ∃ (x : Str) (either m1 m2 : Str) (bl br al : List Ty) (tl : Ty),
        C.roles[partner C.me (pos + i)]? = some x ∧ ss[i] = sendTy (.mk either [.mk m1 bl, .mk m2 br]) tl ∧
        bl.getLast? = some (.mk x al) ∧
        bl[slotOf (partner C.me (pos + i)) C.me]? = some (ds[i]).ty ∧
        br[slotOf (partner C.me (pos + i)) C.me]? = some (es[i]).ty) →
    (∀ d ∈ ds, d.Ok) → (∀ d ∈ es, d.Ok) →
    choiceScan C (ss.map Ty.print) pos s =
      some { s with nSend := pos + ss.length, left := s.left ++ ds.map (fun d => d.dual.ty.print),
                    right := s.right ++ es.map (fun d => d.dual.ty.print) } := by
  intro ss
  induction ss with
  | nil =>
    intro ds es pos s h1 h2 _ hd he _ _ _
    have hd : ds = [] := List.length_eq_zero_iff.1 hd
    have he : es = [] := List.length_eq_zero_iff.1 he
    subst hd he
    simp [choiceScan, ← h2]
  | cons a as ih =>
    intro ds es pos s h1 h2 hok hd he h hds hes
    match ds, es, hd, he with
    | d :: ds, e :: es, hd, he =>
      obtain ⟨x, either, m1, m2, bl, br, al, tl, k1, k2, k3, k4, k5⟩ := h 0 (by simp) (by simp) (by simp)
      simp only [Nat.add_zero, List.getElem_cons_zero] at k1 k2 k3 k4 k5
      have hoka := hok a List.mem_cons_self
      rw [k2] at hoka
      have hh : getHead a.print = [['S', 'e', 'n', 'd'], (Ty.mk either [.mk m1 bl, .mk m2 br]).print, tl.print] := by
        rw [k2]; exact getHead_ty _ _ hoka
      simp only [sendTy, Ty.Ok, AllOk] at hoka
      obtain ⟨-, ⟨o1, ⟨⟨o2, o3⟩, ⟨o4, o5⟩, -⟩⟩, -⟩ := hoka
      have hh2 : getHead (Ty.mk either [.mk m1 bl, .mk m2 br]).print = [either, (Ty.mk m1 bl).print, (Ty.mk m2 br).print] :=
        getHead_ty _ _ (by simp only [Ty.Ok, AllOk]; exact ⟨o1, ⟨o2, o3⟩, ⟨o4, o5⟩, trivial⟩)
      have hbl : getBlocks (Ty.mk m1 bl).print = bl.map Ty.print :=
        getBlocks_print _ (by simp only [Ty.Ok]; exact ⟨o2, o3⟩)
      have hbr : getBlocks (Ty.mk m2 br).print = br.map Ty.print :=
        getBlocks_print _ (by simp only [Ty.Ok]; exact ⟨o4, o5⟩)
      have hlast : (Ty.mk x al).Ok := allOk_iff.1 o3 _ (List.mem_of_getLast? k3)
      have hh3 : getHead (Ty.mk x al).print = x :: al.map Ty.print := getHead_ty _ _ hlast
      obtain ⟨hpx, hpx'⟩ := List.getElem?_eq_some_iff.1 k1
      have hposn : position x C.roles = some (partner C.me pos) := by
        rw [← hpx']; exact position_get wf.nodup hpx
      have hslot : C.me - (if C.me > partner C.me pos then 1 else 0) = slotOf (partner C.me pos) C.me := by
        unfold slotOf partner
        have := wf.me
        by_cases hc : pos < C.me
        · simp only [hc, if_true]; repeat' split
          all_goals omega
        · simp only [hc, if_false]; repeat' split
          all_goals omega
      have hstep : choiceStep C s pos a.print = some { s with
          nSend := s.nSend + 1
          left := s.left ++ [d.dual.ty.print]
          right := s.right ++ [e.dual.ty.print] } := by
        unfold choiceStep
        simp only [hh, List.getElem?_cons_zero, List.getElem?_cons_succ]
        rw [if_pos ⟨trivial, h1, h2⟩]
        simp only [Option.bind_eq_bind, Option.bind_some, hh2, List.getElem?_cons_zero, List.getElem?_cons_succ, hbl, hbr,
          List.getLast?_map, k3, Option.map_some, hh3, hposn, hslot, List.getElem?_map, k4, k5,
          C25_dual d (hds d List.mem_cons_self), C25_dual e (hes e List.mem_cons_self)]
      simp only [List.map_cons, choiceScan, hstep, Option.bind_some]
      rw [ih ds es (pos + 1) _ (by exact h1) (by simp only; omega) (fun t ht => hok t (List.mem_cons_of_mem _ ht))
        (by simpa using hd) (by simpa using he) ?_ (fun d hd => hds d (List.mem_cons_of_mem _ hd))
        (fun d hd => hes d (List.mem_cons_of_mem _ hd))]
      · simp only [List.length_cons, List.append_assoc, List.cons_append, List.nil_append, List.map_cons]
        simp only [Option.some.injEq, ChoiceScan.mk.injEq, true_and, and_true]
        omega
      · intro i hi h2 h3
        have := h (i + 1) (by simpa using hi) (by simpa using h2) (by simpa using h3)
        simp only [List.getElem_cons_succ] at this
        rw [show pos + 1 + i = pos + (i + 1) by omega]
        exact this

theorem cleanBlocks_print {m : Str} {ls : List Ty} {st : Ty} {nm : Str} {as : List Ty}
    (hok : (Ty.mk m (ls ++ [st, .mk nm as])).Ok) (hn : nm ≠ []) :
    (cleanBlocks (Ty.mk m (ls ++ [st, .mk nm as])).print).bind (dropEnd 2) =
      some (ls.map Ty.print ++ [st.print]) := by
  have hb : getBlocks (Ty.mk m (ls ++ [st, .mk nm as])).print = (ls ++ [st, .mk nm as]).map Ty.print :=
    getBlocks_print _ hok
  simp only [Ty.Ok] at hok
  have hnm : (Ty.mk nm as).Ok := allOk_iff.1 hok.2 _ (by simp)
  simp only [Ty.Ok] at hnm
  obtain ⟨c, nm', rfl⟩ : ∃ c nm', nm = c :: nm' := by
    cases nm with
    | nil => exact absurd rfl hn
    | cons c nm' => exact ⟨c, nm', rfl⟩
  have hc := hnm.1 c List.mem_cons_self
  have hpr : ∃ rest, (Ty.mk (c :: nm') as).print = c :: rest := by
    cases as with
    | nil => exact ⟨_, by rw [Ty.print]⟩
    | cons a as => exact ⟨_, by rw [Ty.print]; simp only [List.cons_append]; rfl⟩
  obtain ⟨rest, hrest⟩ := hpr
  unfold cleanBlocks
  simp only [hb, List.map_append, List.map_cons, List.map_nil]
  rw [show ls.map Ty.print ++ [st.print, (Ty.mk (c :: nm') as).print] =
    (ls.map Ty.print ++ [st.print]) ++ [(Ty.mk (c :: nm') as).print] by simp]
  rw [List.getLast?_concat]
  simp only [hrest]
  rw [List.dropWhile_cons_of_neg (by simp [hc.1, hc.2.1]), List.takeWhile_cons_of_pos (by simp [hc.1, hc.2.1])]
  simp only [Option.bind_some, dropEnd]
  rw [if_pos (by simp)]
  congr 1
  rw [show (ls.map Ty.print ++ [st.print] ++ [c :: rest] ++
    [c :: rest.takeWhile fun c => c != '<' && c != '>']).length - 2 = (ls.map Ty.print ++ [st.print]).length by
      simp]
  rw [List.append_assoc, List.take_left']
  rfl

theorem bump_at (path : List Nat) (n : Nat) : bump (path ++ [n]) path.length = some (path ++ [n + 1]) := by
  simp [bump]

theorem foldl_dots : ∀ (l : List Nat) (s : Str),
    l.foldl (fun s n => s ++ '.' :: Nat.toDigits 10 n) s = s ++ l.flatMap fun n => '.' :: Nat.toDigits 10 n
  | [], s => by simp
  | a :: l, s => by rw [List.foldl_cons, foldl_dots l, List.flatMap_cons, List.append_assoc]

theorem dotted_cons : ∀ (l : List Nat) (a : Nat),
    dotted (a :: l) = Nat.toDigits 10 a ++ l.flatMap fun n => '.' :: Nat.toDigits 10 n
  | [], a => by simp [dotted]
  | b :: l, a => by
    rw [dotted, dotted_cons l b, List.flatMap_cons]
    · rfl
    · simp

theorem extract_at (path : List Nat) (n : Nat) : extractIndex (path ++ [n]) path.length = some (dotted (path ++ [n])) := by
  unfold extractIndex
  rw [if_neg (by simp)]
  cases path with
  | nil => rfl
  | cons a l =>
    cases l with
    | nil => simp [dotted_cons]
    | cons b l =>
      simp only [List.cons_append]
      rw [if_pos (by simp), foldl_dots, dotted_cons]
      rw [List.take_of_length_le (by simp)]

/-- The graph construction, for any behaviour without enum choices. -/
theorem aux_describes {C : Ctx} (wf : WfCtx C) {ss : List Ty} {stack : Ty} {b : Beh}
    (hd : Describes C.roles C.me ss stack b) : (∀ t ∈ ss, t.Ok) → stack.Ok →
    (∀ p ∈ b.received, C.receivers p = none) →
    ∀ fuel path n prev seen g cfsm, size b < fuel →
    ∃ g', auxGraph C fuel (ss.map Ty.print ++ [stack.print]) (path ++ [n]) prev path.length seen g cfsm =
        some (g', cfsm ++ (transOf b prev g.nodes.length).map fun t =>
          (cfsmLine C.role t.src t.partner (if t.out then '!' else '?') t.payload, t.dst)) ∧
      g'.nodes.length = g.nodes.length + size b ∧
      g'.edges = g.edges ++ edgesOf C.roles C.role b prev g.nodes.length ∧
      g'.nodes = g.nodes ++ b.stateNames path n := by
  induction hd with
  | fin =>
    intro _ _ _ fuel path n prev seen g cfsm hf
    obtain ⟨fuel, rfl⟩ : ∃ f, fuel = f + 1 := ⟨fuel - 1, by omega⟩
    have h1 := bump_at path n
    have h3 := extract_at path (n + 1)
    generalize hl : dotted (path ++ [n + 1]) = l at h3
    have hcmp : C.compareEnd = List.map Ty.print (List.replicate (C.roles.length - 1) endTy) ++
        [(Ty.mk ['R', 'o', 'l', 'e', 'E', 'n', 'd'] []).print] := by
      rw [wf.cend, List.map_replicate]; rfl
    refine ⟨(g.addNode l).1.addEdge prev g.nodes.length ['0'], ?_, ?_, ?_, ?_⟩
    · rw [auxGraph, if_pos hcmp]
      simp only [h1, h3, Option.bind_eq_bind, Option.bind_some, transOf, List.map_nil, List.append_nil]
      rfl
    · simp [Graph.addEdge, Graph.addNode, size]
    · simp [Graph.addEdge, Graph.addNode, edgesOf]
    · simp [Graph.addEdge, Graph.addNode, Beh.stateNames, hl]
  | @send ss x p s k b hx hne h hk ih =>
    intro hss hst hrec fuel path n prev seen g cfsm hf
    simp only [size] at hf
    obtain ⟨fuel, rfl⟩ : ∃ f, fuel = f + 1 := ⟨fuel - 1, by omega⟩
    obtain ⟨hsl, hsl'⟩ := List.getElem?_eq_some_iff.1 h
    have hsend : (sendTy p s).Ok := hss _ (List.mem_of_getElem? h)
    have hh : getHead (sendTy p s).print = [['S', 'e', 'n', 'd'], p.print, s.print] := getHead_ty _ _ hsend
    have hst' : getHead (Ty.mk C.roles[x] [k]).print = [C.roles[x], k.print] := getHead_ty _ _ hst
    simp only [sendTy, Ty.Ok, AllOk] at hsend
    simp only [Ty.Ok, AllOk] at hst
    have h1 := bump_at path n
    have h3 := extract_at path (n + 1)
    generalize hl : dotted (path ++ [n + 1]) = l at h3
    obtain ⟨g', i1, i2, i3, i4⟩ := ih (by
        intro t ht
        rcases List.mem_or_eq_of_mem_set ht with h' | h'
        · exact hss t h'
        · subst h'; exact hsend.2.2.1) hst.2.1 hrec fuel path (n + 1) g.nodes.length seen
      ((g.addNode l).1.addEdge prev g.nodes.length (edgeLabel C.role '!' C.roles[x] p.print))
      (cfsm ++ [(cfsmLine C.role prev x '!' p.print, g.nodes.length)]) (by omega)
    refine ⟨g', ?_, ?_, ?_, ?_⟩
    · rw [auxGraph, if_neg (by rw [wf.cend]; exact not_end rfl)]
      simp only [List.getLast?_concat, Option.bind_eq_bind, Option.bind_some, hst', position_get wf.nodup hx, slot_offset hne]
      rw [List.getElem?_append_left (by simpa using hsl), List.getElem?_map, h]
      simp only [Option.map_some, Option.bind_some, hh, List.getElem?_cons_zero, List.getElem?_cons_succ, if_true, h1, h3]
      rw [set_stack _ _ _ _ _ (by simpa using hsl), ← List.map_set]
      simp only [Graph.addNode] at i1 ⊢
      rw [i1]
      simp [Graph.addEdge, transOf]
    · rw [i2]; simp only [Graph.addEdge, Graph.addNode, size, List.length_append, List.length_cons, List.length_nil]; omega
    · rw [i3]
      simp only [Graph.addEdge, Graph.addNode, edgesOf, Trans.edge, edgeLabel, List.length_append, List.length_cons,
        List.length_nil, List.append_assoc, List.cons_append, List.nil_append, if_true]
      simp [List.getD_eq_getElem?_getD, hx]
    · rw [i4]; simp [Graph.addEdge, Graph.addNode, Beh.stateNames, hl]
  | @recv ss x p s k b hx hne h hk ih =>
    intro hss hst hrec fuel path n prev seen g cfsm hf
    simp only [size] at hf
    obtain ⟨fuel, rfl⟩ : ∃ f, fuel = f + 1 := ⟨fuel - 1, by omega⟩
    obtain ⟨hsl, hsl'⟩ := List.getElem?_eq_some_iff.1 h
    have hsend : (recvTy p s).Ok := hss _ (List.mem_of_getElem? h)
    have hh : getHead (recvTy p s).print = [['R', 'e', 'c', 'v'], p.print, s.print] := getHead_ty _ _ hsend
    have hst' : getHead (Ty.mk C.roles[x] [k]).print = [C.roles[x], k.print] := getHead_ty _ _ hst
    have hrp : C.receivers p.print = none := hrec _ (by simp [Beh.received])
    simp only [recvTy, Ty.Ok, AllOk] at hsend
    simp only [Ty.Ok, AllOk] at hst
    have h1 := bump_at path n
    have h3 := extract_at path (n + 1)
    generalize hl : dotted (path ++ [n + 1]) = l at h3
    obtain ⟨g', i1, i2, i3, i4⟩ := ih (by
        intro t ht
        rcases List.mem_or_eq_of_mem_set ht with h' | h'
        · exact hss t h'
        · subst h'; exact hsend.2.2.1) hst.2.1 (fun q hq => hrec q (by simp [Beh.received, hq])) fuel path (n + 1)
      g.nodes.length seen
      ((g.addNode l).1.addEdge prev g.nodes.length (edgeLabel C.role '?' C.roles[x] p.print))
      (cfsm ++ [(cfsmLine C.role prev x '?' p.print, g.nodes.length)]) (by omega)
    refine ⟨g', ?_, ?_, ?_, ?_⟩
    · rw [auxGraph, if_neg (by rw [wf.cend]; exact not_end rfl)]
      simp only [List.getLast?_concat, Option.bind_eq_bind, Option.bind_some, hst', position_get wf.nodup hx, slot_offset hne]
      rw [List.getElem?_append_left (by simpa using hsl), List.getElem?_map, h]
      simp only [Option.map_some, Option.bind_some, hh, List.getElem?_cons_zero, List.getElem?_cons_succ, if_true, h1, h3, hrp]
      rw [if_neg (by simp)]
      rw [set_stack _ _ _ _ _ (by simpa using hsl), ← List.map_set]
      simp only [Graph.addNode] at i1 ⊢
      rw [i1]
      simp [Graph.addEdge, transOf]
    · rw [i2]; simp only [Graph.addEdge, Graph.addNode, size, List.length_append, List.length_cons, List.length_nil]; omega
    · rw [i3]
      simp only [Graph.addEdge, Graph.addNode, edgesOf, Trans.edge, edgeLabel, List.length_append, List.length_cons,
        List.length_nil, List.append_assoc, List.cons_append, List.nil_append, if_true]
      simp [List.getD_eq_getElem?_getD, hx]
    · rw [i4]; simp [Graph.addEdge, Graph.addNode, Beh.stateNames, hl]
  | @offer ss ls rs i head either m1 m2 n1 n2 a1 a2 s1 s2 tl lst rst l r h hend hn1 hn2 hl hr ihl ihr =>
    intro hss hst hrec fuel path n prev seen g cfsm hf
    simp only [size] at hf
    have hsl1 := size_pos l
    have hsr1 := size_pos r
    obtain ⟨fuel, rfl⟩ : ∃ f, fuel = f + 1 := ⟨fuel - 1, by omega⟩
    obtain ⟨hsl, hsl'⟩ := List.getElem?_eq_some_iff.1 h
    have hrok := hss _ (List.mem_of_getElem? h)
    have hh := getHead_ty _ _ hrok
    have hst' : getHead (Ty.mk head [s1, s2]).print = [head, s1.print, s2.print] := getHead_ty _ _ hst
    have hscan := choiceScan_offer (C := C) ss 0 i ⟨0, 0, 0, [], []⟩ rfl hss ⟨_, _, h⟩ hend rfl
    simp only [recvTy, Ty.Ok, AllOk] at hrok
    obtain ⟨-, ⟨o1, o2, o3, -⟩, -⟩ := hrok
    have hh2 := getHead_ty either [.mk m1 (ls ++ [lst, .mk n1 a1]), .mk m2 (rs ++ [rst, .mk n2 a2])]
      (by simp only [Ty.Ok, AllOk]; exact ⟨o1, o2, o3, trivial⟩)
    have hc1 := cleanBlocks_print (m := m1) (ls := ls) (st := lst) (nm := n1) (as := a1) (by simp only [Ty.Ok]; exact o2) hn1
    have hc2 := cleanBlocks_print (m := m2) (ls := rs) (st := rst) (nm := n2) (as := a2) (by simp only [Ty.Ok]; exact o3) hn2
    have ok1 := allOk_iff.1 o2.2
    have ok2 := allOk_iff.1 o3.2
    obtain ⟨g1, i1, i2, i3, i4⟩ := ihl (fun t ht => ok1 t (by simp [ht])) (ok1 _ (by simp))
      (fun q hq => hrec q (by simp [Beh.received, hq])) fuel (path ++ [n]) 0 prev seen g cfsm (by omega)
    obtain ⟨g2, j1, j2, j3, j4⟩ := ihr (fun t ht => ok2 t (by simp [ht])) (ok2 _ (by simp))
      (fun q hq => hrec q (by simp [Beh.received, hq])) fuel (path ++ [n]) 0 prev seen g1 _ (by omega)
    rw [List.length_append, List.length_singleton] at i1 j1
    refine ⟨g2, ?_, ?_, ?_, ?_⟩
    · rw [auxGraph, if_neg (by rw [wf.cend]; exact not_end rfl)]
      simp only [List.getLast?_concat, Option.bind_eq_bind, Option.bind_some, hst', List.dropLast_concat, hscan, Nat.zero_add]
      rw [if_neg (by simp), if_pos trivial]
      rw [List.getElem?_append_left (by simpa using hsl), List.getElem?_map, h]
      simp only [Option.map_some, Option.bind_some, recvTy, hh, List.map_cons, List.map_nil, List.getElem?_cons_zero,
        List.getElem?_cons_succ, hh2, hc1, hc2]
      rw [i1]
      simp only [Option.bind_some]
      rw [j1]
      simp [transOf, i2]
    · rw [j2, i2, size]; omega
    · rw [j3, i3, i2]; simp [edgesOf]
    · rw [j4, i4]; simp [Beh.stateNames]
  | @choose ss ds es head s1 s2 l r hpos hd he h hl hr ihl ihr =>
    intro hss hst hrec fuel path n prev seen g cfsm hf
    simp only [size] at hf
    have hsl1 := size_pos l
    have hsr1 := size_pos r
    obtain ⟨fuel, rfl⟩ : ∃ f, fuel = f + 1 := ⟨fuel - 1, by omega⟩
    have hst' : getHead (Ty.mk head [s1, s2]).print = [head, s1.print, s2.print] := getHead_ty _ _ hst
    simp only [Ty.Ok, AllOk] at hst
    have hoks : ∀ i (hi : i < ss.length), (ds[i]).ty.Ok ∧ (es[i]).ty.Ok := by
      intro i hi
      obtain ⟨x, either, m1, m2, bl, br, al, tl, k1, k2, k3, k4, k5⟩ := h i hi
      have hok := hss ss[i] (List.getElem_mem hi)
      rw [k2] at hok
      simp only [sendTy, Ty.Ok, AllOk] at hok
      obtain ⟨-, ⟨o1, ⟨o2, o3⟩, ⟨o4, o5⟩, -⟩, -⟩ := hok
      exact ⟨allOk_iff.1 o3 _ (List.mem_of_getElem? k4), allOk_iff.1 o5 _ (List.mem_of_getElem? k5)⟩
    have hds : ∀ d ∈ ds, d.Ok := by
      intro d hd'
      obtain ⟨i, hi, rfl⟩ := List.getElem_of_mem hd'
      exact ok_sess _ (hoks i (by omega)).1
    have hes : ∀ d ∈ es, d.Ok := by
      intro d hd'
      obtain ⟨i, hi, rfl⟩ := List.getElem_of_mem hd'
      exact ok_sess _ (hoks i (by omega)).2
    have hscan := choiceScan_choose wf ss ds es 0 ⟨0, 0, 0, [], []⟩ rfl rfl hss hd he
      (fun i hi _ _ => by simpa using h i hi) hds hes
    have hm : ∀ fs : List Sess, (∀ d ∈ fs, d.Ok) → ∀ t ∈ fs.map (fun d => d.dual.ty), t.Ok := by
      intro fs hfs t ht
      obtain ⟨d, hd', rfl⟩ := List.mem_map.1 ht
      exact sess_ok _ (dual_ok d (hfs d hd'))
    have hmm : ∀ fs : List Sess, List.map Ty.print (fs.map fun d => d.dual.ty) = fs.map fun d => d.dual.ty.print := by
      intro fs; simp
    obtain ⟨g1, i1, i2, i3, i4⟩ := ihl (hm ds hds) hst.2.1
      (fun q hq => hrec q (by simp [Beh.received, hq])) fuel (path ++ [n]) 0 prev seen g cfsm (by omega)
    obtain ⟨g2, j1, j2, j3, j4⟩ := ihr (hm es hes) hst.2.2.1
      (fun q hq => hrec q (by simp [Beh.received, hq])) fuel (path ++ [n]) 0 prev seen g1 _ (by omega)
    have hlen : 0 < ss.length := List.length_pos_iff.2 hpos
    rw [List.length_append, List.length_singleton] at i1 j1
    refine ⟨g2, ?_, ?_, ?_, ?_⟩
    · rw [auxGraph, if_neg (by rw [wf.cend]; exact not_end rfl)]
      simp only [List.getLast?_concat, Option.bind_eq_bind, Option.bind_some, hst', List.dropLast_concat, hscan,
        Nat.zero_add, List.nil_append]
      rw [if_neg (by omega), if_neg (by simp)]
      rw [hmm] at i1 j1
      rw [i1]
      simp only [Option.bind_some]
      rw [j1]
      simp [transOf, i2]
    · rw [j2, i2, size]; omega
    · rw [j3, i3, i2]; simp [edgesOf]
    · rw [j4, i4]; simp [Beh.stateNames]

/-! ## Paths -/

theorem edges_range {roles : List Str} {me : Str} : ∀ (b : Beh) (prev n : Nat), ∀ e ∈ edgesOf roles me b prev n,
    (e.1 = prev ∨ (n ≤ e.1 ∧ e.1 < n + size b))
  | .fin, prev, n, e, he => by
    simp only [edgesOf, List.mem_singleton] at he
    subst he; exact Or.inl rfl
  | .comm out x p k, prev, n, e, he => by
    simp only [edgesOf, List.mem_cons] at he
    rcases he with rfl | he
    · exact Or.inl rfl
    · have := size_pos k
      rcases edges_range k n (n + 1) e he with h | h
      · simp only [size]; right; omega
      · simp only [size]; right; omega
  | .branch l r, prev, n, e, he => by
    simp only [edgesOf, List.mem_append] at he
    simp only [size]
    rcases he with he | he
    · rcases edges_range l prev n e he with h | h
      · exact Or.inl h
      · right; omega
    · rcases edges_range r prev (n + size l) e he with h | h
      · exact Or.inl h
      · right; omega

theorem edges_targets {roles : List Str} {me : Str} : ∀ (b : Beh) (prev n : Nat),
    (edgesOf roles me b prev n).map (fun e => e.2.1) = List.range' n (size b)
  | .fin, prev, n => by simp [edgesOf, size]
  | .comm out x p k, prev, n => by
    simp only [edgesOf, List.map_cons, edges_targets k n (n + 1), Trans.edge, size]
    rw [Nat.add_comm 1, List.range'_succ]
  | .branch l r, prev, n => by
    simp only [edgesOf, List.map_append, edges_targets l prev n, edges_targets r prev (n + size l), size]
    rw [← List.range'_append, Nat.one_mul]

theorem edges_up {roles : List Str} {me : Str} : ∀ (b : Beh) (prev n : Nat), prev < n →
    ∀ e ∈ edgesOf roles me b prev n, e.1 < e.2.1
  | .fin, prev, n, hp, e, he => by
    simp only [edgesOf, List.mem_singleton] at he
    subst he; exact hp
  | .comm out x p k, prev, n, hp, e, he => by
    simp only [edgesOf, List.mem_cons] at he
    rcases he with rfl | he
    · exact hp
    · exact edges_up k n (n + 1) (by omega) e he
  | .branch l r, prev, n, hp, e, he => by
    simp only [edgesOf, List.mem_append] at he
    rcases he with he | he
    · exact edges_up l prev n hp e he
    · exact edges_up r prev _ (by omega) e he

theorem edges_root {roles : List Str} {me : Str} : ∀ (b : Beh) (prev n : Nat),
    ∃ m lab, (prev, m, lab) ∈ edgesOf roles me b prev n
  | .fin, prev, n => ⟨_, _, List.mem_singleton.2 rfl⟩
  | .comm out x p k, prev, n => ⟨_, _, List.mem_cons_self⟩
  | .branch l r, prev, n => by
    obtain ⟨m, lab, h⟩ := edges_root (roles := roles) (me := me) l prev n
    exact ⟨m, lab, List.mem_append_left _ h⟩

theorem words {roles : List Str} {me : Str} {g : Graph} : ∀ (b : Beh) (prev n : Nat), prev < n →
    (∀ e ∈ edgesOf roles me b prev n, e ∈ g.edges) →
    (∀ e ∈ g.edges, n ≤ e.1 → e.1 < n + size b → e ∈ edgesOf roles me b prev n) →
    ∀ w, w ∈ b.traces roles me ↔ ∃ m lab w' c, w = lab :: w' ∧ (prev, m, lab) ∈ edgesOf roles me b prev n ∧
      Path g m w' c ∧ Sink g c
  | .fin, prev, n, hp, hsub, hcl, w => by
    have hs : Sink g n := by
      intro e he hn
      have := hcl e he (by omega) (by simp [size]; omega)
      simp only [edgesOf, List.mem_singleton] at this
      subst this
      simp only at hn
      omega
    constructor
    · intro hw
      simp only [Beh.traces, List.mem_singleton] at hw
      subst hw
      exact ⟨n, _, _, n, rfl, List.mem_singleton.2 rfl, .nil, hs⟩
    · rintro ⟨m, lab, w', c, rfl, hm, hpath, hsink⟩
      simp only [edgesOf, List.mem_singleton, Prod.mk.injEq, true_and] at hm
      obtain ⟨rfl, rfl⟩ := hm
      cases hpath with
      | nil => simp [Beh.traces]
      | cons h _ => exact absurd rfl (hs _ h)
  | .comm out x p k, prev, n, hp, hsub, hcl, w => by
    have hcl' : ∀ e ∈ g.edges, n ≤ e.1 → e.1 < n + 1 + size k → e ∈ edgesOf roles me k n (n + 1) := by
      intro e he h1 h2
      have := hcl e he h1 (by simp only [size]; omega)
      simp only [edgesOf, List.mem_cons] at this
      rcases this with rfl | h
      · simp only [Trans.edge] at h1; omega
      · exact h
    have ih := words (roles := roles) (me := me) (g := g) k n (n + 1) (by omega)
      (fun e he => hsub e (List.mem_cons_of_mem _ he)) (fun e he h1 h2 => hcl' e he (by omega) h2)
    constructor
    · intro hw
      simp only [Beh.traces, List.mem_map] at hw
      obtain ⟨v, hv, rfl⟩ := hw
      obtain ⟨m, lab, w', c, rfl, hm, hpath, hsink⟩ := (ih v).1 hv
      refine ⟨n, _, _, c, rfl, List.mem_cons_self, ?_, hsink⟩
      exact .cons (hsub _ (List.mem_cons_of_mem _ hm)) hpath
    · rintro ⟨m, lab, w', c, rfl, hm, hpath, hsink⟩
      simp only [edgesOf, List.mem_cons] at hm
      rcases hm with hm | hm
      · simp only [Trans.edge, Prod.mk.injEq, true_and] at hm
        obtain ⟨rfl, rfl⟩ := hm
        cases hpath with
        | nil =>
          obtain ⟨m', lab', h'⟩ := edges_root (roles := roles) (me := me) k m (m + 1)
          exact absurd rfl (hsink _ (hsub _ (List.mem_cons_of_mem _ h')))
        | @cons _ b' _ l' w'' h t =>
          have hin := hcl' _ h (Nat.le_refl _) (by simp only; omega)
          simp only [Beh.traces, List.mem_map]
          exact ⟨_, (ih _).2 ⟨_, _, _, _, rfl, hin, t, hsink⟩, rfl⟩
      · rcases edges_range k n (n + 1) _ hm with h | h
        · simp only at h; omega
        · simp only at h; omega
  | .branch l r, prev, n, hp, hsub, hcl, w => by
    have ihl := words (roles := roles) (me := me) (g := g) l prev n hp
      (fun e he => hsub e (List.mem_append_left _ he)) (by
        intro e he h1 h2
        have := hcl e he h1 (by simp only [size]; omega)
        simp only [edgesOf, List.mem_append] at this
        rcases this with h | h
        · exact h
        · rcases edges_range r prev (n + size l) e h with h | h <;> omega) w
    have ihr := words (roles := roles) (me := me) (g := g) r prev (n + size l) (by omega)
      (fun e he => hsub e (List.mem_append_right _ he)) (by
        intro e he h1 h2
        have := hcl e he (by omega) (by simp only [size]; omega)
        simp only [edgesOf, List.mem_append] at this
        rcases this with h | h
        · rcases edges_range l prev n e h with h | h <;> omega
        · exact h) w
    simp only [Beh.traces, List.mem_append, ihl, ihr, edgesOf]
    constructor
    · rintro (⟨m, lab, w', c, a1, a2, a3, a4⟩ | ⟨m, lab, w', c, a1, a2, a3, a4⟩)
      · exact ⟨m, lab, w', c, a1, Or.inl a2, a3, a4⟩
      · exact ⟨m, lab, w', c, a1, Or.inr a2, a3, a4⟩
    · rintro ⟨m, lab, w', c, a1, a2 | a2, a3, a4⟩
      · exact Or.inl ⟨m, lab, w', c, a1, a2, a3, a4⟩
      · exact Or.inr ⟨m, lab, w', c, a1, a2, a3, a4⟩

theorem label_ne {roles : List Str} {me : Str} (t : Trans) : (t.edge roles me).2.2 ≠ ['0'] := by
  intro h
  have := congrArg (fun l => ':' ∈ l) h
  simp [Trans.edge] at this

theorem edges_trans {roles : List Str} {me : Str} : ∀ (b : Beh) (prev n : Nat),
    (edgesOf roles me b prev n).filter (fun e => e.2.2 ≠ ['0']) = (transOf b prev n).map (Trans.edge roles me)
  | .fin, prev, n => by simp [edgesOf, transOf]
  | .comm out x p k, prev, n => by
    simp only [edgesOf, transOf, List.map_cons]
    rw [List.filter_cons_of_pos (by simpa using label_ne _), edges_trans k n (n + 1)]
  | .branch l r, prev, n => by
    simp only [edgesOf, transOf, List.map_append, List.filter_append, edges_trans l prev n, edges_trans r prev _]

theorem cfsm_line (me : Str) (t : Trans) :
    cfsmLine me t.src t.partner (if t.out then '!' else '?') t.payload ++ Nat.toDigits 10 t.dst = t.line me := by
  simp [cfsmLine, Trans.line]

theorem session_describes (fuel : Nat) {roles : List Str} {me : Nat} {receivers branching group keys} {ss : List Ty}
    {stack : Ty} {b : Beh} (hn : roles.Nodup) (hplain : ∀ r ∈ roles, ∀ c ∈ r, Plain c) (hme : me < roles.length)
    (hlen : ss.length = roles.length - 1) (hok : ∀ t ∈ ss, t.Ok) (hst : stack.Ok)
    (hrec : ∀ p ∈ b.received, receivers p = none) (hd : Describes roles me ss stack b) (hf : size b < fuel) :
    ∃ g, getGraphSession fuel roles[me] (ss.map Ty.print ++ [stack.print]) roles receivers branching group keys =
        some (g, [".outputs".toList, ".state graph".toList] ++ (transOf b 0 1).map (Trans.line roles[me]) ++
          [".marking ".toList ++ roles[me] ++ ['0'], ".end".toList]) ∧
      g.nodes.length = 1 + size b ∧ g.edges = edgesOf roles roles[me] b 0 1 ∧
      g.nodes = ['0'] :: b.stateNames [] 0 := by
  have wf : WfCtx ⟨roles[me], roles, me, List.replicate ((ss.map Ty.print ++ [stack.print]).length - 1) ['E', 'n', 'd'] ++
      [['R', 'o', 'l', 'e', 'E', 'n', 'd']], receivers, branching, group, keys⟩ := by
    refine ⟨hn, hme, hplain, ?_⟩
    simp [hlen]
  obtain ⟨g', h1, h2, h3, h4⟩ := aux_describes wf hd hok hst hrec fuel [] 0 0 (fun _ => none)
    ⟨[Nat.toDigits 10 0], []⟩ [] hf
  refine ⟨g', ?_, h2, by simpa using h3, h4⟩
  rw [List.nil_append, List.length_nil] at h1
  unfold getGraphSession
  simp only [position_get hn hme, Option.bind_eq_bind, Option.bind_some, h1]
  simp only [List.nil_append, List.length_cons, List.length_nil, Nat.zero_add, List.map_map]
  congr 4

end Verif.Check
