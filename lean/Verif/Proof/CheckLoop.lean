import Verif.Spec.LocalRec
import Verif.Prop.C26

/-! # Steps of the graph construction for endpoints with enum choices -/
namespace Verif.Check
open Verif.Spec Verif.Prop

variable {roles : List Str} {sites : List Site} {me : Nat}

/-- The sessions of a part. -/
def sess (roles : List Str) (sites : List Site) (me : Nat) (P : Part) : List Ty :=
  (List.range (roles.length - 1)).map fun i =>
    sessionThen (partner me i) (lastSession sites me (partner me i) P.next) P.comms

def stack (roles : List Str) (sites : List Site) (me : Nat) (P : Part) : Ty :=
  stackThen roles (lastStack roles sites me P.next) P.comms

theorem fields_eq (P : Part) : P.fields roles sites me = sess roles sites me P ++ [stack roles sites me P] := rfl

theorem sess_length (P : Part) : (sess roles sites me P).length = roles.length - 1 := by simp [sess]

theorem sess_get (P : Part) {x : Nat} (hx : x < roles.length) (hne : x ≠ me) (hme : me < roles.length) :
    (sess roles sites me P)[slotOf me x]? = some (sessionThen x (lastSession sites me x P.next) P.comms) := by
  have := slot_lt hne hx hme
  simp only [sess, List.getElem?_map, List.getElem?_range this, Option.map_some, partner_slot hne]

theorem sess_set (c : Comm) (cs : List Comm) (nx : Option Nat) (hne : c.partner ≠ me) :
    sess roles sites me ⟨cs, nx⟩ =
      (sess roles sites me ⟨c :: cs, nx⟩).set (slotOf me c.partner)
        (sessionThen c.partner (lastSession sites me c.partner nx) cs) := by
  refine List.ext_getElem (by simp [sess]) fun i h1 h2 => ?_
  rw [List.getElem_set]
  simp only [sess, List.getElem_map, List.getElem_range]
  split
  · rename_i he
    rw [← he, partner_slot hne]
  · rename_i he
    rw [sessionThen, if_neg]
    intro hp
    refine he (partner_inj (me := me) ?_)
    rw [partner_slot hne, hp]

/-! ## All types are plain -/

theorem endTy_ok : endTy.Ok := by simp [endTy, Ty.Ok, AllOk, Plain]; decide
theorem roleEndTy_ok : roleEndTy.Ok := by simp [roleEndTy, Ty.Ok, AllOk, Plain]; decide
theorem broadcastTy_ok : broadcastTy.Ok := by simp [broadcastTy, Ty.Ok, AllOk, Plain]; decide
theorem sendTy_ok {p k : Ty} (hp : p.Ok) (hk : k.Ok) : (sendTy p k).Ok := by
  refine ⟨?_, hp, hk, trivial⟩
  simp [Plain]; decide
theorem recvTy_ok {p k : Ty} (hp : p.Ok) (hk : k.Ok) : (recvTy p k).Ok := by
  refine ⟨?_, hp, hk, trivial⟩
  simp [Plain]; decide

structure Setting (roles : List Str) (sites : List Site) (me : Nat) : Prop where
  nodup : roles.Nodup
  plain : ∀ r ∈ roles, ∀ ch ∈ r, Plain ch
  me : me < roles.length
  named : Named roles sites

theorem enum_ok (H : Setting roles sites me) {s : Site} (hs : s ∈ sites) {x : Nat} (hx : x < roles.length) :
    (Ty.mk (s.enum x) []).Ok := ⟨fun ch h => (H.named.enumPlain s hs x hx ch h).1, trivial⟩

theorem lastSession_ok (H : Setting roles sites me) {x : Nat} (hx : x < roles.length) (nx : Option Nat) :
    (lastSession sites me x nx).Ok := by
  unfold lastSession
  cases nx with
  | none => exact endTy_ok
  | some c =>
    simp only
    cases hc : sites[c]? with
    | none => exact endTy_ok
    | some s =>
      have hs := List.mem_of_getElem? hc
      simp only
      split
      · exact sendTy_ok (enum_ok H hs hx) endTy_ok
      · split
        · exact recvTy_ok (enum_ok H hs H.me) endTy_ok
        · exact endTy_ok

theorem sessionThen_ok {x : Nat} {last : Ty} (hl : last.Ok) : ∀ cs : List Comm, (∀ c ∈ cs, c.payload.Ok) →
    (sessionThen x last cs).Ok
  | [], _ => hl
  | c :: cs, h => by
    have ih := sessionThen_ok (x := x) hl cs fun c hc => h c (List.mem_cons_of_mem _ hc)
    unfold sessionThen
    split
    · split
      · exact sendTy_ok (h c List.mem_cons_self) ih
      · exact recvTy_ok (h c List.mem_cons_self) ih
    · exact ih

theorem sess_ok' (H : Setting roles sites me) {P : Part} (hP : P.Fit roles sites me) :
    ∀ t ∈ sess roles sites me P, t.Ok := by
  intro t ht
  obtain ⟨i, hi, rfl⟩ := List.mem_map.1 ht
  have hi := List.mem_range.1 hi
  refine sessionThen_ok (lastSession_ok H ?_ _) _ hP.plain
  unfold partner
  split <;> omega

theorem role_plain (H : Setting roles sites me) (x : Nat) : ∀ ch ∈ roles.getD x [], Plain ch := by
  intro ch h
  rw [List.getD_eq_getElem?_getD] at h
  cases hx : roles[x]? with
  | none => rw [hx] at h; simp at h
  | some r => rw [hx] at h; exact H.plain r (List.mem_of_getElem? hx) ch h

theorem stack_ok' (H : Setting roles sites me) (P : Part) : (stack roles sites me P).Ok := by
  obtain ⟨cs, nx⟩ := P
  unfold stack
  simp only
  induction cs with
  | nil =>
    unfold stackThen lastStack
    cases nx with
    | none => exact roleEndTy_ok
    | some c =>
      simp only
      cases hc : sites[c]? with
      | none => exact roleEndTy_ok
      | some s =>
        simp only
        split
        · exact broadcastTy_ok
        · exact ⟨role_plain H _, roleEndTy_ok, trivial⟩
  | cons c cs ih => exact ⟨role_plain H _, ih, trivial⟩

/-! ## The steps of the construction -/

/-- The context of the construction for role `me`. -/
structure CtxOf (C : Ctx) (roles : List Str) (sites : List Site) (me : Nat) : Prop where
  cend : C.compareEnd = List.replicate (roles.length - 1) ['E', 'n', 'd'] ++ [['R', 'o', 'l', 'e', 'E', 'n', 'd']]
  given : Given roles sites C.receivers C.branching C.group C.groupKeys
  me : C.me = me
  roles : C.roles = roles

variable {C : Ctx}

/-- The text of a part. -/
def texts (roles : List Str) (sites : List Site) (me : Nat) (P : Part) : List Str := (P.fields roles sites me).map Ty.print

theorem texts_eq (P : Part) : texts roles sites me P =
    (sess roles sites me P).map Ty.print ++ [(stack roles sites me P).print] := by
  simp [texts, fields_eq]

theorem step_fin (hC : CtxOf C roles sites me) (fuel : Nat) (idx : List Nat) (prev depth : Nat) (seen : Seen) (g : Graph)
    (cfsm : Cfsm) (hi : idx.length = depth + 1) :
    ∃ l, auxGraph C (fuel + 1) (texts roles sites me ⟨[], none⟩) idx prev depth seen g cfsm =
      some ((g.addNode l).1.addEdge prev g.nodes.length ['0'], cfsm) := by
  obtain ⟨idx', h1, h2⟩ := bump_some (idx := idx) (d := depth) (by omega)
  obtain ⟨l, h3⟩ := extract_some (idx := idx') (d := depth) (by omega)
  refine ⟨l, ?_⟩
  have hcmp : C.compareEnd = texts roles sites me ⟨[], none⟩ := by
    rw [hC.cend, texts_eq]
    congr 1
    symm
    rw [List.eq_replicate_iff]
    refine ⟨by simp [sess], ?_⟩
    intro b hb
    obtain ⟨t, ht, rfl⟩ := List.mem_map.1 hb
    obtain ⟨i, _, rfl⟩ := List.mem_map.1 ht
    rfl
  rw [auxGraph, if_pos hcmp]
  simp only [h1, h3, Option.bind_eq_bind, Option.bind_some]
  rfl

theorem step_comm (H : Setting roles sites me) (hC : CtxOf C roles sites me) (c : Comm) (cs : List Comm) (nx : Option Nat)
    (hP : Part.Fit roles sites me ⟨c :: cs, nx⟩) (fuel : Nat) (idx : List Nat) (prev depth : Nat) (seen : Seen) (g : Graph)
    (cfsm : Cfsm) (hi : idx.length = depth + 1) :
    ∃ l idx', idx'.length = depth + 1 ∧
      auxGraph C (fuel + 1) (texts roles sites me ⟨c :: cs, nx⟩) idx prev depth seen g cfsm =
        auxGraph C fuel (texts roles sites me ⟨cs, nx⟩) idx' g.nodes.length depth seen
          ((g.addNode l).1.addEdge prev g.nodes.length (c.label roles C.role))
          (cfsm ++ [(cfsmLine C.role prev c.partner (if c.out then '!' else '?') c.payload.print, g.nodes.length)]) := by
  obtain ⟨hx, hne⟩ := hP.partner c List.mem_cons_self
  have hxC : c.partner < C.roles.length := by rw [hC.roles]; exact hx
  have hneC : c.partner ≠ C.me := by rw [hC.me]; exact hne
  obtain ⟨idx', h1, h2⟩ := bump_some (idx := idx) (d := depth) (by omega)
  obtain ⟨l, h3⟩ := extract_some (idx := idx') (d := depth) (by omega)
  refine ⟨l, idx', by omega, ?_⟩
  have hst : stack roles sites me ⟨c :: cs, nx⟩ = .mk C.roles[c.partner] [stack roles sites me ⟨cs, nx⟩] := by
    simp [stack, stackThen, hC.roles, hx]
  have hst' : getHead (stack roles sites me ⟨c :: cs, nx⟩).print =
      [C.roles[c.partner], (stack roles sites me ⟨cs, nx⟩).print] := by
    have := stack_ok' H (P := ⟨c :: cs, nx⟩)
    rw [hst] at this ⊢
    exact getHead_ty _ _ this
  have hpos : position C.roles[c.partner] C.roles = some c.partner :=
    position_get (by rw [hC.roles]; exact H.nodup) hxC
  have hget := sess_get (sites := sites) (me := me) ⟨c :: cs, nx⟩ hx hne H.me
  have hsl := slot_lt hne hx H.me
  rw [← sess_length (roles := roles) (sites := sites) (me := me) ⟨c :: cs, nx⟩] at hsl
  have hok := sess_ok' H hP _ (List.mem_of_getElem? hget)
  simp only [sessionThen, if_true] at hget hok
  rw [texts_eq, auxGraph, if_neg (by rw [hC.cend]; exact not_end (by rw [hst]))]
  simp only [List.getLast?_concat, Option.bind_eq_bind, Option.bind_some, hst', hpos, slot_offset hneC]
  rw [hC.me, List.getElem?_append_left (by simpa using hsl), List.getElem?_map, hget]
  have hro : roles.getD c.partner [] = C.roles[c.partner] := by simp [hC.roles, hx]
  have hset : ∀ y : Ty, y = sessionThen c.partner (lastSession sites me c.partner nx) cs →
      ((List.map Ty.print (sess roles sites me ⟨c :: cs, nx⟩) ++ [(stack roles sites me ⟨c :: cs, nx⟩).print]).set
        (slotOf me c.partner) y.print).set
        ((List.map Ty.print (sess roles sites me ⟨c :: cs, nx⟩) ++ [(stack roles sites me ⟨c :: cs, nx⟩).print]).length - 1)
        (stack roles sites me ⟨cs, nx⟩).print = texts roles sites me ⟨cs, nx⟩ := by
    intro y hy
    rw [set_stack _ _ _ _ _ (by simpa using hsl), ← List.map_set, hy, ← sess_set c cs nx hne, texts_eq]
  cases ho : c.out with
  | true =>
    rw [ho, if_pos rfl] at hok
    rw [if_pos rfl]
    have hh : getHead (sendTy c.payload (sessionThen c.partner (lastSession sites me c.partner nx) cs)).print =
        [['S', 'e', 'n', 'd'], _, _] := getHead_ty _ _ hok
    simp only [Option.map_some, Option.bind_some, hh, List.getElem?_cons_zero, List.getElem?_cons_succ, if_true, h1, h3]
    rw [hset _ rfl]
    simp only [edgeLabel, Comm.label, hro, ho, Graph.addNode, if_true, Bool.false_eq_true, if_false]
  | false =>
    rw [ho, if_neg (by simp)] at hok
    rw [if_neg (by simp)]
    have hh : getHead (recvTy c.payload (sessionThen c.partner (lastSession sites me c.partner nx) cs)).print =
        [['R', 'e', 'c', 'v'], _, _] := getHead_ty _ _ hok
    have hrp : C.receivers c.payload.print = none :=
      hC.given.noEnum _ fun s hs x hx => hP.notEnum c List.mem_cons_self ho s hs x hx
    simp only [Option.map_some, Option.bind_some, hh, List.getElem?_cons_zero, List.getElem?_cons_succ, h1, h3, hrp]
    rw [if_neg (by simp), if_pos trivial, hset _ rfl]
    simp only [edgeLabel, Comm.label, hro, ho, Graph.addNode, if_true, Bool.false_eq_true, if_false]

/-- The body of the two loops over branches. -/
def body (C : Ctx) (fuel prev : Nat) (K : List Str) (s : BranchSt) (k : Str) (session : Option (List Str)) :
    Option BranchSt :=
  match s.seen k with
  | some node => some (backEdge s prev node)
  | none => do
    let idx := if s.added then s.idx else s.idx ++ [0]
    let depth := if s.added then s.depth else s.depth + 1
    let session ← session
    let seen' : Seen := fun x => if x ∈ K then some prev else s.seen x
    let (g, cfsm) ← auxGraph C fuel session idx prev depth seen' s.g s.cfsm
    let seen ← markGroup C s.seen k prev
    some ⟨idx, depth, true, g, cfsm, seen⟩

/-- The keys of the branches of a choice that matter to role `me`. -/
def Relevant (roles : List Str) (me : Nat) (s : Site) (x : Nat) : Prop :=
  if s.sender = me then x < roles.length ∧ x ≠ me else x = me

theorem perm_insertBy {α : Type} (le : α → α → Bool) (x : α) : ∀ l : List α, (insertBy le x l).Perm (x :: l)
  | [] => List.Perm.refl _
  | y :: ys => by
    unfold insertBy
    split
    · exact List.Perm.refl _
    · exact ((perm_insertBy le x ys).cons y).trans (List.Perm.swap x y ys)

theorem perm_sortBy {α : Type} (le : α → α → Bool) (l : List α) : (sortBy le l).Perm l := by
  induction l with
  | nil => exact List.Perm.refl _
  | cons a l ih => exact (perm_insertBy le a _).trans (ih.cons a)

theorem foldlM_congr_map {α β γ : Type} (f : γ → α → Option γ) (h : β → α) : ∀ (l : List β) (s : γ),
    (l.map h).foldlM f s = l.foldlM (fun s b => f s (h b)) s
  | [], _ => rfl
  | b :: l, s => by
    simp only [List.map_cons, List.foldlM_cons]
    cases f s (h b) with
    | none => rfl
    | some t => exact foldlM_congr_map f h l t

/-- At a choice: a loop over the keys of its branches. -/
theorem step_choice (H : Setting roles sites me) (hC : CtxOf C roles sites me) (c : Nat) (st : Site)
    (hs : sites[c]? = some st) (hlen : 2 ≤ roles.length) (fuel : Nat) (idx : List Nat) (prev depth : Nat) (seen : Seen)
    (g : Graph) (cfsm : Cfsm) :
    ∃ items : List (Str × Option (List Str)),
      (∀ it ∈ items, ∃ x b, Relevant roles me st x ∧ b ∈ st.branches ∧ it.1 = branchKey (st.enum x) b ∧
        it.2 = some (texts roles sites me (st.part b me))) ∧
      (∀ x b, Relevant roles me st x → b ∈ st.branches → branchKey (st.enum x) b ∈ items.map (·.1)) ∧
      auxGraph C (fuel + 1) (texts roles sites me ⟨[], some c⟩) idx prev depth seen g cfsm =
        (items.foldlM (fun s it => body C fuel prev (items.map (·.1)) s it.1 it.2)
          (⟨idx, depth, false, g, cfsm, seen⟩ : BranchSt)).map fun s => (s.g, s.cfsm) := by
  have hmem := List.mem_of_getElem? hs
  by_cases hsend : st.sender = me
  · -- the chooser
    have hstack : stack roles sites me ⟨[], some c⟩ = broadcastTy := by
      simp [stack, stackThen, lastStack, hs, hsend]
    have hsess : sess roles sites me ⟨[], some c⟩ = (List.range (roles.length - 1)).map fun i =>
        sendTy (.mk (st.enum (partner me i)) []) endTy := by
      simp [sess, sessionThen, lastSession, hs, hsend]
    have hpart : ∀ i, i < roles.length - 1 → partner me i < roles.length ∧ partner me i ≠ me := by
      intro i hi
      have := H.me
      unfold partner
      split <;> omega
    have hrec : ∀ i, i < roles.length - 1 → ∃ l, C.receivers (st.enum (partner me i)) = some l ∧
        (l.map (·.1)).Perm st.branches := by
      intro i hi
      obtain ⟨hp1, hp2⟩ := hpart i hi
      obtain ⟨u, v, l, h1, h2⟩ := hC.given.receives st hmem _ hp1 (by rw [hsend]; exact hp2)
      refine ⟨l, h1, ?_⟩
      have := h2.map (·.1)
      rw [List.map_map] at this
      simpa [Function.comp_def] using this
    have hnames : ∀ (is : List Nat) (acc : List Str), (∀ i ∈ is, i < roles.length - 1) →
        ∃ names, (is.map fun i => (sendTy (.mk (st.enum (partner me i)) []) endTy).print).foldlM
            (init := acc) (fun acc x => do
              let h ← (getHead x)[0]?
              if h = ['S', 'e', 'n', 'd'] then do
                let p ← (getHead x)[1]?
                let choice ← C.receivers p
                some (acc ++ choice.map fun c => p ++ [':', ':'] ++ c.1)
              else none) = some names ∧
          ∀ k, k ∈ names ↔ k ∈ acc ∨ ∃ i ∈ is, ∃ b ∈ st.branches, k = branchKey (st.enum (partner me i)) b := by
      intro is
      induction is with
      | nil => intro acc _; exact ⟨acc, rfl, by simp⟩
      | cons i is ih =>
        intro acc hi
        have hi0 := hi i List.mem_cons_self
        obtain ⟨l, hl1, hl2⟩ := hrec i hi0
        obtain ⟨names, n1, n2⟩ := ih (acc ++ l.map fun c => st.enum (partner me i) ++ [':', ':'] ++ c.1)
          (fun i h => hi i (List.mem_cons_of_mem _ h))
        refine ⟨names, ?_, ?_⟩
        · have hh : getHead (sendTy (.mk (st.enum (partner me i)) []) endTy).print =
              [['S', 'e', 'n', 'd'], _, _] :=
            getHead_ty _ _ (sendTy_ok (enum_ok H hmem (hpart i hi0).1) endTy_ok)
          have hpp : (Ty.mk (st.enum (partner me i)) []).print = st.enum (partner me i) := by rw [Ty.print]
          simp only [List.map_cons, List.foldlM_cons, hh, List.getElem?_cons_zero, List.getElem?_cons_succ,
            Option.bind_eq_bind, Option.bind_some, if_true, hpp, hl1]
          exact n1
        · intro k
          rw [n2]
          simp only [List.mem_append, List.mem_map, List.mem_cons, exists_eq_or_imp]
          constructor
          · rintro ((h | ⟨x, hx, rfl⟩) | h)
            · exact .inl h
            · exact .inr (.inl ⟨x.1, hl2.mem_iff.mp (List.mem_map.mpr ⟨x, hx, rfl⟩), rfl⟩)
            · exact .inr (.inr h)
          · rintro (h | ⟨b, hb, rfl⟩ | h)
            · exact .inl (.inl h)
            · obtain ⟨x, hx, rfl⟩ := List.mem_map.mp (hl2.mem_iff.mpr hb)
              exact .inl (.inr ⟨x, hx, rfl⟩)
            · exact .inr h
    obtain ⟨names, n1, n2⟩ := hnames (List.range (roles.length - 1)) [] (fun i h => List.mem_range.mp h)
    have hn2 : ∀ k, k ∈ sortBy strLe names ↔ ∃ x b, Relevant roles me st x ∧ b ∈ st.branches ∧ k = branchKey (st.enum x) b := by
      intro k
      rw [(perm_sortBy strLe names).mem_iff, n2]
      simp only [List.not_mem_nil, false_or, List.mem_range]
      constructor
      · rintro ⟨i, hi, b, hb, rfl⟩
        refine ⟨_, b, ?_, hb, rfl⟩
        unfold Relevant
        rw [if_pos hsend]
        exact hpart i hi
      · rintro ⟨x, b, hx, hb, rfl⟩
        unfold Relevant at hx
        rw [if_pos hsend] at hx
        exact ⟨slotOf me x, slot_lt hx.2 hx.1 H.me, b, hb, by rw [partner_slot hx.2]⟩
    have hkeys : ((sortBy strLe names).map fun k => (k, C.branching k >>= dropEnd 1)).map (·.1) = sortBy strLe names := by
      simp [Function.comp_def]
    refine ⟨(sortBy strLe names).map fun k => (k, C.branching k >>= dropEnd 1), ?_, ?_, ?_⟩
    · intro it hit
      obtain ⟨k, hk, rfl⟩ := List.mem_map.mp hit
      obtain ⟨x, b, hx, hb, rfl⟩ := (hn2 k).mp hk
      refine ⟨x, b, hx, hb, rfl, ?_⟩
      unfold Relevant at hx
      rw [if_pos hsend] at hx
      obtain ⟨u, hu⟩ := hC.given.chooses st hmem x hx.1 (by rw [hsend]; exact hx.2) b hb
      simp only [hu, hsend, Option.bind_eq_bind, Option.bind_some, dropEnd, texts]
      rw [if_pos (by simp)]
      simp
    · intro x b hx hb
      rw [hkeys]
      exact (hn2 _).mpr ⟨x, b, hx, hb, rfl⟩
    · rw [hkeys, foldlM_congr_map, texts_eq, auxGraph, if_neg (by
        rw [hC.cend, hstack]
        intro he
        have h1 := congrArg List.getLast? he
        rw [List.getLast?_concat, List.getLast?_concat] at h1
        revert h1
        rw [broadcastTy, Ty.print]
        decide)]
      have hgb : getHead broadcastTy.print = [['R', 'o', 'l', 'e', 'B', 'r', 'o', 'a', 'd', 'c', 'a', 's', 't']] :=
        getHead_ty _ _ broadcastTy_ok
      simp only [List.getLast?_concat, Option.bind_eq_bind, Option.bind_some, hstack, hgb, if_true, List.dropLast_concat]
      rw [hsess, List.map_map]
      have : (Ty.print ∘ fun i => sendTy (.mk (st.enum (partner me i)) []) endTy) =
        fun i => (sendTy (.mk (st.enum (partner me i)) []) endTy).print := rfl
      rw [this]
      simp only [Option.bind_eq_bind] at n1
      rw [n1, Option.bind_some, Option.map_eq_bind]
      rfl
  · -- the others
    have hne : st.sender ≠ me := hsend
    have hsl := H.named.sender st hmem
    have hstack : stack roles sites me ⟨[], some c⟩ = .mk (roles.getD st.sender []) [roleEndTy] := by
      simp [stack, stackThen, lastStack, hs, hsend]
    have hget := sess_get (sites := sites) (me := me) ⟨[], some c⟩ hsl hne H.me
    simp only [sessionThen, lastSession, hs, if_neg hsend, if_true] at hget
    obtain ⟨u, v, l, l1, l2⟩ := hC.given.receives st hmem me H.me (Ne.symm hne)
    let all := sortBy (fun a b => strLe a.1 b.1) (l.map fun b => (branchKey (st.enum me) b.1, b.2))
    have hall : ∀ it, it ∈ all ↔ ∃ b ∈ st.branches, it = (branchKey (st.enum me) b,
        ((st.part b me).fields roles sites me).map Ty.print ++ [u, v]) := by
      intro it
      rw [(perm_sortBy _ _).mem_iff, (l2.map _).mem_iff, List.map_map, List.mem_map]
      simp only [Function.comp_apply, eq_comm]
    refine ⟨all.map fun b => (b.1, dropEnd 2 b.2), ?_, ?_, ?_⟩
    · intro it hit
      obtain ⟨x, hx, rfl⟩ := List.mem_map.mp hit
      obtain ⟨b, hb, rfl⟩ := (hall x).mp hx
      refine ⟨me, b, by unfold Relevant; rw [if_neg hsend], hb, rfl, ?_⟩
      simp only [dropEnd, texts]
      rw [if_pos (by simp)]
      simp
    · intro x b hx hb
      unfold Relevant at hx
      rw [if_neg hsend] at hx
      subst hx
      rw [List.map_map]
      exact List.mem_map.mpr ⟨_, (hall _).mpr ⟨b, hb, rfl⟩, rfl⟩
    · have hk : (all.map fun b => (b.1, dropEnd 2 b.2)).map (·.1) = all.map (·.1) := by simp
      have hsl' := slot_lt hne hsl H.me
      rw [← sess_length (roles := roles) (sites := sites) (me := me) ⟨[], some c⟩] at hsl'
      have hxC : st.sender < C.roles.length := by rw [hC.roles]; exact hsl
      have hneC : st.sender ≠ C.me := by rw [hC.me]; exact hne
      have hro : roles.getD st.sender [] = C.roles[st.sender] := by simp [hC.roles, hsl]
      have hst' : getHead (stack roles sites me ⟨[], some c⟩).print = [C.roles[st.sender], roleEndTy.print] := by
        have := stack_ok' H (P := ⟨[], some c⟩)
        rw [hstack, hro] at this ⊢
        exact getHead_ty _ _ this
      have hpos : position C.roles[st.sender] C.roles = some st.sender :=
        position_get (by rw [hC.roles]; exact H.nodup) hxC
      have hh : getHead (recvTy (.mk (st.enum me) []) endTy).print = [['R', 'e', 'c', 'v'], _, _] :=
        getHead_ty _ _ (recvTy_ok (enum_ok H hmem H.me) endTy_ok)
      have hpp : (Ty.mk (st.enum me) []).print = st.enum me := by rw [Ty.print]
      rw [hk, foldlM_congr_map, texts_eq, auxGraph, if_neg (by rw [hC.cend]; exact not_end (by rw [hstack]))]
      simp only [List.getLast?_concat, Option.bind_eq_bind, Option.bind_some, hst', hpos, slot_offset hneC]
      rw [hC.me, List.getElem?_append_left (by simpa using hsl'), List.getElem?_map, hget]
      simp only [Option.map_some, Option.bind_some, hh, List.getElem?_cons_zero, List.getElem?_cons_succ, hpp, l1]
      rw [if_neg (by simp), if_pos trivial, Option.map_eq_bind]
      rfl

end Verif.Check
