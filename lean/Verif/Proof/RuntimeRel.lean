import Mathlib.Data.List.Forall2
import Mathlib.Data.List.Perm.Basic
import Verif.Model.Failure
import Verif.Proof.RuntimeHeap
import Verif.Proof.GenChoose
import Verif.Prop.C18
import Verif.Prop.C34
import Verif.Proof.RuntimeMesh
/-!
# The relation between the runtime and the queues of `Model/Mesh.lean`
-/
namespace Verif.Runtime
open Verif.Mesh (Sys Name Sess Stack Label upd Part Global project S others mem_others others_nodup)
open Verif.Types (STy)
open Verif.Heap hiding upd
open Verif.Spec Verif.SendRecv
open Verif.Gen (slot_partner partner_slot slot_range partner_role slotOf_inj partner_inj pr)

theorem isRole {n r : Nat} (h : Part n r) : IsRole n r := ⟨h.1, h.2⟩
theorem ofRole {n r : Nat} (h : IsRole n r) : Part n r := ⟨h.1, h.2⟩

/-- The side of role `r` in its session with `q`. -/
def side (r q : Nat) : Bool := decide (r < q)

theorem side_not {r q : Nat} (h : r ≠ q) : side q r = (!side r q) := by
  unfold side; by_cases h1 : r < q
  · have : ¬ q < r := by omega
    simp [h1, this]
  · have : q < r := by omega
    simp [h1, this]

abbrev Ids := Nat → Nat → Nat → Nat

/-- Session numbers are kept. -/
def Grows (T : Nat) (id : Ids) (T' : Nat) (id' : Ids) : Prop := T ≤ T' ∧ ∀ g, g ≤ T → id' g = id g

theorem Grows.same {T : Nat} {id : Ids} : Grows T id T id := ⟨Nat.le_refl _, fun _ _ => rfl⟩

/-- The fields of a mesh of role `r`. -/
structure MeshOK (n : Nat) (id : Ids) (g r : Nat) (F : Nat → Sess) (sl : List (Entry Pay)) : Prop where
  len : sl.length = n - 1
  slot : ∀ q, Part n q → q ≠ r → ∃ e, sl[slotOf r q - 1]? = some e ∧ e.ep.sid = id g r q ∧ e.ep.side = side r q ∧
    e.ty = enc r q (F q)

/-- How the programs of the two models correspond. -/
def PosRel (n : Nat) (D : Global) (id : Ids) (s : S) (r : Nat) : Pos → Prop
  | .mesh sl k => ∃ M, s.pos r = .mesh M ∧ k = M.stack ∧ MeshOK n id (s.gen r) r M.sess sl
  | .ending i sl => ∃ M, s.pos r = .mesh M ∧ M.stack = .fin ∧ MeshOK n id (s.gen r) r M.sess sl ∧ i ≤ 2 * (n - 1)
  | .closed => ∃ M, s.pos r = .mesh M ∧ M.stack = .fin
  | .telling N todo old own => s.pos r = .telling N (todo.map fun p => partner r p.1) ∧
      MeshOK n id (s.gen r + 1) r ((project n D).types N r).sess own ∧
      ∀ p ∈ todo, 1 ≤ p.1 ∧ p.1 ≤ n - 1 ∧
        MeshOK n id (s.gen r + 1) (partner r p.1) ((project n D).types N (partner r p.1)).sess p.2 ∧
        ∃ e bs, old[p.1 - 1]? = some e ∧ e.ep.sid = id (s.gen r) r (partner r p.1) ∧
          e.ep.side = side r (partner r p.1) ∧ e.ty = .send none (.enum (partner r p.1) bs) .fin ∧ N ∈ bs

/-- How messages correspond. -/
def MsgRel (n : Nat) (D : Global) (id : Ids) (g q : Nat) : Mesh.Msg → Pay × Val → Prop
  | .data m, (t, v) => t = .data m ∧ v.tag = 0 ∧ v.eps = []
  | .branch N, (t, v) => (∃ bs, t = .enum q bs ∧ N ∈ bs) ∧ v.tag = N ∧
      ∃ ms, v.eps = ms.map (·.ep) ∧ MeshOK n id (g + 1) q ((project n D).types N q).sess ms

/-- `p` has sent its `Stop` to `q`. -/
def sentTo (p q : Nat) : Pos → Bool
  | .ending i _ => decide (slotOf p q - 1 < i)
  | .closed => true
  | _ => false

/-- `q` has received the `Stop` of `p`. -/
def gotFrom (n q p : Nat) : Pos → Bool
  | .ending i _ => decide (n - 1 + (slotOf q p - 1) < i)
  | .closed => true
  | _ => false

/-- What the signal channel from `p` to `q` contains. -/
def expect (n T : Nat) (pos : Nat → Pos) (g p q : Nat) : Option Heap.Msg :=
  if g = T ∧ sentTo p q (pos p) = true ∧ gotFrom n q p (pos q) = false then some (.sig .stop) else none

/-- The number of choices made before the newest mesh of `r` was created. -/
def gst (s : S) (r : Nat) : Nat :=
  match s.pos r with
  | .telling _ _ => s.gen r + 1
  | .mesh _ => s.gen r

/-- The endpoints a role holds, if it has not failed. -/
def held (dead : Nat → Bool) (pos : Nat → Pos) (r : Nat) : List (Entry Pay) := if dead r then [] else own (pos r)

/-- The relation.  The roles in `dead` have failed: they hold nothing any more, and in the other model they never move
again. -/
structure Rel (n : Nat) (D : Global) (root : Name) (ls : List Label) (dead : Nat → Bool) (h : Heap.St Pay) (pos : Nat → Pos) (s : S) (id : Ids)
    (T : Nat) : Prop where
  reach : Reach (env (project n D)) h
  inv : ∃ G, Mesh.Inv n D root G ls s ∧ G.top = T
  idc : ∀ g p q, id g p q = id g q p
  inj : ∀ g g' p q p' q', g ≤ T → g' ≤ T → Part n p → Part n q → p ≠ q → Part n p' → Part n q' → p' ≠ q' →
    id g p q = id g' p' q' → g = g' ∧ ((p = p' ∧ q = q') ∨ (p = q' ∧ q = p'))
  lt : ∀ g p q, g ≤ T → Part n p → Part n q → p ≠ q → id g p q < h.nsid
  sur : ∀ x, x < h.nsid → ∃ g p q, g ≤ T ∧ Part n p ∧ Part n q ∧ p ≠ q ∧ x = id g p q
  posr : ∀ r, Part n r → PosRel n D id s r (pos r)
  perm : h.pool.Perm ((List.range' 1 n).flatMap (held dead pos))
  queue : ∀ g p q, g ≤ T → Part n p → Part n q → p ≠ q →
    List.Forall₂ (MsgRel n D id g q) (s.queue (g, p, q)) (pending h.trace (id g p q) (side q p))
  sig : ∀ x t r, Ends (env (project n D)) h x t r → ∀ g p q, g ≤ T → Part n p → Part n q → p ≠ q →
    x.ep.sid = id g p q → x.ep.side = side p q →
    ((h.chan t).buf = expect n T pos g p q ∨ (h.chan t).buf = none) ∧ (h.chan r).buf = expect n T pos g q p
  got : ∀ p q, Part n p → Part n q → p ≠ q → gotFrom n q p (pos q) = true → sentTo p q (pos p) = true

/-! ## Lists -/

theorem others_eq (n r : Nat) (hr : Part n r) : others n r = (List.range' 1 (n - 1)).map (partner r) := by
  have key : ∀ a m, a ≤ r → r < a + m → (List.range' a m).filter (fun q => decide (q ≠ r)) =
      (List.range' a (m - 1)).map (partner r) := by
    intro a m
    induction m generalizing a with
    | zero => intro h1 h2; omega
    | succ m ih =>
      intro h1 h2
      rw [List.range'_succ, List.filter_cons]
      by_cases e : a = r
      · subst e
        simp only [ne_eq, not_true_eq_false, decide_false, Bool.false_eq_true, if_false, Nat.add_sub_cancel]
        have e1 : (List.range' (a + 1) m).filter (fun q => decide (¬ q = a)) = List.range' (a + 1) m := by
          rw [List.filter_eq_self]
          intro x hx; rw [List.mem_range'_1] at hx; simp; omega
        rw [e1]
        apply List.ext_getElem?
        intro i
        rw [List.getElem?_map]
        by_cases hi : i < m
        · rw [List.getElem?_range' hi, List.getElem?_range' hi]
          simp only [Option.map_some, Option.some.injEq]
          unfold partner; split <;> omega
        · rw [List.getElem?_eq_none (by simp; omega), List.getElem?_eq_none (by simp; omega)]; rfl
      · rw [if_pos (by simp [e])]
        have hm : m ≠ 0 := by omega
        obtain ⟨m', rfl⟩ : ∃ m', m = m' + 1 := ⟨m - 1, by omega⟩
        rw [ih (a + 1) (by omega) (by omega)]
        simp only [Nat.add_sub_cancel]
        rw [List.range'_succ, List.map_cons]
        congr 1
        unfold partner; rw [if_pos (by omega)]
  unfold others
  exact key 1 n hr.1 (by have := hr.2; omega)

theorem flat_others {α : Type} {n r : Nat} (hr : Part n r) (f : Nat → List α) :
    ((List.range' 1 n).flatMap f).Perm (f r ++ (others n r).flatMap f) := by
  have hm : r ∈ List.range' 1 n := by rw [List.mem_range'_1]; have := hr.1; have := hr.2; omega
  have h1 : (List.range' 1 n).Perm (r :: others n r) := by
    refine (List.perm_cons_erase hm).trans (List.Perm.cons r ?_)
    rw [List.Nodup.erase_eq_filter (List.nodup_range' (s := 1) (n := n) (step := 1))]
    unfold others
    have : (fun x => x != r) = fun q => decide (q ≠ r) := by
      funext q; simp [bne, beq_eq_decide]
    rw [this]
  refine (h1.flatMap_right f).trans ?_
  simp

theorem flat_upd {n r : Nat} (hr : Part n r) {dead : Nat → Bool} (hl : dead r = false) (pos : Nat → Pos) (p : Pos) :
    ((List.range' 1 n).flatMap (held dead (upd pos r p))).Perm (own p ++ (others n r).flatMap (held dead pos)) := by
  refine (flat_others hr _).trans ?_
  have e1 : held dead (upd pos r p) r = own p := by simp [held, hl, upd]
  have e2 : (others n r).flatMap (held dead (upd pos r p)) = (others n r).flatMap (held dead pos) := by
    apply List.flatMap_congr
    intro x hx
    have := (mem_others.1 hx).2
    simp [held, upd, this]
  rw [e1, e2]

theorem held_live {dead : Nat → Bool} {r : Nat} (hl : dead r = false) (pos : Nat → Pos) : held dead pos r = own (pos r) := by
  simp [held, hl]

theorem Rel.split {n D root ls dead h pos s id T} (R : Rel n D root ls dead h pos s id T) {r : Nat} (hr : Part n r)
    (hl : dead r = false) : h.pool.Perm (own (pos r) ++ (others n r).flatMap (held dead pos)) := by
  rw [← held_live hl pos]; exact R.perm.trans (flat_others hr _)

theorem Rel.mem {n D root ls dead h pos s id T} (R : Rel n D root ls dead h pos s id T) {r : Nat} (hr : Part n r)
    (hl : dead r = false) {e : Entry Pay} (he : e ∈ own (pos r)) : e ∈ h.pool :=
  (R.split hr hl).mem_iff.2 (List.mem_append_left _ he)

theorem perm_eraseIdx {α : Type} {l : List α} {i : Nat} {x : α} (h : l[i]? = some x) : l.Perm (x :: l.eraseIdx i) := by
  induction l generalizing i with
  | nil => simp at h
  | cons y l ih =>
    cases i with
    | zero => simp at h; subst h; simp
    | succ i =>
      simp at h
      rw [List.eraseIdx_cons_succ]
      exact ((ih h).cons y).trans (List.Perm.swap x y _)

theorem set_eraseIdx {α : Type} {l : List α} {i : Nat} (y : α) (h : i < l.length) : (l.set i y).Perm (y :: l.eraseIdx i) := by
  have h1 : (l.set i y)[i]? = some y := by simp [h]
  have h2 := perm_eraseIdx h1
  have h3 : (l.set i y).eraseIdx i = l.eraseIdx i := by
    apply List.eraseIdx_set_eq
  rwa [h3] at h2

/-! ## Types -/

theorem enc_dual (r q : Nat) (s : Sess) : (enc r q s).dual = enc q r s.dual := by
  induction s with
  | fin => rfl
  | send m k ih => simp [enc, STy.dual, Sess.dual, ih]
  | recv m k ih => simp [enc, STy.dual, Sess.dual, ih]
  | sendChoice bs => rfl
  | recvChoice bs => rfl

theorem MeshOK.at {n id g r F sl} (h : MeshOK n id g r F sl) {i : Nat} (hi : i < n - 1) (hr : Part n r) :
    ∃ e, sl[i]? = some e ∧ e.ep.sid = id g r (partner r (i + 1)) ∧ e.ep.side = side r (partner r (i + 1)) ∧
      e.ty = enc r (partner r (i + 1)) (F (partner r (i + 1))) := by
  obtain ⟨h1, h2⟩ := partner_role (isRole hr) (k := i + 1) (by omega) (by omega)
  obtain ⟨e, h3, h4⟩ := h.slot _ (ofRole h1) h2
  rw [slot_partner (by omega)] at h3
  exact ⟨e, by simpa using h3, h4⟩

theorem MeshOK.mem {n id g r F sl} (h : MeshOK n id g r F sl) (hr : Part n r) {e} (he : e ∈ sl) :
    ∃ q, Part n q ∧ q ≠ r ∧ e.ep.sid = id g r q ∧ e.ep.side = side r q ∧ e.ty = enc r q (F q) := by
  obtain ⟨i, hi, rfl⟩ := List.getElem_of_mem he
  have hi' : i < n - 1 := by rw [← h.len]; exact hi
  obtain ⟨h1, h2⟩ := partner_role (isRole hr) (k := i + 1) (by omega) (by omega)
  obtain ⟨e, h3, h4⟩ := h.at hi' hr
  rw [List.getElem?_eq_getElem hi] at h3
  cases h3
  exact ⟨_, ofRole h1, h2, h4⟩

theorem MeshOK.tys {n D id g r N ms} (h : MeshOK n id g r ((project n D).types N r).sess ms) (hr : Part n r) :
    entries (ms.map (·.ep)) (slotTys (project n D) N r) = ms ∧
      (ms.map (·.ep)).length = (slotTys (project n D) N r).length := by
  constructor
  · apply List.ext_getElem?
    intro i
    unfold entries slotTys
    rw [List.getElem?_zipWith, List.getElem?_map, List.getElem?_map]
    by_cases hi : i < n - 1
    · obtain ⟨e, h1, h2, h3, h4⟩ := h.at hi hr
      rw [h1, List.getElem?_range' (by exact hi)]
      have : 1 + 1 * i = i + 1 := by omega
      simp only [Option.map_some, this]
      rw [← h4]
    · have := h.len
      rw [List.getElem?_eq_none (by omega)]; rfl
  · have := h.len
    simp only [List.length_map, slotTys, List.length_range', this]
    rfl

theorem MeshOK.congr {n id id' g r F sl} (h : MeshOK n id g r F sl) (e : ∀ q, id' g r q = id g r q) : MeshOK n id' g r F sl := by
  refine ⟨h.len, fun q hq hne => ?_⟩
  rw [e q]; exact h.slot q hq hne

theorem MeshOK.set {n id g r F sl q e' T} (h : MeshOK n id g r F sl) (hr : Part n r) (hq : Part n q) (hne : q ≠ r)
    (h1 : e'.ep.sid = id g r q) (h2 : e'.ep.side = side r q) (h3 : e'.ty = enc r q T) :
    MeshOK n id g r (upd F q T) (sl.set (slotOf r q - 1) e') := by
  have hrange := slot_range (isRole hr) (isRole hq) (Ne.symm hne)
  refine ⟨by rw [List.length_set, h.len], fun q' hq' hne' => ?_⟩
  by_cases e : q' = q
  · subst e
    refine ⟨e', ?_, h1, h2, by simpa [upd] using h3⟩
    exact List.getElem?_set_self (by rw [h.len]; omega)
  · obtain ⟨x, x1, x2⟩ := h.slot q' hq' hne'
    refine ⟨x, ?_, by simpa [upd, e] using x2⟩
    have hrange' := slot_range (isRole hr) (isRole hq') (Ne.symm hne')
    rw [List.getElem?_set_ne, x1]
    intro h4
    exact e (slotOf_inj (Ne.symm hne') (Ne.symm hne) (by omega))

theorem exec_set {n r q : Nat} (hr : Part n r) (hq : Part n q) (hne : q ≠ r) {sl : List (Entry Pay)} (hl : sl.length = n - 1)
    (e' : Entry Pay) : (emit n r q).exec (fun _ => some e') sl = some (sl.set (slotOf r q - 1) e') := by
  obtain ⟨⟨s, -, h⟩, -⟩ := Prop.C18_exec n r q (isRole hr) (isRole hq) (Ne.symm hne) (fun _ => some e') sl hl
  exact h

theorem emit_used' {n r q : Nat} (hne : q ≠ r) : (emit n r q).used = slotOf r q := Prop.emit_used (Ne.symm hne)

/-! ## The mesh model -/

theorem gst_eq {n D root G ls s} (hI : Mesh.Inv n D root G ls s) {r : Nat} (hr : Part n r) : G.gst r = gst s r := by
  unfold gst
  cases h : s.pos r with
  | mesh M => exact (hI.mesh r hr M h).1
  | telling N rest => exact (hI.tell r hr N rest h).1

theorem gen_le_gst (s : S) (r : Nat) : s.gen r ≤ gst s r := by
  unfold gst; split <;> omega

/-- The number of choices made is known from the state. -/
theorem top_eq {n D root G ls s} (hI : Mesh.Inv n D root G ls s) {T : Nat} (h1 : ∀ r, Part n r → gst s r ≤ T)
    (h2 : T = 0 ∨ ∃ r, Part n r ∧ gst s r = T) (w : Global.Wf n D) : G.top = T := by
  have hle : T ≤ G.top := by
    rcases h2 with h2 | ⟨r, hr, h2⟩
    · omega
    · rw [← h2, ← gst_eq hI hr]; exact hI.le r hr
  rcases Nat.lt_or_ge T G.top with h | h
  · exfalso
    obtain ⟨p, bs, e1, -, e2⟩ := hI.sel T h
    have hp : Part n p := ((w.2 _).2 p bs e1).1
    have := h1 p hp
    rw [gst_eq hI hp] at e2
    omega
  · omega

theorem top_of {n D root G ls s} (hI : Mesh.Inv n D root G ls s) (w : Global.Wf n D) :
    (∀ r, Part n r → gst s r ≤ G.top) ∧ (G.top = 0 ∨ ∃ r, Part n r ∧ gst s r = G.top) := by
  refine ⟨fun r hr => by rw [← gst_eq hI hr]; exact hI.le r hr, ?_⟩
  cases h : G.top with
  | zero => exact .inl rfl
  | succ T =>
    obtain ⟨p, bs, e1, -, e2⟩ := hI.sel T (by omega)
    have hp : Part n p := ((w.2 _).2 p bs e1).1
    have h3 := hI.le p hp
    rw [gst_eq hI hp] at e2 h3
    exact .inr ⟨p, hp, by omega⟩

end Verif.Runtime
