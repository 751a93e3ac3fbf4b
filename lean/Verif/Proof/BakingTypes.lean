import Verif.Proof.BakingChoose
import Mathlib.Data.List.Nodup
/-! Which types offer which calls: exclusion, uniqueness, overlap of blocks. -/
namespace Verif.Baking
open Verif.Spec Verif.Gen Verif.SendRecv Verif.Maths

theorem roleName_inj {roles : List Str} (h : roles.Nodup) {i j : Nat} (hi : IsRole roles.length i)
    (hj : IsRole roles.length j) (e : roleName roles i = roleName roles j) : i = j := by
  unfold IsRole at hi hj
  unfold roleName at e
  rw [List.getElem?_eq_getElem (by omega : i - 1 < roles.length),
    List.getElem?_eq_getElem (by omega : j - 1 < roles.length)] at e
  simp only [Option.getD_some] at e
  have := (List.Nodup.getElem_inj_iff h).1 e
  omega

theorem nameTy_inj {a b : Str} (h : nameTy a = nameTy b) : a = b := by
  unfold nameTy at h
  simp only [RTy.app.injEq, Head.here.injEq, List.append_cancel_left_eq, and_true] at h
  exact h

theorem roleTy_inj {a b : Str} {r s} (h : roleTy a r = roleTy b s) : a = b ∧ r = s := by
  unfold roleTy at h
  simp only [RTy.app.injEq, Head.here.injEq, List.append_cancel_left_eq, List.cons.injEq, and_true] at h
  exact h

theorem allToTy_inj {a b : Str} (h : allToTy a = allToTy b) : a = b := by
  unfold allToTy at h
  simp only [RTy.app.injEq, Head.here.injEq, List.append_cancel_left_eq, and_true] at h
  exact h

theorem toAllTy_inj {a b : Str} {l r l' r'} (h : toAllTy a l r = toAllTy b l' r') : l = l' ∧ r = r' := by
  unfold toAllTy at h
  simp only [RTy.app.injEq, List.cons.injEq, and_true] at h
  exact h.2

theorem sendTy_inj {timed cs t s cs' t' s'} (hc : cs.length = 6) (hc' : cs'.length = 6)
    (h : sendTy timed cs t s = sendTy timed cs' t' s') : t = t' ∧ s = s' := by
  unfold sendTy at h
  cases timed
  · simpa using h
  · simp only [if_true, RTy.app.injEq, List.cons_append, List.cons.injEq, true_and] at h
    have := List.append_inj' h.2 rfl
    exact ⟨h.1, by simpa using this.2⟩

theorem recvTy_inj {timed cs t s cs' t' s'} (hc : cs.length = 6) (hc' : cs'.length = 6)
    (h : recvTy timed cs t s = recvTy timed cs' t' s') : t = t' ∧ s = s' := by
  unfold recvTy at h
  cases timed
  · simpa using h
  · simp only [if_true, RTy.app.injEq, List.cons_append, List.cons.injEq, true_and] at h
    have := List.append_inj' h.2 rfl
    exact ⟨h.1, by simpa using this.2⟩

theorem send_ne_recv {timed cs t s cs' t' s'} : sendTy timed cs t s ≠ recvTy timed cs' t' s' := by
  unfold sendTy recvTy; cases timed <;> simp

theorem send_ne_end {timed cs t s} : sendTy timed cs t s ≠ endTy := by
  unfold sendTy endTy; cases timed <;> simp

theorem recv_ne_end {timed cs t s} : recvTy timed cs t s ≠ endTy := by
  unfold recvTy endTy; cases timed <;> simp

/-- Equal mesh types have equal sessions, stacks and names. -/
theorem mesh_inv {M : Str} {roles : List Str} {i i' F F' s s'} (h : meshTy M roles i F s = meshTy M roles i' F' s') :
    (∀ k, 1 ≤ k → k ≤ roles.length - 1 → F (partner i k) = F' (partner i' k)) ∧ s = s' ∧
      roleName roles i = roleName roles i' := by
  unfold meshTy at h
  simp only [RTy.app.injEq, true_and] at h
  have h2 := List.append_inj h (by simp)
  have h3 := h2.2
  simp only [List.cons.injEq, and_true] at h3
  refine ⟨?_, h3.1, nameTy_inj h3.2⟩
  intro k h1 h2'
  have := List.map_inj_left.1 h2.1 k (by rw [mem_range']; omega)
  exact this

theorem mesh_inv' {M : Str} {roles : List Str} (hn : roles.Nodup) {i i' F F' s s'} (hi : IsRole roles.length i)
    (hi' : IsRole roles.length i') (h : meshTy M roles i F s = meshTy M roles i' F' s') :
    i' = i ∧ s = s' ∧ ∀ q, IsRole roles.length q → q ≠ i → F q = F' q := by
  obtain ⟨h1, h2, h3⟩ := mesh_inv h
  have e := roleName_inj hn hi hi' h3
  subst e
  refine ⟨rfl, h2, ?_⟩
  intro q hq hqi
  have hr := slot_range hi hq (Ne.symm hqi)
  have := h1 _ hr.1 hr.2
  rwa [partner_slot hq (Ne.symm hqi)] at this

/-- Equal mesh types of one role. -/
theorem mesh_inv_same {M : Str} {roles : List Str} {i F F' s s'} (hi : IsRole roles.length i)
    (h : meshTy M roles i F s = meshTy M roles i F' s') :
    s = s' ∧ ∀ q, IsRole roles.length q → q ≠ i → F q = F' q := by
  obtain ⟨h1, h2, h3⟩ := mesh_inv h
  refine ⟨h2, ?_⟩
  intro q hq hqi
  have hr := slot_range hi hq (Ne.symm hqi)
  have := h1 _ hr.1 hr.2
  rwa [partner_slot hq (Ne.symm hqi)] at this

theorem eitherTy_inj {a b c d} (h : eitherTy a b = eitherTy c d) : a = c ∧ b = d := by
  unfold eitherTy at h; simpa using h

/-! ## The kind of a mesh type -/

/-- The step a type is made for: which role `i` it belongs to and which of the groups of calls it has. -/
inductive Shape where
  | send (i j : Nat)
  | recv (i j : Nat)
  | offer (i j : Nat)
  | choose (i : Nat)
  | close
  deriving DecidableEq

/-- A type of the given shape. -/
def HasShape (timed : Bool) (M : Str) (roles : List Str) (t : RTy) : Shape → Prop
  | .send i j => IsRole roles.length i ∧ IsRole roles.length j ∧ i ≠ j ∧ ∃ F cs T S R, cs.length = 6 ∧
      F j = sendTy timed cs T S ∧ t = meshTy M roles i F (roleTy (roleName roles j) R)
  | .recv i j => IsRole roles.length i ∧ IsRole roles.length j ∧ i ≠ j ∧ ∃ F cs T S R, cs.length = 6 ∧
      F j = recvTy timed cs T S ∧ t = meshTy M roles i F (roleTy (roleName roles j) R)
  | .offer i j => IsRole roles.length i ∧ IsRole roles.length j ∧ i ≠ j ∧ ∃ F cs T S, cs.length = 6 ∧
      F j = recvTy timed cs T S ∧ t = meshTy M roles i F (allToTy (roleName roles j))
  | .choose i => IsRole roles.length i ∧ ∃ (F : Nat → RTy) (l r : RTy), (∀ q, IsRole roles.length q → q ≠ i →
      ∃ cs T S, cs.length = 6 ∧ F q = sendTy timed cs T S) ∧ t = meshTy M roles i F (toAllTy (roleName roles i) l r)
  | .close => ∃ N, t = .app (.here M) ((List.range' 1 (roles.length - 1)).map (fun _ => endTy) ++ [roleEndTy, N])

theorem roleTy_ne_allTo {a b r} : roleTy a r ≠ allToTy b := by simp [roleTy, allToTy]
theorem roleTy_ne_toAll {a b r s t} : roleTy a r ≠ toAllTy b s t := by simp [roleTy, toAllTy]
theorem roleTy_ne_end {a r} : roleTy a r ≠ roleEndTy := by simp [roleTy, roleEndTy]
theorem allToTy_ne_end {a} : allToTy a ≠ roleEndTy := by simp [allToTy, roleEndTy]
theorem toAllTy_ne_end {a r s} : toAllTy a r s ≠ roleEndTy := by simp [toAllTy, roleEndTy]

theorem close_stack {M : Str} {roles : List Str} {i F s N}
    (h : meshTy M roles i F s = .app (.here M) ((List.range' 1 (roles.length - 1)).map (fun _ => endTy) ++ [roleEndTy, N])) :
    s = roleEndTy := by
  unfold meshTy at h
  simp only [RTy.app.injEq, true_and] at h
  have h3 := (List.append_inj h (by simp)).2
  simp only [List.cons.injEq, and_true] at h3
  exact h3.1

/-- A type has one shape. -/
theorem shape_unique {timed M roles t a b} (hn : roles.Nodup) (ha : HasShape timed M roles t a)
    (hb : HasShape timed M roles t b) : a = b := by
  cases a with
  | send i j =>
    obtain ⟨hi, hj, hij, F, cs, T, S, R, hc, hF, rfl⟩ := ha
    cases b with
    | send i' j' =>
      obtain ⟨hi', hj', hij', F', cs', T', S', R', hc', hF', e⟩ := hb
      obtain ⟨rfl, e2, e3⟩ := mesh_inv' hn hi hi' e
      rw [roleName_inj hn hj hj' (roleTy_inj e2).1]
    | recv i' j' =>
      obtain ⟨hi', hj', hij', F', cs', T', S', R', hc', hF', e⟩ := hb
      obtain ⟨rfl, e2, e3⟩ := mesh_inv' hn hi hi' e
      have ej := roleName_inj hn hj hj' (roleTy_inj e2).1
      subst ej
      have := e3 j hj (Ne.symm hij)
      rw [hF, hF'] at this
      exact absurd this send_ne_recv
    | offer i' j' =>
      obtain ⟨hi', hj', hij', F', cs', T', S', hc', hF', e⟩ := hb
      exact absurd (mesh_inv e).2.1 roleTy_ne_allTo
    | choose i' =>
      obtain ⟨hi', F', l, r, _, e⟩ := hb
      exact absurd (mesh_inv e).2.1 roleTy_ne_toAll
    | close =>
      obtain ⟨N, e⟩ := hb
      exact absurd (close_stack e) roleTy_ne_end
  | recv i j =>
    obtain ⟨hi, hj, hij, F, cs, T, S, R, hc, hF, rfl⟩ := ha
    cases b with
    | send i' j' =>
      obtain ⟨hi', hj', hij', F', cs', T', S', R', hc', hF', e⟩ := hb
      obtain ⟨rfl, e2, e3⟩ := mesh_inv' hn hi hi' e
      have ej := roleName_inj hn hj hj' (roleTy_inj e2).1
      subst ej
      have := e3 j hj (Ne.symm hij)
      rw [hF, hF'] at this
      exact absurd this.symm send_ne_recv
    | recv i' j' =>
      obtain ⟨hi', hj', hij', F', cs', T', S', R', hc', hF', e⟩ := hb
      obtain ⟨rfl, e2, e3⟩ := mesh_inv' hn hi hi' e
      rw [roleName_inj hn hj hj' (roleTy_inj e2).1]
    | offer i' j' =>
      obtain ⟨hi', hj', hij', F', cs', T', S', hc', hF', e⟩ := hb
      exact absurd (mesh_inv e).2.1 roleTy_ne_allTo
    | choose i' =>
      obtain ⟨hi', F', l, r, _, e⟩ := hb
      exact absurd (mesh_inv e).2.1 roleTy_ne_toAll
    | close =>
      obtain ⟨N, e⟩ := hb
      exact absurd (close_stack e) roleTy_ne_end
  | offer i j =>
    obtain ⟨hi, hj, hij, F, cs, T, S, hc, hF, rfl⟩ := ha
    cases b with
    | send i' j' =>
      obtain ⟨hi', hj', hij', F', cs', T', S', R', hc', hF', e⟩ := hb
      exact absurd (mesh_inv e).2.1.symm roleTy_ne_allTo
    | recv i' j' =>
      obtain ⟨hi', hj', hij', F', cs', T', S', R', hc', hF', e⟩ := hb
      exact absurd (mesh_inv e).2.1.symm roleTy_ne_allTo
    | offer i' j' =>
      obtain ⟨hi', hj', hij', F', cs', T', S', hc', hF', e⟩ := hb
      obtain ⟨rfl, e2, e3⟩ := mesh_inv' hn hi hi' e
      rw [roleName_inj hn hj hj' (allToTy_inj e2)]
    | choose i' =>
      obtain ⟨hi', F', l, r, hF', e⟩ := hb
      obtain ⟨rfl, e2, e3⟩ := mesh_inv' hn hi hi' e
      have := e3 j hj (Ne.symm hij)
      obtain ⟨cs', T', S', _, h⟩ := hF' j hj (Ne.symm hij)
      rw [hF, h] at this
      exact absurd this.symm send_ne_recv
    | close =>
      obtain ⟨N, e⟩ := hb
      exact absurd (close_stack e) allToTy_ne_end
  | choose i =>
    obtain ⟨hi, F, l, r, hF, rfl⟩ := ha
    cases b with
    | send i' j' =>
      obtain ⟨hi', hj', hij', F', cs', T', S', R', hc', hF', e⟩ := hb
      exact absurd (mesh_inv e).2.1.symm roleTy_ne_toAll
    | recv i' j' =>
      obtain ⟨hi', hj', hij', F', cs', T', S', R', hc', hF', e⟩ := hb
      exact absurd (mesh_inv e).2.1.symm roleTy_ne_toAll
    | offer i' j' =>
      obtain ⟨hi', hj', hij', F', cs', T', S', hc', hF', e⟩ := hb
      obtain ⟨rfl, e2, e3⟩ := mesh_inv' hn hi hi' e
      have := e3 j' hj' (Ne.symm hij')
      obtain ⟨cs', T', S', _, h⟩ := hF j' hj' (Ne.symm hij')
      rw [hF', h] at this
      exact absurd this send_ne_recv
    | choose i' =>
      obtain ⟨hi', F', l, r, hF', e⟩ := hb
      obtain ⟨rfl, e2, e3⟩ := mesh_inv' hn hi hi' e
      rfl
    | close =>
      obtain ⟨N, e⟩ := hb
      exact absurd (close_stack e) toAllTy_ne_end
  | close =>
    obtain ⟨N, rfl⟩ := ha
    cases b with
    | send i' j' =>
      obtain ⟨hi', hj', hij', F', cs', T', S', R', hc', hF', e⟩ := hb
      exact absurd (close_stack e.symm) roleTy_ne_end
    | recv i' j' =>
      obtain ⟨hi', hj', hij', F', cs', T', S', R', hc', hF', e⟩ := hb
      exact absurd (close_stack e.symm) roleTy_ne_end
    | offer i' j' =>
      obtain ⟨hi', hj', hij', F', cs', T', S', hc', hF', e⟩ := hb
      exact absurd (close_stack e.symm) allToTy_ne_end
    | choose i' =>
      obtain ⟨hi', F', l, r, hF', e⟩ := hb
      exact absurd (close_stack e.symm) toAllTy_ne_end
    | close => rfl

/-- The group of calls of a shape. -/
def Shape.has : Shape → Method → Prop
  | .send .., m => m = .send
  | .recv .., m => m = .recv
  | .offer .., m => m = .offer ∨ m = .recvFromAll
  | .choose .., m => m = .chooseLeft ∨ m = .chooseRight
  | .close, m => m = .close

/-- A call other than `cancel` fits the shape of its type. -/
theorem offers_shape {W timed M roles m t next} (h : Offers W timed M roles m t next) (hm : m ≠ .cancel) :
    ∃ a, HasShape timed M roles t a ∧ a.has m := by
  cases m with
  | send =>
    obtain ⟨i, j, F, cs, T, S, R, hi, hj, hij, hcs, hF, rfl, _⟩ := offers_send.1 h
    exact ⟨.send i j, ⟨hi, hj, hij, F, cs, T, S, R, hcs, hF, rfl⟩, rfl⟩
  | recv =>
    obtain ⟨i, j, F, cs, T, S, R, hi, hj, hij, hcs, hF, rfl, _⟩ := offers_recv.1 h
    exact ⟨.recv i j, ⟨hi, hj, hij, F, cs, T, S, R, hcs, hF, rfl⟩, rfl⟩
  | recvFromAll =>
    obtain ⟨i, j, F, cs, T, S, hi, hj, hij, hcs, hF, rfl, _⟩ := offers_recvFromAll.1 h
    exact ⟨.offer i j, ⟨hi, hj, hij, F, cs, T, S, hcs, hF, rfl⟩, .inr rfl⟩
  | offer =>
    obtain ⟨i, j, F, cs, L, R, SL, SR, hi, hj, hij, hcs, hF, _, rfl, _⟩ := offers_offer.1 h
    exact ⟨.offer i j, ⟨hi, hj, hij, F, cs, _, _, hcs, hF, rfl⟩, .inl rfl⟩
  | chooseLeft =>
    obtain ⟨s, cs, B, P, hs, hcs, _, _, rfl, _⟩ := (offers_choose false).1 (by simpa using h)
    exact ⟨.choose s, ⟨hs, _, _, _, fun q _ _ => ⟨cs, _, _, hcs, rfl⟩, rfl⟩, .inl rfl⟩
  | chooseRight =>
    obtain ⟨s, cs, B, P, hs, hcs, _, _, rfl, _⟩ := (offers_choose true).1 (by simpa using h)
    exact ⟨.choose s, ⟨hs, _, _, _, fun q _ _ => ⟨cs, _, _, hcs, rfl⟩, rfl⟩, .inr rfl⟩
  | close =>
    obtain ⟨N, _, _, e⟩ := offers_close.1 h
    exact ⟨.close, ⟨N, e⟩, rfl⟩
  | cancel => exact absurd rfl hm

/-- Two calls on one type are of one group. -/
theorem offers_group {W timed M roles m m' t next next'} (hn : roles.Nodup) (h : Offers W timed M roles m t next)
    (h' : Offers W timed M roles m' t next') (hm : m ≠ .cancel) (hm' : m' ≠ .cancel) :
    ∃ a : Shape, a.has m ∧ a.has m' := by
  obtain ⟨a, ha, h1⟩ := offers_shape h hm
  obtain ⟨b, hb, h2⟩ := offers_shape h' hm'
  have := shape_unique hn ha hb
  subst this
  exact ⟨a, h1, h2⟩

/-- A call hands on types that are determined by the type. -/
theorem offers_unique {W timed M roles m t next next'} (hn : roles.Nodup) (h : Offers W timed M roles m t next)
    (h' : Offers W timed M roles m t next') : next = next' := by
  cases m with
  | send =>
    obtain ⟨i, j, F, cs, T, S, R, hi, hj, hij, hcs, hF, rfl, _, _, _, _, rfl⟩ := offers_send.1 h
    obtain ⟨i', j', F', cs', T', S', R', hi', hj', hij', hcs', hF', e, _, _, _, _, rfl⟩ := offers_send.1 h'
    obtain ⟨rfl, e2, e3⟩ := mesh_inv' hn hi hi' e
    obtain ⟨ej, rfl⟩ := roleTy_inj e2
    have ej := roleName_inj hn hj hj' ej
    subst ej
    congr 1
    apply meshTy_congr _ hi
    intro q hq hqi
    by_cases e : q = j
    · have := e3 j hj (Ne.symm hij)
      rw [hF, hF'] at this
      simp [e, (sendTy_inj hcs hcs' this).2]
    · simp [e, e3 q hq hqi]
  | recv =>
    obtain ⟨i, j, F, cs, T, S, R, hi, hj, hij, hcs, hF, rfl, _, _, _, _, rfl⟩ := offers_recv.1 h
    obtain ⟨i', j', F', cs', T', S', R', hi', hj', hij', hcs', hF', e, _, _, _, _, rfl⟩ := offers_recv.1 h'
    obtain ⟨rfl, e2, e3⟩ := mesh_inv' hn hi hi' e
    obtain ⟨ej, rfl⟩ := roleTy_inj e2
    have ej := roleName_inj hn hj hj' ej
    subst ej
    congr 1
    apply meshTy_congr _ hi
    intro q hq hqi
    by_cases e : q = j
    · have := e3 j hj (Ne.symm hij)
      rw [hF, hF'] at this
      simp [e, (recvTy_inj hcs hcs' this).2]
    · simp [e, e3 q hq hqi]
  | recvFromAll =>
    obtain ⟨i, j, F, cs, T, S, hi, hj, hij, hcs, hF, rfl, _, _, _, rfl⟩ := offers_recvFromAll.1 h
    obtain ⟨i', j', F', cs', T', S', hi', hj', hij', hcs', hF', e, _, _, _, rfl⟩ := offers_recvFromAll.1 h'
    obtain ⟨rfl, e2, e3⟩ := mesh_inv' hn hi hi' e
    have ej := roleName_inj hn hj hj' (allToTy_inj e2)
    subst ej
    congr 1
    apply meshTy_congr _ hi
    intro q hq hqi
    by_cases e : q = j
    · have := e3 j hj (Ne.symm hij)
      rw [hF, hF'] at this
      simp [e, (recvTy_inj hcs hcs' this).2]
    · simp [e, e3 q hq hqi]
  | offer =>
    obtain ⟨i, j, F, cs, L, R, SL, SR, hi, hj, hij, hcs, hF, _, rfl, _, _, _, _, rfl⟩ := offers_offer.1 h
    obtain ⟨i', j', F', cs', L', R', SL', SR', hi', hj', hij', hcs', hF', _, e, _, _, _, _, rfl⟩ := offers_offer.1 h'
    obtain ⟨rfl, e2, e3⟩ := mesh_inv' hn hi hi' e
    have ej := roleName_inj hn hj hj' (allToTy_inj e2)
    subst ej
    have := e3 j hj (Ne.symm hij)
    rw [hF, hF'] at this
    obtain ⟨e4, e5⟩ := eitherTy_inj (recvTy_inj hcs hcs' this).1
    rw [e4, e5]
  | chooseLeft =>
    obtain ⟨s, cs, B, P, hs, hcs, _, _, rfl, rfl⟩ := (offers_choose false).1 (by simpa using h)
    obtain ⟨s', cs', B', P', hs', hcs', _, _, e, rfl⟩ := (offers_choose false).1 (by simpa using h')
    obtain ⟨rfl, e2, e3⟩ := mesh_inv' hn hs hs' e
    rw [(toAllTy_inj e2).1]
    congr 1
    apply meshTy_congr _ hs
    intro q hq hqs
    have := (eitherTy_inj (sendTy_inj hcs hcs' (e3 q hq hqs)).1).1
    rw [(mesh_inv_same hq this).2 _ hs (Ne.symm hqs)]
  | chooseRight =>
    obtain ⟨s, cs, B, P, hs, hcs, _, _, rfl, rfl⟩ := (offers_choose true).1 (by simpa using h)
    obtain ⟨s', cs', B', P', hs', hcs', _, _, e, rfl⟩ := (offers_choose true).1 (by simpa using h')
    obtain ⟨rfl, e2, e3⟩ := mesh_inv' hn hs hs' e
    rw [(toAllTy_inj e2).2]
    congr 1
    apply meshTy_congr _ hs
    intro q hq hqs
    have := (eitherTy_inj (sendTy_inj hcs hcs' (e3 q hq hqs)).1).2
    rw [(mesh_inv_same hq this).2 _ hs (Ne.symm hqs)]
  | close =>
    obtain ⟨_, _, rfl, _⟩ := offers_close.1 h
    obtain ⟨_, _, rfl, _⟩ := offers_close.1 h'
    rfl
  | cancel =>
    obtain ⟨_, _, _, _, _, _, rfl, _⟩ := offers_cancel.1 h
    obtain ⟨_, _, _, _, _, _, rfl, _⟩ := offers_cancel.1 h'
    rfl

/-! ## Overlap -/

theorem pairwise_of_all {α : Type} {R : α → α → Prop} {l : List α} (h : ∀ x ∈ l, ∀ y ∈ l, R x y) : l.Pairwise R := by
  induction l with
  | nil => exact .nil
  | cons a l ih =>
    refine List.pairwise_cons.2 ⟨fun y hy => h a (by simp) y (by simp [hy]), ih ?_⟩
    intro x hx y hy
    exact h x (by simp [hx]) y (by simp [hy])

theorem nodup_pairs (n : Nat) : (pairs n).Nodup := by
  unfold pairs
  rw [List.nodup_flatMap]
  have hr : (rangeIncl 1 n).Nodup := by rw [rangeIncl_one]; exact List.nodup_range' ..
  refine ⟨?_, ?_⟩
  · intro a _
    exact (hr.filter _).map (fun x y h => by simpa using h)
  · refine hr.imp ?_
    intro a b hab
    simp only [Function.onFun, List.Disjoint, List.mem_map, List.mem_filter]
    rintro ⟨x, y⟩ ⟨_, _, h⟩ ⟨_, _, h'⟩
    simp only [Prod.mk.injEq] at h h'
    omega

theorem pairwise_blocks {f : Nat × Nat → Block} {n : Nat}
    (h : ∀ p ∈ pairs n, ∀ q ∈ pairs n, p ≠ q → ¬ Overlap (f p) (f q)) :
    ((pairs n).map fun p => Item.block (f p)).Pairwise Apart := by
  rw [List.pairwise_map]
  refine List.Pairwise.imp_of_mem ?_ (nodup_pairs n)
  intro p q hp hq hne b c hb hc _
  simp only [Item.block.injEq] at hb hc
  subst hb hc
  exact h p hp q hq hne

theorem overlap_send {timed M roles} (hn : roles.Nodup) {p q : Nat × Nat} (hp : p ∈ pairs roles.length)
    (hq : q ∈ pairs roles.length) (hne : p ≠ q) :
    ¬ Overlap (sendBlock timed M roles roles.length p.1 p.2) (sendBlock timed M roles roles.length q.1 q.2) := by
  obtain ⟨a, b⟩ := p
  obtain ⟨c, e⟩ := q
  rw [mem_pairs] at hp hq
  rintro ⟨d, σ, τ, h⟩
  rw [sendBlock_self _ _ _ _ _ _ _ hp.1 hp.2.1 hp.2.2, sendBlock_self _ _ _ _ _ _ _ hq.1 hq.2.1 hq.2.2] at h
  obtain ⟨rfl, e2, _⟩ := mesh_inv' hn hp.1 hq.1 h
  have := roleName_inj hn hp.2.1 hq.2.1 (roleTy_inj e2).1
  subst this
  exact hne rfl

theorem overlap_recv {timed M roles} (hn : roles.Nodup) {p q : Nat × Nat} (hp : p ∈ pairs roles.length)
    (hq : q ∈ pairs roles.length) (hne : p ≠ q) :
    ¬ Overlap (recvBlock timed M roles roles.length p.1 p.2) (recvBlock timed M roles roles.length q.1 q.2) := by
  obtain ⟨a, b⟩ := p
  obtain ⟨c, e⟩ := q
  rw [mem_pairs] at hp hq
  rintro ⟨d, σ, τ, h⟩
  rw [recvBlock_self _ _ _ _ _ _ _ hp.1 hp.2.1 hp.2.2, recvBlock_self _ _ _ _ _ _ _ hq.1 hq.2.1 hq.2.2] at h
  obtain ⟨rfl, e2, _⟩ := mesh_inv' hn hp.1 hq.1 h
  have := roleName_inj hn hp.2.1 hq.2.1 (roleTy_inj e2).1
  subst this
  exact hne rfl

theorem overlap_all {timed M roles} (hn : roles.Nodup) {p q : Nat × Nat} (hp : p ∈ pairs roles.length)
    (hq : q ∈ pairs roles.length) (hne : p ≠ q) :
    ¬ Overlap (recvFromAllBlock timed M roles roles.length p.1 p.2)
      (recvFromAllBlock timed M roles roles.length q.1 q.2) := by
  obtain ⟨a, b⟩ := p
  obtain ⟨c, e⟩ := q
  rw [mem_pairs] at hp hq
  rintro ⟨d, σ, τ, h⟩
  rw [recvFromAllBlock_self _ _ _ _ _ _ _ hp.1 hp.2.1 hp.2.2,
    recvFromAllBlock_self _ _ _ _ _ _ _ hq.1 hq.2.1 hq.2.2] at h
  obtain ⟨rfl, e2, _⟩ := mesh_inv' hn hp.1 hq.1 h
  have := roleName_inj hn hp.2.1 hq.2.1 (allToTy_inj e2)
  subst this
  exact hne rfl

theorem overlap_offer {timed M roles} (hn : roles.Nodup) {p q : Nat × Nat} (hp : p ∈ pairs roles.length)
    (hq : q ∈ pairs roles.length) (hne : p ≠ q) :
    ¬ Overlap (offerBlock timed M roles roles.length p.2 p.1) (offerBlock timed M roles roles.length q.2 q.1) := by
  obtain ⟨a, b⟩ := p
  obtain ⟨c, e⟩ := q
  rw [mem_pairs] at hp hq
  rintro ⟨d, σ, τ, h⟩
  rw [offerBlock_self _ _ _ _ _ _ _ hp.1 hp.2.1 hp.2.2, offerBlock_self _ _ _ _ _ _ _ hq.1 hq.2.1 hq.2.2] at h
  obtain ⟨rfl, e2, _⟩ := mesh_inv' hn hp.1 hq.1 h
  have := roleName_inj hn hp.2.1 hq.2.1 (allToTy_inj e2)
  subst this
  exact hne rfl

theorem overlap_choose {timed M roles} (hn : roles.Nodup) {s s' : Nat} (hs : IsRole roles.length s)
    (hs' : IsRole roles.length s') (hne : s ≠ s') :
    ¬ Overlap (choosePat timed M roles s) (choosePat timed M roles s') := by
  rintro ⟨d, σ, τ, h⟩
  rw [choosePat_self _ _ _ _ _ _ hs, choosePat_self _ _ _ _ _ _ hs'] at h
  exact hne (mesh_inv' hn hs hs' h).1.symm

/-- The methods of the blocks. -/
def blockMethods : Item → List Method
  | .block b => b.methods.map (·.1)
  | _ => []

theorem apart_of_methods {x y : Item} (h : ∀ m ∈ blockMethods x, m ∉ blockMethods y) : Apart x y := by
  rintro b c rfl rfl ⟨m, ps, qs, h1, h2⟩
  exact absurd (List.mem_map.2 ⟨_, h2, rfl⟩) (h m (List.mem_map.2 ⟨_, h1, rfl⟩))

theorem coherent_core {timed M roles} (hn : roles.Nodup) : (coreItems timed M roles).Pairwise Apart := by
  have hS : ∀ s, blockMethods (.struct s) = [] := fun _ => rfl
  have hrs : ∀ x ∈ roleStructs roles, blockMethods x = [] := by
    intro x hx
    simp only [roleStructs, List.mem_flatMap, List.mem_cons, List.not_mem_nil, or_false] at hx
    obtain ⟨a, _, rfl | rfl | rfl | rfl⟩ := hx <;> rfl
  have hns : ∀ x ∈ nameStructs roles, blockMethods x = [] := by
    intro x hx
    simp only [nameStructs, List.mem_map] at hx
    obtain ⟨a, _, rfl⟩ := hx
    rfl
  have hnil : ∀ l : List Item, (∀ x ∈ l, blockMethods x = []) → l.Pairwise Apart := by
    intro l hl
    apply pairwise_of_all
    intro x hx y _
    apply apart_of_methods
    rw [hl x hx]; simp
  have hmap : ∀ (f : Nat × Nat → Block) (m : Method), (∀ p, (f p).methods.map (·.1) = [m]) →
      ∀ x ∈ (pairs roles.length).map (fun p => Item.block (f p)), blockMethods x = [m] := by
    intro f m hf x hx
    obtain ⟨p, _, rfl⟩ := List.mem_map.1 hx
    exact hf p
  have h1 := hmap (fun p => sendBlock timed M roles roles.length p.1 p.2) .send (fun _ => rfl)
  have h2 := hmap (fun p => recvBlock timed M roles roles.length p.1 p.2) .recv (fun _ => rfl)
  have h3 := hmap (fun p => recvFromAllBlock timed M roles roles.length p.1 p.2) .recvFromAll (fun _ => rfl)
  have h4 := hmap (fun p => offerBlock timed M roles roles.length p.2 p.1) .offer (fun _ => rfl)
  have h5 : ∀ x ∈ (List.range' 1 roles.length).map (fun s => Item.block (choosePat timed M roles s)),
      blockMethods x = [.chooseLeft, .chooseRight] := by
    intro x hx
    obtain ⟨p, _, rfl⟩ := List.mem_map.1 hx
    rfl
  unfold coreItems
  dsimp only
  simp only [List.pairwise_append, List.mem_append]
  refine ⟨⟨⟨⟨⟨⟨⟨⟨?_, ?_, ?_⟩, ?_, ?_⟩, ?_, ?_⟩, ?_, ?_⟩, ?_, ?_⟩, ?_, ?_⟩, ?_, ?_⟩, ?_, ?_⟩
  · exact List.pairwise_singleton _ _
  · exact hnil _ hrs
  · intro x hx y hy; apply apart_of_methods; rw [hrs y hy]; simp
  · exact hnil _ hns
  · intro x hx y hy; apply apart_of_methods; rw [hns y hy]; simp
  · exact pairwise_blocks (f := fun p => sendBlock timed M roles roles.length p.1 p.2)
      (fun p hp q hq h => overlap_send hn hp hq h)
  · intro x hx y hy
    apply apart_of_methods; rw [h1 y hy]
    rcases hx with (hx | hx) | hx
    · rw [List.mem_singleton.1 hx]; simp [hS]
    · rw [hrs x hx]; simp
    · rw [hns x hx]; simp
  · exact pairwise_blocks (f := fun p => recvBlock timed M roles roles.length p.1 p.2)
      (fun p hp q hq h => overlap_recv hn hp hq h)
  · intro x hx y hy
    apply apart_of_methods; rw [h2 y hy]
    rcases hx with ((hx | hx) | hx) | hx
    · rw [List.mem_singleton.1 hx]; simp [hS]
    · rw [hrs x hx]; simp
    · rw [hns x hx]; simp
    · rw [h1 x hx]; simp
  · exact pairwise_blocks (f := fun p => recvFromAllBlock timed M roles roles.length p.1 p.2)
      (fun p hp q hq h => overlap_all hn hp hq h)
  · intro x hx y hy
    apply apart_of_methods; rw [h3 y hy]
    rcases hx with (((hx | hx) | hx) | hx) | hx
    · rw [List.mem_singleton.1 hx]; simp [hS]
    · rw [hrs x hx]; simp
    · rw [hns x hx]; simp
    · rw [h1 x hx]; simp
    · rw [h2 x hx]; simp
  · exact pairwise_blocks (f := fun p => offerBlock timed M roles roles.length p.2 p.1)
      (fun p hp q hq h => overlap_offer hn hp hq h)
  · intro x hx y hy
    apply apart_of_methods; rw [h4 y hy]
    rcases hx with ((((hx | hx) | hx) | hx) | hx) | hx
    · rw [List.mem_singleton.1 hx]; simp [hS]
    · rw [hrs x hx]; simp
    · rw [hns x hx]; simp
    · rw [h1 x hx]; simp
    · rw [h2 x hx]; simp
    · rw [h3 x hx]; simp
  · rw [List.pairwise_map]
    refine List.Pairwise.imp_of_mem ?_ (List.nodup_range' (s := 1) (n := roles.length) (step := 1))
    intro s s' hs hs' hne b c hb hc _
    simp only [Item.block.injEq] at hb hc
    subst hb hc
    rw [mem_range'] at hs hs'
    exact overlap_choose hn (by unfold IsRole; omega) (by unfold IsRole; omega) hne
  · intro x hx y hy
    apply apart_of_methods; rw [h5 y hy]
    rcases hx with (((((hx | hx) | hx) | hx) | hx) | hx) | hx
    · rw [List.mem_singleton.1 hx]; simp [hS]
    · rw [hrs x hx]; simp
    · rw [hns x hx]; simp
    · rw [h1 x hx]; simp
    · rw [h2 x hx]; simp
    · rw [h3 x hx]; simp
    · rw [h4 x hx]; simp
  · simp only [List.pairwise_cons, List.not_mem_nil, List.Pairwise.nil, and_true, List.mem_singleton, forall_eq,
      false_imp_iff, implies_true]
    apply apart_of_methods
    simp [blockMethods, closeBlock, cancelBlock]
  · intro x hx y hy
    have hy' : blockMethods y = [.close] ∨ blockMethods y = [.cancel] := by
      simp only [List.mem_cons, List.not_mem_nil, or_false] at hy
      rcases hy with rfl | rfl
      · exact .inl rfl
      · exact .inr rfl
    apply apart_of_methods
    intro m hm
    have : m ∈ [Method.send, .recv, .recvFromAll, .offer, .chooseLeft, .chooseRight] := by
      rcases hx with ((((((hx | hx) | hx) | hx) | hx) | hx) | hx) | hx
      · rw [List.mem_singleton.1 hx] at hm; simp [hS] at hm
      · rw [hrs x hx] at hm; simp at hm
      · rw [hns x hx] at hm; simp at hm
      · rw [h1 x hx] at hm; simp at hm; simp [hm]
      · rw [h2 x hx] at hm; simp at hm; simp [hm]
      · rw [h3 x hx] at hm; simp at hm; simp [hm]
      · rw [h4 x hx] at hm; simp at hm; simp [hm]
      · rw [h5 x hx] at hm; simp at hm; rcases hm with rfl | rfl <;> simp
    rcases hy' with h | h <;> rw [h] <;> intro hc <;> rw [List.mem_singleton.1 hc] at this <;> simp at this

theorem tail_methods {kind roles} : ∀ x ∈ tailItems kind roles, blockMethods x = [] := by
  intro x hx
  cases x with
  | block b => exact absurd hx (block_tail kind roles b)
  | _ => rfl

theorem apart_append {l r : List Item} (hl : l.Pairwise Apart) (hr : ∀ x ∈ r, blockMethods x = []) :
    (l ++ r).Pairwise Apart := by
  rw [List.pairwise_append]
  refine ⟨hl, ?_, ?_⟩
  · apply pairwise_of_all
    intro x hx y _
    apply apart_of_methods
    rw [hr x hx]; simp
  · intro x _ y hy
    apply apart_of_methods
    rw [hr y hy]; simp

end Verif.Baking
