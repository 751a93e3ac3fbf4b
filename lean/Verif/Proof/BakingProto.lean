import Verif.Proof.BakingTypes
/-! The calls on the types of a protocol. -/
namespace Verif.Baking
open Verif.Spec Verif.Gen Verif.SendRecv Verif.Maths

variable {W : Traits} {timed : Bool} {M : Str} {roles : List Str}

theorem stackOf_role (hW : Lawful W timed M roles) (g : Proto) (i : Nat) : W.role (stackOf roles g i) := by
  induction g generalizing i with
  | fin => exact hW.roleEnd_role
  | msg a b cs t g ih =>
    simp only [stackOf]
    split
    · exact hW.role_role _ _ (ih i)
    · split
      · exact hW.role_role _ _ (ih i)
      · exact ih i
  | choice a cs l r ihl ihr =>
    simp only [stackOf]
    split
    · exact hW.toAll_role _ _ _ (ihl i) (ihr i)
    · exact hW.allTo_role _

theorem sessionOf_session (hW : Lawful W timed M roles) {n : Nat} (g : Proto) (hg : g.Valid W n) (i j : Nat) :
    W.session (sessionOf timed M roles g i j) := by
  induction g generalizing i j with
  | fin => exact hW.end_session
  | msg a b cs t g ih =>
    obtain ⟨_, _, _, _, ht, hg⟩ := hg
    simp only [sessionOf]
    split
    · exact hW.send_session _ _ _ ht (ih hg i j)
    · split
      · exact hW.recv_session _ _ _ ht (ih hg i j)
      · exact ih hg i j
  | choice a cs l r ihl ihr =>
    obtain ⟨_, _, hl, hr⟩ := hg
    have key : ∀ j, W.payload (eitherTy (meshTy M roles j (fun q => sessionOf timed M roles l j q) (stackOf roles l j))
        (meshTy M roles j (fun q => sessionOf timed M roles r j q) (stackOf roles r j))) := fun j =>
      hW.mesh_payload _ _ _ _ _ (fun q => ihl hl j q) (fun q => ihr hr j q) (stackOf_role hW l j) (stackOf_role hW r j)
    simp only [sessionOf]
    split
    · exact hW.send_session _ _ _ (key _) hW.end_session
    · split
      · exact hW.recv_session _ _ _ (key _) hW.end_session
      · exact hW.end_session

theorem sessionOf_dual (hW : Lawful W timed M roles) {n : Nat} (g : Proto) (hg : g.Valid W n) {i j : Nat} (hij : i ≠ j) :
    W.dual (sessionOf timed M roles g i j) = sessionOf timed M roles g j i := by
  induction g with
  | fin => exact hW.end_dual
  | msg a b cs t g ih =>
    obtain ⟨_, _, hab, _, _, hg⟩ := hg
    have ih := ih hg
    simp only [sessionOf]
    by_cases h1 : i = a ∧ j = b
    · rw [if_pos h1, if_neg (by omega), if_pos (by omega), hW.send_dual, ih]
    · rw [if_neg h1]
      by_cases h2 : i = b ∧ j = a
      · rw [if_pos h2, if_pos (by omega), hW.recv_dual, ih]
      · rw [if_neg h2, if_neg (by omega), if_neg (by omega), ih]
  | choice a cs l r ihl ihr =>
    simp only [sessionOf]
    by_cases h1 : i = a
    · rw [if_pos h1, if_neg (by omega), if_pos h1, hW.send_dual, hW.end_dual]
    · rw [if_neg h1]
      by_cases h2 : j = a
      · rw [if_pos h2, if_pos h2, hW.recv_dual, hW.end_dual]
      · rw [if_neg h2, if_neg h2, if_neg h1, hW.end_dual]

theorem typeOf_skip {a b cs t g i} (h1 : i ≠ a) (h2 : i ≠ b) :
    typeOf timed M roles (.msg a b cs t g) i = typeOf timed M roles g i := by
  have e : sessionOf timed M roles (.msg a b cs t g) i = sessionOf timed M roles g i := by
    funext j
    simp only [sessionOf]
    rw [if_neg (fun h => h1 h.1), if_neg (fun h => h2 h.1)]
  unfold typeOf
  rw [e]
  simp only [stackOf, h1, h2, if_false]

/-- What a protocol prescribes can be called. -/
theorem next_offers (hW : Lawful W timed M roles) (g : Proto) (hg : g.Valid W roles.length) {i : Nat}
    (hi : IsRole roles.length i) {m next} (h : Next timed M roles g i m next) :
    Offers W timed M roles m (typeOf timed M roles g i) next := by
  induction g with
  | fin =>
    obtain ⟨rfl, rfl⟩ := h
    exact offers_close.2 ⟨nameTy (roleName roles i), hW.name_name _, rfl, rfl⟩
  | msg a b cs t g ih =>
    obtain ⟨ha, hb, hab, hcs, ht, hg⟩ := hg
    simp only [Next] at h
    by_cases h1 : i = a
    · subst h1
      rw [if_pos rfl] at h
      obtain ⟨rfl, rfl⟩ := h
      refine offers_send.2 ⟨i, b, sessionOf timed M roles (.msg i b cs t g) i, cs, t, sessionOf timed M roles g i b, stackOf roles g i, hi, hb, hab, hcs, ?_, ?_,
        ht, sessionOf_session hW g hg _ _, stackOf_role hW g _, ?_, ?_⟩
      rotate_left
      · unfold typeOf; simp only [stackOf, if_true]
      · intro q _ _ h2
        simp only [sessionOf, h2, and_false, if_false]
        split
        · exact hW.recv_session _ _ _ ht (sessionOf_session hW g hg _ _)
        · exact sessionOf_session hW g hg _ _
      · congr 1
        unfold typeOf
        apply meshTy_congr _ hi
        intro q hq hqi
        by_cases e : q = b
        · simp [e]
        · simp [sessionOf, e, hqi, hab]
      · simp [sessionOf]
    · rw [if_neg h1] at h
      by_cases h2 : i = b
      · subst h2
        rw [if_pos rfl] at h
        obtain ⟨rfl, rfl⟩ := h
        refine offers_recv.2 ⟨i, a, sessionOf timed M roles (.msg a i cs t g) i, cs, t, sessionOf timed M roles g i a, stackOf roles g i, hi, ha, h1, hcs, ?_, ?_,
          ht, sessionOf_session hW g hg _ _, stackOf_role hW g _, ?_, ?_⟩
        rotate_left
        · unfold typeOf; simp only [stackOf, if_neg h1, if_true]
        · intro q _ _ h2
          simp only [sessionOf, h2, and_false, if_false, h1, false_and]
          exact sessionOf_session hW g hg _ _
        · congr 1
          unfold typeOf
          apply meshTy_congr _ hi
          intro q hq hqi
          by_cases e : q = a
          · simp [e]
          · simp [sessionOf, e, h1]
        · simp [sessionOf, h1]
      · rw [if_neg h2] at h
        rw [typeOf_skip h1 h2]
        exact ih hg h
  | choice a cs l r _ _ =>
    obtain ⟨ha, hcs, hl, hr⟩ := hg
    simp only [Next] at h
    by_cases h1 : i = a
    · subst h1
      rw [if_pos rfl] at h
      let B : Bool → Nat → Nat → RTy := fun right => sessionOf timed M roles (if right then r else l)
      let P : Bool → Nat → RTy := fun right => stackOf roles (if right then r else l)
      have hv : ∀ right : Bool, (if right then r else l).Valid W roles.length := by intro x; cases x <;> assumption
      have hB : ∀ right, BranchOk W roles.length i (B right) := fun right =>
        ⟨fun j q _ _ _ _ hlt => (sessionOf_dual hW _ (hv right) (by omega)).symm,
          fun j q _ _ _ _ _ => sessionOf_session hW _ (hv right) _ _, fun j _ _ => sessionOf_session hW _ (hv right) _ _⟩
      have ht : typeOf timed M roles (.choice i cs l r) i = chooseTy timed M roles i cs B P := by
        unfold typeOf chooseTy
        simp only [stackOf, if_true]
        apply meshTy_congr _ hi
        intro q hq hqi
        simp [sessionOf, B, P]
      have hnext : ∀ right : Bool, typeOf timed M roles (if right then r else l) i =
          meshTy M roles i (fun q => W.dual (B right q i)) (P right i) := by
        intro right
        unfold typeOf
        apply meshTy_congr _ hi
        intro q hq hqi
        exact (sessionOf_dual hW _ (hv right) hqi).symm
      rcases h with ⟨rfl, rfl⟩ | ⟨rfl, rfl⟩
      · exact (offers_choose false).2 ⟨i, cs, B, P, hi, hcs, hB, fun _ _ _ => stackOf_role hW _ _, ht, by
          rw [← hnext false]; rfl⟩
      · exact (offers_choose true).2 ⟨i, cs, B, P, hi, hcs, hB, fun _ _ _ => stackOf_role hW _ _, ht, by
          rw [← hnext true]; rfl⟩
    · rw [if_neg h1] at h
      have hF : ∀ q, q ≠ a → sessionOf timed M roles (.choice a cs l r) i q = endTy := by
        intro q hq; simp [sessionOf, h1, hq]
      have ht : typeOf timed M roles (.choice a cs l r) i =
          meshTy M roles i (sessionOf timed M roles (.choice a cs l r) i) (allToTy (roleName roles a)) := by
        unfold typeOf; simp only [stackOf, if_neg h1]
      rcases h with ⟨rfl, rfl⟩ | ⟨rfl, rfl⟩
      · rw [ht]
        refine offers_offer.2 ⟨i, a, _, cs, sessionOf timed M roles l i, sessionOf timed M roles r i, stackOf roles l i,
          stackOf roles r i, hi, ha, h1, hcs, ?_, ?_, rfl, fun q _ _ => sessionOf_session hW l hl _ _,
          fun q _ _ => sessionOf_session hW r hr _ _, stackOf_role hW l _, stackOf_role hW r _, rfl⟩
        · simp [sessionOf, h1]
        · intro q _ _ hq; exact hF q hq
      · rw [ht]
        refine offers_recvFromAll.2 ⟨i, a, _, cs, _, endTy, hi, ha, h1, hcs, by
          simp only [sessionOf, if_neg h1, if_true]; rfl, rfl, ?_, hW.end_session, ?_, ?_⟩
        · exact hW.mesh_payload _ _ _ _ _ (fun q => sessionOf_session hW l hl _ _)
            (fun q => sessionOf_session hW r hr _ _) (stackOf_role hW l _) (stackOf_role hW r _)
        · intro q _ _ hq; rw [hF q hq]; exact hW.end_session
        · congr 1
          apply meshTy_congr _ hi
          intro q _ _
          by_cases e : q = a
          · simp [e]
          · simp [e, hF q e]

/-- Some call is prescribed. -/
theorem next_exists (g : Proto) (i : Nat) : ∃ m next, Next timed M roles g i m next ∧ m ≠ .cancel := by
  induction g with
  | fin => exact ⟨_, _, ⟨rfl, rfl⟩, by simp⟩
  | msg a b cs t g ih =>
    simp only [Next]
    split
    · exact ⟨_, _, ⟨rfl, rfl⟩, by simp⟩
    · split
      · exact ⟨_, _, ⟨rfl, rfl⟩, by simp⟩
      · exact ih
  | choice a cs l r _ _ =>
    simp only [Next]
    split
    · exact ⟨_, _, .inl ⟨rfl, rfl⟩, by simp⟩
    · exact ⟨_, _, .inl ⟨rfl, rfl⟩, by simp⟩

/-- The prescribed calls are closed under groups. -/
theorem next_group {g : Proto} {i : Nat} {m next} (h : Next timed M roles g i m next) {m'} {a : Shape} (h1 : a.has m)
    (h2 : a.has m') : ∃ next', Next timed M roles g i m' next' := by
  induction g with
  | fin =>
    obtain ⟨rfl, rfl⟩ := h
    cases a <;> simp [Shape.has] at h1 h2
    subst h2
    exact ⟨_, rfl, rfl⟩
  | msg x y cs t g ih =>
    simp only [Next] at h ⊢
    split at h
    · simp only [if_pos ‹i = _›]
      obtain ⟨rfl, rfl⟩ := h
      cases a <;> simp [Shape.has] at h1 h2
      subst h2
      exact ⟨_, rfl, rfl⟩
    · simp only [if_neg ‹¬ i = _›]
      split at h
      · simp only [if_pos ‹i = _›]
        obtain ⟨rfl, rfl⟩ := h
        cases a <;> simp [Shape.has] at h1 h2
        subst h2
        exact ⟨_, rfl, rfl⟩
      · simp only [if_neg ‹¬ i = _›]
        exact ih h
  | choice x cs l r _ _ =>
    simp only [Next] at h ⊢
    split at h
    · simp only [if_pos ‹i = _›]
      rcases h with ⟨rfl, rfl⟩ | ⟨rfl, rfl⟩ <;> cases a <;> simp [Shape.has] at h1 h2 <;> rcases h2 with rfl | rfl
      · exact ⟨_, .inl ⟨rfl, rfl⟩⟩
      · exact ⟨_, .inr ⟨rfl, rfl⟩⟩
      · exact ⟨_, .inl ⟨rfl, rfl⟩⟩
      · exact ⟨_, .inr ⟨rfl, rfl⟩⟩
    · simp only [if_neg ‹¬ i = _›]
      rcases h with ⟨rfl, rfl⟩ | ⟨rfl, rfl⟩ <;> cases a <;> simp [Shape.has] at h1 h2 <;> rcases h2 with rfl | rfl
      · exact ⟨_, .inl ⟨rfl, rfl⟩⟩
      · exact ⟨_, .inr ⟨rfl, rfl⟩⟩
      · exact ⟨_, .inl ⟨rfl, rfl⟩⟩
      · exact ⟨_, .inr ⟨rfl, rfl⟩⟩

theorem cancel_offered (hW : Lawful W timed M roles) (g : Proto) (hg : g.Valid W roles.length) (i : Nat) :
    Offers W timed M roles .cancel (typeOf timed M roles g i) [] := by
  refine offers_cancel.2 ⟨fun k => sessionOf timed M roles g i (partner i k), stackOf roles g i,
    nameTy (roleName roles i), fun k _ _ => sessionOf_session hW g hg _ _, stackOf_role hW g i, hW.name_name _, rfl, rfl⟩

/-- The calls on the type of a role are those the protocol prescribes. -/
theorem offers_protocol (hW : Lawful W timed M roles) (hn : roles.Nodup) (g : Proto) (hg : g.Valid W roles.length)
    {i : Nat} (hi : IsRole roles.length i) {m next} :
    Offers W timed M roles m (typeOf timed M roles g i) next ↔
      Next timed M roles g i m next ∨ (m = .cancel ∧ next = []) := by
  constructor
  · intro h
    by_cases hm : m = .cancel
    · subst hm
      exact .inr ⟨rfl, offers_unique hn h (cancel_offered hW g hg i)⟩
    · obtain ⟨m', next', h', hm'⟩ := next_exists (timed := timed) (M := M) (roles := roles) g i
      obtain ⟨a, h1, h2⟩ := offers_group hn (next_offers hW g hg hi h') h hm' hm
      obtain ⟨next'', h''⟩ := next_group h' h1 h2
      rw [offers_unique hn h (next_offers hW g hg hi h'')]
      exact .inl h''
  · rintro (h | ⟨rfl, rfl⟩)
    · exact next_offers hW g hg hi h
    · exact cancel_offered hW g hg i

/-- What comes after a prescribed call. -/
theorem next_path {g : Proto} {i : Nat} {m next t' ms} (h : Next timed M roles g i m next) (hm : m ≠ .recvFromAll)
    (hc : m ≠ .close) (ht : t' ∈ next) (hg : g.Valid W roles.length) :
    ∃ g', t' = typeOf timed M roles g' i ∧ g'.Valid W roles.length ∧
      (Path g' i ms → Path g i (m :: ms)) := by
  induction g with
  | fin => exact absurd h.1 hc
  | msg a b cs t g ih =>
    obtain ⟨_, _, _, _, _, hg⟩ := hg
    simp only [Next] at h
    split at h
    · obtain ⟨rfl, rfl⟩ := h
      refine ⟨g, by simpa using ht, hg, fun hp => ?_⟩
      simp only [Path]; rw [if_pos ‹_›]; exact ⟨_, rfl, hp⟩
    · split at h
      · obtain ⟨rfl, rfl⟩ := h
        refine ⟨g, by simpa using ht, hg, fun hp => ?_⟩
        simp only [Path]; rw [if_neg ‹_›, if_pos ‹_›]; exact ⟨_, rfl, hp⟩
      · obtain ⟨g', h1, h2, h4⟩ := ih h hg
        refine ⟨g', h1, h2, fun hp => ?_⟩
        simp only [Path]; rw [if_neg ‹_›, if_neg ‹_›]; exact h4 hp
  | choice a cs l r _ _ =>
    obtain ⟨_, _, hl, hr⟩ := hg
    simp only [Next] at h
    split at h
    · rcases h with ⟨rfl, rfl⟩ | ⟨rfl, rfl⟩
      · refine ⟨l, by simpa using ht, hl, fun hp => ?_⟩
        simp only [Path]; rw [if_pos ‹_›]; exact .inl ⟨_, rfl, hp⟩
      · refine ⟨r, by simpa using ht, hr, fun hp => ?_⟩
        simp only [Path]; rw [if_pos ‹_›]; exact .inr ⟨_, rfl, hp⟩
    · rcases h with ⟨rfl, rfl⟩ | ⟨rfl, rfl⟩
      · simp only [List.mem_cons, List.not_mem_nil, or_false] at ht
        rcases ht with rfl | rfl
        · refine ⟨l, rfl, hl, fun hp => ?_⟩
          simp only [Path]; rw [if_neg ‹_›]; exact ⟨_, rfl, .inl hp⟩
        · refine ⟨r, rfl, hr, fun hp => ?_⟩
          simp only [Path]; rw [if_neg ‹_›]; exact ⟨_, rfl, .inr hp⟩
      · exact absurd rfl hm

theorem path_close {g : Proto} {i : Nat} {next} (h : Next timed M roles g i .close next) : Path g i [.close] := by
  induction g with
  | fin => rfl
  | msg a b cs t g ih =>
    simp only [Next] at h
    split at h
    · simp at h
    · split at h
      · simp at h
      · simp only [Path]; rw [if_neg ‹_›, if_neg ‹_›]; exact ih h
  | choice a cs l r _ _ =>
    simp only [Next] at h
    split at h <;> simp at h

theorem calls_path (hW : Lawful W timed M roles) (hn : roles.Nodup) {items : List Item}
    (hb : ∀ b, Item.block b ∈ items ↔ Emitted timed M roles b) {i : Nat} (hi : IsRole roles.length i) {t ms}
    (h : Calls W items t ms) : ∀ g : Proto, g.Valid W roles.length → t = typeOf timed M roles g i → Path g i ms := by
  induction h with
  | close h =>
    rintro g hg rfl
    rcases (offers_protocol hW hn g hg hi).1 ((has_iff hb).1 h) with h | h
    · exact path_close h
    · simp at h
  | step h1 h2 h3 h ht _ ih =>
    rintro g hg rfl
    rcases (offers_protocol hW hn g hg hi).1 ((has_iff hb).1 h) with h | h
    · obtain ⟨g', e1, e2, e3⟩ := next_path h h2 h3 ht hg
      exact e3 (ih g' e2 e1)
    · exact absurd h.1 h1

theorem path_calls (hW : Lawful W timed M roles) {items : List Item}
    (hb : ∀ b, Item.block b ∈ items ↔ Emitted timed M roles b) {i : Nat} (hi : IsRole roles.length i) (g : Proto)
    (hg : g.Valid W roles.length) : ∀ ms, Path g i ms → Calls W items (typeOf timed M roles g i) ms := by
  have hN : ∀ {g : Proto} (_ : g.Valid W roles.length) {m next}, Next timed M roles g i m next →
      Has W items m (typeOf timed M roles g i) next := fun hg _ _ h => (has_iff hb).2 (next_offers hW _ hg hi h)
  induction g with
  | fin =>
    rintro ms rfl
    exact .close (hN hg ⟨rfl, rfl⟩)
  | msg a b cs t g ih =>
    intro ms h
    simp only [Path] at h
    split at h
    · obtain ⟨rest, rfl, h⟩ := h
      exact .step (by simp) (by simp) (by simp) (hN hg (by unfold Next; rw [if_pos ‹_›]; exact ⟨rfl, rfl⟩))
        (List.mem_singleton.2 rfl) (ih hg.2.2.2.2.2 rest h)
    · split at h
      · obtain ⟨rest, rfl, h⟩ := h
        exact .step (by simp) (by simp) (by simp)
          (hN hg (by unfold Next; rw [if_neg ‹_›, if_pos ‹_›]; exact ⟨rfl, rfl⟩))
          (List.mem_singleton.2 rfl) (ih hg.2.2.2.2.2 rest h)
      · rw [typeOf_skip ‹_› ‹_›]
        exact ih hg.2.2.2.2.2 ms h
  | choice a cs l r ihl ihr =>
    intro ms h
    simp only [Path] at h
    split at h
    · rcases h with ⟨rest, rfl, h⟩ | ⟨rest, rfl, h⟩
      · exact .step (by simp) (by simp) (by simp)
          (hN hg (by unfold Next; rw [if_pos ‹_›]; exact .inl ⟨rfl, rfl⟩))
          (List.mem_singleton.2 rfl) (ihl hg.2.2.1 rest h)
      · exact .step (by simp) (by simp) (by simp)
          (hN hg (by unfold Next; rw [if_pos ‹_›]; exact .inr ⟨rfl, rfl⟩))
          (List.mem_singleton.2 rfl) (ihr hg.2.2.2 rest h)
    · obtain ⟨rest, rfl, h | h⟩ := h
      · exact .step (by simp) (by simp) (by simp)
          (hN hg (by unfold Next; rw [if_neg ‹_›]; exact .inl ⟨rfl, rfl⟩))
          (List.mem_cons_self ..) (ihl hg.2.2.1 rest h)
      · exact .step (by simp) (by simp) (by simp)
          (hN hg (by unfold Next; rw [if_neg ‹_›]; exact .inl ⟨rfl, rfl⟩))
          (by simp) (ihr hg.2.2.2 rest h)

end Verif.Baking
