import Verif.Proof.RuntimeRel
/-!
# The runtime follows the queues: common lemmas and the steps that only use existing meshes
-/
namespace Verif.Runtime
open Verif.Mesh (Sys Name Sess Stack Label upd Part Global project S others mem_others)
open Verif.Types (STy)
open Verif.Heap hiding upd
open Verif.Spec Verif.SendRecv
open Verif.Gen (slot_partner partner_slot slot_range partner_role slotOf_inj partner_inj pr)

variable {n : Nat} {D : Global} {root : Name} {ls : List Label} {dead : Nat → Bool} {h : Heap.St Pay} {pos : Nat → Pos} {s : S} {id : Ids} {T : Nat}

/-! ## Names of sessions -/

theorem Rel.key (R : Rel n D root ls dead h pos s id T) {g g' p q p' q'} (hg : g ≤ T) (hg' : g' ≤ T) (hp : Part n p) (hq : Part n q)
    (hne : p ≠ q) (hp' : Part n p') (hq' : Part n q') (hne' : p' ≠ q') :
    (id g p q = id g' p' q' ∧ side q p = side q' p') ↔ (g, p, q) = (g', p', q') := by
  constructor
  · rintro ⟨h1, h2⟩
    obtain ⟨rfl, ⟨rfl, rfl⟩ | ⟨rfl, rfl⟩⟩ := R.inj g g' p q p' q' hg hg' hp hq hne hp' hq' hne' h1
    · rfl
    · rw [side_not hne] at h2; cases hs : side p q <;> rw [hs] at h2 <;> cases h2
  · intro h1; cases h1; exact ⟨rfl, rfl⟩

theorem Rel.top_le (w : Global.Wf n D) (R : Rel n D root ls dead h pos s id T) {r} (hr : Part n r) : gst s r ≤ T := by
  obtain ⟨G, hI, rfl⟩ := R.inv
  exact (top_of hI w).1 r hr

theorem Rel.gen_le (w : Global.Wf n D) (R : Rel n D root ls dead h pos s id T) {r} (hr : Part n r) : s.gen r ≤ T :=
  Nat.le_trans (gen_le_gst s r) (R.top_le w hr)

/-! ## The peers exist -/

theorem Rel.telling_of (R : Rel n D root ls dead h pos s id T) {r N rest} (hr : Part n r) (hs : s.pos r = .telling N rest) :
    ∃ todo old own, pos r = .telling N todo old own ∧ rest = todo.map fun p => partner r p.1 := by
  have := R.posr r hr
  cases hp : pos r with
  | mesh sl k => rw [hp] at this; obtain ⟨M, h1, -⟩ := this; rw [hs] at h1; cases h1
  | ending i sl => rw [hp] at this; obtain ⟨M, h1, -⟩ := this; rw [hs] at h1; cases h1
  | closed => rw [hp] at this; obtain ⟨M, h1, -⟩ := this; rw [hs] at h1; cases h1
  | telling N' todo old own =>
    rw [hp] at this
    obtain ⟨h1, -⟩ := this
    rw [hs] at h1; cases h1
    exact ⟨todo, old, own, rfl, rfl⟩

/-- Role `q` still has, or will receive, its endpoint of every session created since its newest mesh. -/
theorem Rel.holder (w : Global.Wf n D) (R : Rel n D root ls dead h pos s id T) (live : ∀ x, Part n x → dead x = false) {q : Nat} (hq : Part n q)
    (hc : pos q ≠ .closed) : ∀ g, gst s q ≤ g → g ≤ T → ∀ p, Part n p → p ≠ q →
      ∃ e, Prin (env (project n D)) h e ∧ e.ep.sid = id g q p ∧ e.ep.side = side q p := by
  intro g hg
  induction hg with
  | refl =>
    intro hT p hp hne
    have hpos := R.posr q hq
    have hmem : ∀ e, e ∈ own (pos q) → Prin (env (project n D)) h e := fun e he => Or.inl (R.mem hq (live q hq) he)
    cases hP : pos q with
    | closed => exact absurd hP hc
    | mesh sl k =>
      rw [hP] at hpos hmem
      obtain ⟨M, h1, -, h2⟩ := hpos
      obtain ⟨e, h3, h4, h5, -⟩ := h2.slot p hp hne
      have : gst s q = s.gen q := by simp [gst, h1]
      exact ⟨e, hmem e (List.mem_of_getElem? h3), by rw [this]; exact h4, h5⟩
    | ending i sl =>
      rw [hP] at hpos hmem
      obtain ⟨M, h1, -, h2, -⟩ := hpos
      obtain ⟨e, h3, h4, h5, -⟩ := h2.slot p hp hne
      have : gst s q = s.gen q := by simp [gst, h1]
      exact ⟨e, hmem e (List.mem_of_getElem? h3), by rw [this]; exact h4, h5⟩
    | telling N todo old ow =>
      rw [hP] at hpos hmem
      obtain ⟨h1, h2, -⟩ := hpos
      obtain ⟨e, h3, h4, h5, -⟩ := h2.slot p hp hne
      have : gst s q = s.gen q + 1 := by simp [gst, h1]
      refine ⟨e, hmem e ?_, by rw [this]; exact h4, h5⟩
      simp only [own, List.mem_append]
      exact .inr (.inr (List.mem_of_getElem? h3))
  | @step g hg ih =>
    intro hT p hp hne
    have hg : gst s q ≤ g := hg
    obtain ⟨G, hI, rfl⟩ := R.inv
    rw [← gst_eq hI hq] at hg
    obtain ⟨p0, hp0, hne0, hmsg⟩ := Mesh.announced w hI hq hg (by omega)
    rcases hmsg with hmsg | ⟨rest, t1, t2, t3⟩
    · -- on its way
      obtain ⟨e, he, he1, he2⟩ := ih (by omega) p0 hp0 hne0
      have hqueue := R.queue g p0 q (by omega) hp0 hq hne0
      obtain ⟨⟨t, v⟩, hx, hrel⟩ : ∃ x, x ∈ pending h.trace (id g p0 q) (side q p0) ∧ MsgRel n D id g q (.branch (G.path (g + 1))) x := by
        obtain ⟨i, hi, hget⟩ := List.getElem_of_mem hmsg
        have hi' : i < (pending h.trace (id g p0 q) (side q p0)).length := by rw [← hqueue.length_eq]; exact hi
        refine ⟨_, List.getElem_mem hi', ?_⟩
        have := hqueue.get hi hi'
        simp only [List.get_eq_getElem, hget] at this
        exact this
      obtain ⟨⟨bs, rfl, hN⟩, htag, ms, hms, hok⟩ := hrel
      rw [R.idc, ← he1, ← he2] at hx
      obtain ⟨tys, hG, -, hall⟩ := (reach_inv R.reach).travels he hx
      have htys : tys = slotTys (project n D) (G.path (g + 1)) q := by
        simp only [env] at hG
        rw [htag, if_pos hN] at hG
        exact (Option.some.inj hG).symm
      rw [htys, hms, (hok.tys hq).1] at hall
      obtain ⟨e', h3, h4, h5, -⟩ := hok.slot p hp hne
      exact ⟨e', hall e' (List.mem_of_getElem? h3), h4, h5⟩
    · -- about to be sent
      obtain ⟨todo, old, ow, hpos, hrest⟩ := R.telling_of hp0 t1
      rw [hrest] at t3
      obtain ⟨⟨k, ms⟩, hk, hkq⟩ := List.mem_map.1 t3
      have := R.posr p0 hp0
      rw [hpos] at this
      obtain ⟨-, -, hall⟩ := this
      obtain ⟨-, -, hok, -⟩ := hall _ hk
      simp only at hkq hok
      rw [hkq, t2] at hok
      obtain ⟨e', h3, h4, h5, -⟩ := hok.slot p hp hne
      refine ⟨e', Or.inl (R.mem hp0 (live p0 hp0) ?_), h4, h5⟩
      rw [hpos]
      simp only [own, List.mem_append, List.mem_flatMap]
      exact .inr (.inl ⟨_, hk, List.mem_of_getElem? h3⟩)

/-! ## Steps of one role -/

theorem PosRel.congr {s s' : S} {r p} (hp : PosRel n D id s r p) (h1 : s'.pos r = s.pos r) (h2 : s'.gen r = s.gen r) :
    PosRel n D id s' r p := by
  unfold PosRel at *
  rw [h1, h2]; exact hp

/-- What does not change when role `r` takes a step with existing meshes. -/
theorem Rel.next (R : Rel n D root ls dead h pos s id T) {r : Nat} (hr : Part n r) (hl : dead r = false) {ls' h' p' s'}
    (reach : Reach (env (project n D)) h')
    (inv : ∃ G, Mesh.Inv n D root G ls' s' ∧ G.top = T)
    (nsid : h'.nsid = h.nsid)
    (same : ∀ x, x ≠ r → s'.pos x = s.pos x ∧ s'.gen x = s.gen x)
    (posr : PosRel n D id s' r p')
    (perm : h'.pool.Perm (own p' ++ (others n r).flatMap (held dead pos)))
    (queue : ∀ g p q, g ≤ T → Part n p → Part n q → p ≠ q →
      List.Forall₂ (MsgRel n D id g q) (s'.queue (g, p, q)) (pending h'.trace (id g p q) (side q p)))
    (sig : ∀ x t r', Ends (env (project n D)) h' x t r' → ∀ g p q, g ≤ T → Part n p → Part n q → p ≠ q →
      x.ep.sid = id g p q → x.ep.side = side p q →
      ((h'.chan t).buf = expect n T (upd pos r p') g p q ∨ (h'.chan t).buf = none) ∧ (h'.chan r').buf = expect n T (upd pos r p') g q p)
    (got : ∀ p q, Part n p → Part n q → p ≠ q → gotFrom n q p (upd pos r p' q) = true →
      sentTo p q (upd pos r p' p) = true) :
    Rel n D root ls' dead h' (upd pos r p') s' id T := by
  refine ⟨reach, inv, R.idc, R.inj, fun g p q a b c d => by rw [nsid]; exact R.lt g p q a b c d,
    by rw [nsid]; exact R.sur, ?_,
    perm.trans (flat_upd hr hl pos p').symm, queue, sig, got⟩
  intro x hx
  by_cases e : x = r
  · subst e; simpa [upd] using posr
  · simp only [upd, if_neg e]
    exact (R.posr x hx).congr (same x e).1 (same x e).2

/-- Positions with the same signals. -/
def Alike (n r : Nat) (a b : Pos) : Prop :=
  ∀ q, Part n q → q ≠ r → sentTo r q a = sentTo r q b ∧ gotFrom n r q a = gotFrom n r q b

theorem Alike.sent {r : Nat} {p' : Pos} (hA : Alike n r (pos r) p') {p q} (hq : Part n q) (hne : p ≠ q) :
    sentTo p q (upd pos r p' p) = sentTo p q (pos p) := by
  by_cases e : p = r
  · subst e; simp only [upd, if_true]; exact ((hA q hq hne.symm).1).symm
  · simp [upd, e]

theorem Alike.gotten {r : Nat} {p' : Pos} (hA : Alike n r (pos r) p') {p q} (hq : Part n q) (hne : p ≠ q) :
    gotFrom n p q (upd pos r p' p) = gotFrom n p q (pos p) := by
  by_cases e : p = r
  · subst e; simp only [upd, if_true]; exact ((hA q hq hne.symm).2).symm
  · simp [upd, e]

theorem Alike.expect {r : Nat} {p' : Pos} (hA : Alike n r (pos r) p') {g p q} (hp : Part n p) (hq : Part n q) (hne : p ≠ q) :
    expect n T (upd pos r p') g p q = expect n T pos g p q := by
  unfold Runtime.expect; rw [hA.sent hq hne, hA.gotten hp hne.symm]

theorem Rel.got_alike (R : Rel n D root ls dead h pos s id T) {r : Nat} {p' : Pos} (hA : Alike n r (pos r) p') :
    ∀ p q, Part n p → Part n q → p ≠ q → gotFrom n q p (upd pos r p' q) = true → sentTo p q (upd pos r p' p) = true := by
  intro p q hp hq hne h1
  rw [hA.gotten hp hne.symm] at h1
  rw [hA.sent hq hne]
  exact R.got p q hp hq hne h1

/-- When the ends of sessions stay as they are. -/
theorem Rel.sig_alike (R : Rel n D root ls dead h pos s id T) {r : Nat} {p' : Pos} (hA : Alike n r (pos r) p') {h' : Heap.St Pay}
    (hE : ∀ x t r', Ends (env (project n D)) h' x t r' → Ends (env (project n D)) h x t r' ∧
      (h'.chan t).buf = (h.chan t).buf ∧ (h'.chan r').buf = (h.chan r').buf) :
    ∀ x t r', Ends (env (project n D)) h' x t r' → ∀ g p q, g ≤ T → Part n p → Part n q → p ≠ q →
      x.ep.sid = id g p q → x.ep.side = side p q →
      ((h'.chan t).buf = expect n T (upd pos r p') g p q ∨ (h'.chan t).buf = none) ∧ (h'.chan r').buf = expect n T (upd pos r p') g q p := by
  intro x t r' hx g p q hg hp hq hne h1 h2
  obtain ⟨e1, e2, e3⟩ := hE x t r' hx
  rw [hA.expect hp hq hne, hA.expect hq hp hne.symm, e2, e3]
  exact R.sig x t r' e1 g p q hg hp hq hne h1 h2

end Verif.Runtime
