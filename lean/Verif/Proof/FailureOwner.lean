import Verif.Proof.FailureStep
import Verif.Proof.RuntimeFull
import Verif.Proof.HeapDoomed
/-!
# Who holds an endpoint
-/
namespace Verif.Runtime
open Verif.Mesh (Sys Name Sess Stack Label upd Part Global project S others mem_others Finished)
open Verif.Types (STy)
open Verif.Heap hiding upd
open Verif.Spec Verif.SendRecv
open Verif.Gen (slot_partner partner_slot slot_range partner_role slotOf_inj partner_inj)

variable {n : Nat} {D : Global} {root : Name} {ls : List Label} {dead : Nat → Bool} {h : Heap.St Pay} {pos : Nat → Pos} {s : S} {id : Ids} {T : Nat}

/-- Role `p` may still use its endpoints of the first `g` choices: it is alive and has not closed, or a living role is about
to send it a mesh. -/
def Served (n : Nat) (dead : Nat → Bool) (pos : Nat → Pos) (gen : Nat → Nat) (g p : Nat) : Prop :=
  (dead p = false ∧ pos p ≠ .closed) ∨ ∃ x N todo old ow, Part n x ∧ dead x = false ∧ pos x = .telling N todo old ow ∧
    gen x + 1 ≤ g ∧ ∃ t ∈ todo, partner x t.1 = p

theorem Served.mono {gen : Nat → Nat} {g g' p : Nat} (h : Served n dead pos gen g p) (hg : g ≤ g') : Served n dead pos gen g' p := by
  rcases h with h | ⟨x, N, todo, old, ow, h1, h2, h3, h4, h5⟩
  · exact .inl h
  · exact .inr ⟨x, N, todo, old, ow, h1, h2, h3, by omega, h5⟩

/-- A held endpoint. -/
theorem Rel.owner_pool (w : Global.Wf n D) (R : Rel n D root ls dead h pos s id T) {e : Entry Pay} (he : e ∈ h.pool) {g p q}
    (hg : g ≤ T) (hp : Part n p) (hq : Part n q) (hne : p ≠ q) (h1 : e.ep.sid = id g p q) (h2 : e.ep.side = side p q) :
    Served n dead pos s.gen g p := by
  have hm := R.perm.mem_iff.1 he
  obtain ⟨x, hx, hm⟩ := List.mem_flatMap.1 hm
  rw [List.mem_range'_1] at hx
  have hx : Part n x := ⟨by omega, by omega⟩
  have hd : dead x = false := by
    cases hd : dead x with
    | false => rfl
    | true => simp [held, hd] at hm
  rw [held_live hd] at hm
  -- the endpoints of `y`'s meshes are those of `y`
  have key : ∀ {g' y F sl}, g' ≤ T → Part n y → MeshOK n id g' y F sl → e ∈ sl → y = p ∧ g' = g := by
    intro g' y F sl hg' hy hok hm
    obtain ⟨z, z1, z2, z3, z4, -⟩ := hok.mem hy hm
    have := (R.key hg hg' hq hp (Ne.symm hne) z1 hy z2).1
      ⟨by rw [R.idc, ← h1, z3, R.idc], by rw [← h2, z4]⟩
    simp only [Prod.mk.injEq] at this
    exact ⟨this.2.2.symm, this.1.symm⟩
  have hT := R.top_le w hx
  have hpos := R.posr x hx
  cases hP : pos x with
  | closed => rw [hP] at hm; cases hm
  | mesh sl k =>
    rw [hP] at hm hpos
    obtain ⟨M, -, -, hok⟩ := hpos
    have := (key (R.gen_le w hx) hx hok hm).1
    subst this
    exact .inl ⟨hd, by rw [hP]; simp⟩
  | ending i sl =>
    rw [hP] at hm hpos
    obtain ⟨M, -, -, hok, -⟩ := hpos
    have := (key (R.gen_le w hx) hx hok hm).1
    subst this
    exact .inl ⟨hd, by rw [hP]; simp⟩
  | telling N todo old ow =>
    rw [hP] at hm hpos
    obtain ⟨t1, t2, t3⟩ := hpos
    have hg1 : s.gen x + 1 ≤ T := by simpa [gst, t1] using hT
    simp only [own, List.mem_append, List.mem_filterMap, List.mem_flatMap] at hm
    rcases hm with ⟨t, ht, hm⟩ | ⟨t, ht, hm⟩ | hm
    · obtain ⟨k1, k2, -, e', bs, e1, e2, e3, -⟩ := t3 t ht
      obtain ⟨a1, a2⟩ := partner_role (isRole hx) k1 k2
      rw [hm] at e1; cases e1
      have := (R.key hg (by omega : s.gen x ≤ T) hq hp (Ne.symm hne) (ofRole a1) hx a2).1
        ⟨by rw [R.idc, ← h1, e2, R.idc], by rw [← h2, e3]⟩
      simp only [Prod.mk.injEq] at this
      obtain ⟨-, -, rfl⟩ := this
      exact .inl ⟨hd, by rw [hP]; simp⟩
    · obtain ⟨k1, k2, hok, -⟩ := t3 t ht
      obtain ⟨a1, a2⟩ := partner_role (isRole hx) k1 k2
      obtain ⟨k3, k4⟩ := key hg1 (ofRole a1) hok hm
      exact .inr ⟨x, N, todo, old, ow, hx, hd, hP, by omega, t, ht, k3⟩
    · have := (key hg1 hx t2 hm).1
      subst this
      exact .inl ⟨hd, by rw [hP]; simp⟩

/-- An endpoint that exists is held by its role, or by a role about to send it, or is on its way to a role for which this
is true, or is bound to be dropped. -/
theorem Rel.owner (w : Global.Wf n D) (R : Rel n D root ls dead h pos s id T) : ∀ g, g ≤ T →
    ∀ e, Prin (env (project n D)) h e → ∀ p q, Part n p → Part n q → p ≠ q → e.ep.sid = id g p q → e.ep.side = side p q →
      Served n dead pos s.gen g p ∨ Lost h e := by
  intro g
  induction g using Nat.strongRecOn with
  | _ g ih =>
  intro hg e he p q hp hq hne h1 h2
  rcases he with he | ⟨c, hc, he⟩
  · exact .inl (R.owner_pool w he hg hp hq hne h1 h2)
  · have inv := reach_inv R.reach
    have hout : Adrift h (.rx c) → Lost h e := fun hd t ht => .inside hc (mem_bufPrin_toks he (halves_sub ht)) hd
    unfold bufPrin at he
    cases hb : (h.chan c).buf with
    | none => rw [hb] at he; cases he
    | some m =>
      rw [hb] at he
      obtain ⟨hrx, hok⟩ := inv.bufs c m hb
      have hcnt : 0 < Heap.cnt h (.rx c) := by rw [inv.crx, hrx]; simp
      rcases inv.held' hcnt (by simp) with hdm | ⟨e2, he2, hm⟩
      · exact .inr (hout hdm)
      have wt := inv.occ e2 he2
      -- the session of the channel
      obtain ⟨g1, p1, q1, hg1, hp1, hq1, hne1, hid, hside⟩ : ∃ g1 p1 q1, g1 ≤ T ∧ Part n p1 ∧ Part n q1 ∧ p1 ≠ q1 ∧
          e2.ep.sid = id g1 p1 q1 ∧ e2.ep.side = side p1 q1 := by
        obtain ⟨g1, p1, q1, hgT, hp1, hq1, hne1, hid⟩ := R.sur _ wt.sid
        rcases side_pair (b := e2.ep.side) hne1 with e | e
        · exact ⟨g1, p1, q1, hgT, hp1, hq1, hne1, hid, e⟩
        · exact ⟨g1, q1, p1, hgT, hq1, hp1, Ne.symm hne1, by rw [hid, R.idc], e⟩
      cases m with
      | sig x =>
        exfalso
        simp only [MsgOk] at hok
        have hnode : ∃ t', e2.ep.node = .fin t' c := by
          unfold EP.halves at hm
          cases hn2 : e2.ep.node with
          | snd c' => rw [hn2] at hm; simp at hm
          | rcv c' =>
            rw [hn2] at hm; simp at hm; subst hm
            obtain ⟨_, _, _, w, t, s, hk, _⟩ := wt.ty.rcv hn2
            rw [hok] at hk; cases hk
          | fin t' r' => rw [hn2] at hm; simp at hm; exact ⟨t', by rw [hm]⟩
        obtain ⟨t', hn⟩ := hnode
        have hx := (R.sig e2 t' c ⟨he2, hn⟩ g1 p1 q1 hg1 hp1 hq1 hne1 hid hside).2
        rw [hb] at hx
        unfold expect at hx
        split at hx
        · cases hx; simp only [msgPrin, hok] at he; cases he
        · cases hx
      | data v k =>
        simp only [MsgOk] at hok
        obtain ⟨w', t', s', tys, hk, hG, hlen, hh, -⟩ := hok
        have hnode : e2.ep.node = .rcv c := by
          unfold EP.halves at hm
          cases hn2 : e2.ep.node with
          | snd c' => rw [hn2] at hm; simp at hm
          | rcv c' => rw [hn2] at hm; simp at hm; rw [hm]
          | fin t' r' =>
            rw [hn2] at hm; simp at hm
            have := (wt.ty.fin hn2).2.2.2.2.2.2.2.1
            rw [← hm, hk] at this; cases this
        obtain ⟨-, k2, -⟩ := wt.ty.rcv hnode
        rcases inv.root' _ e2 he2 (Nat.le_refl _) with hl | ⟨e', r1, r2, r3, r4, r5⟩
        · exact .inr (hout (hl _ hm))
        have hi : idxOf h e2.ep = (h.chan c).idx := by simp [idxOf, hnode]
        have hmem : (t', v) ∈ pending h.trace e'.ep.sid e'.ep.side := by
          rw [inv.pend r1]
          refine List.mem_of_getElem? (i := (h.chan c).idx - idxOf h e'.ep) ?_
          rw [List.getElem?_drop, r2, ← k2, show idxOf h e'.ep + ((h.chan c).idx - idxOf h e'.ep) = (h.chan c).idx by omega]
          exact hh
        rw [r2, r3, hid, hside, R.idc] at hmem
        have hqu := R.queue g1 q1 p1 hg1 hq1 hp1 (Ne.symm hne1)
        obtain ⟨i, hi, hget⟩ := List.getElem_of_mem hmem
        have hi' : i < (s.queue (g1, q1, p1)).length := by rw [hqu.length_eq]; exact hi
        have hrel := hqu.get hi' hi
        simp only [List.get_eq_getElem, hget] at hrel
        have hin : (s.queue (g1, q1, p1))[i] ∈ s.queue (g1, q1, p1) := List.getElem_mem hi'
        generalize (s.queue (g1, q1, p1))[i] = M at hrel hin
        have hen : e ∈ entries v.eps tys := by
          simpa only [msgPrin, hk, hG, Option.getD_some] using he
        cases M with
        | data m =>
          obtain ⟨-, -, h3⟩ := hrel
          rw [h3] at hen
          simp [entries] at hen
        | branch N =>
          obtain ⟨⟨bs, rfl, hN⟩, htag, ms, hms, hokm⟩ := hrel
          have htys : tys = slotTys (project n D) N p1 := by
            simp only [env] at hG
            rw [htag, if_pos hN] at hG
            exact (Option.some.inj hG).symm
          rw [htys, hms, (hokm.tys hp1).1] at hen
          have hg2 : g1 + 1 ≤ T := by
            obtain ⟨G, hI, rfl⟩ := R.inv
            have := Mesh.branch_gst hI hq1 hp1 (Ne.symm hne1) hin
            have := hI.le q1 hq1
            omega
          obtain ⟨z, z1, z2, z3, z4, -⟩ := hokm.mem hp1 hen
          have := (R.key hg hg2 hq hp (Ne.symm hne) z1 hp1 z2).1
            ⟨by rw [R.idc, ← h1, z3, R.idc], by rw [← h2, z4]⟩
          simp only [Prod.mk.injEq] at this
          obtain ⟨rfl, -, rfl⟩ := this
          rcases ih g1 (by omega) hg1 e' r1 p q1 hp hq1 hne1 (by rw [r2, hid]) (by rw [r3, hside]) with hsv | hl
          · exact .inl (hsv.mono (by omega))
          · exact .inr (hout (r5 hl _ hm))

/-- Nothing is left of the endpoints of a role that is not served, except what is bound to be dropped. -/
theorem Rel.gone (w : Global.Wf n D) (R : Rel n D root ls dead h pos s id T) {g p q} (hg : g ≤ T)
    (hp : Part n p) (hq : Part n q) (hne : p ≠ q) (e : Entry Pay) (he : Occ (env (project n D)) h e)
    (h1 : e.ep.sid = id g p q) (h2 : e.ep.side = side p q) : Served n dead pos s.gen g p ∨ Lost h e := by
  rcases (reach_inv R.reach).root' _ e he (Nat.le_refl _) with hl | ⟨e', r1, r2, r3, -, r5⟩
  · exact .inr hl
  · rcases R.owner w g hg e' r1 p q hp hq hne (by rw [r2, h1]) (by rw [r3, h2]) with hs | hl
    · exact .inl hs
    · exact .inr (r5 hl)

end Verif.Runtime
