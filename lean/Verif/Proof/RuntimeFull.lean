import Verif.Proof.RuntimeLive
import Verif.Prop.C07
import Mathlib.Algebra.Order.BigOperators.Group.List
import Mathlib.Algebra.Order.Group.Nat
/-!
# Every run of the queues is a run of the runtime, and what is left at the end
-/
namespace Verif.Mesh

/-- A label determines the step. -/
theorem Step.det {Y : Sys} {s s1 s2 : S} {l : Label} (h1 : Step Y s l s1) (h2 : Step Y s l s2) : s1 = s2 := by
  cases h1 <;> cases h2 <;> simp_all

end Verif.Mesh

namespace Verif.Runtime
open Verif.Mesh (Sys Name Sess Stack Label upd Part Global project S others mem_others Finished CanMove)
open Verif.Types (STy)
open Verif.Heap hiding upd
open Verif.Spec Verif.SendRecv
open Verif.Gen (slot_partner partner_slot slot_range partner_role slotOf_inj partner_inj)

variable {n : Nat} {D : Global} {root : Name} {ls : List Label} {h : Heap.St Pay} {pos : Nat → Pos} {s : S} {id : Ids} {T : Nat}

theorem Rel.mesh_of (R : Rel n D root ls nobody h pos s id T) {r M} (hr : Part n r) (hM : s.pos r = .mesh M) (hk : M.stack ≠ .fin) :
    ∃ sl, pos r = .mesh sl M.stack ∧ MeshOK n id (s.gen r) r M.sess sl := by
  have hpos := R.posr r hr
  cases hp : pos r with
  | closed => rw [hp] at hpos; obtain ⟨M', h1, h2⟩ := hpos; rw [hM] at h1; cases h1; exact absurd h2 hk
  | ending i sl => rw [hp] at hpos; obtain ⟨M', h1, h2, -⟩ := hpos; rw [hM] at h1; cases h1; exact absurd h2 hk
  | telling N todo old ow => rw [hp] at hpos; have h1 := hpos.1; rw [hM] at h1; cases h1
  | mesh sl k =>
    rw [hp] at hpos
    obtain ⟨M', h1, h2, h3⟩ := hpos
    rw [hM] at h1; cases h1
    subst h2
    exact ⟨sl, rfl, h3⟩

/-- Every step of the queues can be taken by the runtime. -/
theorem go_step (w : Global.Wf n D) (R : Rel n D root ls nobody h pos s id T) {l s'} (hs : Mesh.Step (project n D) s l s') :
    ∃ st id' T', RStep (project n D) h pos (.sim l) st ∧ Rel n D root (ls ++ [l]) nobody st.heap st.pos s' id' T' := by
  have hs0 := hs
  cases hs with
  | @send r M q k m K h1 h2 h3 h4 h5 =>
    have hr : Part n r := ⟨h1, h2⟩
    obtain ⟨sl, hp, hok⟩ := R.mesh_of hr h3 (by rw [h4]; simp)
    rw [h4] at hp
    obtain ⟨e, g', e', rest, sl'', g1, g2, g3, g4, g5, s', st, g6⟩ := send_spec w R hr rfl hp h3 h5 0
    cases st.det hs0
    exact ⟨⟨_, _⟩, id, T, .send h1 h2 hp g1 g2 g3 g4 g5, g6⟩
  | @recv r M q k m K x l h1 h2 h3 h4 h5 h6 =>
    have hr : Part n r := ⟨h1, h2⟩
    obtain ⟨sl, hp, hok⟩ := R.mesh_of hr h3 (by rw [h4]; simp)
    rw [h4] at hp
    obtain ⟨g0, e, v', g', e', rest, sl'', g1, g2, g3, g4, g5, s', st, g6⟩ := recv_spec w R hr rfl hp h3 h5 h6
    cases g0
    cases st.det hs0
    exact ⟨⟨_, _⟩, id, T, .recv h1 h2 hp g1 g2 g3 g4 g5, g6⟩
  | @decide r M bs N h1 h2 h3 h4 h5 h6 =>
    have hr : Part n r := ⟨h1, h2⟩
    obtain ⟨sl, hp, hok⟩ := R.mesh_of hr h3 (by rw [h4]; simp)
    rw [h4] at hp
    have hall : ∀ e ∈ sl, ∃ w q bs, e.ty = .send w (.enum q bs) .fin ∧ N ∈ bs := by
      intro e he
      obtain ⟨q, hq, hne, -, -, h7⟩ := hok.mem hr he
      rw [h5 q (mem_others.2 ⟨hq, hne⟩)] at h7
      exact ⟨_, _, bs, h7, h6⟩
    obtain ⟨body', g', k', l', m', ow', todo', g1, g2, g3, g4, g5, g6, s', id', -, st, g7⟩ := decide_spec w R hr rfl hp hall
    cases st.det hs0
    exact ⟨⟨_, _⟩, id', T + 1, .decide h1 h2 hp hall g1 g2 g3 g4 g5 g6, g7⟩
  | @tell r N q rest h1 h2 h3 =>
    have hr : Part n r := ⟨h1, h2⟩
    obtain ⟨todo, old, ow, hp, hrest⟩ := R.telling_of hr h3
    cases todo with
    | nil => cases hrest
    | cons x todo =>
      obtain ⟨k, ms⟩ := x
      simp only [List.map_cons, List.cons.injEq] at hrest
      obtain ⟨f, j1, f', rest', j2, g1, g2, g3, g4, s', st, g5⟩ := tell_spec w R hr rfl hp
      obtain ⟨rfl, -⟩ := hrest
      cases st.det hs0
      exact ⟨⟨_, _⟩, id, T, .tell h1 h2 hp g1 g2 g3 g4, g5⟩
  | @enter r N h1 h2 h3 =>
    have hr : Part n r := ⟨h1, h2⟩
    obtain ⟨todo, old, ow, hp, hrest⟩ := R.telling_of hr h3
    have : todo = [] := by cases todo with
      | nil => rfl
      | cons => cases hrest
    subst this
    obtain ⟨s', st, g5⟩ := enter_spec w R hr rfl hp
    cases st.det hs0
    exact ⟨⟨_, _⟩, id, T, .enter h1 h2 hp, g5⟩
  | @heed r M q bs N l h1 h2 h3 h4 h5 h6 =>
    have hr : Part n r := ⟨h1, h2⟩
    obtain ⟨sl, hp, hok⟩ := R.mesh_of hr h3 (by rw [h4]; simp)
    rw [h4] at hp
    obtain ⟨N', g0, e, v', j1, new', e', rest', sl', j2, g1, g2, g3, g4, g5, g6, g7, g8, s', st, g9⟩ :=
      heed_spec w R hr rfl hp h3 h5 h6
    cases g0
    cases st.det hs0
    subst g4
    exact ⟨⟨_, _⟩, id, T, .heed h1 h2 hp g1 g2 g3 g5 g6 g7 g8, g9⟩

/-- Every run of the queues is a run of the runtime. -/
theorem run_complete (w : Global.Wf n D) {ls s} (hrun : Mesh.Run (project n D) (.init (project n D) root) ls s) :
    ∃ st id T, RRun (project n D) root (ls.map .sim) st ∧ Rel n D root ls nobody st.heap st.pos s id T := by
  generalize hs0 : S.init (project n D) root = s0 at hrun
  induction hrun with
  | nil =>
    subst hs0
    have hn : 1 ≤ n := by have := w.1; omega
    obtain ⟨st, hst⟩ := start_exists (D := D) (root := root) hn
    exact ⟨st, _, 0, .start hst, start_spec hn hst⟩
  | @snoc ls s1 l s2 hrun hstep ih =>
    obtain ⟨st, id, T, h1, R⟩ := ih
    obtain ⟨st', id', T', h2, R'⟩ := go_step w R hstep
    exact ⟨st', id', T', by rw [List.map_append]; exact .snoc h1 h2, R'⟩

/-! ## The end -/

/-- Steps `close` still has to make. -/
def todoOf (n : Nat) : Pos → Nat
  | .closed => 0
  | .ending i _ => 2 * (n - 1) + 1 - i
  | _ => 2 * (n - 1) + 2

/-- When all roles have nothing left but `close`, they can all return from it, and steps of `close` keep what they keep. -/
theorem finish_by (w : Global.Wf n D) {P : RS → Prop} {st : RS} (hrun : P st)
    (hstep : ∀ {st l st'}, P st → (∀ x, l ≠ .sim x) → RStep (project n D) st.heap st.pos l st' → P st')
    (R : Rel n D root ls nobody st.heap st.pos s id T) (hfin : ∀ r, Part n r → Finished s r) :
    ∃ st', P st' ∧ AllClosed (project n D) st' := by
  induction hm : ((List.range' 1 n).map fun r => todoOf n (st.pos r)).sum using Nat.strongRecOn generalizing st id T with
  | _ m ih =>
    by_cases hc : AllClosed (project n D) st
    · exact ⟨st, hrun, hc⟩
    · have : ∃ r, Part n r ∧ st.pos r ≠ .closed := by
        by_contra hcon
        exact hc fun r h1 h2 => by
          by_contra h3
          exact hcon ⟨r, ⟨h1, h2⟩, h3⟩
      obtain ⟨r, hr, l, st', ha, hs⟩ := somebody w R this
      have hdec : ∀ P, st'.pos = upd st.pos r P → todoOf n P < todoOf n (st.pos r) →
          ((List.range' 1 n).map fun r => todoOf n (st'.pos r)).sum < m := by
        intro P e1 e2
        rw [← hm]
        apply List.sum_lt_sum
        · intro x _
          rw [e1]
          by_cases e : x = r
          · subst e; simp [upd]; omega
          · simp [upd, e]
        · exact ⟨r, by rw [List.mem_range'_1]; have := hr.1; have := hr.2; omega, by rw [e1]; simpa [upd] using e2⟩
      obtain ⟨s', id', T', -, hsim⟩ := sim_step w R hs fun _ _ => rfl
      cases l with
      | sim x =>
        exfalso
        obtain ⟨h1, -⟩ := hsim
        simp only [RLabel.actor, Option.some.injEq] at ha
        exact Prop.finished_stuck (hfin r hr) ⟨x, s', ha, h1⟩
      | gc => cases ha
      | closing r' =>
        cases ha
        obtain ⟨rfl, R'⟩ := hsim
        exact ih _ (by
          cases hs with
          | closing h1 h2 h3 h4 => exact hdec _ rfl (by rw [h3]; simp only [todoOf]; omega)) (hstep hrun (by simp) hs) R' rfl
      | stop r' =>
        cases ha
        obtain ⟨rfl, R'⟩ := hsim
        exact ih _ (by
          cases hs with
          | stop h1 h2 h3 h4 => exact hdec _ rfl (by rw [h3]; simp only [todoOf]; change _ < n - 1 at h4; omega)) (hstep hrun (by simp) hs) R' rfl
      | wait r' =>
        cases ha
        obtain ⟨rfl, R'⟩ := hsim
        exact ih _ (by
          cases hs with
          | @wait r i sl x h' h1 h2 h3 h4 h5 h6 =>
            have hpos := R.posr r ⟨h1, h2⟩
            rw [h3] at hpos
            obtain ⟨M, -, -, hok, -⟩ := hpos
            have := (List.getElem?_eq_some_iff.1 h5).1
            change n - 1 ≤ i at h4
            change i - (n - 1) < sl.length at this
            rw [hok.len] at this
            exact hdec _ rfl (by rw [h3]; simp only [todoOf]; omega)) (hstep hrun (by simp) hs) R' rfl
      | done r' =>
        cases ha
        obtain ⟨rfl, R'⟩ := hsim
        exact ih _ (by
          cases hs with
          | done h1 h2 h3 h4 => exact hdec _ rfl (by rw [h3]; simp only [todoOf]; change _ = 2 * (n - 1) at h4; omega)) (hstep hrun (by simp) hs) R' rfl

/-- When all roles have nothing left but `close`, they can all return from it. -/
theorem finish (w : Global.Wf n D) {rls : List RLabel} {st : RS} (hrun : RRun (project n D) root rls st)
    (R : Rel n D root ls nobody st.heap st.pos s id T) (hfin : ∀ r, Part n r → Finished s r) :
    ∃ rls' st', RRun (project n D) root rls' st' ∧ sims rls' = sims rls ∧ AllClosed (project n D) st' := by
  obtain ⟨st', ⟨rls', h1, h2⟩, h3⟩ := finish_by w (P := fun st => ∃ rls', RRun (project n D) root rls' st ∧ sims rls' = sims rls)
    ⟨rls, hrun, rfl⟩ (by
      rintro st l st' ⟨rls', h1, h2⟩ hl hs
      refine ⟨_, .snoc h1 hs, ?_⟩
      rw [← h2]
      unfold sims
      rw [List.filterMap_append]
      cases l with
      | sim x => exact absurd rfl (hl x)
      | _ => simp) R hfin
  exact ⟨rls', st', h1, h2, h3⟩

/-- When all roles have closed nothing is left. -/
theorem closed_pool (R : Rel n D root ls nobody h pos s id T) (hc : ∀ r, Part n r → pos r = .closed) : h.pool = [] := by
  have := R.perm
  have e : (List.range' 1 n).flatMap (held nobody pos) = [] := by
    rw [List.flatMap_eq_nil_iff]
    intro r hr
    rw [List.mem_range'_1] at hr
    rw [held_live rfl, hc r ⟨by omega, by omega⟩]; rfl
  rw [e] at this
  exact this.eq_nil

theorem side_pair {b : Bool} {p q : Nat} (hne : p ≠ q) : b = side p q ∨ b = side q p := by
  rw [side_not hne]; cases b <;> cases side p q <;> simp

/-- When all roles have closed, no message is left and all drops are carried out, no resource is left: every channel
is freed. -/
theorem closed_clean (R : Rel n D root ls nobody h pos s id T) (hc : ∀ r, Part n r → pos r = .closed)
    (hq : ∀ g p q, Part n p → Part n q → p ≠ q → s.queue (g, p, q) = []) (hg : h.garb = []) (t : Tok) : Heap.cnt h t = 0 := by
  have inv := reach_inv R.reach
  have hpool := closed_pool R hc
  -- the holder of a full slot
  have hold : ∀ c m, (h.chan c).buf = some m → ∃ e2, Occ (env (project n D)) h e2 ∧ Tok.rx c ∈ e2.ep.halves := by
    intro c m hb
    have hrx := (inv.bufs c m hb).1
    have hcnt : 0 < Heap.cnt h (.rx c) := by rw [inv.crx, hrx]; simp
    exact inv.held hcnt (by rw [hg]; simp) (by simp)
  rcases Nat.eq_zero_or_pos (Heap.cnt h t) with h0 | h0
  · exact h0
  · exfalso
    rcases cnt_cases h0 with h1 | ⟨c, hcl, h1⟩ | h1
    · rw [hpool] at h1; cases h1
    · unfold bufToks at h1
      cases hb : (h.chan c).buf with
      | none => rw [hb] at h1; cases h1
      | some m =>
        obtain ⟨e2, he2, hm⟩ := hold c m hb
        have hok := (inv.bufs c m hb).2
        have wt := inv.occ e2 he2
        obtain ⟨g, p, q, hgT, hp, hqq, hne, hid⟩ := R.sur _ wt.sid
        cases m with
        | sig x =>
          simp only [MsgOk] at hok
          have hnode : ∃ t', e2.ep.node = .fin t' c := by
            unfold EP.halves at hm
            cases hn2 : e2.ep.node with
            | snd c' => rw [hn2] at hm; simp at hm
            | rcv c' =>
              rw [hn2] at hm; simp at hm; subst hm
              obtain ⟨_, _, _, w, t, s, hk, _⟩ := wt.ty.rcv hn2
              rw [hok] at hk; cases hk
            | fin t' r' => rw [hn2] at hm; simp at hm; exact ⟨t', by rw [hm]⟩
          obtain ⟨t', hn⟩ := hnode
          have hx : ∃ g p q, (h.chan c).buf = expect n T pos g p q := by
            rcases side_pair (b := e2.ep.side) hne with e | e
            · exact ⟨g, q, p, (R.sig e2 t' c ⟨he2, hn⟩ g p q hgT hp hqq hne hid e).2⟩
            · exact ⟨g, p, q, (R.sig e2 t' c ⟨he2, hn⟩ g q p hgT hqq hp (Ne.symm hne) (by rw [hid, R.idc]) e).2⟩
          obtain ⟨g, p, q, hx⟩ := hx
          rw [hb] at hx h1
          unfold expect at hx
          split at hx
          · cases hx; cases h1
          · cases hx
        | data v k =>
          simp only [MsgOk] at hok
          obtain ⟨w, t', s', tys, hk, _, _, hh, _⟩ := hok
          have hnode : e2.ep.node = .rcv c := by
            unfold EP.halves at hm
            cases hn2 : e2.ep.node with
            | snd c' => rw [hn2] at hm; simp at hm
            | rcv c' => rw [hn2] at hm; simp at hm; rw [hm]
            | fin t' r' =>
              rw [hn2] at hm; simp at hm
              have := (wt.ty.fin hn2).2.2.2.2.2.2.2.1
              rw [← hm, hk] at this; cases this
          obtain ⟨_, g2, _⟩ := wt.ty.rcv hnode
          have hi : idxOf h e2.ep = (h.chan c).idx := by simp [idxOf, hnode]
          obtain ⟨e', p1, p2, p3, p4⟩ := inv.root hg _ e2 he2 (Nat.le_refl _)
          have hpend := inv.pend p1
          have hempty : pending h.trace e'.ep.sid e'.ep.side = [] := by
            rw [p2, p3]
            rcases side_pair (b := e2.ep.side) hne with e | e
            · have := R.queue g q p hgT hqq hp (Ne.symm hne)
              rw [hq g q p hqq hp (Ne.symm hne), R.idc, ← hid, ← e] at this
              exact List.forall₂_nil_left_iff.1 this
            · have := R.queue g p q hgT hp hqq hne
              rw [hq g p q hp hqq hne, ← hid, ← e] at this
              exact List.forall₂_nil_left_iff.1 this
          rw [hempty] at hpend
          have hlen := List.drop_eq_nil_iff.1 hpend.symm
          rw [g2] at hh
          rw [p2] at hlen
          have := (List.getElem?_eq_some_iff.1 hh).1
          omega
    · rw [hg] at h1; cases h1

end Verif.Runtime
