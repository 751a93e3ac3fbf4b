import Verif.Model.Choice
import Verif.Prop.C05_C38
/-!
# C11: binary choice agreement
-/
namespace Verif.Prop
open Verif.Types Verif.Heap Verif.Spec Verif.Choice

variable {P : Type} [DecidableEq P] {G : Env P}

theorem step_trace {st st' : St P} {op : Op P} {o : Out} (hs : step G st op = some (st', o)) :
    st.trace <+: st'.trace := by
  cases op with
  | new s => 
    simp only [step] at hs
    have a := alloc_spec st s st.nsid 0 true
    cases hs
    simp only [a.trace]
    exact List.prefix_rfl
  | send e v =>
    simp only [step] at hs
    unfold sendStep at hs
    simp only at hs
    repeat' split at hs
    all_goals first | (cases hs; done) | skip
    all_goals cases hs
    all_goals first | exact List.prefix_rfl | exact List.prefix_append _ _
  | recv e =>
    simp only [step] at hs
    unfold recvStep at hs
    simp only at hs
    repeat' split at hs
    all_goals first | (cases hs; done) | skip
    all_goals cases hs
    all_goals first | exact List.prefix_rfl | exact List.prefix_append _ _
  | sigSend e s =>
    simp only [step] at hs
    unfold sigSendStep at hs
    simp only at hs
    repeat' split at hs
    all_goals first | (cases hs; done) | skip
    all_goals cases hs
    all_goals exact List.prefix_rfl
  | sigRecv e =>
    simp only [step] at hs
    unfold sigRecvStep at hs
    simp only at hs
    repeat' split at hs
    all_goals first | (cases hs; done) | skip
    all_goals cases hs
    all_goals exact List.prefix_rfl
  | drop e =>
    simp only [step] at hs
    split at hs <;> cases hs
    exact List.prefix_rfl
  | gc i =>
    simp only [step] at hs
    split at hs <;> cases hs
    rename_i t ht
    cases t <;> exact List.prefix_rfl

theorem steps_trace {st st' : St P} (hs : Steps G st st') : st.trace <+: st'.trace := by
  induction hs with
  | refl => exact List.prefix_rfl
  | step _ h ih => exact ih.trans (step_trace h)

theorem steps_proto {st st' : St P} (h : Reach G st) (hs : Steps G st st') :
    st.nsid ≤ st'.nsid ∧ ∀ s, s < st.nsid → st'.proto s = st.proto s := by
  induction hs with
  | refl => exact ⟨Nat.le_refl _, fun _ _ => rfl⟩
  | @step st1 st2 op o hs' hst ih =>
    have := step_sends (reach_inv (steps_reach h hs')) hst
    exact ⟨Nat.le_trans ih.1 this.2.1, fun s hs => by rw [this.1 _ (by have := ih.1; omega)]; exact ih.2 s hs⟩

theorem steps_trans {st st1 st2 : St P} (h : Steps G st st1) (h' : Steps G st1 st2) : Steps G st st2 := by
  induction h' with
  | refl => exact h
  | step _ hs ih => exact ih.step hs

theorem hist_prefix {tr tr' : List (Ev P)} (h : tr <+: tr') (s : Nat) : hist tr s <+: hist tr' s := by
  obtain ⟨r, rfl⟩ := h
  exact ⟨hist r s, by simp [hist, List.filterMap_append]⟩

theorem acts_dual_length (s : STy P) : (acts s.dual).length = (acts s).length := by
  induction s with
  | send w t s ih => simp [acts, STy.dual, ih]
  | recv w t s ih => simp [acts, STy.dual, ih]
  | fin => rfl

/-- The step number of an endpoint is determined by how much of the session type is left. -/
theorem idx_of_type {b : Bool} {n : Nat} {p s : STy P} (h : s = view b (dropK n p)) (hs : 0 < (acts s).length) :
    n + (acts s).length = (acts p).length := by
  have h1 : (acts s).length = (acts (dropK n p)).length := by
    rw [h]; cases b <;> simp [view, acts_dual_length]
  rw [← acts_take, List.length_drop] at h1
  omega

theorem chooses_reach {st st' : St P} {e : Entry P} {tag : Nat} {s : STy P} {here : EP} (h : Reach G st)
    (hc : Chooses G e tag s st here st') : Reach G st' := by
  cases hc with
  | mk a1 a2 a3 a4 a5 a6 a7 =>
    exact (steps_reach ((steps_reach (h.step a1) a3).step a4) a6).step a7

theorem send_trace {st st' : St P} {e : Entry P} {v : Val} {o : Out} {w : Option Window} {t : P} {k : STy P}
    (h : Reach G st) (hty : e.ty = .send w t k) (hs : step G st (.send e v) = some (st', o)) :
    e ∈ st.pool ∧ st'.trace = st.trace ++ [.sent e.ep.sid e.ep.side t v] := by
  have hu := (C03_never_blocks h hs).1
  subst hu
  simp only [step] at hs
  unfold sendStep at hs
  split at hs
  · rename_i w' t' k' c' hty' hn'
    rw [hty] at hty'; cases hty'
    split at hs
    · cases hs
    · split at hs
      · split at hs
        · cases hs
        · rename_i rest htake
          have hm : e ∈ st.pool := (takeAll_perm _ _ _ htake).mem_iff.2 (by simp)
          simp only at hs
          split at hs
          · cases hs
          · split at hs <;> cases hs <;> exact ⟨hm, rfl⟩
      · cases hs
  · cases hs

/-- C11.  One party executes `choose_left`/`choose_right`/`choose!` with branch `tag` (with other threads
running meanwhile) and gets `here`.  Whenever the other party, holding the other end of the choice, then
offers, its `recv` succeeds and every way for it to complete `offer` is in branch `tag`, on an endpoint
connected to `here` and of the dual type. -/
theorem C11_agree {st st1 st2 : St P} (h : Reach G st) {e e' : Entry P} {tag : Nat} {s : STy P} {here : EP}
    {w w' : Option Window} {t t' : P}
    (hty : e.ty = .send w t .fin) (hG : G t tag = some [s.dual])
    (hc : Chooses G e tag s st here st1) (hs : Steps G st1 st2)
    (he' : e' ∈ st2.pool) (hsid : e'.ep.sid = e.ep.sid) (hty' : e'.ty = .recv w' t' .fin) :
    ∃ there, Joined here there ∧
      (∃ st3 v, step G st2 (.recv e') = some (st3, .value v)) ∧
      (∀ st3 v, step G st2 (.recv e') = some (st3, .value v) → ⟨there, s.dual⟩ ∈ st3.pool) ∧
      ∀ tag' f st3, Offers G e' st2 tag' f st3 → tag' = tag ∧ f = there := by
  have hr1 := chooses_reach h hc
  have hr2 := steps_reach hr1 hs
  cases hc with
  | @mk sa sb sc sd _ _ there k o1 o2 o3 d r a1 a2 a3 a4 a5 a6 a7 =>
    have hra := h.step a1
    have hrb := steps_reach hra a3
    have hrc := hrb.step a4
    refine ⟨there, ?_, ?_⟩
    · obtain ⟨st', x, y, h1, h2, h3, -⟩ := C02_new h s
      rw [a1] at h1; cases h1
      rw [a2] at h2
      injection h2 with h4 h5
      injection h5 with h5 _
      cases h4; cases h5
      exact h3
    · obtain ⟨hm, htr⟩ := send_trace hrb hty a4
      have invb := reach_inv hrb
      have inv2 := reach_inv hr2
      have wte := invb.occ e (Or.inl hm)
      have wte' := inv2.occ e' (Or.inl he')
      have hst : Steps G sc st2 := steps_trans (a6.step a7) hs
      have i1 := idx_of_type wte.proto (by rw [hty]; simp [acts])
      have i2 := idx_of_type wte'.proto (by rw [hty']; simp [acts])
      have hp := (steps_proto hrb (steps_trans (Steps.step (.refl _) a4) hst)).2 _ wte.sid
      rw [hsid, hp, ← i1, hty, hty'] at i2
      simp only [acts, List.length_cons, List.length_nil] at i2
      have hidx : idxOf st2 e'.ep = (hist sb.trace e.ep.sid).length := by
        have hpos := wte.pos
        unfold Pos at hpos
        cases hn : e.ep.node with
        | snd c => rw [hn] at hpos; simp only at hpos; omega
        | rcv c =>
          obtain ⟨_, _, _, _, _, _, _, hh⟩ := wte.ty.rcv hn
          rw [hty] at hh; cases hh
        | fin t r => rw [hn] at hpos; simp only at hpos; omega
      have hget : (hist st2.trace e.ep.sid)[(hist sb.trace e.ep.sid).length]? = some (t, ⟨tag, d, [there]⟩) := by
        have hpre := hist_prefix (steps_trace hst) e.ep.sid
        rw [htr, hist_append] at hpre
        simp only [if_true] at hpre
        obtain ⟨q, hq⟩ := hpre
        rw [← hq]
        simp
      have hpend := inv2.pend (Or.inl he' : Prin G st2 e')
      rw [hidx, hsid] at hpend
      have hlt : (hist sb.trace e.ep.sid).length < (hist st2.trace e.ep.sid).length := by
        refine Nat.lt_of_not_le fun hle => ?_
        rw [List.getElem?_eq_none hle] at hget; cases hget
      rw [List.drop_eq_getElem_cons hlt] at hpend
      rw [List.getElem?_eq_getElem hlt] at hget
      rw [Option.some.inj hget] at hpend
      obtain ⟨c, st3, o, hn, hstep, hmatch⟩ := C04_recv hr2 he' hty'
      rw [hsid, hpend] at hmatch
      simp only at hmatch
      obtain ⟨rfl, ho, -, k', tys, hg, -, -, hpool⟩ := hmatch
      rw [ho] at hstep
      rw [hG] at hg
      cases hg
      refine ⟨⟨st3, _, hstep⟩, ?_, ?_⟩
      · intro st3' v hv
        rw [hstep] at hv; cases hv
        rw [hpool]; simp [entries]
      · intro tag' f st3' hoff
        cases hoff with
        | mk b1 b2 b3 b4 b5 =>
          rw [hstep] at b1; cases b1
          refine ⟨rfl, ?_⟩
          simp at b2
          exact b2.symm

/-- The hypotheses of `C11_agree` are met: `choose!` of variant 0 of the recursive enum, then `offer!`. -/
example : ∃ st st1 here, Reach demoEnv st ∧
    Chooses demoEnv ⟨⟨.snd 0, 0, true⟩, .send none 1 .fin⟩ 0 (.send none 0 (.send none 1 .fin)) st here st1 ∧
    demoEnv 1 0 = some [(STy.send none 0 (.send none 1 .fin)).dual] ∧
    ⟨⟨.rcv 0, 0, false⟩, .recv none 1 .fin⟩ ∈ st1.pool ∧
    ∃ there st2, Offers demoEnv ⟨⟨.rcv 0, 0, false⟩, .recv none 1 .fin⟩ st1 0 there st2 := by
  exact ⟨_, _, ⟨.snd 1, 1, true⟩, runOps_reach (ops := [.new (.send none 1 .fin)]) rfl,
    .mk (there := ⟨.rcv 1, 1, false⟩) (d := 0) rfl rfl (.refl _) rfl rfl (.refl _) rfl, rfl, by decide,
    ⟨.rcv 1, 1, false⟩, _,
    .mk (v := ⟨0, 0, [⟨.rcv 1, 1, false⟩]⟩) (k := ⟨.fin 3 2, 0, false⟩) rfl rfl (by decide) (.refl _) rfl⟩

end Verif.Prop
