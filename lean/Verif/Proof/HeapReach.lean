import Verif.Proof.HeapAlloc
/-!
# The invariant holds in every reachable state
-/
namespace Verif.Heap
open Verif.Types Verif.Spec

variable {P : Type} [DecidableEq P] {G : Env P}

theorem inv_send {st st' : St P} {o : Out} (h : Inv G st) {e : Entry P} {v : Val}
    (hs : sendStep G st e v = some (st', o)) : Inv G st' := by
  unfold sendStep at hs
  split at hs
  · rename_i w t k c hty hn
    split at hs
    · cases hs
    · rename_i tys htys
      split at hs
      · rename_i hlen
        split at hs
        · cases hs
        · rename_i rest htake
          simp only at hs
          have hp := takeAll_perm _ _ _ htake
          have a := alloc_spec st k e.ep.sid ((st.chan c).idx + 1) e.ep.side
          generalize (alloc st k e.ep.sid ((st.chan c).idx + 1) e.ep.side).1 = st1 at *
          generalize (alloc st k e.ep.sid ((st.chan c).idx + 1) e.ep.side).2.1 = here at *
          generalize (alloc st k e.ep.sid ((st.chan c).idx + 1) e.ep.side).2.2 = there at *
          split at hs
          · cases hs; exact h
          · split at hs
            · rename_i hrx
              cases hs
              have := inv_send_core h hty hn htys hlen hp a (some (.data v there)) st.garb (Or.inl ⟨rfl, rfl, hrx⟩)
              rw [← a.garb] at this
              exact this
            · rename_i hrx
              cases hs
              have hrx' : (st.chan c).rx = false := by simpa using hrx
              have hmem : e ∈ st.pool := hp.mem_iff.2 (by simp)
              have hb := (snd_facts h hmem hn).2.2.2.2.2.1
              have := inv_send_core h hty hn htys hlen hp a none _ (Or.inr ⟨rfl, rfl, hrx'⟩)
              rw [← hb] at this
              exact this
      · cases hs
  · cases hs

theorem inv_step {st st' : St P} {op : Op P} {o : Out} (h : Inv G st) (hs : step G st op = some (st', o)) :
    Inv G st' := by
  cases op with
  | new s => exact inv_new h s hs
  | send e v => exact inv_send h hs
  | recv e => exact inv_recv h hs
  | sigSend e s => exact inv_sigSend h hs
  | sigRecv e => exact inv_sigRecv h hs
  | drop e =>
    simp only [step] at hs
    split at hs
    · cases hs
    · rename_i rest ht; cases hs; exact inv_drop h ht
  | gc i =>
    simp only [step] at hs
    split at hs
    · cases hs
    · rename_i t ht; cases hs; exact inv_gc h ht

theorem inv_init : Inv G (init P) := by
  have hz : ∀ t, cnt (init P) t = 0 := by intro t; simp [cnt, init, poolToks, sumTo]
  refine
    { ctx := fun c => by rw [hz]; rfl
      crx := fun c => by rw [hz]; rfl
      cid := fun s b => by rw [hz]; omega
      cnew := fun s b _ => hz _
      dead := fun c _ => ⟨rfl, rfl, rfl⟩
      chans := fun c hc => absurd hc (Nat.not_lt_zero _)
      uniq := fun c c' hc => absurd hc (Nat.not_lt_zero _)
      occ := fun e he => ?_
      bufs := fun c m hm => by cases hm
      full := fun c hc => absurd hc (Nat.not_lt_zero _)
      spec := ⟨noMsgs P, rfl, fun e he => ?_, fun s b _ => rfl⟩
      hnew := fun s _ => rfl }
  · rcases he with he | ⟨c, hc, -⟩
    · cases he
    · exact absurd hc (Nat.not_lt_zero _)
  · rcases he with he | ⟨c, hc, -⟩
    · cases he
    · exact absurd hc (Nat.not_lt_zero _)

theorem reach_inv {st : St P} (h : Reach G st) : Inv G st := by
  induction h with
  | init => exact inv_init
  | step _ hs ih => exact inv_step ih hs

end Verif.Heap
