import Verif.Proof.FailureLive
import Verif.Model.TimedRuntime
/-!
# Nobody's partner is gone before somebody has failed
-/
namespace Verif.Heap
open Verif.Types
variable {P : Type} [DecidableEq P] {G : Env P}

/-- While the other side of a session exists, so does the receiving half of the channel one side sends on. -/
theorem Inv.peer_rx {st : St P} (inv : Inv G st) {e : Entry P} (he : e ∈ st.pool) {c : Nat} (hn : e.ep.node = .snd c)
    {p : Entry P} (p1 : Prin G st p) (p2 : p.ep.sid = e.ep.sid) (p3 : p.ep.side = (!e.ep.side)) : (st.chan c).rx = true := by
  obtain ⟨hc, -, hs, hd, hi, -, w, x, s, hk, -⟩ := snd_facts inv he hn
  obtain ⟨e', t1, t2, t3, t4⟩ := inv.tip _ p p1.occ (Nat.le_refl _)
  rw [p2] at t2 t4
  rw [p3] at t3
  have wt := (inv.occ e' t1).ty
  cases hn2 : e'.ep.node with
  | snd c' =>
    obtain ⟨g1, g2, g3, _⟩ := wt.snd hn2
    simp only [idxOf, hn2] at t4
    rcases inv.uniq c c' hc g1 (by rw [hs, g2, t2]) (by rw [hi, t4]) with hu | hu
    · subst hu
      rw [hd, t3] at g3
      simp at g3
    · rw [hk] at hu; cases hu.1
  | rcv c' =>
    obtain ⟨g1, g2, g3, _⟩ := wt.rcv hn2
    simp only [idxOf, hn2] at t4
    rcases inv.uniq c c' hc g1 (by rw [hs, g2, t2]) (by rw [hi, t4]) with hu | hu
    · subst hu
      exact inv.rx_of t1 (by simp [EP.halves, hn2])
    · rw [hk] at hu; cases hu.1
  | fin t' r' => exact absurd hn2 (inv.snd_fin he hn t1 t2)

end Verif.Heap

namespace Verif.Mesh
variable {n : Nat} {D : Global} {root : Name} {G : Ghost} {ls : List Label} {s : S}

/-- Who is to be sent something has not gone further than the sender. -/
theorem sending (w : Global.Wf n D) (hI : Inv n D root G ls s) {r : Nat} (hr : Part n r) {M : Mesh}
    (hM : s.pos r = .mesh M) {q k m T} (hk : M.stack = .role q k) (hs : M.sess q = .send m T) : G.gst q ≤ s.gen r := by
  obtain ⟨hq, hne, -⟩ := shape_role w hI hr hM hk
  obtain ⟨hg, hi, -⟩ := hI.mesh r hr M hM
  have heq := hI.eq (s.gen r) r q hr hq (Ne.symm hne)
  by_contra hlt
  rcases hI.look w hr hM with ⟨hf', h⟩ | ⟨pre, q', m', post, e, hf', hne', h⟩ | ⟨pre, p, m', post, e, hf', hne', h⟩
  · subst h
    obtain ⟨bs, -, h1, -, h3⟩ := mesh_nil_role hk
    rw [h3] at hs; cases hs
  · have h1 := (mesh_send (q := q') (m := m') (r := r) (post := post) (t := (blk D G (s.gen r)).tail)).1
    rw [← h, hk] at h1
    cases h1
    have hlen : (chan r q (blk D G (s.gen r)).comms).length = (chan r q ((blk D G (s.gen r)).comms.take (G.idx r) ++ pre)).length + 1 + (chan r q post).length := by
      rw [← chan_length_mid (m := m')]
      rw [List.append_assoc, ← e, List.take_append_drop]
    rw [chan_append, List.length_append] at hlen
    have e1 : upTo D G.path (s.gen r) r q (G.gst r) (G.idx r) = chan r q ((blk D G (s.gen r)).comms.take (G.idx r)) := by
      simp [upTo, hg]
    have e2 : upTo D G.path (s.gen r) r q (G.gst q) (G.idx q) = full D G.path (s.gen r) r q := by
      simp [upTo, Nat.lt_of_not_le hlt]
    rw [e1, e2] at heq
    have h2 := congrArg List.length heq
    simp only [full, blk, List.length_append] at h2 hlen
    omega
  · have h1 := (mesh_recv (p := p) (m := m') (r := r) (post := post) (t := (blk D G (s.gen r)).tail) hne').1
    rw [← h, hk] at h1
    cases h1
    have h2 := (mesh_recv (p := q) (m := m') (r := r) (post := post) (t := (blk D G (s.gen r)).tail) hne').2.1
    rw [← h, hs] at h2
    cases h2

/-- Who is still to be told of a choice has not gone further. -/
theorem untold_behind (w : Global.Wf n D) (hI : Inv n D root G ls s) {r : Nat} (hr : Part n r) {N rest}
    (hT : s.pos r = .telling N rest) {q} (hq : q ∈ rest) : G.gst q ≤ s.gen r ∧ ¬ Finished s q := by
  obtain ⟨hg, hi, ⟨bs, ht⟩, hp, -, hall⟩ := hI.tell r hr N rest hT
  obtain ⟨hq', hne⟩ := hall q hq
  have heq := hI.eq (s.gen r) r q hr hq' (Ne.symm hne)
  have key : G.gst q ≤ s.gen r := by
    by_contra hlt
    have e1 : upTo D G.path (s.gen r) r q (G.gst r) (G.idx r) = full D G.path (s.gen r) r q := by
      simp [upTo, hg]
    have e2 : upTo D G.path (s.gen r) r q (G.gst q) (G.idx q) = full D G.path (s.gen r) r q := by
      simp [upTo, Nat.lt_of_not_le hlt]
    rw [e1, e2] at heq
    have h2 := congrArg List.length heq
    simp [pend, hT, hq] at h2
  refine ⟨key, ?_⟩
  rintro ⟨M', hM', hk'⟩
  have htop := (shape_fin w hI hq' hM' hk').2
  have := (hI.mesh q hq' M' hM').1
  have := hI.le r hr
  omega

end Verif.Mesh

namespace Verif.Runtime
open Verif.Mesh (Sys Name Label upd Part Global project S others Finished)
open Verif.Heap hiding upd
open Verif.Spec Verif.SendRecv
variable {n : Nat} {D : Global} {root : Name} {ls : List Label} {dead : Nat → Bool} {h : Heap.St Pay} {pos : Nat → Pos} {s : S} {id : Ids} {T : Nat}

/-- The receiving half of a channel disappears only after a failure. -/
theorem gone_dead (w : Global.Wf n D) (R : Rel n D root ls dead h pos s id T) {r} (hr : Part n r) (hd : dead r = false)
    {V fn win op l} (hc : TCall (project n D) V r (pos r) fn win op l) (hg : Gone h op) : ∃ x, Part n x ∧ dead x = true := by
  by_contra hno
  have live : ∀ x, Part n x → dead x = false := fun x hx => by
    cases hd : dead x with
    | false => rfl
    | true => exact absurd ⟨x, hx, hd⟩ hno
  have inv := reach_inv R.reach
  obtain ⟨G, hI, hT⟩ := R.inv
  have notclosed : ∀ q, Part n q → ¬ Finished s q → pos q ≠ .closed := fun q hq hf hc => by
    have := R.posr q hq
    rw [hc] at this
    exact hf this
  have rxt : ∀ q e c, Part n q → q ≠ r → G.gst q ≤ s.gen r → ¬ Finished s q → e ∈ h.pool → e.ep.node = .snd c →
      e.ep.sid = id (s.gen r) r q → e.ep.side = side r q → (h.chan c).rx = true := by
    intro q e c hq hne hle hf he hn h1 h2
    obtain ⟨p, p1, p2, p3⟩ := R.holder w live hq (notclosed q hq hf) (s.gen r) (by rw [← gst_eq hI hq]; exact hle) (R.gen_le w hr) r hr hne.symm
    exact inv.peer_rx he hn p1 (by rw [p2, h1, R.idc]) (by rw [p3, h2, side_not hne.symm])
  generalize hp : pos r = P at hc
  cases hc with
  | @send sl q k e w' m K d h4 h5 =>
    change sl[(sendImpl n r q).used - 1]? = some e at h4
    obtain ⟨M', f, hM', hk, hq, hne, hok, hu, f1, f2, f3, f4, f5, f6⟩ := R.at_role w hr hd hp
    have : f = e := by
      rw [show sendImpl n r q = emit n r q from rfl, hu, f1] at h4; cases h4; rfl
    subst this
    obtain ⟨S, e1, e2, e3⟩ := enc_send_data (f4.symm.trans h5)
    obtain ⟨c, hn, hx⟩ := hg
    rw [rxt q f c hq hne (Mesh.sending w hI hr hM' hk e1) (Mesh.send_unfinished w hI hr hM' hk e1) f5 hn f2 f3] at hx
    cases hx
  | @recv sl q k e w' m K h4 h5 =>
    have hc : Call (project n D) r (pos r) (.recv e) := by rw [hp]; exact .recv h4 h5
    obtain ⟨h', o, g1, g2⟩ := call_fine w (R.revive live) hr hc
    obtain ⟨c, hn, hx1, hx2⟩ := hg
    simp only [Heap.step, recvStep, h5, hn, hx1, hx2] at g1
    split at g1
    · cases g1
    · simp at g1; obtain ⟨-, rfl⟩ := g1; simp [Fine] at g2
  | @heed sl q k e w' x bs K N h4 h5 =>
    have hc : Call (project n D) r (pos r) (.recv e) := by rw [hp]; exact .recv h4 h5
    obtain ⟨h', o, g1, g2⟩ := call_fine w (R.revive live) hr hc
    obtain ⟨c, hn, hx1, hx2⟩ := hg
    simp only [Heap.step, recvStep, h5, hn, hx1, hx2] at g1
    split at g1
    · cases g1
    · simp at g1; obtain ⟨-, rfl⟩ := g1; simp [Fine] at g2
  | @tell N k ms todo old ow e w' x bs K h4 h5 =>
    have hpos := R.posr r hr
    rw [hp] at hpos
    obtain ⟨hT', -, hall⟩ := hpos
    obtain ⟨-, -, -, f, bs', x1, x2, x3, -⟩ := hall (k, ms) (by simp)
    simp only at x1 x2 x3
    rw [h4] at x1; cases x1
    obtain ⟨hle, hf⟩ := Mesh.untold_behind w hI hr hT' (q := partner r k) (by simp)
    have hq : Part n (partner r k) ∧ partner r k ≠ r := (hI.tell r hr _ _ hT').2.2.2.2.2 _ (by simp)
    obtain ⟨c, hn, hx⟩ := hg
    have he : e ∈ h.pool := R.mem hr hd (by
      rw [hp, own_telling]
      exact List.mem_append_left _ (List.mem_filterMap.2 ⟨(k, ms), by simp, h4⟩))
    rw [rxt _ e c hq.1 hq.2 hle hf he hn x2 x3] at hx
    cases hx

end Verif.Runtime
