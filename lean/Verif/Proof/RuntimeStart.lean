import Verif.Proof.GenTypes
import Verif.Proof.RuntimeNew
/-!
# The runtime follows the queues: `fork_mpst` and a new choice
-/
namespace Verif.Runtime
open Verif.Mesh (Sys Name Sess Stack Label upd Part Global project S others mem_others)
open Verif.Types (STy)
open Verif.Heap hiding upd
open Verif.Spec Verif.SendRecv
open Verif.Gen (slot_partner partner_slot slot_range partner_role slotOf_inj partner_inj pr pr_pos pr_le pr_comm isPair_minmax
  idealMesh idealEP idealEP_at idealMesh_slot forkDual toAll_run fork_run diag_length)
open Verif.Maths hiding cnt

variable {n : Nat} {D : Global} {root : Name} {ls : List Label} {dead : Nat → Bool} {h : Heap.St Pay} {pos : Nat → Pos} {s : S} {id : Ids} {T : Nat}

theorem noNew_append {a b : List Gen.Stmt} (ha : NoNew a) (hb : NoNew b) : NoNew (a ++ b) := by
  intro x hx
  rcases List.mem_append.1 hx with hx | hx
  · exact ha x hx
  · exact hb x hx

theorem noNew_map {α : Type} {l : List α} {f : α → Gen.Stmt} (hf : ∀ x a b c, f x ≠ .newChan a b c) : NoNew (l.map f) := by
  intro x hx
  obtain ⟨y, -, rfl⟩ := List.mem_map.1 hx
  exact hf y

theorem mapM_mem {α β : Type} (f : α → Option β) : ∀ (l : List α) (l' : List β), l.mapM f = some l' →
    ∀ y ∈ l', ∃ x ∈ l, f x = some y := by
  intro l
  induction l with
  | nil => intro l' h y hy; simp at h; subst h; simp at hy
  | cons x l ih =>
    intro l' h y hy
    rw [List.mapM_cons] at h
    cases hx : f x with
    | none => rw [hx] at h; cases h
    | some a =>
      rw [hx] at h
      cases hl : l.mapM f with
      | none => rw [hl] at h; cases h
      | some as =>
        rw [hl] at h
        cases h
        rcases List.mem_cons.1 hy with rfl | hy
        · exact ⟨x, List.mem_cons_self, hx⟩
        · obtain ⟨z, hz, e⟩ := ih as hl y hy
          exact ⟨z, List.mem_cons_of_mem _ hz, e⟩

/-- `choose_..._to_all!` makes new endpoints for every pair of roles. -/
theorem toAll_news (hn : 1 ≤ n) {r : Nat} {body : List Gen.Stmt} (hb : Gen.toAllBody n r = some body) (N : Name)
    (hr : Reach (env (project n D)) h) : ∃ h' l F, news (project n D) N h body = (h', l) ∧
      Made (project n D) N (diag n) h h' l ∧ Ends2 n D N h h' l F := by
  unfold Gen.toAllBody at hb
  rw [Gen.toAllChannels_eq n hn] at hb
  simp only [Option.some.injEq] at hb
  obtain ⟨h', l, e, m⟩ := news_made (project n D) N (fun t => t.2.2)
    (Gen.toAllStacks n ++ Gen.toAllSends n r ++ [.ret (Gen.toAllSenderFields n r) n])
    (noNew_append (noNew_append (noNew_map (by intros; simp)) (noNew_map (by intros; simp)))
      (by intro x hx; simp only [List.mem_singleton] at hx; subst hx; intros; simp)) (diag n) h hr
  obtain ⟨F, hF⟩ := ends2 hn m
  refine ⟨h', l, F, ?_, m, hF⟩
  rw [← hb, ← e]
  simp [List.append_assoc]

/-- So does `fork_mpst`. -/
theorem fork_news (hn : 1 ≤ n) {body : List Gen.Stmt} (hb : Gen.forkBody n = some body) (N : Name)
    (hr : Reach (env (project n D)) h) : ∃ h' l F, news (project n D) N h body = (h', l) ∧
      Made (project n D) N (diag n) h h' l ∧ Ends2 n D N h h' l F := by
  unfold Gen.forkBody at hb
  rw [Gen.forkChannels_eq n 0 0 hn] at hb
  cases hm : Gen.forkMeshes n 0 with
  | none => rw [hm] at hb; cases hb
  | some ms =>
    rw [hm] at hb
    simp only [Option.some.injEq, Nat.zero_add] at hb
    have hms : NoNew ms := by
      intro x hx a b c
      obtain ⟨i, -, hi⟩ := mapM_mem _ _ _ hm x hx
      cases hf : Gen.forkFields n 0 i with
      | none => rw [hf] at hi; cases hi
      | some fs => rw [hf] at hi; cases hi; simp
    obtain ⟨h', l, e, m⟩ := news_made (project n D) N (fun t => t.2.2)
      (Gen.forkStacks n ++ ms ++ Gen.forkThreads n)
      (noNew_append (noNew_append (noNew_map (by intros; simp)) hms) (noNew_map (by intros; simp))) (diag n) h hr
    obtain ⟨F, hF⟩ := ends2 hn m
    refine ⟨h', l, F, ?_, m, hF⟩
    rw [← hb, ← e]
    simp [List.append_assoc]

theorem pr_sur (hn : 1 ≤ n) {x : Nat} (hx : x < (diag n).length) : ∃ p q, Part n p ∧ Part n q ∧ p ≠ q ∧ pr n p q = x + 1 := by
  have ht := List.getElem?_eq_getElem hx
  have h1 := diag_index n hn x _ ht
  obtain ⟨h2, h3⟩ := (mem_diag n hn _).1 (List.getElem_mem hx)
  generalize (diag n)[x] = t at *
  unfold IsPair at h2
  refine ⟨t.1, t.2.1, ⟨by omega, by omega⟩, ⟨by omega, by omega⟩, by omega, ?_⟩
  unfold pr
  rw [show min t.1 t.2.1 = t.1 by omega, show max t.1 t.2.1 = t.2.1 by omega, ← h3, h1]

/-! ## The start -/

/-- `fork_mpst` can be carried out. -/
theorem start_exists (hn : 1 ≤ n) : ∃ s, Start (project n D) root s := by
  obtain ⟨body, g, hb, hrun, hsp, -⟩ := fork_run n 0 hn
  obtain ⟨h', l, F, e, m, E⟩ := fork_news (D := D) hn hb root (Reach.init)
  refine ⟨⟨h', fun r => .mesh (row n F r) ((project n D).types root r).stack⟩, .mk hb hrun e ?_⟩
  intro r h1 h2
  refine ⟨_, row n F r, ?_, E.fields ⟨h1, h2⟩ r, rfl⟩
  rw [hsp]
  exact List.mem_map.2 ⟨r, by rw [List.mem_range'_1]; change r ≤ n at h2; omega, rfl⟩

theorem start_spec (hn : 1 ≤ n) {st : RS} (hs : Start (project n D) root st) :
    Rel n D root [] nobody st.heap st.pos (.init (project n D) root) (fun _ p q => pr n p q - 1) 0 := by
  cases hs with
  | @mk body g h l pos hb hrun hnews hall =>
    obtain ⟨body', g', hb', hrun', hsp, -⟩ := fork_run n 0 hn
    change Gen.forkBody n = some body at hb
    rw [hb] at hb'; cases hb'
    rw [hrun] at hrun'; cases hrun'
    have hreach0 : Reach (env (project n D)) (Heap.init Pay) := Reach.init
    obtain ⟨h', l', F, e, m, E⟩ := fork_news (D := D) hn hb root hreach0
    rw [hnews] at e; cases e
    have h0 : (Heap.init Pay).nsid = 0 := rfl
    have hpos : ∀ r, Part n r → pos r = .mesh (row n F r) ((project n D).types root r).stack := by
      intro r hr
      obtain ⟨mm, sl, h1, h2, h3⟩ := hall r hr.1 hr.2
      rw [hsp] at h1
      obtain ⟨i, -, hi⟩ := List.mem_map.1 h1
      cases hi
      have := E.fields (isRole hr) r
      change fieldsOf n l _ = _ at h2
      rw [h2] at this; cases this
      exact h3
    have quiet : ∀ g p q, Part n p → expect n 0 pos g p q = none := by
      intro g p q hp; unfold expect; rw [hpos p hp]; simp [sentTo]
    change Rel n D root [] nobody h pos _ _ 0
    refine ⟨m.reach, ⟨_, Mesh.inv_init n D root, rfl⟩, fun g p q => by simp only [pr_comm n p q], ?_, ?_, ?_, ?_, ?_, ?_, ?_, ?_⟩
    · intro g g' p q p' q' hg hg' hp hq hne hp' hq' hne' e
      have := pr_pos (isRole hp) (isRole hq) hne
      have := pr_pos (isRole hp') (isRole hq') hne'
      exact ⟨by omega, pr_inj (isRole hp) (isRole hq) hne (isRole hp') (isRole hq') hne' (by omega)⟩
    · intro g p q _ hp hq hne
      have := pr_pos (isRole hp) (isRole hq) hne
      have := pr_le (isRole hp) (isRole hq) hne
      rw [m.nsid, h0, diag_length n hn]; omega
    · intro x hx
      rw [m.nsid, h0, Nat.zero_add] at hx
      obtain ⟨p, q, hp, hq, hne, e⟩ := pr_sur hn hx
      exact ⟨0, p, q, Nat.le_refl 0, hp, hq, hne, by omega⟩
    · intro r hr
      rw [hpos r hr]
      exact ⟨_, rfl, rfl, E.mesh (isRole hr) (fun q _ _ => by rw [h0]; simp)⟩
    · refine E.pool.trans ?_
      have : (Heap.init Pay).pool = [] := rfl
      rw [this, List.append_nil]
      refine List.Perm.of_eq (List.flatMap_congr fun r hr => ?_)
      rw [List.mem_range'_1] at hr
      rw [held_live rfl, hpos r ⟨by omega, by omega⟩]; rfl
    · intro g p q _ hp hq hne
      rw [m.trace, pending_new hreach0 (by rw [h0]; exact Nat.zero_le _)]
      exact .nil
    · intro x t r hx g p q _ hp hq hne _ _
      rw [quiet g p q hp, quiet g q p hq]
      rcases m.ends x t r hx with ⟨e1, -⟩ | ⟨-, e2⟩
      · exfalso
        have := ((reach_inv hreach0).occ x e1.1).sid
        rw [h0] at this; omega
      · exact ⟨.inr e2.1, e2.2⟩
    · intro p q hp hq hne hg
      rw [hpos q hq] at hg; cases hg

/-! ## A choice -/

theorem forall2_imp {α β : Type} {R S : α → β → Prop} {l : List α} {l' : List β} (h : List.Forall₂ R l l')
    (himp : ∀ a ∈ l, ∀ b, R a b → S a b) : List.Forall₂ S l l' := by
  induction h with
  | nil => exact .nil
  | cons h1 h2 ih =>
    exact .cons (himp _ List.mem_cons_self _ h1) (ih fun a ha => himp a (List.mem_cons_of_mem _ ha))

theorem filterMap_range {α : Type} : ∀ (l : List α) (a : Nat),
    (List.range' (a + 1) l.length).filterMap (fun k => l[k - 1 - a]?) = l := by
  intro l a
  have : ∀ (m b : Nat), b + m = l.length →
      (List.range' (a + 1 + b) m).filterMap (fun k => l[k - 1 - a]?) = l.drop b := by
    intro m
    induction m with
    | zero => intro b hb; simp [List.drop_eq_nil_of_le (show l.length ≤ b by omega)]
    | succ m ih =>
      intro b hb
      have hlt : b < l.length := by omega
      rw [List.range'_succ, List.filterMap_cons, show a + 1 + b - 1 - a = b by omega, List.getElem?_eq_getElem hlt]
      simp only
      rw [show a + 1 + b + 1 = a + 1 + (b + 1) by omega, ih (b + 1) (by omega), List.drop_eq_getElem_cons hlt]
  simpa using this l.length 0 (by omega)

theorem PosRel.ids {s : S} {r p} {id' : Ids} (hp : PosRel n D id s r p) (e : ∀ g, g ≤ gst s r → ∀ p q, id' g p q = id g p q) :
    PosRel n D id' s r p := by
  cases p with
  | mesh sl k =>
    obtain ⟨M, h1, h2, h3⟩ := hp
    exact ⟨M, h1, h2, h3.congr fun q => e _ (gen_le_gst s r) r q⟩
  | ending i sl =>
    obtain ⟨M, h1, h2, h3, h4⟩ := hp
    exact ⟨M, h1, h2, h3.congr fun q => e _ (gen_le_gst s r) r q, h4⟩
  | closed => exact hp
  | telling N todo old ow =>
    obtain ⟨h1, h2, h3⟩ := hp
    have hg : gst s r = s.gen r + 1 := by simp [gst, h1]
    refine ⟨h1, h2.congr fun q => e _ (by omega) r q, fun p hp => ?_⟩
    obtain ⟨a1, a2, a3, x, bs, a4, a5, a6⟩ := h3 p hp
    exact ⟨a1, a2, a3.congr fun q => e _ (by omega) _ q, x, bs, a4, by rw [e _ (by omega)]; exact a5, a6⟩

theorem decide_spec (w : Global.Wf n D) (R : Rel n D root ls dead h pos s id T) {r sl N} (hr : Part n r) (hd : dead r = false)
    (hp : pos r = .mesh sl .broadcast) (hN : ∀ e ∈ sl, ∃ w q bs, e.ty = .send w (.enum q bs) .fin ∧ N ∈ bs) :
    ∃ body g h' l m ow todo, Gen.toAllBody n r = some body ∧ Gen.run (Gen.St.init 0) body = some g ∧
      news (project n D) N h body = (h', l) ∧ g.out = some m ∧ fieldsOf n l m = some ow ∧
      g.sent.mapM (fun p => (fieldsOf n l p.2).map fun f => (p.1, f)) = some todo ∧
      ∃ s' id', Grows T id (T + 1) id' ∧ Mesh.Step (project n D) s (.act r (.decide N)) s' ∧
        Rel n D root (ls ++ [.act r (.decide N)]) dead h' (upd pos r (.telling N todo sl ow)) s' id' (T + 1) := by
  have hn : 1 ≤ n := by have := w.1; omega
  obtain ⟨body, g, hb, hrun, hsent, hout, -⟩ := toAll_run n r 0 (isRole hr)
  obtain ⟨h', l, F, hnews, m, E⟩ := toAll_news (D := D) hn hb N R.reach
  have hpr := R.posr r hr
  rw [hp] at hpr
  obtain ⟨M, hM, hk, hok⟩ := hpr
  obtain ⟨G, hI, hT⟩ := R.inv
  obtain ⟨⟨bs, ht, hsess⟩, hgT⟩ := Mesh.shape_broadcast w hI hr hM hk.symm
  rw [hT] at hgT
  have hNbs : N ∈ bs := by
    have hn2 := w.1
    obtain ⟨e, h1, -, -, h4⟩ := hok.at (i := 0) (by omega) hr
    obtain ⟨w', q, bs', e1, e2⟩ := hN e (List.mem_of_getElem? h1)
    rw [h4, hsess] at e1
    simp only [enc, STy.send.injEq, Pay.enum.injEq] at e1
    rw [e1.2.1.2]; exact e2
  refine ⟨body, g, h', l, _, row n F r, (List.range' 1 (n - 1)).map fun k => (k, row n F (partner r k)), hb, hrun, hnews, hout,
    E.fields (isRole hr) n, ?_, _, fun g p q => if g = T + 1 then h.nsid + pr n p q - 1 else id g p q,
    ⟨by omega, fun g hg => by funext p q; exact if_neg (by omega)⟩, .decide hr.1 hr.2 hM hk.symm (fun q _ => hsess q) hNbs, ?_⟩
  · rw [hsent]
    rw [List.mapM_map]
    apply mapM_all
    intro k hk
    rw [List.mem_range'_1] at hk
    simp only [Function.comp_apply]
    rw [E.fields (partner_role (isRole hr) (by omega) (by omega)).1]
    rfl
  -- nobody is closing
  have quiet : ∀ p q, Part n p → sentTo p q (pos p) = false := by
    intro p q hp
    have key : ∀ M', s.pos p = .mesh M' → M'.stack = .fin → False := by
      intro M' h1 h2
      have h3 := (Mesh.finished_end w hI hp ⟨M', h1, h2⟩).2
      have h4 := (Mesh.shape_fin w hI hp h1 h2).2
      rw [h4, hT, ← hgT, ht] at h3; cases h3
    have := R.posr p hp
    cases hpp : pos p with
    | mesh => rfl
    | telling => rfl
    | ending i sl => rw [hpp] at this; obtain ⟨M', h1, h2, -⟩ := this; exact (key M' h1 h2).elim
    | closed => rw [hpp] at this; obtain ⟨M', h1, h2⟩ := this; exact (key M' h1 h2).elim
  have hA : Alike n r (pos r) (.telling N ((List.range' 1 (n - 1)).map fun k => (k, row n F (partner r k))) sl (row n F r)) := by
    rw [hp]; exact alike_quiet (quiet_mesh _ _ _ _) (quiet_telling _ _ _ _ _ _)
  have hle : ∀ x, Part n x → gst s x ≤ T := fun x hx => R.top_le w hx
  have hidT : ∀ (g : Nat), g ≤ T → ∀ p q, (if g = T + 1 then h.nsid + pr n p q - 1 else id g p q) = id g p q := by
    intro g hg p q; rw [if_neg (by omega)]
  refine ⟨m.reach, ?_, ?_, ?_, ?_, ?_, ?_, ?_, ?_, ?_, ?_⟩
  · obtain ⟨G', hI', -⟩ := Mesh.inv_step w hI (.decide hr.1 hr.2 hM hk.symm (fun q _ => hsess q) hNbs)
    refine ⟨G', hI', top_eq hI' ?_ (.inr ⟨r, hr, ?_⟩) w⟩
    · intro x hx
      by_cases e : x = r
      · subst e; simp [gst, upd, hgT]
      · have := hle x hx
        have h2 : gst { s with pos := upd s.pos r (.telling N (others (project n D).n r)) } x = gst s x := by simp [gst, upd, e]
        rw [h2]; omega
    · simp [gst, upd, hgT]
  · intro g p q
    simp only [pr_comm n p q, R.idc g p q]
  · intro g g' p q p' q' hg hg' hp hq hne hp' hq' hne' e
    have p1 := pr_pos (isRole hp) (isRole hq) hne
    have p2 := pr_pos (isRole hp') (isRole hq') hne'
    by_cases c : g = T + 1
    · rw [if_pos c] at e
      by_cases c' : g' = T + 1
      · rw [if_pos c'] at e
        exact ⟨by omega, pr_inj (isRole hp) (isRole hq) hne (isRole hp') (isRole hq') hne' (by omega)⟩
      · rw [if_neg c'] at e
        have := R.lt g' p' q' (by omega) hp' hq' hne'
        omega
    · rw [if_neg c] at e
      have h1 := R.lt g p q (by omega) hp hq hne
      by_cases c' : g' = T + 1
      · rw [if_pos c'] at e; omega
      · rw [if_neg c'] at e
        exact R.inj g g' p q p' q' (by omega) (by omega) hp hq hne hp' hq' hne' e
  · intro g p q hg hp hq hne
    have p1 := pr_pos (isRole hp) (isRole hq) hne
    have p2 := pr_le (isRole hp) (isRole hq) hne
    rw [m.nsid, diag_length n hn]
    split
    · omega
    · have := R.lt g p q (by omega) hp hq hne; omega
  · intro x hx
    rw [m.nsid] at hx
    rcases Nat.lt_or_ge x h.nsid with hx' | hx'
    · obtain ⟨g, p, q, h1, h2, h3, h4, h5⟩ := R.sur x hx'
      exact ⟨g, p, q, by omega, h2, h3, h4, by rw [if_neg (by omega)]; exact h5⟩
    · obtain ⟨p, q, hp, hq, hne, e⟩ := pr_sur hn (x := x - h.nsid) (by omega)
      exact ⟨T + 1, p, q, Nat.le_refl _, hp, hq, hne, by rw [if_pos rfl]; omega⟩
  · intro x hx
    by_cases e : x = r
    · subst e
      simp only [upd, if_true]
      refine ⟨?_, ?_, ?_⟩
      · simp only [upd, if_true, List.map_map]
        rw [show (project n D).n = n from rfl, others_eq n x hx]
        rfl
      · refine E.mesh (isRole hx) fun q _ _ => ?_
        simp [hgT]
      · intro p hp'
        obtain ⟨k, hk, rfl⟩ := List.mem_map.1 hp'
        rw [List.mem_range'_1] at hk
        obtain ⟨a1, a2⟩ := partner_role (isRole hx) (k := k) (by omega) (by omega)
        refine ⟨by simp only; omega, by simp only; omega, E.mesh a1 fun q _ _ => by simp [hgT], ?_⟩
        obtain ⟨e, h1, h2, h3, h4⟩ := hok.at (i := k - 1) (by omega) hx
        rw [show k - 1 + 1 = k by omega] at h2 h3 h4
        refine ⟨e, bs, h1, ?_, h3, ?_, hNbs⟩
        · simp only [hgT]
          rw [if_neg (by omega), h2, hgT]
        · rw [h4, hsess]; rfl
    · simp only [upd, if_neg e]
      refine ((R.posr x hx).ids fun g hg p q => hidT g (Nat.le_trans hg (hle x hx)) p q).congr ?_ rfl
      simp [upd, e]
  · refine E.pool.trans ?_
    refine (List.Perm.append ((flat_others hr (row n F))) (R.split hr hd)).trans ?_
    refine List.Perm.trans ?_ (flat_upd hr hd pos _).symm
    rw [hp, own_mesh, own_telling]
    have e1 : ((List.range' 1 (n - 1)).map fun k => (k, row n F (partner r k))).filterMap (fun p => sl[p.1 - 1]?) = sl := by
      rw [List.filterMap_map]
      have := filterMap_range sl 0
      rw [hok.len] at this
      simpa [Function.comp_def] using this
    have e2 : ((List.range' 1 (n - 1)).map fun k => (k, row n F (partner r k))).flatMap (·.2) =
        (others n r).flatMap (row n F) := by
      rw [others_eq n r hr, List.flatMap_map, List.flatMap_map]
    rw [e1, e2]
    generalize (others n r).flatMap (row n F) = A
    generalize (others n r).flatMap (held dead pos) = B
    generalize row n F r = C
    -- C ++ A ++ (sl ++ B) ~ sl ++ (A ++ C) ++ B
    have s1 : (C ++ A ++ (sl ++ B)).Perm (sl ++ (C ++ A) ++ B) := by
      rw [← List.append_assoc]; exact List.perm_append_comm.append_right B
    exact s1.trans ((List.perm_append_comm.append_left sl).append_right B)
  · intro g p q hg hp hq hne
    simp only
    by_cases c : g = T + 1
    · rw [if_pos c, m.trace, pending_new R.reach (by have := pr_pos (isRole hp) (isRole hq) hne; omega)]
      have h1 := hI.eq g p q hp hq hne
      have h2 : Mesh.upTo D G.path g p q (G.gst p) (G.idx p) = [] := by
        have := hI.le p hp
        unfold Mesh.upTo; rw [if_neg (by omega), if_neg (by omega)]
      rw [h2] at h1
      have : s.queue (g, p, q) = [] := by
        have := congrArg List.length h1
        simp only [List.length_nil, List.length_append] at this
        exact List.eq_nil_of_length_eq_zero (by omega)
      rw [this]; exact .nil
    · rw [if_neg c, m.trace]
      refine forall2_imp (R.queue g p q (by omega) hp hq hne) ?_
      intro a ha b hab
      cases a with
      | data x => exact hab
      | branch N' =>
        obtain ⟨t, v⟩ := b
        obtain ⟨b1, b2, ms, b3, b4⟩ := hab
        have hlt := Mesh.branch_gst hI hp hq hne ha
        have hle' := hI.le p hp
        exact ⟨b1, b2, ms, b3, b4.congr fun q' => hidT _ (by omega) _ _⟩
  · intro x t r' hx g p q hg hp hq hne h1 h2
    have quiet' : ∀ T' p q, Part n p → Part n q → p ≠ q → expect n T' (upd pos r (.telling N ((List.range' 1 (n - 1)).map
        fun k => (k, row n F (partner r k))) sl (row n F r))) g p q = none := by
      intro T' p q hp hq hne
      rw [hA.expect hp hq hne]
      unfold expect
      rw [if_neg]
      rintro ⟨-, h3, -⟩
      rw [quiet p q hp] at h3; cases h3
    rw [quiet' _ p q hp hq hne, quiet' _ q p hq hp hne.symm]
    rcases m.ends x t r' hx with ⟨e1, e2, e3⟩ | ⟨-, e2⟩
    · have hsid := ((reach_inv R.reach).occ x e1.1).sid
      by_cases c : g = T + 1
      · rw [if_pos c] at h1; have := pr_pos (isRole hp) (isRole hq) hne; omega
      · rw [if_neg c] at h1
        obtain ⟨f1, f2⟩ := R.sig x t r' e1 g p q (by omega) hp hq hne h1 h2
        rw [← hA.expect hp hq hne, quiet' _ p q hp hq hne] at f1
        rw [e2, e3, f2, ← hA.expect hq hp hne.symm, quiet' _ q p hq hp hne.symm]
        exact ⟨f1, rfl⟩
    · exact ⟨.inr e2.1, e2.2⟩
  · exact R.got_alike hA

end Verif.Runtime
