import Verif.Proof.TimedText
import Verif.Spec.TimedText
import Mathlib.Data.List.Sort
/-!
# From the text of a timed protocol to a run of its program in time
-/
namespace Verif.EndToEnd
open Verif.Nuscr Verif.NuscrSpec Verif.Types Verif.Timed Verif.Spec Verif.Prop Verif.Runtime
open Verif.NuscrText (Classes)

/-- The messages of an accepted protocol in the order of the schedule in which everything happens as late as possible. -/
def byTime (msgs : List Msg) : List (Msg × Nat) := msgs.zipIdx.mergeSort fun a b => decide (due msgs 0 a.2 ≤ due msgs 0 b.2)

/-- The messages of `p`. -/
def own (p : Text) (a : Msg × Nat) : Bool := decide (a.1.sender = p ∨ a.1.receiver = p)

theorem own_iff {p : Text} {a : Msg × Nat} : own p a = true ↔ Involved p a.1 := by simp [own, Involved]

/-- When the clock was last reset in these messages. -/
def clk (msgs : List Msg) (l : List (Msg × Nat)) : Nat := l.foldl (fun c a => if a.1.reset ≠ none then due msgs 0 a.2 else c) 0

theorem byTime_perm (msgs : List Msg) : (byTime msgs).Perm msgs.zipIdx := List.mergeSort_perm _ _

theorem mem_byTime {msgs : List Msg} {a : Msg × Nat} (h : a ∈ byTime msgs) : msgs[a.2]? = some a.1 :=
  List.mem_zipIdx_iff_getElem?.1 ((byTime_perm msgs).mem_iff.1 h)

theorem byTime_sorted (msgs : List Msg) : (byTime msgs).Pairwise fun a b => due msgs 0 a.2 ≤ due msgs 0 b.2 := by
  have := List.pairwise_mergeSort (le := fun a b : Msg × Nat => decide (due msgs 0 a.2 ≤ due msgs 0 b.2))
    (fun a b c h1 h2 => by simp only [decide_eq_true_eq] at *; omega) (fun a b => by simp; omega) msgs.zipIdx
  exact this.imp fun h => by simpa using h

theorem zipIdx_lt (msgs : List Msg) : msgs.zipIdx.Pairwise fun a b => a.2 < b.2 := by
  have : (msgs.zipIdx.map (·.2)).Pairwise (· < ·) := by
    rw [List.zipIdx_map_snd]
    exact List.pairwise_lt_range'
  exact List.pairwise_map.1 this

section
variable {title : Text → Text} {name : Text} {roles : List Text} {msgs : List Msg} {x : Char}
variable (ha : Prop.Accepted title name roles msgs) (hx : OneClock x msgs) (ht : Together msgs)
  (hw : ∀ m ∈ msgs, Wide (2 * 0) m)
include ha hx ht hw

theorem byTime_filter (p : Text) : (byTime msgs).filter (own p) = msgs.zipIdx.filter (own p) := by
  have hpw : (msgs.zipIdx.filter (own p)).Pairwise fun a b => decide (due msgs 0 a.2 ≤ due msgs 0 b.2) = true := by
    refine List.Pairwise.imp_of_mem ?_ ((zipIdx_lt msgs).filter (own p))
    intro a b ha' hb' hlt
    obtain ⟨a1, a2⟩ := List.mem_filter.1 ha'
    obtain ⟨b1, b2⟩ := List.mem_filter.1 hb'
    rw [decide_eq_true_eq]
    exact due_mono ha hx ht hw p hlt (List.mem_zipIdx_iff_getElem?.1 a1) (List.mem_zipIdx_iff_getElem?.1 b1) (own_iff.1 a2) (own_iff.1 b2)
  have hsub := List.sublist_mergeSort (le := fun a b : Msg × Nat => decide (due msgs 0 a.2 ≤ due msgs 0 b.2))
    (fun a b c h1 h2 => by simp only [decide_eq_true_eq] at *; omega) (fun a b => by simp; omega) hpw List.filter_sublist
  have hsub' := hsub.filter (own p)
  rw [List.filter_filter] at hsub'
  simp only [Bool.and_self] at hsub'
  exact (hsub'.eq_of_length ((byTime_perm msgs).filter (own p)).length_eq.symm).symm

omit ha hx ht hw in
theorem base_clk (p : Text) : ∀ i, i ≤ msgs.length → base msgs 0 i p = clk msgs ((msgs.zipIdx.take i).filter (own p))
  | 0, _ => by simp [base, clk]
  | i + 1, hi => by
    have ih := base_clk p i (by omega)
    have hm : msgs[i]? = some msgs[i] := List.getElem?_eq_getElem (by omega)
    have e : msgs.zipIdx.take (i + 1) = msgs.zipIdx.take i ++ [(msgs[i], i)] := by
      rw [List.take_add_one]
      congr 1
      rw [List.getElem?_zipIdx, hm]
      simp
    rw [e, List.filter_append]
    simp only [base, hm]
    by_cases h : Involved p msgs[i]
    · have ho : own p (msgs[i], i) = true := own_iff.2 h
      rw [List.filter_cons_of_pos ho, List.filter_nil]
      by_cases hr : msgs[i].reset ≠ none
      · rw [if_pos ⟨h, hr⟩]
        simp only [clk, List.foldl_append, List.foldl_cons, List.foldl_nil, if_pos hr]
        exact (due_some hm).symm
      · rw [if_neg fun h' => hr h'.2, ih]
        simp only [clk, List.foldl_append, List.foldl_cons, List.foldl_nil, if_neg hr]
    · have ho : own p (msgs[i], i) = false := by simpa [own, Involved] using h
      rw [List.filter_cons_of_neg (by simp [ho]), List.filter_nil, List.append_nil, if_neg fun h' => h h'.1, ih]

/-- Before a message its role has its clock from where the protocol says. -/
theorem clk_base {L1 L2 : List (Msg × Nat)} {m : Msg} {i : Nat} (h : byTime msgs = L1 ++ (m, i) :: L2) {p : Text} (hp : Involved p m) :
    clk msgs (L1.filter (own p)) = base msgs 0 i p := by
  have hmi : msgs[i]? = some m := mem_byTime (msgs := msgs) (a := (m, i)) (by rw [h]; simp)
  obtain ⟨hi, hmi'⟩ := List.getElem?_eq_some_iff.1 hmi
  have hf := byTime_filter ha hx ht hw p
  have ho : own p (m, i) = true := own_iff.2 hp
  have e : msgs.zipIdx = msgs.zipIdx.take i ++ (m, i) :: msgs.zipIdx.drop (i + 1) := by
    have hlt : i < msgs.zipIdx.length := by simpa using hi
    have : msgs.zipIdx[i] = (m, i) := by simp [hmi']
    rw [← this, ← List.drop_eq_getElem_cons hlt, List.take_append_drop]
  have hnd : (msgs.zipIdx.filter (own p)).Nodup := by
    refine List.Pairwise.imp ?_ ((zipIdx_lt msgs).filter (own p))
    rintro a b hlt rfl
    omega
  rw [base_clk p i (Nat.le_of_lt hi)]
  congr 1
  have hz : msgs.zipIdx.filter (own p) = (msgs.zipIdx.take i).filter (own p) ++ (m, i) :: (msgs.zipIdx.drop (i + 1)).filter (own p) := by
    conv_lhs => rw [e]
    rw [List.filter_append, List.filter_cons_of_pos ho]
  rw [h, List.filter_append, List.filter_cons_of_pos ho] at hf
  have hnd' := hnd
  rw [← hf] at hnd'
  rw [hz] at hf
  refine ((List.append_cons_inj_of_notMem ?_ ?_).1 hf).1
  · intro hin
    exact (List.nodup_append.1 hnd').2.2 _ hin _ (by simp) rfl
  · exact (List.nodup_cons.1 (List.nodup_append.1 hnd').2.1).1

omit ha hx ht hw in
theorem accepted_last {m : Msg} (h : Wide (2 * 0) m) : Spec.Accepted (Params.window (written title m)) (lastIn m * 1000000000) := by
  obtain ⟨hf, v1⟩ := wide_last h
  have hup : lastIn m * 1000000000 ≤ value m.rightBound * 1000000000 := Nat.mul_le_mul_right _ (Nat.sub_le _ _)
  refine ⟨⟨?_, ?_⟩, ?_⟩
  · intro _
    simp only [Params.window, written, decide_eq_true_eq]
    split <;> rename_i h
    · rw [if_pos h] at v1; omega
    · rw [if_neg h] at v1; omega
  · intro _
    obtain ⟨-, h3⟩ := hf
    simp only [Params.window, written, decide_eq_true_eq]
    split <;> rename_i h
    · omega
    · rw [if_neg h] at h3; omega
  · intro _ h
    simp only [Params.window, written, decide_eq_false_iff_not] at h ⊢
    rw [if_neg h] at v1
    omega

/-- The clocks allow the schedule. -/
theorem good_byTime {prog : Program} {code : Params → Nat} {V : Windows} (hV : AsWritten code title V msgs)
    (hs : ∀ m ∈ msgs, value m.rightBound < 18446744073709551616) (hv : ∀ m ∈ msgs, Valid prog.roles m) :
    ∀ (L2 L1 : List (Msg × Nat)) (cl : Nat → Clocks) (now : Nat), byTime msgs = L1 ++ L2 →
      (∀ p ∈ prog.roles, cl (number prog p) x = some (clk msgs (L1.filter (own p)))) → (∀ a ∈ L2, now ≤ due msgs 0 a.2) →
      Good V cl now (L2.map fun a => (comm prog code title a.1, due msgs 0 a.2))
  | [], _, _, _, _, _, _ => trivial
  | (m, i) :: L2, L1, cl, now, hL, hcl, hnow => by
    have hmi : msgs[i]? = some m := mem_byTime (msgs := msgs) (a := (m, i)) (by rw [hL]; simp)
    have hmem := List.mem_of_getElem? hmi
    obtain ⟨hv1, hv2, hv3⟩ := hv m hmem
    obtain ⟨hc, hr⟩ := hx.2 m hmem
    have hsm := hs m hmem
    have hf := (wide_last (hw m hmem)).1
    have hle : value m.leftBound ≤ value m.rightBound := by
      obtain ⟨h1, h2⟩ := hf
      split at h1 <;> split at h2 <;> omega
    have hclock : (Params.window (written title m)).clock = x := by simp [Params.window, written, hc]
    have hreset : (Params.window (written title m)).reset = if m.reset = none then ' ' else x := by
      rcases hr with h | h <;> simp [Params.window, written, h]
    have hdue : due msgs 0 i = base msgs 0 i m.sender + lastIn m * 1000000000 := by rw [due_some hmi]; rfl
    have meets : ∀ fn p, Involved p m → p ∈ prog.roles → Meets fn (V.msg (code (written title m))) (cl (number prog p)) (due msgs 0 i) := by
      intro fn p hp hpr
      have hb : base msgs 0 i p = base msgs 0 i m.sender := by
        rcases hp with h | h
        · rw [h]
        · rw [← h, base_both ht hmi]
      have hcp := hcl p hpr
      rw [clk_base ha hx ht hw hL hp, hb] at hcp
      rw [hV m hmem]
      refine .inr ⟨⟨?_, ?_, ?_, .inl ?_⟩, ⟨base msgs 0 i m.sender, by rw [hclock, hcp], ?_⟩, ?_⟩
      · simp only [Params.window, written]; omega
      · simp only [Params.window, written]; omega
      · unfold Unbounded; simp only [Params.window, written]; omega
      · simp only [Params.window, written]; omega
      · rw [hdue, Nat.add_sub_cancel_left]
        exact accepted_last (hw m hmem)
      · rw [hreset]
        split
        · exact .inl rfl
        · exact .inr (.inr ⟨_, hcp⟩)
    have hpw := byTime_sorted msgs
    rw [hL] at hpw
    refine ⟨hnow (m, i) (by simp), meets _ _ (.inl rfl) hv1, meets _ _ (.inr rfl) hv2,
      good_byTime hV hs hv L2 (L1 ++ [(m, i)]) _ _ (by rw [hL]; simp) ?_ fun a ha => ?_⟩
    · intro p hp
      have hnum : ∀ {q}, q ∈ prog.roles → (number prog p = number prog q ↔ q = p) := fun hq => ⟨fun e => number_inj hq e.symm, fun e => by rw [e]⟩
      have hset : ∀ q, q = p → restart (resetOf (V.msg (code (written title m)))) (due msgs 0 i) (cl (number prog q)) x =
          some (if m.reset ≠ none then due msgs 0 i else clk msgs (L1.filter (own p))) := by
        rintro q rfl
        rw [hV m hmem]
        unfold restart resetOf
        rw [hreset]
        by_cases h : m.reset = none
        · simp [h, hcl q hp]
        · simp [h, hx.1]
      rw [List.filter_append]
      unfold after
      simp only [comm]
      by_cases e2 : m.receiver = p
      · rw [(hnum hv2).2 e2, Mesh.upd_same, hset _ e2, List.filter_cons_of_pos (own_iff.2 (.inr e2))]
        simp only [clk, List.filter_nil, List.foldl_append, List.foldl_cons, List.foldl_nil]
      · rw [Mesh.upd_other _ _ (fun e => e2 ((hnum hv2).1 e))]
        by_cases e1 : m.sender = p
        · rw [(hnum hv1).2 e1, Mesh.upd_same, hset _ e1, List.filter_cons_of_pos (own_iff.2 (.inl e1))]
          simp only [clk, List.filter_nil, List.foldl_append, List.foldl_cons, List.foldl_nil]
        · rw [Mesh.upd_other _ _ (fun e => e1 ((hnum hv1).1 e)), hcl p hp]
          rw [List.filter_cons_of_neg (by rw [own_iff]; rintro (h | h); exacts [e1 h, e2 h]), List.filter_nil, List.append_nil]
    · exact (List.pairwise_cons.1 (List.pairwise_append.1 hpw).2.1).1 a ha

end

/-- A run of the program of an accepted protocol in time. -/
theorem text_run {title : Text → Text} {C : Classes} {name : Text} {roles : List Text} {msgs : List Msg} {text : List Text} {prog : Program}
    (h : Accepted title C (.straight name roles msgs) text prog) {x : Char} (hx : OneClock x msgs) (ht : Together msgs)
    (hw : ∀ m ∈ msgs, Wide (2 * 0) m) (hs : ∀ m ∈ msgs, value m.rightBound < 18446744073709551616)
    (code : Params → Nat) {V : Windows} (hV : AsWritten code title V msgs) :
    ∃ ls st cl noted now, Ideal (system prog code title (.straight name roles msgs)) V 0 (fun _ _ => some 0) 0 ls st cl noted now ∧
      AllClosed (system prog code title (.straight name roles msgs)) st ∧
      ∀ p ∈ roles, timedActs (number prog p) ls = timetable prog code title p msgs (due msgs 0) := by
  have hv : ∀ m ∈ msgs, Valid prog.roles m := (accepted_valid h).1
  have ha : Prop.Accepted title name roles msgs := ⟨prog, accepted_generator h⟩
  have hw' := accepted_wf h code
  have hG := good_byTime ha hx ht hw hV hs hv (byTime msgs) [] (fun _ _ => some 0) 0 rfl (fun p _ => rfl) (fun _ _ => Nat.zero_le _)
  have hcm : ∀ a ∈ byTime msgs, a.1 ∈ msgs := fun a ha => List.mem_of_getElem? (mem_byTime ha)
  have hzm : ∀ a ∈ msgs.zipIdx, a.1 ∈ msgs := fun a ha => List.mem_of_getElem? (List.mem_zipIdx_iff_getElem?.1 ha)
  have hown : ∀ (l : List (Msg × Nat)) p, p ∈ prog.roles → (∀ a ∈ l, a.1 ∈ msgs) →
      ((l.map fun a => comm prog code title a.1).filter fun c => c.p = number prog p ∨ c.q = number prog p) =
        (l.filter (own p)).map fun a => comm prog code title a.1 := by
    intro l p hp hl
    rw [List.filter_map]
    congr 1
    refine List.filter_congr fun a ha => ?_
    have := hv _ (hl a ha)
    simp only [Function.comp, own, comm]
    refine decide_eq_decide.2 ?_
    constructor
    · exact Or.imp (number_inj this.1) (number_inj this.2.1)
    · exact Or.imp (fun e => by rw [e]) (fun e => by rw [e])
  have hmsgs : msgs.map (comm prog code title) = msgs.zipIdx.map fun a => comm prog code title a.1 := by
    conv_lhs => rw [← List.zipIdx_map_fst 0 msgs]
    rw [List.map_map]
    rfl
  obtain ⟨ext, st, cl, noted, now, h1, h2, h3⟩ := ideal_straight (V := V) (root := 0) hw'
    (L := (byTime msgs).map fun a => (comm prog code title a.1, due msgs 0 a.2)) rfl (by
      intro r hr
      obtain ⟨p, hp, rfl⟩ := number_surj h r hr
      have hp' := (accepted_mem h p).2 hp
      rw [List.map_map]
      show (msgs.map (comm prog code title)).filter _ = ((byTime msgs).map fun a => comm prog code title a.1).filter _
      rw [hmsgs, hown _ p hp' hzm, hown _ p hp' hcm, byTime_filter ha hx ht hw p]) (by
      intro a ha
      obtain ⟨b, hb, rfl⟩ := List.mem_map.1 ha
      obtain ⟨c1, c2, c3⟩ := hv _ (hcm b hb)
      exact ⟨number_pos c1, number_pos c2, fun e => c3 (number_inj c1 e)⟩) (cl₀ := fun _ _ => some 0) (t₀ := 0)
    (by intro r y c e; cases e; exact Nat.le_refl _) hG
  refine ⟨_, st, cl, noted, now, h1, h2, fun p hp => ?_⟩
  have hp' := (accepted_mem h p).2 hp
  have hext : timedActs (number prog p) ext = [] := by
    unfold timedActs
    rw [List.filterMap_eq_nil_iff]
    intro a ha
    have := h3 a ha
    obtain ⟨l, m⟩ := a
    cases l with
    | sim y => exact this.elim
    | _ => rfl
  let f : Msg × Nat → Option (Mesh.Act × Nat) := fun a => (does prog code title p (.exchange a.1)).map fun y => (y, due msgs 0 a.2)
  have hsteps : ∀ l : List (Msg × Nat), (∀ a ∈ l, a.1 ∈ msgs) →
      timedActs (number prog p) (stepsOf (l.map fun a => (comm prog code title a.1, due msgs 0 a.2))) = l.filterMap f := by
    intro l
    induction l with
    | nil => intro _; rfl
    | cons a l ih =>
      intro hl
      have ih := ih fun b hb => hl b (by simp [hb])
      obtain ⟨c1, c2, c3⟩ := hv _ (hl a (by simp))
      have e1 : number prog a.1.sender = number prog p ↔ a.1.sender = p := ⟨number_inj c1, fun e => by rw [e]⟩
      have e2 : number prog a.1.receiver = number prog p ↔ a.1.receiver = p := ⟨number_inj c2, fun e => by rw [e]⟩
      unfold timedActs stepsOf at ih ⊢
      rw [List.map_cons, List.flatMap_cons, List.filterMap_append, ih, List.filterMap_cons (f := f)]
      simp only [List.filterMap_cons, List.filterMap_nil, comm, f, does]
      by_cases k1 : a.1.sender = p
      · have k2 : a.1.receiver ≠ p := fun e => c3 (k1.trans e.symm)
        simp [k1, k2, e2]
      · by_cases k2 : a.1.receiver = p
        · simp [k1, k2, e1]
        · simp [k1, k2, e1, e2]
  have hfil : ∀ l : List (Msg × Nat), l.filterMap f = (l.filter (own p)).filterMap f := by
    intro l
    rw [List.filterMap_filter]
    refine List.filterMap_congr fun a _ => ?_
    split
    · rfl
    · rename_i hn
      have : ¬ Involved p a.1 := fun e => hn (own_iff.2 e)
      simp only [f, does, if_neg fun e => this (.inl e), if_neg fun e => this (.inr e), Option.map_none]
  have happ : timedActs (number prog p) (stepsOf ((byTime msgs).map fun a => (comm prog code title a.1, due msgs 0 a.2)) ++ ext) =
      (byTime msgs).filterMap f := by
    unfold timedActs at hext ⊢
    rw [List.filterMap_append, hext, List.append_nil]
    exact hsteps _ hcm
  rw [happ, hfil, byTime_filter ha hx ht hw p, ← hfil]
  rfl

end Verif.EndToEnd
