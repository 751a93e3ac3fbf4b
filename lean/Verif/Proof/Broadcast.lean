import Verif.Spec.Broadcast
/-!
# Invariants of the broadcast-cancel protocol
-/
namespace Verif.Broadcast

/-- The participant whose fresh `End` role `q` carries in a choice by `e`. -/
def carried (n e q : Nat) : Nat := if q = e then 2 else if q < e then n + 2 - q else n + 3 - q

/-- Its inverse. -/
def carrier (n e j : Nat) : Nat := if j = 2 then e else if n + 2 - j < e then n + 2 - j else n + 3 - j

theorem carried_range {n e q : Nat} (he : 2 ≤ e ∧ e ≤ n) (hq : 2 ≤ q ∧ q ≤ n) :
    2 ≤ carried n e q ∧ carried n e q ≤ n := by
  unfold carried; split <;> (try split) <;> omega

theorem carrier_range {n e q : Nat} (he : 2 ≤ e ∧ e ≤ n) (hq : 2 ≤ q ∧ q ≤ n) :
    2 ≤ carrier n e q ∧ carrier n e q ≤ n := by
  unfold carrier; split <;> (try split) <;> omega

theorem carried_carrier {n e j : Nat} (he : 2 ≤ e ∧ e ≤ n) (hj : 2 ≤ j ∧ j ≤ n) :
    carried n e (carrier n e j) = j := by
  unfold carried carrier; split <;> (try split) <;> (try split) <;> (try split) <;> omega

theorem carrier_carried {n e q : Nat} (he : 2 ≤ e ∧ e ≤ n) (hq : 2 ≤ q ∧ q ≤ n) :
    carrier n e (carried n e q) = q := by
  unfold carried carrier
  by_cases h1 : q = e
  · simp [h1]
  · by_cases h2 : q < e
    · simp only [h1, h2, if_false, if_true]
      split <;> (try split) <;> omega
    · simp only [h1, h2, if_false]
      split <;> (try split) <;> omega

theorem handOutLoop_eq (e : Nat) (is st : List Nat) (h : is.length ≤ st.length) :
    handOutLoop e is st = some ((is.map (receiverAt e)).zip st, st.drop is.length) := by
  induction is generalizing st with
  | nil => simp [handOutLoop]
  | cons i is ih =>
    cases st with
    | nil => simp at h
    | cons j st =>
      simp only [List.length_cons, Nat.add_le_add_iff_right] at h
      simp [handOutLoop, ih st h]

theorem handOut_eq {n e : Nat} (hn : 2 ≤ n) :
    handOut n e = some ((List.range' 2 (n - 2)).map (fun i => (receiverAt e i, n + 2 - i)), 2) := by
  have hl : (List.range' 2 (n - 2)).length ≤ (fresh n).length := by simp [fresh]; omega
  unfold handOut
  rw [handOutLoop_eq e _ _ hl]
  have h1 : (List.map (receiverAt e) (List.range' 2 (n - 2))).zip (fresh n)
      = (List.range' 2 (n - 2)).map (fun i => (receiverAt e i, n + 2 - i)) := by
    apply List.ext_getElem
    · simp [fresh]; omega
    · intro k h1 h2
      simp only [List.length_map, List.length_range'] at h2
      simp [fresh]
      omega
  have h2 : (fresh n).drop (List.range' 2 (n - 2)).length = [2] := by
    apply List.ext_getElem
    · simp [fresh]; omega
    · intro k h1 h2
      simp only [List.length_singleton] at h2
      have : k = 0 := by omega
      subst this
      simp [fresh]
      omega
  simp only [h1, h2]

theorem handOut_facts {n e : Nat} {l : List (Nat × Nat)} {z : Nat} (he : 2 ≤ e ∧ e ≤ n)
    (h : handOut n e = some (l, z)) :
    (∀ q j, (q, j) ∈ l → (2 ≤ q ∧ q ≤ n) ∧ q ≠ e ∧ j = carried n e q) ∧
    (∀ q, 2 ≤ q → q ≤ n → q ≠ e → (q, carried n e q) ∈ l) ∧
    (l.map Prod.fst).Nodup ∧ z = carried n e e := by
  rw [handOut_eq (by omega)] at h
  simp only [Option.some.injEq, Prod.mk.injEq] at h
  obtain ⟨rfl, rfl⟩ := h
  refine ⟨?_, ?_, ?_, ?_⟩
  · intro q j hm
    simp only [List.mem_map, List.mem_range'_1, Prod.mk.injEq] at hm
    obtain ⟨i, hi, rfl, rfl⟩ := hm
    unfold receiverAt carried
    by_cases h : i ≥ e
    · simp only [h, if_true]
      refine ⟨by omega, by omega, ?_⟩
      rw [if_neg (by omega), if_neg (by omega)]; omega
    · simp only [h, if_false]
      refine ⟨by omega, by omega, ?_⟩
      rw [if_neg (by omega), if_pos (by omega)]
  · intro q h1 h2 h3
    simp only [List.mem_map, List.mem_range'_1, Prod.mk.injEq]
    by_cases h : q < e
    · refine ⟨q, by omega, ?_, ?_⟩
      · unfold receiverAt; rw [if_neg (by omega)]
      · unfold carried; rw [if_neg h3, if_pos h]
    · refine ⟨q - 1, by omega, ?_, ?_⟩
      · unfold receiverAt; rw [if_pos (by omega)]; omega
      · unfold carried; rw [if_neg h3, if_neg h]; omega
  · rw [List.map_map]
    show (List.map (fun i => receiverAt e i) _).Nodup
    rw [List.Nodup, List.pairwise_map]
    refine List.Pairwise.imp ?_ (List.nodup_range' (s := 2) (n := n - 2))
    intro a b hab hc
    apply hab
    unfold receiverAt at hc
    split at hc <;> split at hc <;> omega
  · simp [carried]

/-- The `End` that role `q` carries to the broadcaster in the `g`-th choice. -/
def Proto.car (P : Proto) (g q : Nat) : Nat := carried P.n (P.chooser g) q

/-- The participant slot `k` of the broadcaster is connected to after `g` choices. -/
def Proto.via (P : Proto) : Nat → Nat → Nat
  | 0, k => k + 1
  | g + 1, k => P.car g (P.via g k)

theorem via_range {P : Proto} (w : P.Wf) {g k : Nat} (hg : g ≤ P.total) (hk : 1 ≤ k ∧ k < P.n) :
    2 ≤ P.via g k ∧ P.via g k ≤ P.n := by
  induction g with
  | zero => simp only [Proto.via]; omega
  | succ g ih =>
    exact carried_range (w.chooser g (by omega)) (ih (by omega))

theorem via_inj {P : Proto} (w : P.Wf) {g k k' : Nat} (hg : g ≤ P.total) (hk : 1 ≤ k ∧ k < P.n)
    (hk' : 1 ≤ k' ∧ k' < P.n) (h : P.via g k = P.via g k') : k = k' := by
  induction g with
  | zero => simp only [Proto.via] at h; omega
  | succ g ih =>
    apply ih (by omega)
    have h1 := via_range w (g := g) (by omega) hk
    have h2 := via_range w (g := g) (by omega) hk'
    have hc := w.chooser g (by omega)
    simp only [Proto.via, Proto.car] at h
    rw [← carrier_carried hc h1, h, carrier_carried hc h2]

theorem via_surj {P : Proto} (w : P.Wf) {g p : Nat} (hg : g ≤ P.total) (hp : 2 ≤ p ∧ p ≤ P.n) :
    ∃ k, (1 ≤ k ∧ k < P.n) ∧ P.via g k = p := by
  induction g generalizing p with
  | zero => exact ⟨p - 1, by omega, by simp only [Proto.via]; omega⟩
  | succ g ih =>
    have hc := w.chooser g (by omega)
    obtain ⟨k, hk, e⟩ := ih (by omega) (carrier_range hc hp)
    exact ⟨k, hk, by simp only [Proto.via, Proto.car]; rw [e, carried_carrier hc hp]⟩

/-- About to offer a fresh `End`. -/
def PC.isHolding : PC → Bool
  | .holding _ => true
  | _ => false

/-- Inside a choice. -/
def PC.isHanding : PC → Bool
  | .handing _ _ => true
  | _ => false

/-- Inside a choice, `q` still to be told. -/
def PC.owes (q : Nat) : PC → Bool
  | .handing r _ => r.any (fun x => x.1 == q)
  | _ => false

/-- Structural invariant: where the fresh `End`s are. -/
structure Inv (P : Proto) (s : S) : Prop where
  gen_le : ∀ p, s.gen p ≤ P.total
  fin : ∀ p, (s.pc p = .ok ∨ ∃ r, s.pc p = .closing r) → s.gen p = P.total
  dep : ∀ k, 1 ≤ k → k < P.n → (s.slot k).1 ≤ P.total
  slot : ∀ k, 1 ≤ k → k < P.n → (s.slot k).2 = P.via (s.slot k).1 k
  past : ∀ k e, 1 ≤ k → k < P.n → e < (s.slot k).1 → e < s.gen (P.via e k)
  pend : ∀ k g, 1 ≤ k → k < P.n → (s.slot k).1 ≤ g → g < s.gen (P.via g k) →
    s.toB (g, P.via g k) = some (.offer (g + 1, P.via (g + 1) k))
  offer : ∀ g p c, s.toB (g, p) = some (.offer c) → g < s.gen p ∧ c = (g + 1, P.car g p)
  box : ∀ g p c, s.inbox g p = some c → c = (g + 1, P.car g p) ∧ s.gen p ≤ g ∧ g < P.total ∧
    (2 ≤ p ∧ p ≤ P.n) ∧ p ≠ P.chooser g ∧ (s.gen p = g → ∀ d, s.pc p ≠ .holding d)
  hold : ∀ p c, s.pc p = .holding c → c = (s.gen p + 1, P.car (s.gen p) p) ∧ s.gen p < P.total
  hand : ∀ p r z, s.pc p = .handing r z → P.chooser (s.gen p) = p ∧ s.gen p < P.total ∧ z = P.car (s.gen p) p ∧
    (r.map Prod.fst).Nodup ∧
    ∀ q j, (q, j) ∈ r → (2 ≤ q ∧ q ≤ P.n) ∧ q ≠ p ∧ j = P.car (s.gen p) q ∧ s.gen q ≤ s.gen p ∧
      s.inbox (s.gen p) q = none ∧ (s.gen q = s.gen p → ∀ d, s.pc q ≠ .holding d)
  /-- nobody gets past a choice its chooser has not reached -/
  made : ∀ g q, g < P.total → (g < s.gen q ∨ (s.gen q = g ∧ (s.pc q).isHolding = true) ∨ s.inbox g q ≠ none) →
    s.gen (P.chooser g) > g ∨ (s.gen (P.chooser g) = g ∧ ((s.pc (P.chooser g)).isHolding = true ∨
      (s.pc (P.chooser g)).isHanding = true ∨ s.pc (P.chooser g) = .down))
  /-- those the chooser has told can go on -/
  handed : ∀ g q, g < P.total → 2 ≤ q → q ≤ P.n → q ≠ P.chooser g →
    (s.gen (P.chooser g) > g ∨ (s.gen (P.chooser g) = g ∧ ((s.pc (P.chooser g)).isHolding = true ∨
      ((s.pc (P.chooser g)).isHanding = true ∧ (s.pc (P.chooser g)).owes q = false)))) →
    s.inbox g q ≠ none ∨ (s.gen q = g ∧ (s.pc q).isHolding = true) ∨ g < s.gen q ∨ (s.gen q ≤ g ∧ s.pc q = .down)
  /-- what participants not past a choice have not been told about it -/
  fut : ∀ g p, (s.gen p < g ∨ (s.gen p = g ∧ s.raised p = false ∧ s.stops p 1 = false)) → s.toB (g, p) = none
  out : ∀ p, ¬ (2 ≤ p ∧ p ≤ P.n) → s.gen p = 0 ∧ s.pc p = .active

theorem inv_init (P : Proto) : Inv P .init := by
  constructor <;> simp [S.init, Proto.via, PC.isHolding, PC.isHanding]

set_option maxHeartbeats 1000000

section
set_option linter.unusedVariables false

theorem s_gen_le {P : Proto} {s l s'} (w : P.Wf) (hs : Step P s l s') (h : Inv P s) : ∀ p, s'.gen p ≤ P.total := by
  have h1 := h.gen_le
  have h2 := h.hold
  cases hs <;> grind [upd]

theorem s_fin {P : Proto} {s l s'} (w : P.Wf) (hs : Step P s l s') (h : Inv P s) : ∀ p, (s'.pc p = .ok ∨ ∃ r, s'.pc p = .closing r) → s'.gen p = P.total := by
  have h1 := h.fin
  have h2 := h.hold
  cases hs <;> grind [upd]

theorem s_dep {P : Proto} {s l s'} (w : P.Wf) (hs : Step P s l s') (h : Inv P s) : ∀ k, 1 ≤ k → k < P.n → (s'.slot k).1 ≤ P.total := by
  have h1 := h.dep
  have h2 := h.offer
  have h3 := h.gen_le
  cases hs <;> grind [upd]

theorem s_slot {P : Proto} {s l s'} (w : P.Wf) (hs : Step P s l s') (h : Inv P s) : ∀ k, 1 ≤ k → k < P.n → (s'.slot k).2 = P.via (s'.slot k).1 k := by
  have h1 := h.slot
  have h2 := h.offer
  cases hs <;> grind [upd, Proto.via]

theorem s_past {P : Proto} {s l s'} (w : P.Wf) (hs : Step P s l s') (h : Inv P s) : ∀ k e, 1 ≤ k → k < P.n → e < (s'.slot k).1 → e < s'.gen (P.via e k) := by
  have h1 := h.past
  have h0 := h.slot
  have h2 := h.offer
  cases hs <;> grind [upd, Proto.via]

theorem s_pend {P : Proto} {s l s'} (w : P.Wf) (hs : Step P s l s') (h : Inv P s) : ∀ k g, 1 ≤ k → k < P.n → (s'.slot k).1 ≤ g → g < s'.gen (P.via g k) →
    s'.toB (g, P.via g k) = some (.offer (g + 1, P.via (g + 1) k)) := by
  have h1 := h.pend
  cases hs
  case offer => have h3 := h.hold;  grind [upd, Proto.via]
  case pollOffer => 
    have h3 := h.slot; have h4 := h.gen_le; have h5 := h.offer
    intro k' g a b cc d
    have := @via_inj P w g k' 
    grind [upd, Proto.via]
  case raise => have h3 := h.fut; grind [upd]
  case actSendB => have h3 := h.fut; grind [upd]
  case pollStop => have h3 := h.slot; grind [upd]
  case pollCancel => have h3 := h.slot; grind [upd]
  all_goals grind [upd]

theorem s_offer {P : Proto} {s l s'} (w : P.Wf) (hs : Step P s l s') (h : Inv P s) :  ∀ g p c, s'.toB (g, p) = some (.offer c) → g < s'.gen p ∧ c = (g + 1, P.car g p) := by
  have h2 := h.offer
  have h1 := h.hold
  cases hs <;> grind [upd]

theorem s_box {P : Proto} {s l s'} (w : P.Wf) (hs : Step P s l s') (h : Inv P s) :  ∀ g p c, s'.inbox g p = some c → c = (g + 1, P.car g p) ∧ s'.gen p ≤ g ∧ g < P.total ∧
    (2 ≤ p ∧ p ≤ P.n) ∧ p ≠ P.chooser g ∧ (s'.gen p = g → ∀ d, s'.pc p ≠ .holding d) := by
  have h2 := h.box
  cases hs
  case keep p _ _ _ _ => intro g q c hc; have := h2 g q c hc; have h3 := h.hand p;  grind [upd, upd2]
  case hand p _ _ _ _ _ _ _  => 
    intro g q c hc; have := h2 g q c;  have h3 := h.hand p
    grind [upd, upd2]
  all_goals intro g q c hc
  all_goals have := h2 g q c
  all_goals grind [upd, upd2]

theorem s_hold {P : Proto} {s l s'} (w : P.Wf) (hs : Step P s l s') (h : Inv P s) :  ∀ p c, s'.pc p = .holding c → c = (s'.gen p + 1, P.car (s'.gen p) p) ∧ s'.gen p < P.total := by
  have h1 := h.hold
  cases hs
  case keep => have h3 := h.hand;  grind [upd, upd2]
  case take => have h3 := h.box;  grind [upd, upd2]
  all_goals grind [upd, upd2]

theorem s_hand {P : Proto} {s l s'} (w : P.Wf) (hs : Step P s l s') (h : Inv P s) : ∀ p r z, s'.pc p = .handing r z → P.chooser (s'.gen p) = p ∧ s'.gen p < P.total ∧ z = P.car (s'.gen p) p ∧
    (r.map Prod.fst).Nodup ∧
    ∀ q j, (q, j) ∈ r → (2 ≤ q ∧ q ≤ P.n) ∧ q ≠ p ∧ j = P.car (s'.gen p) q ∧ s'.gen q ≤ s'.gen p ∧
      s'.inbox (s'.gen p) q = none ∧ (s'.gen q = s'.gen p → ∀ d, s'.pc q ≠ .holding d) := by
  intro p r z hp
  have h2 := h.hand p
  cases hs
  case choose p' l j a b c d e f =>
    by_cases hpp : p = p'
    · subst hpp
      have hf := handOut_facts ⟨a, b⟩ f
      simp only [upd, if_true, PC.handing.injEq] at hp
      obtain ⟨rfl, rfl⟩ := hp
      refine ⟨e, d, ?_, hf.2.2.1, ?_⟩
      · rw [hf.2.2.2, Proto.car, e]
      · intro q j hm
        obtain ⟨h3, h4, h5⟩ := hf.1 q j hm
        have h6 := h.made (s.gen p) q d
        have h7 := h.box (s.gen p) q
        rw [e, c] at h6
        simp only [PC.isHolding, PC.isHanding] at h6
        refine ⟨h3, h4, by rw [h5, Proto.car, e], ?_⟩
        show s.gen q ≤ s.gen p ∧ s.inbox (s.gen p) q = none ∧ (s.gen q = s.gen p → ∀ d, upd s.pc p _ q ≠ _)
        have h8 : ¬ (s.gen q > s.gen p ∨ s.gen q = s.gen p ∧ (s.pc q).isHolding = true ∨ s.inbox (s.gen p) q ≠ none) := by
          intro hh; have := h6 hh; simp at this
        simp only [not_or] at h8
        refine ⟨by omega, ?_, ?_⟩
        · have := h8.2.2; simpa using this
        · intro e2 d hd
          simp only [upd, if_neg h4] at hd
          exact h8.2.1 ⟨e2, by rw [hd]; rfl⟩
    · simp only [upd, if_neg hpp] at hp
      have := h2 _ _ hp
      grind [upd]
  case hand p' q' j' rest last a b c =>
    by_cases hpp : p = p'
    · subst hpp
      simp only [upd, if_true, PC.handing.injEq] at hp
      obtain ⟨rfl, rfl⟩ := hp
      have h3 := h2 _ _ c
      grind [upd, upd2]
    · simp only [upd, if_neg hpp] at hp
      have := h2 _ _ hp
      have h3 := h.hand _ _ _ c
      grind [upd, upd2]
  case keep p' last a b c =>
    have h3 := h.hand _ _ _ c
    by_cases hpp : p = p'
    · simp [upd, hpp] at hp
    · simp only [upd, if_neg hpp] at hp
      have := h2 _ _ hp
      grind [upd, upd2]
  case take p' c a b c' d e =>
    have h3 := h.box _ _ _ e
    by_cases hpp : p = p'
    · simp [upd, hpp] at hp
    · simp only [upd, if_neg hpp] at hp
      have := h2 _ _ hp
      grind [upd, upd2]
  case offer p' c a b c' d e =>
    by_cases hpp : p = p'
    · simp [upd, hpp] at hp
    · simp only [upd, if_neg hpp] at hp
      have := h2 _ _ hp
      grind [upd, upd2]
  all_goals have hp' : s.pc p = .handing r z := by grind [upd]
  all_goals
    obtain ⟨a1, a2, a3, a4, a5⟩ := h2 _ _ hp'
    refine ⟨a1, a2, a3, a4, ?_⟩
    intro q' j' hm
    have := a5 q' j' hm
    clear a5 h2
    grind [upd]

theorem s_made {P : Proto} {s l s'} (w : P.Wf) (hs : Step P s l s') (h : Inv P s) :   ∀ g q, g < P.total → (g < s'.gen q ∨ (s'.gen q = g ∧ (s'.pc q).isHolding = true) ∨ s'.inbox g q ≠ none) →
    s'.gen (P.chooser g) > g ∨ (s'.gen (P.chooser g) = g ∧ ((s'.pc (P.chooser g)).isHolding = true ∨
      (s'.pc (P.chooser g)).isHanding = true ∨ s'.pc (P.chooser g) = .down)) := by
  intro g q hg hq
  have h2 := h.made g q hg
  cases hs
  case hand p _ _ _ _ _ _ _  =>  have h3 := h.hand p; grind [upd, upd2, PC.isHolding, PC.isHanding]
  case keep p _ _ _ _  =>  have h3 := h.hand p; grind [upd, upd2, PC.isHolding, PC.isHanding]
  all_goals grind [upd, upd2, PC.isHolding, PC.isHanding]

theorem s_handed {P : Proto} {s l s'} (w : P.Wf) (hs : Step P s l s') (h : Inv P s) :   ∀ g q, g < P.total → 2 ≤ q → q ≤ P.n → q ≠ P.chooser g →
    (s'.gen (P.chooser g) > g ∨ (s'.gen (P.chooser g) = g ∧ ((s'.pc (P.chooser g)).isHolding = true ∨
      ((s'.pc (P.chooser g)).isHanding = true ∧ (s'.pc (P.chooser g)).owes q = false)))) →
    s'.inbox g q ≠ none ∨ (s'.gen q = g ∧ (s'.pc q).isHolding = true) ∨ g < s'.gen q ∨ (s'.gen q ≤ g ∧ s'.pc q = .down) := by
  intro g q hg h1 h1' hne hq
  have h2 := h.handed g q hg h1 h1' hne
  cases hs
  case choose p l j a b c d e f =>
    have := (handOut_facts ⟨a, b⟩ f).2.1 q h1 h1' 
    have : P.chooser g = p → (PC.handing l j).owes q = true := by
      intro e
      simp only [PC.owes, List.any_eq_true, beq_iff_eq]
      exact ⟨_, this (by rw [← e]; exact hne), rfl⟩
    grind [upd, PC.isHolding, PC.isHanding]
  all_goals grind [upd, upd2, PC.isHolding, PC.isHanding, PC.owes]

theorem s_fut {P : Proto} {s l s'} (w : P.Wf) (hs : Step P s l s') (h : Inv P s) :  ∀ g p, (s'.gen p < g ∨ (s'.gen p = g ∧ s'.raised p = false ∧ s'.stops p 1 = false)) → s'.toB (g, p) = none := by
  have h2 := h.fut
  cases hs
  all_goals grind [upd, upd2]

theorem s_out {P : Proto} {s l s'} (w : P.Wf) (hs : Step P s l s') (h : Inv P s) :   ∀ p, ¬ (2 ≤ p ∧ p ≤ P.n) → s'.gen p = 0 ∧ s'.pc p = .active := by
  have h2 := h.out
  cases hs <;> grind [upd]

theorem inv_step {P : Proto} {s l s'} (w : P.Wf) (hs : Step P s l s') (h : Inv P s) : Inv P s' :=
  ⟨s_gen_le w hs h, s_fin w hs h, s_dep w hs h, s_slot w hs h, s_past w hs h, s_pend w hs h, s_offer w hs h, s_box w hs h, s_hold w hs h, s_hand w hs h, s_made w hs h, s_handed w hs h, s_fut w hs h, s_out w hs h⟩

end

theorem inv_run {P : Proto} (w : P.Wf) {ls s} (h : Run P .init ls s) : Inv P s := by
  generalize hs : S.init = s0 at h
  induction h with
  | nil => subst hs; exact inv_init P
  | snoc _ hl ih => exact inv_step w hl ih

end Verif.Broadcast
