import Verif.Proof.Broadcast
/-!
# Runs of the broadcast-cancel protocol
-/
namespace Verif.Broadcast

set_option maxHeartbeats 1000000

/-! ## The closing code -/

theorem mem_closeActs_send {n p q : Nat} (hp : 2 ≤ p ∧ p ≤ n) :
    Act.send q ∈ closeActs n p ↔ (1 ≤ q ∧ q ≤ n) ∧ q ≠ p := by
  simp only [closeActs, List.mem_append, List.mem_map, List.mem_range'_1, Act.send.injEq, reduceCtorEq, and_false,
    exists_false, or_false]
  constructor
  · rintro ⟨k, hk, rfl⟩; unfold partnerAt; split <;> omega
  · rintro ⟨h1, h2⟩
    by_cases h : q < p
    · exact ⟨q, by omega, by unfold partnerAt; rw [if_pos h]⟩
    · exact ⟨q - 1, by omega, by unfold partnerAt; rw [if_neg (by omega)]; omega⟩

theorem mem_closeActs_recv {n p q : Nat} (hp : 2 ≤ p ∧ p ≤ n) :
    Act.recv q ∈ closeActs n p ↔ (1 ≤ q ∧ q ≤ n) ∧ q ≠ p := by
  simp only [closeActs, List.mem_append, List.mem_map, List.mem_range'_1, Act.recv.injEq, reduceCtorEq, and_false,
    exists_false, false_or]
  constructor
  · rintro ⟨k, hk, rfl⟩; unfold partnerAt; split <;> omega
  · rintro ⟨h1, h2⟩
    by_cases h : q < p
    · exact ⟨q, by omega, by unfold partnerAt; rw [if_pos h]⟩
    · exact ⟨q - 1, by omega, by unfold partnerAt; rw [if_neg (by omega)]; omega⟩

theorem partnerAt_inj {p a b : Nat} (h : partnerAt p a = partnerAt p b) : a = b := by
  unfold partnerAt at h; split at h <;> split at h <;> omega

theorem closeActs_nodup (n p : Nat) : (closeActs n p).Nodup := by
  unfold closeActs
  rw [List.nodup_append]
  refine ⟨?_, ?_, ?_⟩
  · rw [List.Nodup, List.pairwise_map]
    refine List.Pairwise.imp ?_ (List.nodup_range' (s := 1) (n := n - 1))
    intro a b hab hc
    simp only [Act.send.injEq] at hc
    exact hab (partnerAt_inj hc)
  · rw [List.Nodup, List.pairwise_map]
    refine List.Pairwise.imp ?_ (List.nodup_range' (s := 1) (n := n - 1))
    intro a b hab hc
    simp only [Act.recv.injEq] at hc
    exact hab (partnerAt_inj hc)
  · intro a ha b hb
    simp only [List.mem_map] at ha hb
    obtain ⟨_, _, rfl⟩ := ha
    obtain ⟨_, _, rfl⟩ := hb
    simp

/-- Once a receive is next, all sends are done. -/
theorem closeActs_order {n p q : Nat} {pre r : List Act} (h : closeActs n p = pre ++ .recv q :: r) (x : Nat) :
    Act.send x ∉ Act.recv q :: r := by
  unfold closeActs at h
  intro hm
  rw [List.append_eq_append_iff] at h
  rcases h with ⟨l, h1, h2⟩ | ⟨l, h1, h2⟩
  · have : Act.send x ∈ List.map (fun k => Act.recv (partnerAt p k)) (List.range' 1 (n - 1)) := by
      rw [h2]; exact List.mem_append_right _ hm
    simp at this
  · cases l with
    | nil =>
      simp only [List.nil_append] at h2
      rw [h2] at hm
      simp at hm
    | cons a l =>
      simp only [List.cons_append, List.cons.injEq] at h2
      obtain ⟨rfl, _⟩ := h2
      have : Act.recv q ∈ List.map (fun k => Act.send (partnerAt p k)) (List.range' 1 (n - 1)) := by
        rw [h1]; simp
      simp at this

/-- Not yet closing. -/
def PC.early : PC → Bool
  | .active => true
  | .handing _ _ => true
  | .holding _ => true
  | _ => false

/-- Neither broadcasting a cancellation nor panicked. -/
def BPC.calm : BPC → Bool
  | .bcast _ => false
  | .down => false
  | _ => true

/-- Past the receive from the broadcaster, or stopped. -/
def PC.past1 : PC → Bool
  | .closing r => !(r.contains (.recv 1))
  | .ok => true
  | .down => true
  | _ => false

/-- Behavioural invariant. -/
structure Beh (P : Proto) (s : S) : Prop where
  raised : ∀ p, s.raised p = true → s.pc p = .down ∧ 2 ≤ p ∧ p ≤ P.n ∧ ∀ q, s.stops p q = false
  idle : ∀ p q, (s.pc p).early = true → s.stops p q = false
  clos : ∀ p r, s.pc p = .closing r → ∃ pre, closeActs P.n p = pre ++ r ∧
    (∀ q, .send q ∈ pre ↔ s.stops p q = true) ∧ (∀ q, q ≠ 1 → .recv q ∈ pre → s.stops q p = true)
  okk : ∀ p q, s.pc p = .ok → 2 ≤ q → q ≤ P.n → q ≠ p → s.stops q p = true
  oks : ∀ p q, s.pc p = .ok → 1 ≤ q → q ≤ P.n → q ≠ p → s.stops p q = true
  fin : ∀ p q, s.stops p q = true → s.gen p = P.total
  stop : ∀ g p, s.toB (g, p) = some .stop → s.stops p 1 = true ∧ g = s.gen p ∧
    ∀ k, 1 ≤ k → k < P.n → s.slot k = (g, p) → s.flag k = true ∧ s.b ≠ .reply k
  canc : ∀ g p, s.toB (g, p) = some .cancel → s.raised p = true ∧ g = s.gen p
  rais : ∀ p, s.b.calm = true → s.raised p = true → s.toB (s.gen p, p) = some .cancel
  sent : ∀ p, s.b.calm = true → s.stops p 1 = true → s.toB (P.total, p) = some .stop ∨
    ∃ k, (1 ≤ k ∧ k < P.n) ∧ s.slot k = (P.total, p) ∧ (s.flag k = false ∨ s.b = .reply k)
  flg : ∀ k, 1 ≤ k → k < P.n → (s.flag k = false ∨ s.b = .reply k) → (s.slot k).1 = P.total ∧
    s.stops (s.slot k).2 1 = true
  repk : ∀ k, s.b = .reply k → s.flag k = true ∧ 1 ≤ k ∧ k < P.n
  bc1 : ∀ k, s.b = .bcast k → 1 ≤ k
  bok : s.b = .ok → ∀ k, 1 ≤ k → k < P.n → s.flag k = false
  ans : ∀ k, 1 ≤ k → k < P.n → s.flag k = false → s.toP (s.slot k) = some .stop ∨ (s.pc (s.slot k).2).past1 = true
  ansd : ∀ g p x, s.toP (g, p) = some x → (x = .cancel ∧ s.b.calm = false) ∨
    x = .stop ∧ ∃ k, (1 ≤ k ∧ k < P.n) ∧ s.slot k = (g, p) ∧ s.flag k = false
  first : ∀ p, (s.pc p).past1 = true → s.pc p = .down ∨ ∃ k, (1 ≤ k ∧ k < P.n) ∧ s.slot k = (P.total, p) ∧ s.flag k = false
  boom : s.b.calm = false → ∃ p, s.raised p = true
  told : ∀ j k, 1 ≤ k → k < P.n → (s.b = .down ∨ s.b = .bcast j ∧ k < j) →
    s.toP (s.slot k) = some .cancel ∨ (s.pc (s.slot k).2).early = false ∨ (s.slot k).1 < s.gen (s.slot k).2

theorem beh_init (P : Proto) : Beh P .init := by
  constructor <;> simp [S.init, BPC.calm, PC.past1]

theorem bsend_cases {s k x t} (h : bsend s k x = some t) :
    (t = s.toP ∧ ¬ ((s.pc (s.slot k).2).up = true ∧ s.gen (s.slot k).2 ≤ (s.slot k).1)) ∨
    (s.toP (s.slot k) = none ∧ (s.pc (s.slot k).2).up = true ∧ s.gen (s.slot k).2 ≤ (s.slot k).1 ∧
      ∀ c, t c = if c = s.slot k then some x else s.toP c) := by
  unfold bsend at h
  split at h
  · rename_i hu
    split at h
    · rename_i e
      cases h
      exact .inr ⟨e, hu.1, hu.2, fun c => rfl⟩
    · cases h
  · rename_i hu
    cases h
    exact .inl ⟨rfl, hu⟩

theorem up_past {c : PC} (h : c.up = false) : c.past1 = true ∧ c.early = false := by
  cases c <;> simp_all [PC.up, PC.past1, PC.early]

section
set_option linter.unusedVariables false

theorem b_raised {P : Proto} {s l s'} (hs : Step P s l s') (i : Inv P s) (b : Beh P s) :
    ∀ p, s'.raised p = true → s'.pc p = .down ∧ 2 ≤ p ∧ p ≤ P.n ∧ ∀ q, s'.stops p q = false := by
  have h0 := b.raised
  have h1 := b.idle
  have h2 := i.fin
  cases hs <;> grind [upd, upd2, PC.early, BPC.calm]

theorem b_idle {P : Proto} {s l s'} (hs : Step P s l s') (i : Inv P s) (b : Beh P s) :
    ∀ p q, (s'.pc p).early = true → s'.stops p q = false := by
  have h0 := b.idle
  cases hs <;> grind [upd, upd2, PC.early, BPC.calm]

theorem b_clos {P : Proto} {s l s'} (hs : Step P s l s') (i : Inv P s) (b : Beh P s) :
    ∀ p r, s'.pc p = .closing r → ∃ pre, closeActs P.n p = pre ++ r ∧
    (∀ q, .send q ∈ pre ↔ s'.stops p q = true) ∧ (∀ q, q ≠ 1 → .recv q ∈ pre → s'.stops q p = true) := by
  intro p r hp
  have h0 := b.clos p
  have h1 := b.idle p
  cases hs
  case close p' _ _ _ _ =>
    by_cases e : p = p'
    · subst e
      simp only [upd, if_true, PC.closing.injEq] at hp
      subst hp
      refine ⟨[], rfl, ?_, by simp⟩
      intro q; have := h1 q; grind [PC.early]
    · have := h0 r; grind [upd]
  case actSendB p' rest _ _ hc _ =>
    by_cases e : p = p'
    · subst e
      simp only [upd, if_true, PC.closing.injEq] at hp
      subst hp
      obtain ⟨pre, h2, h3, h4⟩ := h0 _ hc
      refine ⟨pre ++ [.send 1], by simp [h2], ?_, ?_⟩ <;> grind [upd2]
    · obtain ⟨pre, h2, h3, h4⟩ := h0 r (by grind [upd])
      exact ⟨pre, h2, by grind [upd2], by grind [upd2]⟩
  case actSend p' q rest _ _ hc _ =>
    by_cases e : p = p'
    · subst e
      simp only [upd, if_true, PC.closing.injEq] at hp
      subst hp
      obtain ⟨pre, h2, h3, h4⟩ := h0 _ hc
      refine ⟨pre ++ [.send q], by simp [h2], ?_, ?_⟩ <;> grind [upd2]
    · obtain ⟨pre, h2, h3, h4⟩ := h0 r (by grind [upd])
      exact ⟨pre, h2, by grind [upd2], by grind [upd2]⟩
  case actRecvB p' rest x _ _ hc _ =>
    by_cases e : p = p'
    · subst e
      obtain ⟨pre, h2, h3, h4⟩ := h0 _ hc
      have : rest = r := by grind [upd]
      subst this
      exact ⟨pre ++ [.recv 1], by simp [h2], by grind, by grind⟩
    · obtain ⟨pre, h2, h3, h4⟩ := h0 r (by grind [upd])
      exact ⟨pre, h2, h3, h4⟩
  case actRecv p' q rest _ _ hc _ _ =>
    by_cases e : p = p'
    · subst e
      obtain ⟨pre, h2, h3, h4⟩ := h0 _ hc
      have : rest = r := by grind [upd]
      subst this
      exact ⟨pre ++ [.recv q], by simp [h2], by grind, by grind⟩
    · obtain ⟨pre, h2, h3, h4⟩ := h0 r (by grind [upd])
      exact ⟨pre, h2, h3, h4⟩
  all_goals
    obtain ⟨pre, h2, h3, h4⟩ := h0 r (by grind [upd])
    exact ⟨pre, h2, h3, h4⟩

theorem b_okk {P : Proto} {s l s'} (hs : Step P s l s') (i : Inv P s) (b : Beh P s) :
    ∀ p q, s'.pc p = .ok → 2 ≤ q → q ≤ P.n → q ≠ p → s'.stops q p = true := by
  intro p q hp h1 h2 h3
  have h0 := b.okk p q
  cases hs
  case actEnd p' a a' c =>
    by_cases e : p = p'
    · subst e
      obtain ⟨pre, h5, h6, h7⟩ := b.clos p _ c
      simp only [List.append_nil] at h5
      exact h7 q (by omega) (h5 ▸ (mem_closeActs_recv ⟨a, a'⟩).2 ⟨by omega, h3⟩)
    · grind [upd]
  all_goals grind [upd, upd2]

theorem b_oks {P : Proto} {s l s'} (hs : Step P s l s') (i : Inv P s) (b : Beh P s) :
    ∀ p q, s'.pc p = .ok → 1 ≤ q → q ≤ P.n → q ≠ p → s'.stops p q = true := by
  intro p q hp h1 h2 h3
  have h0 := b.oks p q
  cases hs
  case actEnd p' a a' c =>
    by_cases e : p = p'
    · subst e
      obtain ⟨pre, h5, h6, h7⟩ := b.clos p _ c
      simp only [List.append_nil] at h5
      exact (h6 q).1 (h5 ▸ (mem_closeActs_send ⟨a, a'⟩).2 ⟨by omega, h3⟩)
    · grind [upd]
  all_goals grind [upd, upd2]

theorem b_fin {P : Proto} {s l s'} (hs : Step P s l s') (i : Inv P s) (b : Beh P s) :
    ∀ p q, s'.stops p q = true → s'.gen p = P.total := by
  intro p q hq
  have h0 := b.fin p q
  have h1 := i.fin p
  have h2 := b.idle p q
  cases hs <;> grind [upd, upd2, PC.early]

theorem b_stop {P : Proto} {s l s'} (hs : Step P s l s') (i : Inv P s) (b : Beh P s) :
    ∀ g p, s'.toB (g, p) = some .stop → s'.stops p 1 = true ∧ g = s'.gen p ∧
    ∀ k, 1 ≤ k → k < P.n → s'.slot k = (g, p) → s'.flag k = true ∧ s'.b ≠ .reply k := by
  intro g p hg
  have h0 := b.stop g p
  have h1 := b.flg
  have h2 := b.repk
  cases hs
  case actSendB p' rest a a' hc hn =>
    obtain ⟨pre, h5, h6, h7⟩ := b.clos _ _ hc
    have : s.stops p' 1 = false := by
      have := (h6 1).2
      have h8 := closeActs_nodup P.n p'
      rw [h5, List.nodup_append] at h8
      cases hh : s.stops p' 1
      · rfl
      · exact absurd rfl (h8.2.2 _ (this hh) (.send 1) (by simp))
    grind [upd, upd2]
  case offer => have h3 := i.gen_le; have h4 := i.fin; have h5 := b.fin p 1; grind [upd]
  case pollOffer k c _ _ _ _ =>
    have h3 := i.gen_le; have h4 := i.offer; have h5 := b.flg k
    grind [upd]
  all_goals grind [upd, upd2]

theorem b_canc {P : Proto} {s l s'} (hs : Step P s l s') (i : Inv P s) (b : Beh P s) :
    ∀ g p, s'.toB (g, p) = some .cancel → s'.raised p = true ∧ g = s'.gen p := by
  have h0 := b.canc
  cases hs
  case offer => have h3 := b.raised; grind [upd]
  all_goals grind [upd]

theorem b_rais {P : Proto} {s l s'} (hs : Step P s l s') (i : Inv P s) (b : Beh P s) :
    ∀ p, s'.b.calm = true → s'.raised p = true → s'.toB (s'.gen p, p) = some .cancel := by
  have h0 := b.rais
  have h1 := b.raised
  have h2 := b.canc
  cases hs <;> grind [upd, upd2, PC.early, BPC.calm]

theorem b_sent {P : Proto} {s l s'} (hs : Step P s l s') (i : Inv P s) (b : Beh P s) :
    ∀ p, s'.b.calm = true → s'.stops p 1 = true → s'.toB (P.total, p) = some .stop ∨
    ∃ k, (1 ≤ k ∧ k < P.n) ∧ s'.slot k = (P.total, p) ∧ (s'.flag k = false ∨ s'.b = .reply k) := by
  intro p hc hp
  have h0 := b.sent p
  cases hs
  case actSendB p' rest _ _ hc' _ => have h3 := i.fin p' (.inr ⟨_, hc'⟩); grind [upd, upd2]
  case raise => have h3 := b.idle; grind [upd, PC.early]
  case offer => have h3 := i.hold; grind [upd]
  case pollOffer => have h1 := b.flg; have h2 := i.offer; have h3 := i.gen_le; grind [upd]
  case pollStop => have h1 := b.stop; grind [upd, BPC.calm]
  all_goals grind [upd, upd2, BPC.calm]

theorem b_flg {P : Proto} {s l s'} (hs : Step P s l s') (i : Inv P s) (b : Beh P s) :
    ∀ k, 1 ≤ k → k < P.n → (s'.flag k = false ∨ s'.b = .reply k) → (s'.slot k).1 = P.total ∧
    s'.stops (s'.slot k).2 1 = true := by
  intro k h1 h2 h3
  have h0 := b.flg k h1 h2
  cases hs
  case pollStop => have h4 := b.stop; have h5 := b.fin; grind [upd]
  case pollOffer => have h4 := i.offer; have h5 := i.gen_le; grind [upd]
  all_goals grind [upd, upd2]

theorem b_repk {P : Proto} {s l s'} (hs : Step P s l s') (i : Inv P s) (b : Beh P s) :
    ∀ k, s'.b = .reply k → s'.flag k = true ∧ 1 ≤ k ∧ k < P.n := by
  have h0 := b.repk
  cases hs <;> grind

theorem b_bc1 {P : Proto} {s l s'} (hs : Step P s l s') (i : Inv P s) (b : Beh P s) :
    ∀ k, s'.b = .bcast k → 1 ≤ k := by
  have h0 := b.bc1
  cases hs <;> grind

theorem b_bok {P : Proto} {s l s'} (hs : Step P s l s') (i : Inv P s) (b : Beh P s) :
    s'.b = .ok → ∀ k, 1 ≤ k → k < P.n → s'.flag k = false := by
  have h0 := b.bok
  cases hs <;> grind [upd, upd2, PC.early, BPC.calm]

theorem b_ans {P : Proto} {s l s'} (hs : Step P s l s') (i : Inv P s) (b : Beh P s) :
    ∀ k, 1 ≤ k → k < P.n → s'.flag k = false → s'.toP (s'.slot k) = some .stop ∨ (s'.pc (s'.slot k).2).past1 = true := by
  intro k h1 h2 h3
  have h0 := b.ans k h1 h2
  cases hs
  case actRecvB p rest x _ _ hc hx =>
    have : (PC.closing rest).past1 = true := by
      obtain ⟨pre, h5, _⟩ := b.clos _ _ hc
      have h8 := closeActs_nodup P.n p
      rw [h5] at h8
      have := (List.nodup_append.1 h8).2.1
      simp only [List.nodup_cons] at this
      simp only [PC.past1]
      simpa using this.1
    grind [upd, PC.past1]
  case pollOffer => have h4 := i.offer; have h5 := i.gen_le; have h6 := b.flg; grind [upd]
  case reply k' t hr ht =>
    by_cases e : k = k'
    · subst e
      have h4 := b.flg k h1 h2 (.inr hr)
      have h5 := i.gen_le (s.slot k).2
      have hu := @up_past (s.pc (s.slot k).2)
      rcases bsend_cases ht with ⟨rfl, h6⟩ | ⟨h6, h7, h8, h9⟩
      · right; grind
      · left; simp [h9]
    · have : s.flag k = false := by grind [upd]
      have := h0 this
      rcases bsend_cases ht with ⟨rfl, h6⟩ | ⟨h6, h7, h8, h9⟩ <;> grind
  case bcast k' t _ _ ht =>
    have := h0 h3
    rcases bsend_cases ht with ⟨rfl, h6⟩ | ⟨h6, h7, h8, h9⟩ <;> grind
  all_goals grind [upd, upd2, PC.past1]

theorem b_ansd {P : Proto} {s l s'} (hs : Step P s l s') (i : Inv P s) (b : Beh P s) :
    ∀ g p x, s'.toP (g, p) = some x → (x = .cancel ∧ s'.b.calm = false) ∨
    x = .stop ∧ ∃ k, (1 ≤ k ∧ k < P.n) ∧ s'.slot k = (g, p) ∧ s'.flag k = false := by
  intro g p x hx
  have h0 := b.ansd g p x
  cases hs
  case reply k' t hr ht =>
    have := b.repk _ hr
    rcases bsend_cases ht with ⟨rfl, h6⟩ | ⟨h6, h7, h8, h9⟩ <;> grind [upd, BPC.calm]
  case bcast k' t _ _ ht =>
    rcases bsend_cases ht with ⟨rfl, h6⟩ | ⟨h6, h7, h8, h9⟩ <;> grind [upd, BPC.calm]
  case pollOffer => have h4 := i.offer; have h5 := i.gen_le; have h6 := b.flg; grind [upd]
  all_goals grind [upd, BPC.calm]

theorem b_first {P : Proto} {s l s'} (hs : Step P s l s') (i : Inv P s) (b : Beh P s) :
    ∀ p, (s'.pc p).past1 = true → s'.pc p = .down ∨ ∃ k, (1 ≤ k ∧ k < P.n) ∧ s'.slot k = (P.total, p) ∧ s'.flag k = false := by
  intro p hp
  have h0 := b.first p
  cases hs
  case actRecvB p' rest x _ _ hc hx =>
    have h1 := b.ansd _ _ _ hx
    have h2 := i.fin p' (.inr ⟨_, hc⟩)
    grind [upd, PC.past1]
  case close p' a a' _ _ =>
    have : Act.recv 1 ∈ closeActs P.n p' := (mem_closeActs_recv ⟨a, a'⟩).2 ⟨by omega, by omega⟩
    by_cases e : p = p'
    · subst e
      simp [upd, PC.past1, this] at hp
    · grind [upd]
  case pollOffer => have h4 := i.offer; have h5 := i.gen_le; have h6 := b.flg; grind [upd]
  all_goals grind [upd, PC.past1]

theorem b_boom {P : Proto} {s l s'} (hs : Step P s l s') (i : Inv P s) (b : Beh P s) :
    s'.b.calm = false → ∃ p, s'.raised p = true := by
  intro hc
  have h0 := b.boom
  cases hs
  case pollCancel => have h1 := b.canc; grind
  case pollStop => have h1 := b.stop; grind [BPC.calm]
  case raise p' _ _ _ _ => exact ⟨p', by simp [upd]⟩
  all_goals grind [BPC.calm]

theorem b_told {P : Proto} {s l s'} (hs : Step P s l s') (i : Inv P s) (b : Beh P s) :
    ∀ j k, 1 ≤ k → k < P.n → (s'.b = .down ∨ s'.b = .bcast j ∧ k < j) →
    s'.toP (s'.slot k) = some .cancel ∨ (s'.pc (s'.slot k).2).early = false ∨ (s'.slot k).1 < s'.gen (s'.slot k).2 := by
  intro j k h1 h2 h3
  have h0 := b.told j k h1 h2
  cases hs
  case bcast k' t hb _ ht =>
    have h5 := b.told k' k h1 h2
    have hu := @up_past (s.pc (s.slot k).2)
    rcases bsend_cases ht with ⟨rfl, h6⟩ | ⟨h6, h7, h8, h9⟩ <;> grind
  case bcastEnd k' hb _ =>
    have h5 := b.told k' k h1 h2
    grind
  case pollStop => have h1 := b.stop; grind [upd]
  case pollOffer => have h1 := b.stop; grind [upd]
  case reply => grind
  all_goals grind [upd, PC.early]

theorem beh_step {P : Proto} {s l s'} (hs : Step P s l s') (i : Inv P s) (b : Beh P s) : Beh P s' :=
  ⟨b_raised hs i b, b_idle hs i b, b_clos hs i b, b_okk hs i b, b_oks hs i b, b_fin hs i b, b_stop hs i b, b_canc hs i b, b_rais hs i b, b_sent hs i b, b_flg hs i b, b_repk hs i b, b_bc1 hs i b, b_bok hs i b, b_ans hs i b, b_ansd hs i b, b_first hs i b, b_boom hs i b, b_told hs i b⟩

end

theorem run_beh {P : Proto} (w : P.Wf) {ls s} (h : Run P .init ls s) : Beh P s := by
  generalize hs : S.init = s0 at h
  induction h with
  | nil => subst hs; exact beh_init P
  | snoc hr hl ih => subst hs; exact beh_step hl (inv_run w hr) ih

/-! ## Where the broadcaster's side of an `End` is -/

/-- Choice `g` has been started. -/
def Made (P : Proto) (s : S) (g : Nat) : Prop :=
  s.gen (P.chooser g) > g ∨ (s.gen (P.chooser g) = g ∧ ((s.pc (P.chooser g)).isHolding = true ∨
      (s.pc (P.chooser g)).isHanding = true ∨ s.pc (P.chooser g) = .down))

/-- Unless a participant stopped earlier, the broadcaster's side of every `End` in use is alive. -/
theorem held_or {P : Proto} (w : P.Wf) {s} (i : Inv P s) (hb : s.b.up = true) {g k : Nat} (hg : g ≤ P.total)
    (hk : 1 ≤ k ∧ k < P.n) (hd : (s.slot k).1 ≤ g) (hm : ∀ g', g = g' + 1 → Made P s g') :
    Held P s (g, P.via g k) ∨ ∃ q, (2 ≤ q ∧ q ≤ P.n) ∧ s.pc q = .down ∧ s.gen q < g := by
  induction g with
  | zero =>
    left
    have h0 : (s.slot k).1 = 0 := by omega
    have h1 := i.slot k hk.1 hk.2
    have : s.slot k = (0, P.via 0 k) := by rw [← h0, ← h1]
    rw [← this]
    exact .slot hk.1 hk.2 hb
  | succ g ih =>
    by_cases hd' : (s.slot k).1 = g + 1
    · left
      have h1 := i.slot k hk.1 hk.2
      have : s.slot k = (g + 1, P.via (g + 1) k) := by rw [← hd', ← h1]
      rw [← this]
      exact .slot hk.1 hk.2 hb
    · have hmg := hm g rfl
      have hc := w.chooser g (by omega)
      have hq := via_range w (g := g) (by omega) hk
      have ih' := ih (by omega) (by omega) (by
        rintro g' rfl
        refine i.made g' (P.chooser (g' + 1)) (by omega) (.inl ?_)
        rcases hmg with h | h <;> omega)
      rcases ih' with ih' | ⟨q, h1, h2, h3⟩
      · by_cases hgq : g < s.gen (P.via g k)
        · left
          have := i.pend k g hk.1 hk.2 (by omega) hgq
          exact .offer ih' this
        · by_cases hdn : s.pc (P.via g k) = .down
          · exact .inr ⟨_, hq, hdn, by omega⟩
          · by_cases hqc : P.via g k = P.chooser g
            · left
              rcases hmg with h | ⟨h, h4 | h4 | h4⟩
              · rw [← hqc] at h; omega
              · cases hpc : s.pc (P.chooser g) <;> rw [hpc] at h4 <;> simp [PC.isHolding] at h4
                rename_i c
                have := (i.hold _ _ hpc).1
                rw [h] at this
                have e : c = (g + 1, P.via (g + 1) k) := by rw [this, Proto.via, hqc]
                rw [← e]
                exact .hold hc.1 hc.2 hpc
              · cases hpc : s.pc (P.chooser g) <;> rw [hpc] at h4 <;> simp [PC.isHanding] at h4
                rename_i r z
                have := (i.hand _ _ _ hpc).2.2.1
                rw [h] at this
                have e : (g + 1, P.via (g + 1) k) = (s.gen (P.chooser g) + 1, z) := by
                  rw [this, h, Proto.via, hqc]
                rw [e]
                exact .last hc.1 hc.2 hpc
              · rw [hqc] at hdn; exact absurd h4 hdn
            · by_cases hcd : s.gen (P.chooser g) = g ∧ s.pc (P.chooser g) = .down
              · exact .inr ⟨_, hc, hcd.2, by omega⟩
              · left
                by_cases how : s.gen (P.chooser g) = g ∧ (s.pc (P.chooser g)).owes (P.via g k) = true
                · obtain ⟨h, h4⟩ := how
                  cases hpc : s.pc (P.chooser g) <;> rw [hpc] at h4 <;> simp [PC.owes] at h4
                  rename_i r z
                  obtain ⟨j, hj⟩ := h4
                  have := ((i.hand _ _ _ hpc).2.2.2.2 _ _ hj).2.2.1
                  rw [h] at this
                  have e : (g + 1, P.via (g + 1) k) = (s.gen (P.chooser g) + 1, j) := by
                    rw [this, h, Proto.via]
                  rw [e]
                  exact .hand hc.1 hc.2 hpc hj
                · have hh := i.handed g (P.via g k) (by omega) hq.1 hq.2 hqc (by
                    rcases hmg with h | ⟨h, h4⟩
                    · exact .inl h
                    · refine .inr ⟨h, ?_⟩
                      rcases h4 with h4 | h4 | h4
                      · exact .inl h4
                      · refine .inr ⟨h4, ?_⟩
                        cases ho : (s.pc (P.chooser g)).owes (P.via g k)
                        · rfl
                        · exact absurd ⟨h, ho⟩ how
                      · exact absurd ⟨h, h4⟩ hcd)
                  rcases hh with hh | ⟨h5, h6⟩ | hh | ⟨_, h6⟩
                  · cases hi : s.inbox g (P.via g k) with
                    | none => exact absurd hi hh
                    | some c =>
                      have h7 := i.box g _ c hi
                      have e : c = (g + 1, P.via (g + 1) k) := by rw [h7.1, Proto.via]
                      rw [← e]
                      refine .inbox hq.1 hq.2 ?_ hi
                      cases hpc : s.pc (P.via g k) <;> simp [PC.up]
                      · have := i.fin _ (.inl hpc); omega
                      · exact hdn hpc
                  · cases hpc : s.pc (P.via g k) <;> rw [hpc] at h6 <;> simp [PC.isHolding] at h6
                    rename_i c
                    have := (i.hold _ _ hpc).1
                    rw [h5] at this
                    have e : c = (g + 1, P.via (g + 1) k) := by rw [this, Proto.via]
                    rw [← e]
                    exact .hold hq.1 hq.2 hpc
                  · exact absurd hh hgq
                  · exact absurd h6 hdn
      · exact .inr ⟨q, h1, h2, by omega⟩

/-- The same for the `End` a participant is using. -/
theorem own_held_or {P : Proto} (w : P.Wf) {s} (i : Inv P s) (hb : s.b.up = true) {p : Nat} (hp : 2 ≤ p ∧ p ≤ P.n) :
    Held P s (s.gen p, p) ∨ ∃ q, (2 ≤ q ∧ q ≤ P.n) ∧ s.pc q = .down ∧ s.gen q < s.gen p := by
  obtain ⟨k, hk, e⟩ := via_surj w (i.gen_le p) hp
  have hd : (s.slot k).1 ≤ s.gen p := by
    apply Nat.le_of_not_lt
    intro hlt
    have := i.past k _ hk.1 hk.2 hlt
    rw [e] at this
    omega
  have := held_or w i hb (i.gen_le p) hk hd (by
    intro g' hg'
    exact i.made g' p (by have := i.gen_le p; omega) (.inl (by omega)))
  rw [e] at this
  exact this

/-! ## Who stops, and why -/

/-- As long as no cancellation is being broadcast, every participant that stopped has a participant that raised a
cancellation at the same number of choices or before. -/
def Cause (P : Proto) (s : S) : Prop :=
  s.b.calm = true → ∀ p, (2 ≤ p ∧ p ≤ P.n) → s.pc p = .down → ∃ r, s.raised r = true ∧ s.gen r ≤ s.gen p

theorem cause_step {P : Proto} (w : P.Wf) {s l s'} (hs : Step P s l s') (hl : ∀ p, l ≠ .quit p) (i : Inv P s)
    (b : Beh P s) (c : Cause P s) : Cause P s' := by
  intro hb p hp hd
  have hcalm : s.b.calm = true := by
    cases hs <;> simp_all [BPC.calm]
  have h0 := c hcalm
  -- reasons to stop: somebody stopped before
  have key : (∃ q, (2 ≤ q ∧ q ≤ P.n) ∧ s.pc q = .down ∧ s.gen q ≤ s.gen p) → ∃ r, s.raised r = true ∧ s.gen r ≤ s.gen p := by
    rintro ⟨q, h1, h2, h3⟩
    obtain ⟨r, h4, h5⟩ := h0 q h1 h2
    exact ⟨r, h4, by omega⟩
  have dead : s.pc p ≠ .down → (∀ x, s.toP (s.gen p, p) = some x → x ≠ .stop) → (s.pc p).early = true ∨ (s.pc p).past1 = false →
      ¬ Held P s (s.gen p, p) →
      ∃ q, (2 ≤ q ∧ q ≤ P.n) ∧ s.pc q = .down ∧ s.gen q ≤ s.gen p := by
    intro hnd hnt hear hH
    have hup : s.b.up = true := by
      cases hbb : s.b <;> simp [BPC.up]
      · obtain ⟨k, hk, e⟩ := via_surj w (Nat.le_refl _) hp
        have h1 := b.bok hbb k hk.1 hk.2
        have h2 := b.flg k hk.1 hk.2 (.inl h1)
        have h3 := i.slot k hk.1 hk.2
        have h4 : s.slot k = (P.total, p) := by rw [← e, ← h2.1, ← h3]
        rw [h4] at h2
        rcases hear with hear | hear
        · have := b.idle p 1 hear
          rw [this] at h2; simp at h2
        · have h5 := b.ans k hk.1 hk.2 h1
          rw [h4] at h5
          have h6 := b.fin p 1 h2.2
          rcases h5 with h5 | h5
          · rw [← h6] at h5; exact hnt _ h5 rfl
          · rw [hear] at h5; cases h5
      · rw [hbb] at hcalm; simp [BPC.calm] at hcalm
    rcases own_held_or w i hup hp with h | ⟨q, h1, h2, h3⟩
    · exact absurd h hH
    · exact ⟨q, h1, h2, by omega⟩
  cases hs
  case quit p' _ _ _ => exact absurd rfl (hl p')
  case handFail p' q j rest last a a' hc hq =>
    by_cases e : p = p'
    · subst e
      have h1 := (i.hand _ _ _ hc).2.2.2.2 q j (by simp)
      exact key ⟨q, h1.1, hq, h1.2.2.2.1⟩
    · exact h0 p hp (by grind [upd])
  case offer p' c' a a' hc hH hn =>
    have e : p ≠ p' := by rintro rfl; simp [upd] at hd
    obtain ⟨r, h1, h2⟩ := h0 p hp (by simpa [upd, e] using hd)
    have h3 : r ≠ p' := by
      rintro rfl
      have := (b.raised _ h1).1
      rw [hc] at this; cases this
    exact ⟨r, h1, by simpa [upd, e, h3] using h2⟩
  case offerFail p' c' a a' hc hH =>
    by_cases e : p = p'
    · subst e
      refine key (dead (by rw [hc]; simp) ?_ (.inl (by rw [hc]; rfl)) hH)
      intro x hx
      rcases b.ansd _ _ _ hx with ⟨h1, _⟩ | ⟨_, k, hk, h2, h3⟩
      · rw [h1]; simp
      · have h4 := b.flg k hk.1 hk.2 (.inl h3)
        rw [h2] at h4
        have := b.idle p 1 (by rw [hc]; rfl)
        rw [this] at h4; simp at h4
    · exact h0 p hp (by grind [upd])
  case check p' a a' hc ht =>
    rcases b.ansd _ _ _ ht with ⟨_, h1⟩ | ⟨h1, _⟩
    · rw [hcalm] at h1; cases h1
    · cases h1
  case crash p' q a a' hc h1 h2 hq hg =>
    by_cases e : p = p'
    · subst e; exact key ⟨q, ⟨h1, h2⟩, hq, hg⟩
    · exact h0 p hp (by grind [upd])
  case raise p' a a' hc hn =>
    by_cases e : p = p'
    · subst e; exact ⟨p, by simp [upd], Nat.le_refl _⟩
    · obtain ⟨r, h1, h2⟩ := h0 p hp (by grind [upd])
      exact ⟨r, by grind [upd], h2⟩
  case actRecvB p' rest x a a' hc hx =>
    rcases b.ansd _ _ _ hx with ⟨_, h1⟩ | ⟨h1, _⟩
    · rw [hcalm] at h1; cases h1
    · subst h1
      exact h0 p hp (by grind [upd])
  case actRecvBFail p' rest a a' hc hx hH =>
    by_cases e : p = p'
    · subst e
      exact key (dead (by rw [hc]; simp) (by rw [hx]; simp) (.inr (by rw [hc]; simp [PC.past1])) hH)
    · exact h0 p hp (by grind [upd])
  case actRecvFail p' q rest a a' hc hq1 hst hq =>
    by_cases e : p = p'
    · subst e
      have h1 := i.fin p (.inr ⟨_, hc⟩)
      have h2 := i.gen_le q
      have h3 : 2 ≤ q ∧ q ≤ P.n := by
        obtain ⟨pre, h5, _⟩ := b.clos _ _ hc
        have : Act.recv q ∈ closeActs P.n p := by rw [h5]; simp
        have := (mem_closeActs_recv ⟨a, a'⟩).1 this
        omega
      exact key ⟨q, h3, hq, by omega⟩
    · exact h0 p hp (by grind [upd])
  all_goals exact h0 p hp (by grind [upd])

theorem run_cause {P : Proto} (w : P.Wf) {ls s} (h : Run P .init ls s) (hq : NoQuit ls) : Cause P s := by
  generalize hs : S.init = s0 at h
  induction h with
  | nil => subst hs; intro _ p _ hp; simp [S.init] at hp
  | snoc hr hl ih =>
    subst hs
    exact cause_step w hl (fun p e => hq p (by simp [e])) (inv_run w hr) (run_beh w hr)
      (ih (fun p hp => hq p (by simp [hp])))

/-! ## Stuck states -/

theorem raised_run {P : Proto} {ls s} (h : Run P .init ls s) {p} (hp : s.raised p = true) : .raise p ∈ ls := by
  generalize hs : S.init = s0 at h
  induction h with
  | nil => subst hs; simp [S.init] at hp
  | @snoc _ s1 _ _ hr hl ih =>
    by_cases h' : s1.raised p = true
    · exact List.mem_append_left _ (ih h')
    · apply List.mem_append_right
      cases hl <;> grind [upd]

theorem raised_of_mem {P : Proto} {ls s} (h : Run P .init ls s) {p} (hp : .raise p ∈ ls) : s.raised p = true := by
  generalize hs : S.init = s0 at h
  induction h with
  | nil => simp at hp
  | snoc hr hl ih =>
    simp only [List.mem_append, List.mem_singleton] at hp
    rcases hp with hp | rfl
    · have := ih hp
      cases hl <;> grind [upd]
    · cases hl; simp [upd]

/-- A raised cancellation keeps everybody from closing. -/
theorem nobody_ok {P : Proto} (w : P.Wf) {s} (i : Inv P s) (b : Beh P s) {r} (hr : s.raised r = true) :
    (∀ p, (2 ≤ p ∧ p ≤ P.n) → s.pc p ≠ .ok) ∧ s.b ≠ .ok := by
  obtain ⟨h1, h2, h3, h4⟩ := b.raised r hr
  constructor
  · intro p hp hok
    by_cases e : p = r
    · subst e; rw [h1] at hok; cases hok
    · have := b.okk p r hok h2 h3 (Ne.symm e)
      rw [h4] at this; cases this
  · intro hok
    obtain ⟨k, hk, e⟩ := via_surj w (Nat.le_refl _) ⟨h2, h3⟩
    have h5 := b.flg k hk.1 hk.2 (.inl (b.bok hok k hk.1 hk.2))
    have h6 := i.slot k hk.1 hk.2
    rw [h5.1, e] at h6
    rw [h6, h4] at h5
    simp at h5

theorem stuck_handing {P : Proto} {s} (hst : Stuck P s) {p r z} (hp : 2 ≤ p ∧ p ≤ P.n) : s.pc p ≠ .handing r z := by
  intro hc
  cases r with
  | nil => obtain ⟨q, hq⟩ := hst _ _ (.keep hp.1 hp.2 hc); cases hq
  | cons x r => obtain ⟨q, hq⟩ := hst _ _ (.hand (q := x.1) (j := x.2) hp.1 hp.2 hc); cases hq

theorem stuck_holding {P : Proto} {s} (i : Inv P s) (b : Beh P s) (hst : Stuck P s) {p c} (hp : 2 ≤ p ∧ p ≤ P.n) :
    s.pc p ≠ .holding c := by
  intro hc
  by_cases hH : Held P s (s.gen p, p)
  · have h1 : s.toB (s.gen p, p) = none := by
      apply i.fut
      right
      refine ⟨rfl, ?_, b.idle p 1 (by rw [hc]; rfl)⟩
      cases hr : s.raised p
      · rfl
      · have := (b.raised p hr).1; rw [hc] at this; cases this
    obtain ⟨q, hq⟩ := hst _ _ (.offer hp.1 hp.2 hc hH h1); cases hq
  · obtain ⟨q, hq⟩ := hst _ _ (.offerFail hp.1 hp.2 hc hH); cases hq

theorem stuck_early {P : Proto} (w : P.Wf) {s} (i : Inv P s) (b : Beh P s) (hst : Stuck P s) {p}
    (hp : 2 ≤ p ∧ p ≤ P.n) : (s.pc p).early = false := by
  obtain ⟨g, hg⟩ : ∃ g, s.gen p = g := ⟨_, rfl⟩
  induction g using Nat.strongRecOn generalizing p with
  | ind g ih =>
    cases hc : s.pc p <;> simp [PC.early]
    case handing => exact stuck_handing hst hp hc
    case holding => exact stuck_holding i b hst hp hc
    case active =>
      by_cases ht : s.gen p = P.total
      · obtain ⟨q, hq⟩ := hst _ _ (.close hp.1 hp.2 hc ht); cases hq
      have hgt : s.gen p < P.total := by have := i.gen_le p; omega
      have hr := w.chooser _ hgt
      have chose : ∀ r, (2 ≤ r ∧ r ≤ P.n) → s.pc r = .active → s.gen r = s.gen p → P.chooser (s.gen p) = r → False := by
        intro r h1 h2 h3 h4
        obtain ⟨q, hq⟩ := hst _ _ (.choose h1.1 h1.2 h2 (by omega) (by rw [h3]; exact h4) (handOut_eq w.two)); cases hq
      have crash : s.pc (P.chooser (s.gen p)) = .down → s.gen (P.chooser (s.gen p)) ≤ s.gen p → False := by
        intro h1 h2
        obtain ⟨q, hq⟩ := hst _ _ (.crash hp.1 hp.2 hc hr.1 hr.2 h1 h2); cases hq
      by_cases hcp : P.chooser (s.gen p) = p
      · exact chose p hp hc rfl hcp
      · by_cases hgr : s.gen (P.chooser (s.gen p)) > s.gen p
        · have := i.handed (s.gen p) p hgt hp.1 hp.2 (Ne.symm hcp) (.inl hgr)
          rw [hc] at this
          simp [PC.isHolding] at this
          cases hi : s.inbox (s.gen p) p with
          | none => exact this hi
          | some c => obtain ⟨q, hq⟩ := hst _ _ (.take hp.1 hp.2 hc hcp hi); cases hq
        · cases hrc : s.pc (P.chooser (s.gen p))
          case active =>
            by_cases hlt : s.gen (P.chooser (s.gen p)) = s.gen p
            · exact chose _ hr hrc hlt rfl
            · have := ih (s.gen (P.chooser (s.gen p))) (by omega) hr rfl
              rw [hrc] at this; simp [PC.early] at this
          case handing => exact stuck_handing hst hr hrc
          case holding => exact stuck_holding i b hst hr hrc
          case closing => have := i.fin _ (.inr ⟨_, hrc⟩); omega
          case ok => have := i.fin _ (.inl hrc); omega
          case down => exact crash hrc (by omega)

/-- In a stuck state, a participant inside close waits for an answer or for a partner. -/
theorem stuck_closing {P : Proto} {s} (i : Inv P s) (b : Beh P s) (hst : Stuck P s) {p r}
    (hp : 2 ≤ p ∧ p ≤ P.n) (hc : s.pc p = .closing r) :
    ∃ q r', r = .recv q :: r' ∧ (q = 1 → s.toP (s.gen p, p) = none ∧ Held P s (s.gen p, p)) ∧
      (q ≠ 1 → s.stops q p = false ∧ s.pc q ≠ .down) := by
  cases r with
  | nil => obtain ⟨q, hq⟩ := hst _ _ (.actEnd hp.1 hp.2 hc); cases hq
  | cons a r =>
    cases a with
    | send q =>
      exfalso
      by_cases hq1 : q = 1
      · subst hq1
        obtain ⟨pre, h5, h6, h7⟩ := b.clos _ _ hc
        have h1 : s.toB (s.gen p, p) = none := by
          apply i.fut
          right
          refine ⟨rfl, ?_, ?_⟩
          · cases hr : s.raised p
            · rfl
            · have := (b.raised p hr).1; rw [hc] at this; cases this
          · have := (h6 1).2
            have h8 := closeActs_nodup P.n p
            rw [h5, List.nodup_append] at h8
            cases hh : s.stops p 1
            · rfl
            · exact absurd rfl (h8.2.2 _ (this hh) (.send 1) (by simp))
        obtain ⟨q, hq⟩ := hst _ _ (.actSendB hp.1 hp.2 hc h1); cases hq
      · obtain ⟨q, hq⟩ := hst _ _ (.actSend hp.1 hp.2 hc hq1); cases hq
    | recv q =>
      refine ⟨q, r, rfl, ?_, ?_⟩
      · rintro rfl
        have h1 : s.toP (s.gen p, p) = none := by
          cases ht : s.toP (s.gen p, p) with
          | none => rfl
          | some x => obtain ⟨q, hq⟩ := hst _ _ (.actRecvB hp.1 hp.2 hc ht); cases hq
        refine ⟨h1, ?_⟩
        by_cases hH : Held P s (s.gen p, p)
        · exact hH
        · obtain ⟨q, hq⟩ := hst _ _ (.actRecvBFail hp.1 hp.2 hc h1 hH); cases hq
      · intro hq1
        have h1 : s.stops q p = false := by
          cases ht : s.stops q p with
          | false => rfl
          | true => obtain ⟨q, hq⟩ := hst _ _ (.actRecv hp.1 hp.2 hc hq1 ht); cases hq
        refine ⟨h1, ?_⟩
        intro hd
        obtain ⟨q, hq⟩ := hst _ _ (.actRecvFail hp.1 hp.2 hc hq1 h1 hd); cases hq

/-- Precisely, it waits for the broadcaster's answer. -/
theorem stuck_closing_one {P : Proto} (w : P.Wf) {s} (i : Inv P s) (b : Beh P s) (hst : Stuck P s) {p r}
    (hp : 2 ≤ p ∧ p ≤ P.n) (hc : s.pc p = .closing r) :
    (∃ r', r = .recv 1 :: r') ∧ s.stops p 1 = true ∧ s.toP (P.total, p) = none ∧ Held P s (P.total, p) := by
  have hg := i.fin p (.inr ⟨_, hc⟩)
  have sent : ∀ p r x, (2 ≤ p ∧ p ≤ P.n) → s.pc p = .closing r → 1 ≤ x → x ≤ P.n → x ≠ p → s.stops p x = true := by
    intro p r x hp hc h1 h2 h3
    obtain ⟨q, r', rfl, _⟩ := stuck_closing i b hst hp hc
    obtain ⟨pre, h5, h6, h7⟩ := b.clos _ _ hc
    apply (h6 x).1
    have hm := (mem_closeActs_send hp).2 ⟨⟨h1, h2⟩, h3⟩
    rw [h5, List.mem_append] at hm
    rcases hm with hm | hm
    · exact hm
    · exact absurd hm (closeActs_order h5 x)
  obtain ⟨q, r', rfl, ha, hb⟩ := stuck_closing i b hst hp hc
  by_cases hq1 : q = 1
  · subst hq1
    rw [hg] at ha
    exact ⟨⟨r', rfl⟩, sent p _ 1 hp hc (by omega) (by omega) (by omega), ha rfl⟩
  · exfalso
    obtain ⟨h1, h2⟩ := hb hq1
    have hq : (1 ≤ q ∧ q ≤ P.n) ∧ q ≠ p := by
      obtain ⟨pre, h5, _⟩ := b.clos _ _ hc
      exact (mem_closeActs_recv hp).1 (by rw [h5]; simp)
    have hq' : 2 ≤ q ∧ q ≤ P.n := by omega
    have he := stuck_early w i b hst hq'
    cases hqc : s.pc q <;> rw [hqc] at he <;> simp [PC.early] at he
    · have := sent q _ p hq' hqc (by omega) (by omega) (Ne.symm hq.2)
      rw [h1] at this; cases this
    · have := b.oks q p hqc (by omega) (by omega) (Ne.symm hq.2)
      rw [h1] at this; cases this
    · exact h2 hqc

theorem slot_eq {P : Proto} {s} (i : Inv P s) {k} (hk : 1 ≤ k ∧ k < P.n) :
    s.slot k = ((s.slot k).1, P.via (s.slot k).1 k) := by
  rw [← i.slot k hk.1 hk.2]

theorem slot_inj {P : Proto} (w : P.Wf) {s} (i : Inv P s) {k k'} (hk : 1 ≤ k ∧ k < P.n) (hk' : 1 ≤ k' ∧ k' < P.n)
    (h : s.slot k = s.slot k') : k = k' := by
  have h1 := i.slot k hk.1 hk.2
  have h2 := i.slot k' hk'.1 hk'.2
  rw [h] at h1
  exact via_inj w (i.dep k' hk'.1 hk'.2) hk hk' (h1.symm.trans h2)

/-- The broadcaster never blocks on an answer. -/
theorem reply_enabled {P : Proto} (w : P.Wf) {s} (i : Inv P s) (b : Beh P s) {k} (hb : s.b = .reply k) :
    ∃ t, bsend s k .stop = some t := by
  have h1 := b.repk k hb
  unfold bsend
  split
  · cases ht : s.toP (s.slot k) with
    | none => exact ⟨_, rfl⟩
    | some x =>
      exfalso
      rcases b.ansd _ _ _ ht with ⟨_, h2⟩ | ⟨_, k', hk', h2, h3⟩
      · rw [hb] at h2; simp [BPC.calm] at h2
      · have := slot_inj w i hk' h1.2 h2
        subst this
        rw [h1.1] at h3; cases h3
  · exact ⟨_, rfl⟩

theorem stuck_poll {P : Proto} {s} (hst : Stuck P s) (hb : s.b = .poll) {k} (hk : 1 ≤ k ∧ k < P.n) :
    s.toB (s.slot k) = none := by
  cases ht : s.toB (s.slot k) with
  | none => rfl
  | some x =>
    cases x with
    | stop => obtain ⟨q, hq⟩ := hst _ _ (.pollStop hk.1 hk.2 hb ht); cases hq
    | cancel => obtain ⟨q, hq⟩ := hst _ _ (.pollCancel hk.1 hk.2 hb ht); cases hq
    | offer c => obtain ⟨q, hq⟩ := hst _ _ (.pollOffer hk.1 hk.2 hb ht); cases hq

/-- Nobody cancels: a stuck state has everybody closed. -/
theorem stuck_quiet {P : Proto} (w : P.Wf) {s} (i : Inv P s) (b : Beh P s) (c : Cause P s) (hr : ∀ p, s.raised p = false)
    (hst : Stuck P s) : s.b = .ok ∧ ∀ p, (2 ≤ p ∧ p ≤ P.n) → s.pc p = .ok := by
  have hcalm : s.b.calm = true := by
    cases hb : s.b.calm with
    | true => rfl
    | false => obtain ⟨p, hp⟩ := b.boom hb; rw [hr] at hp; cases hp
  have hnd : ∀ p, (2 ≤ p ∧ p ≤ P.n) → s.pc p ≠ .down := by
    intro p hp hd
    obtain ⟨r, h1, _⟩ := c hcalm p hp hd
    rw [hr] at h1; cases h1
  have hst1 : ∀ p, (2 ≤ p ∧ p ≤ P.n) → s.gen p = P.total ∧ s.stops p 1 = true := by
    intro p hp
    have he := stuck_early w i b hst hp
    cases hpc : s.pc p <;> rw [hpc] at he <;> simp [PC.early] at he
    · exact ⟨i.fin _ (.inr ⟨_, hpc⟩), (stuck_closing_one w i b hst hp hpc).2.1⟩
    · exact ⟨i.fin _ (.inl hpc), b.oks p 1 hpc (by omega) (by omega) (by omega)⟩
    · exact absurd hpc (hnd p hp)
  have hbok : s.b = .ok := by
    cases hb : s.b
    case ok => rfl
    case bcast => rw [hb] at hcalm; simp [BPC.calm] at hcalm
    case down => rw [hb] at hcalm; simp [BPC.calm] at hcalm
    case reply k =>
      obtain ⟨t, ht⟩ := reply_enabled w i b hb
      obtain ⟨q, hq⟩ := hst _ _ (.reply hb ht); cases hq
    case poll =>
      exfalso
      have hf : ∀ k, 1 ≤ k → k < P.n → s.flag k = false := by
        intro k h1 h2
        have hn := stuck_poll hst hb ⟨h1, h2⟩
        have hq := via_range w (i.dep k h1 h2) ⟨h1, h2⟩
        obtain ⟨h3, h4⟩ := hst1 _ hq
        have hd := i.dep k h1 h2
        by_cases hlt : (s.slot k).1 < P.total
        · have := i.pend k _ h1 h2 (Nat.le_refl _) (by rw [h3]; exact hlt)
          rw [← slot_eq i ⟨h1, h2⟩, hn] at this; cases this
        · have hd' : (s.slot k).1 = P.total := by omega
          have hs := slot_eq i ⟨h1, h2⟩
          rw [hd'] at hs h4
          rcases b.sent _ hcalm h4 with h5 | ⟨k', hk', h5, h6⟩
          · rw [← hs, hn] at h5; cases h5
          · have : k' = k := slot_inj w i hk' ⟨h1, h2⟩ (h5.trans hs.symm)
            subst this
            rcases h6 with h6 | h6
            · exact h6
            · rw [hb] at h6; cases h6
      obtain ⟨q, hq⟩ := hst _ _ (.finish hb hf); cases hq
  refine ⟨hbok, ?_⟩
  intro p hp
  have he := stuck_early w i b hst hp
  cases hpc : s.pc p <;> rw [hpc] at he <;> simp [PC.early] at he
  · exfalso
    rename_i r
    obtain ⟨⟨r', rfl⟩, _, h2, _⟩ := stuck_closing_one w i b hst hp hpc
    obtain ⟨k, hk, e⟩ := via_surj w (Nat.le_refl _) hp
    have h3 := b.bok hbok k hk.1 hk.2
    have h4 := b.flg k hk.1 hk.2 (.inl h3)
    have hs := slot_eq i hk
    rw [h4.1, e] at hs
    have h5 := b.ans k hk.1 hk.2 h3
    rw [hs, h2, hpc] at h5
    simp [PC.past1] at h5
  · exact absurd hpc (hnd p hp)

theorem min_raised {s : S} {r : Nat} (hr : s.raised r = true) :
    ∃ m, s.raised m = true ∧ ∀ q, s.raised q = true → s.gen m ≤ s.gen q := by
  obtain ⟨g, hg⟩ : ∃ g, s.gen r = g := ⟨_, rfl⟩
  induction g using Nat.strongRecOn generalizing r with
  | ind g ih =>
    by_cases h : ∃ q, s.raised q = true ∧ s.gen q < g
    · obtain ⟨q, h1, h2⟩ := h
      exact ih _ h2 h1 rfl
    · refine ⟨r, hr, ?_⟩
      intro q hq
      apply Nat.le_of_not_lt
      intro hlt
      exact h ⟨q, hq, by omega⟩

/-- A cancellation was raised: a stuck state has everybody stopped. -/
theorem stuck_raised {P : Proto} (w : P.Wf) {s} (i : Inv P s) (b : Beh P s) (c : Cause P s) {r} (hr : s.raised r = true)
    (hst : Stuck P s) : s.b = .down ∧ ∀ p, (2 ≤ p ∧ p ≤ P.n) → s.pc p = .down := by
  obtain ⟨hnok, hbnok⟩ := nobody_ok w i b hr
  have hcases : ∀ p, (2 ≤ p ∧ p ≤ P.n) → s.pc p = .down ∨ ∃ x, s.pc p = .closing x := by
    intro p hp
    have he := stuck_early w i b hst hp
    cases hpc : s.pc p <;> rw [hpc] at he <;> simp [PC.early] at he
    · exact .inr ⟨_, rfl⟩
    · exact absurd hpc (hnok p hp)
    · exact .inl rfl
  have hbd : s.b = .down := by
    cases hb : s.b
    case ok => exact absurd hb hbnok
    case down => rfl
    case reply k =>
      obtain ⟨t, ht⟩ := reply_enabled w i b hb
      obtain ⟨q, hq⟩ := hst _ _ (.reply hb ht); cases hq
    case bcast k =>
      exfalso
      by_cases hkn : k < P.n
      · by_cases hk1 : 1 ≤ k
        · have hq := via_range w (i.dep k hk1 hkn) ⟨hk1, hkn⟩
          have : ∃ t, bsend s k .cancel = some t := by
            unfold bsend
            split
            · rename_i hu
              cases ht : s.toP (s.slot k) with
              | none => exact ⟨_, rfl⟩
              | some x =>
                exfalso
                have hs := slot_eq i ⟨hk1, hkn⟩
                have hsl := i.slot k hk1 hkn
                rw [hsl] at hu
                rcases hcases _ hq with h | ⟨x, h⟩
                · rw [h] at hu; simp [PC.up] at hu
                · have h1 := i.fin _ (.inr ⟨_, h⟩)
                  have h2 := (stuck_closing_one w i b hst hq h).2.2.1
                  have h3 : (s.slot k).1 = P.total := by have := i.dep k hk1 hkn; omega
                  rw [hs, h3] at ht
                  rw [h3] at h2
                  rw [ht] at h2; cases h2
            · exact ⟨_, rfl⟩
          obtain ⟨t, ht⟩ := this
          obtain ⟨q, hq⟩ := hst _ _ (.bcast hb hkn ht); cases hq
        · exact hk1 (b.bc1 k hb)
      · obtain ⟨q, hq⟩ := hst _ _ (.bcastEnd hb (by omega)); cases hq
    case poll =>
      exfalso
      obtain ⟨m, hm, hmin⟩ := min_raised hr
      have hcalm : s.b.calm = true := by rw [hb]; rfl
      have h1 := b.rais m hcalm hm
      obtain ⟨h2, h3, h4, _⟩ := b.raised m hm
      obtain ⟨k, hk, e⟩ := via_surj w (i.gen_le m) ⟨h3, h4⟩
      have hs := slot_eq i hk
      have hn := stuck_poll hst hb hk
      rcases Nat.lt_trichotomy (s.slot k).1 (s.gen m) with hlt | heq | hgt
      · have hq := via_range w (i.dep k hk.1 hk.2) hk
        have : (s.slot k).1 < s.gen (P.via (s.slot k).1 k) := by
          rcases hcases _ hq with h | ⟨x, h⟩
          · obtain ⟨r', h5, h6⟩ := c hcalm _ hq h
            have := hmin r' h5
            omega
          · have := i.fin _ (.inr ⟨_, h⟩)
            have := i.gen_le m
            omega
        have := i.pend k _ hk.1 hk.2 (Nat.le_refl _) this
        rw [← hs, hn] at this; cases this
      · rw [heq, e] at hs
        rw [hs, h1] at hn; cases hn
      · have := i.past k _ hk.1 hk.2 hgt
        rw [e] at this; omega
  refine ⟨hbd, ?_⟩
  have noheld : ∀ x, ¬ Held P s x := by
    intro x hx
    induction hx with
    | slot _ _ h => rw [hbd] at h; simp [BPC.up] at h
    | offer _ _ ih => exact ih
    | hold h1 h2 h => rcases hcases _ ⟨h1, h2⟩ with h' | ⟨_, h'⟩ <;> rw [h'] at h <;> cases h
    | inbox h1 h2 hu h =>
      rcases hcases _ ⟨h1, h2⟩ with h' | ⟨_, h'⟩
      · rw [h'] at hu; simp [PC.up] at hu
      · have := i.box _ _ _ h
        have := i.fin _ (.inr ⟨_, h'⟩)
        omega
    | hand h1 h2 h => rcases hcases _ ⟨h1, h2⟩ with h' | ⟨_, h'⟩ <;> rw [h'] at h <;> cases h
    | last h1 h2 h => rcases hcases _ ⟨h1, h2⟩ with h' | ⟨_, h'⟩ <;> rw [h'] at h <;> cases h
  intro p hp
  rcases hcases p hp with h | ⟨x, h⟩
  · exact h
  · exact absurd (stuck_closing_one w i b hst hp h).2.2.2 (noheld _)

/-! ## Runs are of bounded length -/

/-- Steps a participant may still take. -/
def pcW (P : Proto) : PC → Nat
  | .active => 2 * P.n + 4
  | .handing r _ => 2 + r.length
  | .holding _ => 1
  | .closing r => 1 + r.length
  | .ok => 0
  | .down => 0

def partW (P : Proto) (s : S) (p : Nat) : Nat := (P.total - s.gen p) * (2 * P.n + 4) + pcW P (s.pc p)

def slotW (P : Proto) (s : S) (k : Nat) : Nat := (P.total - (s.slot k).1) + (if s.flag k then 2 else 0)

def bW (P : Proto) : BPC → Nat
  | .poll => P.n + 4
  | .reply _ => P.n + 3
  | .bcast k => P.n + 2 - k + 1
  | .ok => 0
  | .down => 0

/-- Steps the whole system may still take. -/
def weight (P : Proto) (s : S) : Nat :=
  ((List.range' 2 (P.n - 1)).map (partW P s)).sum + ((List.range' 1 (P.n - 1)).map (slotW P s)).sum + bW P s.b

theorem sum_le {α} {l : List α} {f f' : α → Nat} (h : ∀ x ∈ l, f' x ≤ f x) : (l.map f').sum ≤ (l.map f).sum := by
  induction l with
  | nil => simp
  | cons a l ih =>
    have h1 := h a (by simp)
    have h2 := ih (fun x hx => h x (by simp [hx]))
    simp only [List.map_cons, List.sum_cons]
    omega

theorem sum_lt {α} {l : List α} {f f' : α → Nat} {c : Nat} (h : ∀ x ∈ l, f' x ≤ f x) {a : α} (ha : a ∈ l)
    (hc : f' a + c ≤ f a) : (l.map f').sum + c ≤ (l.map f).sum := by
  induction l with
  | nil => simp at ha
  | cons b l ih =>
    have h1 := h b (by simp)
    have h2 := sum_le (fun x hx => h x (List.mem_cons_of_mem b hx))
    simp only [List.map_cons, List.sum_cons]
    rcases List.mem_cons.1 ha with rfl | ha
    · omega
    · have := ih (fun x hx => h x (by simp [hx])) ha
      omega

theorem part_dec {P : Proto} {s s' : S} {p : Nat} (hp : 2 ≤ p ∧ p ≤ P.n) (hs : s'.slot = s.slot) (hf : s'.flag = s.flag)
    (hb : s'.b = s.b) (ho : ∀ q, q ≠ p → s'.gen q = s.gen q ∧ s'.pc q = s.pc q) (hd : partW P s' p < partW P s p) :
    weight P s' < weight P s := by
  have h1 : ((List.range' 2 (P.n - 1)).map (partW P s')).sum + 1 ≤ ((List.range' 2 (P.n - 1)).map (partW P s)).sum := by
    apply sum_lt (a := p)
    · intro q _
      by_cases e : q = p
      · subst e; omega
      · unfold partW; rw [(ho q e).1, (ho q e).2]; exact Nat.le_refl _
    · simp only [List.mem_range'_1]; omega
    · omega
  have h2 : ((List.range' 1 (P.n - 1)).map (slotW P s')).sum = ((List.range' 1 (P.n - 1)).map (slotW P s)).sum := by
    unfold slotW; rw [hs, hf]
  unfold weight
  rw [h2, hb]
  omega

theorem b_dec {P : Proto} {s s' : S} (hg : s'.gen = s.gen) (hp : s'.pc = s.pc) (hs : s'.slot = s.slot)
    (hf : s'.flag = s.flag) (hb : bW P s'.b < bW P s.b) : weight P s' < weight P s := by
  have h1 : partW P s' = partW P s := by funext q; unfold partW; rw [hg, hp]
  have h2 : slotW P s' = slotW P s := by funext q; unfold slotW; rw [hs, hf]
  unfold weight
  rw [h1, h2]
  omega

theorem slot_dec {P : Proto} {s s' : S} {k c : Nat} (hk : 1 ≤ k ∧ k < P.n) (hg : s'.gen = s.gen) (hp : s'.pc = s.pc)
    (ho : ∀ q, q ≠ k → s'.slot q = s.slot q ∧ s'.flag q = s.flag q) (hd : slotW P s' k + c ≤ slotW P s k)
    (hb : bW P s'.b < bW P s.b + c) : weight P s' < weight P s := by
  have h1 : partW P s' = partW P s := by funext q; unfold partW; rw [hg, hp]
  have h2 : ((List.range' 1 (P.n - 1)).map (slotW P s')).sum + c ≤ ((List.range' 1 (P.n - 1)).map (slotW P s)).sum := by
    apply sum_lt (a := k)
    · intro q _
      by_cases e : q = k
      · subst e; omega
      · unfold slotW; rw [(ho q e).1, (ho q e).2]; exact Nat.le_refl _
    · simp only [List.mem_range'_1]; omega
    · omega
  unfold weight
  rw [h1]
  omega

theorem weight_dec {P : Proto} (w : P.Wf) {s l s'} (hs : Step P s l s') (i : Inv P s) (b : Beh P s)
    (hl : ∀ p, l ≠ .pass p) : weight P s' < weight P s := by
  have hlen : ∀ p, (closeActs P.n p).length ≤ 2 * P.n := by
    intro p; simp [closeActs]; omega
  have hold := i.hold
  have hdep := i.dep
  cases hs
  case pass p _ _ _ _ => exact absurd rfl (hl p)
  case choose p l j h1 h2 hc ht _ hh =>
    rw [handOut_eq w.two] at hh
    simp only [Option.some.injEq, Prod.mk.injEq] at hh
    obtain ⟨rfl, rfl⟩ := hh
    refine part_dec ⟨h1, h2⟩ rfl rfl rfl (fun q hq => ⟨rfl, by simp [upd, hq]⟩) ?_
    simp [partW, pcW, upd, hc]; omega
  case offer p c h1 h2 hc _ _ =>
    refine part_dec ⟨h1, h2⟩ rfl rfl rfl (fun q hq => ⟨by simp [upd, hq], by simp [upd, hq]⟩) ?_
    have := (hold _ _ hc).2
    simp only [partW, pcW, upd, hc, if_true]
    have e : P.total - s.gen p = (P.total - (s.gen p + 1)) + 1 := by omega
    rw [e, Nat.add_mul]; omega
  case close p h1 h2 hc _ =>
    have := hlen p
    refine part_dec ⟨h1, h2⟩ rfl rfl rfl (fun q hq => ⟨rfl, by simp [upd, hq]⟩) ?_
    simp [partW, pcW, upd, hc]; omega
  case actRecvB p rest x h1 h2 hc hx =>
    refine part_dec ⟨h1, h2⟩ rfl rfl rfl (fun q hq => ⟨rfl, by simp [upd, hq]⟩) ?_
    by_cases e : x = .cancel <;> simp [partW, pcW, upd, hc, e]; try omega
  case pollCancel k _ _ hb _ => exact b_dec rfl rfl rfl rfl (by simp only [bW, hb]; omega)
  case pollStop k _ _ hb _ =>
    refine b_dec rfl rfl rfl rfl ?_
    by_cases e : s.flag k = true <;> simp [bW, hb, e]
  case pollOffer k c h1 h2 hb ht =>
    have h3 := i.offer (s.slot k).1 (s.slot k).2 c ht
    have h4 := i.gen_le (s.slot k).2
    refine slot_dec (k := k) (c := 1) ⟨h1, h2⟩ rfl rfl (fun q hq => ⟨by simp [upd, hq], rfl⟩) ?_ (by simp)
    simp only [slotW, upd, if_true]
    rw [h3.2]
    simp only
    omega
  case reply k t hb ht =>
    have h1 := b.repk k hb
    refine slot_dec (k := k) (c := 2) h1.2 rfl rfl (fun q hq => ⟨rfl, by simp [upd, hq]⟩) ?_ (by simp [bW, hb])
    simp [slotW, upd, h1.1]
  case bcast k t hb hk ht => exact b_dec rfl rfl rfl rfl (by simp only [bW, hb]; omega)
  case bcastEnd k hb hk => exact b_dec rfl rfl rfl rfl (by simp only [bW, hb]; omega)
  case finish hb _ => exact b_dec rfl rfl rfl rfl (by simp only [bW, hb]; omega)
  case hand p q j rest last h1 h2 hc =>
    refine part_dec ⟨h1, h2⟩ rfl rfl rfl (fun q hq => ⟨rfl, by simp [upd, hq]⟩) ?_
    simp [partW, pcW, upd, hc]; try omega
  case handFail p q j rest last h1 h2 hc _ =>
    refine part_dec ⟨h1, h2⟩ rfl rfl rfl (fun q hq => ⟨rfl, by simp [upd, hq]⟩) ?_
    simp [partW, pcW, upd, hc]; try omega
  case keep p last h1 h2 hc =>
    refine part_dec ⟨h1, h2⟩ rfl rfl rfl (fun q hq => ⟨rfl, by simp [upd, hq]⟩) ?_
    simp [partW, pcW, upd, hc]; try omega
  case take p c h1 h2 hc _ _ =>
    refine part_dec ⟨h1, h2⟩ rfl rfl rfl (fun q hq => ⟨rfl, by simp [upd, hq]⟩) ?_
    simp [partW, pcW, upd, hc]; try omega
  case offerFail p c h1 h2 hc _ =>
    refine part_dec ⟨h1, h2⟩ rfl rfl rfl (fun q hq => ⟨rfl, by simp [upd, hq]⟩) ?_
    simp [partW, pcW, upd, hc]; try omega
  case check p h1 h2 hc _ =>
    refine part_dec ⟨h1, h2⟩ rfl rfl rfl (fun q hq => ⟨rfl, by simp [upd, hq]⟩) ?_
    simp [partW, pcW, upd, hc]; try omega
  case crash p q h1 h2 hc _ _ _ _ =>
    refine part_dec ⟨h1, h2⟩ rfl rfl rfl (fun q hq => ⟨rfl, by simp [upd, hq]⟩) ?_
    simp [partW, pcW, upd, hc]; try omega
  case raise p h1 h2 hc _ =>
    refine part_dec ⟨h1, h2⟩ rfl rfl rfl (fun q hq => ⟨rfl, by simp [upd, hq]⟩) ?_
    simp [partW, pcW, upd, hc]; try omega
  case quit p h1 h2 hc =>
    refine part_dec ⟨h1, h2⟩ rfl rfl rfl (fun q hq => ⟨rfl, by simp [upd, hq]⟩) ?_
    simp [partW, pcW, upd, hc]; try omega
  case actSendB p rest h1 h2 hc _ =>
    refine part_dec ⟨h1, h2⟩ rfl rfl rfl (fun q hq => ⟨rfl, by simp [upd, hq]⟩) ?_
    simp [partW, pcW, upd, hc]; try omega
  case actSend p q rest h1 h2 hc _ =>
    refine part_dec ⟨h1, h2⟩ rfl rfl rfl (fun q hq => ⟨rfl, by simp [upd, hq]⟩) ?_
    simp [partW, pcW, upd, hc]; try omega
  case actRecvBFail p rest h1 h2 hc _ _ =>
    refine part_dec ⟨h1, h2⟩ rfl rfl rfl (fun q hq => ⟨rfl, by simp [upd, hq]⟩) ?_
    simp [partW, pcW, upd, hc]; try omega
  case actRecv p q rest h1 h2 hc _ _ =>
    refine part_dec ⟨h1, h2⟩ rfl rfl rfl (fun q hq => ⟨rfl, by simp [upd, hq]⟩) ?_
    simp [partW, pcW, upd, hc]; try omega
  case actRecvFail p q rest h1 h2 hc _ _ _ =>
    refine part_dec ⟨h1, h2⟩ rfl rfl rfl (fun q hq => ⟨rfl, by simp [upd, hq]⟩) ?_
    simp [partW, pcW, upd, hc]; try omega
  case actEnd p h1 h2 hc =>
    refine part_dec ⟨h1, h2⟩ rfl rfl rfl (fun q hq => ⟨rfl, by simp [upd, hq]⟩) ?_
    simp [partW, pcW, upd, hc]; try omega

/-- The length of runs, not counting fruitless checks, is bounded. -/
theorem run_bounded {P : Proto} (w : P.Wf) {ls s} (h : Run P .init ls s) :
    effective ls + weight P s ≤ weight P .init := by
  generalize hs : S.init = s0 at h
  induction h with
  | nil => subst hs; simp [effective]
  | @snoc ls s1 l s2 hr hl ih =>
    subst hs
    have hi := inv_run w hr
    have hb := run_beh w hr
    have h1 : effective (ls ++ [l]) = effective ls + effective [l] := by simp [effective]
    by_cases hp : ∃ p, l = .pass p
    · obtain ⟨p, rfl⟩ := hp
      cases hl
      rw [h1]; simpa [effective] using ih
    · have h2 := weight_dec w hl hi hb (fun p e => hp ⟨p, e⟩)
      have h3 : effective [l] ≤ 1 := List.length_filter_le _ _
      omega

end Verif.Broadcast
