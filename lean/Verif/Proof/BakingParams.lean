import Verif.Proof.BakingTypes
/-! Parameters of the emitted blocks. -/
namespace Verif.Baking
open Verif.Spec Verif.Gen Verif.SendRecv Verif.Maths

theorem showsList_iff {l : List Pat} {w} : showsList l w ↔ ∃ p ∈ l, p.shows w := by
  induction l with
  | nil => simp [showsList]
  | cons p l ih => simp [showsList, ih]

theorem usesList_iff {l : List Pat} {w} : usesList l w ↔ ∃ p ∈ l, p.uses w := by
  induction l with
  | nil => simp [usesList]
  | cons p l ih => simp [usesList, ih]

theorem shows_meshP {M ss st nm w} : (meshP M ss st nm).shows w ↔ (∃ p ∈ ss, p.shows w) ∨ st.shows w ∨ nm.shows w := by
  simp only [meshP, Pat.shows, showsList_iff, List.mem_append, List.mem_cons, List.not_mem_nil, or_false]
  constructor
  · rintro ⟨p, h | rfl | rfl, hp⟩
    · exact .inl ⟨p, h, hp⟩
    · exact .inr (.inl hp)
    · exact .inr (.inr hp)
  · rintro (⟨p, h, hp⟩ | h | h)
    · exact ⟨p, .inl h, hp⟩
    · exact ⟨_, .inr (.inl rfl), h⟩
    · exact ⟨_, .inr (.inr rfl), h⟩

theorem uses_meshP {M ss st nm w} : (meshP M ss st nm).uses w ↔ (∃ p ∈ ss, p.uses w) ∨ st.uses w ∨ nm.uses w := by
  simp only [meshP, Pat.uses, usesList_iff, List.mem_append, List.mem_cons, List.not_mem_nil, or_false]
  constructor
  · rintro ⟨p, h | rfl | rfl, hp⟩
    · exact .inl ⟨p, h, hp⟩
    · exact .inr (.inl hp)
    · exact .inr (.inr hp)
  · rintro (⟨p, h, hp⟩ | h | h)
    · exact ⟨p, .inl h, hp⟩
    · exact ⟨_, .inr (.inl rfl), h⟩
    · exact ⟨_, .inr (.inr rfl), h⟩

theorem shows_sendP {timed t s w} : (sendP timed t s).shows w ↔ t.shows w ∨ s.shows w ∨ w ∈ constParams timed := by
  unfold sendP constParams
  cases timed
  · simp [Pat.shows, showsList]
  · simp only [if_true, Pat.shows, showsList_iff, List.cons_append, List.mem_cons, List.mem_append, consts, List.mem_map,
      List.not_mem_nil, or_false]
    constructor
    · rintro ⟨p, rfl | ⟨k, hk, rfl⟩ | rfl, hp⟩
      · exact .inl hp
      · exact .inr (.inr ⟨k, hk, by simpa [Pat.shows] using hp⟩)
      · exact .inr (.inl hp)
    · rintro (h | h | ⟨k, hk, rfl⟩)
      · exact ⟨_, .inl rfl, h⟩
      · exact ⟨_, .inr (.inr rfl), h⟩
      · exact ⟨_, .inr (.inl ⟨k, hk, rfl⟩), by simp [Pat.shows]⟩

theorem shows_recvP {timed t s w} : (recvP timed t s).shows w ↔ t.shows w ∨ s.shows w ∨ w ∈ constParams timed := by
  rw [← shows_sendP]
  unfold recvP sendP
  cases timed <;> simp [Pat.shows]

theorem uses_sendP {timed t s w} : (sendP timed t s).uses w ↔ t.uses w ∨ s.uses w ∨ w ∈ constParams timed := by
  unfold sendP constParams
  cases timed
  · simp [Pat.uses, usesList]
  · simp only [if_true, Pat.uses, usesList_iff, List.cons_append, List.mem_cons, List.mem_append, consts, List.mem_map,
      List.not_mem_nil, or_false]
    constructor
    · rintro ⟨p, rfl | ⟨k, hk, rfl⟩ | rfl, hp⟩
      · exact .inl hp
      · exact .inr (.inr ⟨k, hk, by simpa [Pat.uses] using hp⟩)
      · exact .inr (.inl hp)
    · rintro (h | h | ⟨k, hk, rfl⟩)
      · exact ⟨_, .inl rfl, h⟩
      · exact ⟨_, .inr (.inr rfl), h⟩
      · exact ⟨_, .inr (.inl ⟨k, hk, rfl⟩), by simp [Pat.uses]⟩

theorem uses_recvP {timed t s w} : (recvP timed t s).uses w ↔ t.uses w ∨ s.uses w ∨ w ∈ constParams timed := by
  rw [← uses_sendP]
  unfold recvP sendP
  cases timed <;> simp [Pat.uses]

theorem mem_sp {m k} (h1 : 1 ≤ k) (h2 : k ≤ m) : TVar.S k ∈ sessionParams m := mem_sessionParams.2 ⟨h1, h2⟩

theorem mem_params3 {m l timed v} : v ∈ sessionParams m ++ l ++ constParams timed ↔
    (∃ k, 1 ≤ k ∧ k ≤ m ∧ v = .S k) ∨ v ∈ l ∨ v ∈ constParams timed := by
  simp only [List.mem_append, or_assoc]
  refine or_congr ?_ Iff.rfl
  simp only [sessionParams, List.mem_map, mem_range']
  constructor
  · rintro ⟨k, h, rfl⟩; exact ⟨k, h.1, by omega, rfl⟩
  · rintro ⟨k, h1, h2, rfl⟩; exact ⟨k, by omega, rfl⟩

/-- The sessions of `send` and `recv`. -/
theorem comm_sessions {n i j : Nat} (hi : IsRole n i) (hj : IsRole n j) (hij : i ≠ j) (c : Nat → Pat) (P : TVar → Prop)
    (sh : Pat → TVar → Prop) (hsh : ∀ v w, sh (.var v) w ↔ v = w) (hc : ∀ k w, sh (c k) w ↔ w = .S k ∨ P w) (w : TVar) :
    (∃ p ∈ (List.range' 1 (n - 1)).map fun k => if isComm i j k then c k else .var (.S k), sh p w) ↔
      (∃ k, 1 ≤ k ∧ k ≤ n - 1 ∧ w = .S k) ∨ P w := by
  have hcomm : ∀ k, 1 ≤ k → (isComm i j k = true ↔ k = slotOf i j) := by
    intro k hk; rw [Prop.isComm_iff hi hj hij hk]; simp
  have hr := slot_range hi hj hij
  simp only [List.mem_map, mem_range']
  constructor
  · rintro ⟨p, ⟨k, hk, rfl⟩, hp⟩
    split at hp
    · rcases (hc k w).1 hp with h | h
      · exact .inl ⟨k, by omega, by omega, h⟩
      · exact .inr h
    · exact .inl ⟨k, by omega, by omega, ((hsh _ _).1 hp).symm⟩
  · rintro (⟨k, h1, h2, rfl⟩ | h)
    · refine ⟨_, ⟨k, by omega, rfl⟩, ?_⟩
      split
      · exact (hc _ _).2 (.inl rfl)
      · exact (hsh _ _).2 rfl
    · refine ⟨_, ⟨slotOf i j, by omega, rfl⟩, ?_⟩
      rw [if_pos ((hcomm _ hr.1).2 rfl)]
      exact (hc _ _).2 (.inr h)

theorem sessionVars_uses {n w} : (∃ p ∈ sessionVars n, p.uses w) ↔ ∃ k, 1 ≤ k ∧ k ≤ n - 1 ∧ w = .S k := by
  simp only [sessionVars, List.mem_map, mem_range']
  constructor
  · rintro ⟨p, ⟨k, hk, rfl⟩, h⟩; exact ⟨k, by omega, by omega, by simpa [Pat.uses, eq_comm] using h⟩
  · rintro ⟨k, h1, h2, rfl⟩; exact ⟨_, ⟨k, by omega, rfl⟩, by simp [Pat.uses]⟩

theorem sendBlock_wf {timed M roles n i j} (hi : IsRole n i) (hj : IsRole n j) (hij : i ≠ j) :
    WellFormed (sendBlock timed M roles n i j) := by
  have hp : (sendBlock timed M roles n i j).params = sessionParams (n - 1) ++ [.R 0, .T] ++ constParams timed := rfl
  have key := comm_sessions hi hj hij (fun k => sendP timed (.var .T) (.var (.S k)))
    (fun w => w = .T ∨ w ∈ constParams timed)
  refine ⟨?_, ?_, ?_⟩
  · intro v hv
    rw [hp, mem_params3] at hv
    simp only [sendBlock, shows_meshP]
    rw [key Pat.shows (by simp [Pat.shows]) (by
      intro k w; simp only [shows_sendP, Pat.shows, @eq_comm _ w]; exact or_left_comm) v]
    simp only [Pat.shows, showsList, List.mem_cons, List.not_mem_nil, or_false] at hv ⊢
    rcases hv with h | (h | h) | h
    · exact .inl (.inl h)
    · exact .inr h.symm
    · exact .inl (.inr (.inl h))
    · exact .inl (.inr (.inr h))
  · intro v hv
    rw [hp, mem_params3]
    simp only [sendBlock, uses_meshP] at hv
    rw [key Pat.uses (by simp [Pat.uses]) (by
      intro k w; simp only [uses_sendP, Pat.uses, @eq_comm _ w]; exact or_left_comm) v] at hv
    simp only [Pat.uses, usesList, List.mem_cons, List.not_mem_nil, or_false] at hv ⊢
    rcases hv with (h | h | h) | h
    · exact .inl h
    · exact .inr (.inl (.inr h))
    · exact .inr (.inr h)
    · exact .inr (.inl (.inl h.symm))
  · intro m ps hm p hp' v hv
    simp only [sendBlock, List.mem_singleton, Prod.mk.injEq] at hm
    obtain ⟨rfl, rfl⟩ := hm
    rw [List.mem_singleton] at hp'
    subst hp'
    rw [hp, mem_params3]
    rw [uses_meshP, sessionVars_uses] at hv
    simp only [Pat.uses, usesList, or_false, List.mem_cons, List.not_mem_nil] at hv ⊢
    rcases hv with h | h
    · exact .inl h
    · exact .inr (.inl (.inl h.symm))

theorem recvBlock_wf {timed M roles n i j} (hi : IsRole n i) (hj : IsRole n j) (hij : i ≠ j) :
    WellFormed (recvBlock timed M roles n i j) := by
  have hp : (recvBlock timed M roles n i j).params = sessionParams (n - 1) ++ [.R 0, .T] ++ constParams timed := rfl
  have key := comm_sessions hi hj hij (fun k => recvP timed (.var .T) (.var (.S k)))
    (fun w => w = .T ∨ w ∈ constParams timed)
  refine ⟨?_, ?_, ?_⟩
  · intro v hv
    rw [hp, mem_params3] at hv
    simp only [recvBlock, shows_meshP]
    rw [key Pat.shows (by simp [Pat.shows]) (by
      intro k w; simp only [shows_recvP, Pat.shows, @eq_comm _ w]; exact or_left_comm) v]
    simp only [Pat.shows, showsList, List.mem_cons, List.not_mem_nil, or_false] at hv ⊢
    rcases hv with h | (h | h) | h
    · exact .inl (.inl h)
    · exact .inr h.symm
    · exact .inl (.inr (.inl h))
    · exact .inl (.inr (.inr h))
  · intro v hv
    rw [hp, mem_params3]
    simp only [recvBlock, uses_meshP] at hv
    rw [key Pat.uses (by simp [Pat.uses]) (by
      intro k w; simp only [uses_recvP, Pat.uses, @eq_comm _ w]; exact or_left_comm) v] at hv
    simp only [Pat.uses, usesList, List.mem_cons, List.not_mem_nil, or_false] at hv ⊢
    rcases hv with (h | h | h) | h
    · exact .inl h
    · exact .inr (.inl (.inr h))
    · exact .inr (.inr h)
    · exact .inr (.inl (.inl h.symm))
  · intro m ps hm p hp' v hv
    simp only [recvBlock, List.mem_singleton, Prod.mk.injEq] at hm
    obtain ⟨rfl, rfl⟩ := hm
    rw [List.mem_singleton] at hp'
    subst hp'
    rw [hp, mem_params3]
    rw [uses_meshP, sessionVars_uses] at hv
    simp only [Pat.uses, usesList, or_false, List.mem_cons, List.not_mem_nil] at hv ⊢
    rcases hv with h | h
    · exact .inl h
    · exact .inr (.inl (.inl h.symm))

theorem recvFromAllBlock_wf {timed M roles n i j} (hi : IsRole n i) (hj : IsRole n j) (hij : i ≠ j) :
    WellFormed (recvFromAllBlock timed M roles n i j) := by
  have hp : (recvFromAllBlock timed M roles n i j).params = sessionParams (n - 1) ++ [.T] ++ constParams timed := rfl
  have key := comm_sessions hi hj hij (fun k => recvP timed (.var .T) (.var (.S k)))
    (fun w => w = .T ∨ w ∈ constParams timed)
  refine ⟨?_, ?_, ?_⟩
  · intro v hv
    rw [hp, mem_params3] at hv
    simp only [recvFromAllBlock, shows_meshP]
    rw [key Pat.shows (by simp [Pat.shows]) (by
      intro k w; simp only [shows_recvP, Pat.shows, @eq_comm _ w]; exact or_left_comm) v]
    simp only [Pat.shows, showsList, List.mem_cons, List.not_mem_nil, or_false] at hv ⊢
    rcases hv with h | h | h
    · exact .inl h
    · exact .inr (.inl h)
    · exact .inr (.inr h)
  · intro v hv
    rw [hp, mem_params3]
    simp only [recvFromAllBlock, uses_meshP] at hv
    rw [key Pat.uses (by simp [Pat.uses]) (by
      intro k w; simp only [uses_recvP, Pat.uses, @eq_comm _ w]; exact or_left_comm) v] at hv
    simp only [Pat.uses, usesList, List.mem_cons, List.not_mem_nil, or_false] at hv ⊢
    exact hv
  · intro m ps hm p hp' v hv
    simp only [recvFromAllBlock, List.mem_singleton, Prod.mk.injEq] at hm
    obtain ⟨rfl, rfl⟩ := hm
    rw [List.mem_singleton] at hp'
    subst hp'
    rw [hp, mem_params3]
    rw [uses_meshP, sessionVars_uses] at hv
    simp only [Pat.uses, usesList, or_false] at hv
    exact .inl hv

theorem closeBlock_wf {M n} : WellFormed (closeBlock M n) := by
  refine ⟨?_, ?_, ?_⟩
  · intro v hv
    simp only [closeBlock, List.mem_singleton] at hv
    subst hv
    simp [closeBlock, shows_meshP, Pat.shows]
  · intro v hv
    simp only [closeBlock, uses_meshP, List.mem_map] at hv
    rcases hv with ⟨p, ⟨k, _, rfl⟩, h⟩ | h | h
    · simp [Pat.uses, usesList] at h
    · simp [Pat.uses, usesList] at h
    · simp only [Pat.uses] at h; simp [closeBlock, h]
  · intro m ps hm p hp
    simp only [closeBlock, List.mem_singleton, Prod.mk.injEq] at hm
    rw [hm.2] at hp
    cases hp

theorem cancelBlock_wf {M n} : WellFormed (cancelBlock M n) := by
  have hu : ∀ v, (cancelBlock M n).self.uses v ↔ v ∈ (cancelBlock M n).params := by
    intro v
    simp only [cancelBlock, uses_meshP, sessionVars_uses, Pat.uses, List.mem_append, List.mem_cons, List.not_mem_nil,
      or_false, sessionParams, List.mem_map, mem_range', @eq_comm _ v]
    refine or_congr ?_ Iff.rfl
    constructor
    · rintro ⟨k, h1, h2, rfl⟩; exact ⟨k, by omega, rfl⟩
    · rintro ⟨k, h, rfl⟩; exact ⟨k, by omega, by omega, rfl⟩
  have hs : ∀ v, (cancelBlock M n).self.uses v → (cancelBlock M n).self.shows v := by
    intro v
    simp only [cancelBlock, uses_meshP, shows_meshP, Pat.uses, Pat.shows]
    refine Or.imp ?_ id
    rintro ⟨p, hp, h⟩
    refine ⟨p, hp, ?_⟩
    simp only [sessionVars, List.mem_map] at hp
    obtain ⟨k, _, rfl⟩ := hp
    exact h
  refine ⟨fun v hv => hs v ((hu v).2 hv), fun v hv => (hu v).1 hv, ?_⟩
  intro m ps hm p hp
  simp only [cancelBlock, List.mem_singleton, Prod.mk.injEq] at hm
  rw [hm.2] at hp
  cases hp

theorem offerBlock_wf {timed M roles n i j} (hi : IsRole n i) (hj : IsRole n j) (hij : i ≠ j) :
    WellFormed (offerBlock timed M roles n j i) := by
  have hp : (offerBlock timed M roles n j i).params = sessionParams (2 * n - 2) ++ [.R 1, .R 2] ++ constParams timed := rfl
  have hr := slot_range hi hj hij
  have hcomm : ∀ k, 1 ≤ k → (isComm i j k = true ↔ k = slotOf i j) := by
    intro k hk; rw [Prop.isComm_iff hi hj hij hk]; simp
  let nm : Pat := .app (.here (nameId (roleAt roles i))) []
  let left := meshP M ((List.range' 1 (n - 1)).map fun k => .var (.S k)) (.var (.R 1)) nm
  let right := meshP M ((List.range' n (n - 1)).map fun k => .var (.S k)) (.var (.R 2)) nm
  have hl : ∀ v, left.uses v ↔ (∃ k, 1 ≤ k ∧ k ≤ n - 1 ∧ v = .S k) ∨ v = .R 1 := by
    intro v
    simp only [left, nm, uses_meshP, List.mem_map, mem_range', Pat.uses, usesList, or_false, @eq_comm _ v]
    refine or_congr ?_ Iff.rfl
    constructor
    · rintro ⟨p, ⟨k, hk, rfl⟩, h⟩; exact ⟨k, by omega, by omega, by simpa [Pat.uses] using h⟩
    · rintro ⟨k, h1, h2, rfl⟩; exact ⟨_, ⟨k, by omega, rfl⟩, by simp [Pat.uses]⟩
  have hrr : ∀ v, right.uses v ↔ (∃ k, n ≤ k ∧ k ≤ 2 * n - 2 ∧ v = .S k) ∨ v = .R 2 := by
    intro v
    simp only [right, nm, uses_meshP, List.mem_map, mem_range', Pat.uses, usesList, or_false, @eq_comm _ v]
    refine or_congr ?_ Iff.rfl
    constructor
    · rintro ⟨p, ⟨k, hk, rfl⟩, h⟩; exact ⟨k, by omega, by omega, by simpa [Pat.uses] using h⟩
    · rintro ⟨k, h1, h2, rfl⟩; exact ⟨_, ⟨k, by omega, rfl⟩, by simp [Pat.uses]⟩
  have hls : ∀ v, left.shows v ↔ left.uses v := by
    intro v
    simp only [left, nm, uses_meshP, shows_meshP, List.mem_map, Pat.uses, usesList, Pat.shows, showsList]
    refine or_congr ?_ Iff.rfl
    constructor <;> rintro ⟨p, ⟨k, hk, rfl⟩, h⟩ <;> exact ⟨_, ⟨k, hk, rfl⟩, by simpa [Pat.uses, Pat.shows] using h⟩
  have hrs : ∀ v, right.shows v ↔ right.uses v := by
    intro v
    simp only [right, nm, uses_meshP, shows_meshP, List.mem_map, Pat.uses, usesList, Pat.shows, showsList]
    refine or_congr ?_ Iff.rfl
    constructor <;> rintro ⟨p, ⟨k, hk, rfl⟩, h⟩ <;> exact ⟨_, ⟨k, hk, rfl⟩, by simpa [Pat.uses, Pat.shows] using h⟩
  have hpar : ∀ v, v ∈ (offerBlock timed M roles n j i).params ↔ left.uses v ∨ right.uses v ∨ v ∈ constParams timed := by
    intro v
    rw [hp, mem_params3, hl, hrr]
    simp only [List.mem_cons, List.not_mem_nil, or_false]
    constructor
    · rintro (⟨k, h1, h2, rfl⟩ | (h | h) | h)
      · by_cases e : k ≤ n - 1
        · exact .inl (.inl ⟨k, h1, e, rfl⟩)
        · exact .inr (.inl (.inl ⟨k, by omega, h2, rfl⟩))
      · exact .inl (.inr h)
      · exact .inr (.inl (.inr h))
      · exact .inr (.inr h)
    · rintro ((⟨k, h1, h2, rfl⟩ | h) | (⟨k, h1, h2, rfl⟩ | h) | h)
      · exact .inl ⟨k, h1, by omega, rfl⟩
      · exact .inr (.inl (.inl h))
      · exact .inl ⟨k, by omega, h2, rfl⟩
      · exact .inr (.inl (.inr h))
      · exact .inr (.inr h)
  refine ⟨?_, ?_, ?_⟩
  · intro v hv
    rw [hpar, ← hls, ← hrs] at hv
    simp only [offerBlock, shows_meshP, List.mem_map, mem_range']
    refine .inl ⟨_, ⟨slotOf i j, by omega, rfl⟩, ?_⟩
    rw [if_pos ((hcomm _ hr.1).2 rfl), shows_recvP]
    rcases hv with h | h | h
    · exact .inl (by simp only [Pat.shows, showsList]; exact .inl h)
    · exact .inl (by simp only [Pat.shows, showsList]; exact .inr (.inl h))
    · exact .inr (.inr h)
  · intro v hv
    rw [hpar]
    simp only [offerBlock, uses_meshP, List.mem_map, mem_range'] at hv
    rcases hv with ⟨p, ⟨k, hk, rfl⟩, h⟩ | h | h
    · split at h
      · rw [uses_recvP] at h
        simp only [Pat.uses, usesList, or_false] at h
        rcases h with (h | h) | h | h
        · exact .inl h
        · exact .inr (.inl h)
        · exact absurd h (by simp)
        · exact .inr (.inr h)
      · simp [Pat.uses, usesList] at h
    · simp [Pat.uses, usesList] at h
    · simp [Pat.uses, usesList] at h
  · intro m ps hm p hp' v hv
    rw [hpar]
    simp only [offerBlock, List.mem_singleton, Prod.mk.injEq] at hm
    obtain ⟨rfl, rfl⟩ := hm
    simp only [List.mem_cons, List.not_mem_nil, or_false] at hp'
    rcases hp' with rfl | rfl
    · exact .inl hv
    · exact .inr (.inl hv)

theorem shows_tyP {t : TyExp} {w} : (tyP t).shows w ↔ t.dual = false ∧ w = .S t.sess := by
  unfold tyP
  cases h : t.dual
  · simp [Pat.shows, @eq_comm _ w]
  · simp [Pat.shows]

theorem uses_tyP {t : TyExp} {w} : (tyP t).uses w ↔ w = .S t.sess := by
  unfold tyP; split <;> simp [Pat.uses, @eq_comm _ w]

theorem choosePat_wf {timed M roles s} (h2 : 2 ≤ roles.length) (hs : IsRole roles.length s) :
    WellFormed (choosePat timed M roles s) := by
  have hn : 1 ≤ roles.length := by omega
  have hh := half_double roles.length
  have hsess : ∀ (right : Bool) j q, IsRole roles.length j → IsRole roles.length q → j ≠ q →
      1 ≤ branchOff roles.length right + pr roles.length j q ∧
        branchOff roles.length right + pr roles.length j q ≤ (roles.length - 1) * roles.length := by
    intro right j q hj hq hne
    have h1 := pr_pos hj hq hne
    have h2 := pr_le hj hq hne
    rw [branchOff_eq _ hn]
    cases right <;> simp <;> omega
  have hR : ∀ k, TVar.R k ∈ (choosePat timed M roles s).params ↔ 1 ≤ k ∧ k ≤ 2 * roles.length := by
    intro k
    rw [choose_params, mem_params3, rangeIncl_one]
    simp only [List.mem_map, mem_range', reduceCtorEq, and_false, exists_false, false_or, TVar.R.injEq]
    constructor
    · rintro (⟨a, h, rfl⟩ | h)
      · omega
      · unfold constParams at h; split at h <;> simp at h
    · intro h; exact .inl ⟨k, by omega, rfl⟩
  have hS : ∀ k, TVar.S k ∈ (choosePat timed M roles s).params ↔ 1 ≤ k ∧ k ≤ (roles.length - 1) * roles.length := by
    intro k
    rw [choose_params, mem_params3, rangeIncl_one]
    constructor
    · rintro (⟨a, h, h', e⟩ | h | h)
      · injection e with e; omega
      · simp at h
      · unfold constParams at h; split at h <;> simp at h
    · intro h; exact .inl ⟨k, h.1, h.2, rfl⟩
  have hC : ∀ v ∈ constParams timed, v ∈ (choosePat timed M roles s).params := by
    intro v h; rw [choose_params, mem_params3]; exact .inr (.inr h)
  have hstack : ∀ (right : Bool) j, IsRole roles.length j → j ≠ s →
      1 ≤ chooseRecvStack s right j ∧ chooseRecvStack s right j ≤ 2 * roles.length - 2 := by
    intro right j hj hjs
    rw [← chooseRecvStack_eq _ s j right hj hs hjs]
    have := slot_range hs hj (Ne.symm hjs)
    unfold recvStk; cases right <;> simp <;> omega
  have hbu : ∀ (right : Bool) j, IsRole roles.length j → j ≠ s → ∀ v, (branchPat M roles s right j).uses v →
      v ∈ (choosePat timed M roles s).params := by
    intro right j hj hjs v hv
    simp only [branchPat, uses_meshP, List.mem_map, mem_range'] at hv
    rcases hv with ⟨p, ⟨k, hk, rfl⟩, h⟩ | h | h
    · rw [uses_tyP] at h
      subst h
      have hp := partner_role hj hk.1 (by omega : k ≤ roles.length - 1)
      exact (hS _).2 (hsess right j _ hj hp.1 (Ne.symm hp.2))
    · simp only [Pat.uses] at h
      rw [← h]
      have := hstack right j hj hjs
      exact (hR _).2 ⟨this.1, by omega⟩
    · simp [Pat.uses, usesList] at h
  -- a parameter shown by a branch is shown by `Self`
  have hshow : ∀ (right : Bool) j v, IsRole roles.length j → j ≠ s → (branchPat M roles s right j).shows v →
      (choosePat timed M roles s).self.shows v := by
    intro right j v hj hjs hv
    simp only [choosePat, shows_meshP, List.mem_map, mem_range']
    have hr := slot_range hs hj (Ne.symm hjs)
    refine .inl ⟨_, ⟨slotOf s j, by omega, rfl⟩, ?_⟩
    rw [partner_slot hj (Ne.symm hjs), shows_sendP]
    refine .inl ?_
    simp only [Pat.shows, showsList, or_false]
    cases right
    · exact .inl hv
    · exact .inr hv
  have hshowS : ∀ (right : Bool) j q, IsRole roles.length j → IsRole roles.length q → j ≠ s → j ≠ q →
      chooseDual s j q = false →
      (choosePat timed M roles s).self.shows (.S (branchOff roles.length right + pr roles.length j q)) := by
    intro right j q hj hq hjs hne hd
    apply hshow right j _ hj hjs
    simp only [branchPat, shows_meshP, List.mem_map, mem_range']
    have hr := slot_range hj hq hne
    refine .inl ⟨_, ⟨slotOf j q, by omega, rfl⟩, ?_⟩
    rw [partner_slot hq hne, shows_tyP]
    exact ⟨hd, rfl⟩
  refine ⟨?_, ?_, ?_⟩
  · intro v hv
    rw [choose_params, mem_params3] at hv
    rcases hv with ⟨k, h1, h2, rfl⟩ | h | h
    · have key : ∀ (right : Bool) m, 1 ≤ m → m ≤ (roles.length - 1) * roles.length / 2 →
          k = branchOff roles.length right + m → (choosePat timed M roles s).self.shows (.S k) := by
        intro right m hm1 hm2 hk
        obtain ⟨t, ht⟩ : ∃ t, (diag roles.length)[m - 1]? = some t := by
          have hl : m - 1 < (diag roles.length).length := by rw [diag_length _ hn]; omega
          exact ⟨_, List.getElem?_eq_getElem hl⟩
        have hi := diag_index _ hn _ _ ht
        have hmem := (mem_diag _ hn t).1 (List.mem_of_getElem? ht)
        have hm : m = pairRank roles.length t.1 t.2.1 := by rw [← hmem.2]; omega
        have hpr := hmem.1
        unfold IsPair at hpr
        have hpr' : pr roles.length t.1 t.2.1 = m := by
          rw [hm]; unfold pr; rw [Nat.min_eq_left (by omega), Nat.max_eq_right (by omega)]
        have r1 : IsRole roles.length t.1 := by unfold IsRole; omega
        have r2 : IsRole roles.length t.2.1 := by unfold IsRole; omega
        rw [hk, ← hpr']
        by_cases e : t.1 = s
        · rw [pr_comm]
          exact hshowS right _ _ r2 r1 (by omega) (by omega) (by simp [chooseDual, e]; omega)
        · refine hshowS right _ _ r1 r2 e (by omega) ?_
          simp only [chooseDual, e, if_false]
          split
          · rfl
          · simp; omega
      by_cases e : k ≤ (roles.length - 1) * roles.length / 2
      · exact key false k h1 e (by rw [branchOff_eq _ hn]; simp)
      · exact key true (k - (roles.length - 1) * roles.length / 2) (by omega) (by omega)
          (by rw [branchOff_eq _ hn]; simp only [if_true]; omega)
    · rw [rangeIncl_one] at h
      simp only [List.mem_map, mem_range'] at h
      obtain ⟨k, hk, rfl⟩ := h
      by_cases e : k ≤ 2 * roles.length - 2
      · have hp := partner_role hs (show 1 ≤ (k + 1) / 2 by omega) (by omega : (k + 1) / 2 ≤ roles.length - 1)
        apply hshow (decide (k % 2 = 0)) _ _ hp.1 hp.2
        have : chooseRecvStack s (decide (k % 2 = 0)) (partner s ((k + 1) / 2)) = k := by
          rw [← chooseRecvStack_eq _ s _ _ hp.1 hs hp.2, slot_partner (by omega)]
          unfold recvStk
          by_cases e : k % 2 = 0 <;> simp [e] <;> omega
        simp only [branchPat, shows_meshP, this, Pat.shows]
        exact .inr (.inl trivial)
      · simp only [choosePat, shows_meshP, Pat.shows, showsList, or_false, TVar.R.injEq]
        exact .inr (by omega)
    · have hp := partner_role hs (Nat.le_refl 1) (by omega : 1 ≤ roles.length - 1)
      simp only [choosePat, shows_meshP, List.mem_map, mem_range']
      refine .inl ⟨_, ⟨1, by omega, rfl⟩, ?_⟩
      rw [shows_sendP]
      exact .inr (.inr h)
  · intro v hv
    simp only [choosePat, uses_meshP, List.mem_map, mem_range'] at hv
    rcases hv with ⟨p, ⟨k, hk, rfl⟩, h⟩ | h | h
    · have hp := partner_role hs hk.1 (by omega : k ≤ roles.length - 1)
      rw [uses_sendP] at h
      simp only [Pat.uses, usesList, or_false] at h
      rcases h with (h | h) | h | h
      · exact hbu false _ hp.1 hp.2 v h
      · exact hbu true _ hp.1 hp.2 v h
      · exact absurd h (by simp)
      · exact hC v h
    · simp only [Pat.uses, usesList, or_false] at h
      rcases h with rfl | rfl
      · exact (hR _).2 (by omega)
      · exact (hR _).2 (by omega)
    · simp [Pat.uses, usesList] at h
  · intro m ps hm p hp' v hv
    have hmem : ∃ right : Bool, p = meshP M ((List.range' 1 (roles.length - 1)).map fun k =>
            tyP ⟨branchOff roles.length right + pr roles.length s (partner s k), true⟩)
            (.var (.R (if right then 2 * roles.length else 2 * roles.length - 1)))
            (.app (.here (nameId (roleAt roles s))) []) := by
      simp only [choosePat, List.mem_cons, Prod.mk.injEq, List.not_mem_nil, or_false] at hm
      rcases hm with ⟨rfl, rfl⟩ | ⟨rfl, rfl⟩
      · exact ⟨false, by simpa using hp'⟩
      · exact ⟨true, by simpa using hp'⟩
    obtain ⟨right, rfl⟩ := hmem
    simp only [uses_meshP, List.mem_map, mem_range'] at hv
    rcases hv with ⟨p, ⟨k, hk, rfl⟩, h⟩ | h | h
    · rw [uses_tyP] at h
      subst h
      have hp := partner_role hs hk.1 (by omega : k ≤ roles.length - 1)
      exact (hS _).2 (hsess right s _ hs hp.1 (Ne.symm hp.2))
    · simp only [Pat.uses] at h
      rw [← h, hR]
      cases right <;> simp <;> omega
    · simp [Pat.uses, usesList] at h

theorem emitted_wf {timed M roles b} (h2 : 2 ≤ roles.length) (h : Emitted timed M roles b) : WellFormed b := by
  rcases h with ⟨i, j, hi, hj, hij, rfl | rfl | rfl | rfl⟩ | ⟨s, hs, rfl⟩ | rfl | rfl
  · exact sendBlock_wf hi hj hij
  · exact recvBlock_wf hi hj hij
  · exact recvFromAllBlock_wf hi hj hij
  · exact offerBlock_wf hi hj hij
  · exact choosePat_wf h2 hs
  · exact closeBlock_wf
  · exact cancelBlock_wf

end Verif.Baking
