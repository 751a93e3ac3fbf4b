import Verif.Prop.C52

/-!
# C52: a concrete run

Role 0 sends a message to role 1 after one second; role 1, who was waiting since the beginning, then makes a choice at
the second second and announces it to role 0, who waits since the first second, and to role 2, who waits since the
beginning.  The hypotheses of the theorems of C52 are met.
-/
namespace Verif.Prop
open Verif.Types Verif.Timed Verif.Spec Verif.TimedRun

namespace RunExample

/-- A call that makes its readings up to number `K` at `u` seconds and then waits until `v` seconds. -/
def waits (u v K : Nat) (h : u ≤ v) : World where
  now k := if k ≤ K then u * 1000000000 else v * 1000000000
  start k := if k ≤ K then u * 1000000000 else v * 1000000000
  xfer k d :=
    if k = K then
      match d with
      | none => some (v * 1000000000)
      | some x => if v * 1000000000 ≤ u * 1000000000 + x then some (v * 1000000000) else none
    else none
  now_le k := Nat.le_refl _
  start_le k := by split <;> split <;> omega
  xfer_le k d t ht := by
    split at ht
    · rename_i hk
      subst hk
      cases d with
      | none => cases ht; rw [if_pos (Nat.le_refl _), if_neg (by omega)]; omega
      | some x =>
        simp only at ht
        split at ht
        · cases ht; rw [if_pos (Nat.le_refl _), if_neg (by omega)]; omega
        · cases ht
    · cases ht
  xfer_timeout k x t ht := by
    split at ht
    · rename_i hk
      subst hk
      simp only at ht
      split at ht
      · cases ht; simp; omega
      · cases ht
    · cases ht

def w0 : Window := ⟨'a', 0, true, 2, true, 'a'⟩
def w1 : Window := ⟨'a', 0, true, 3, true, 'a'⟩
def w2 : Window := ⟨'a', -1, false, 5, true, ' '⟩

def evs : Nat → Event
  | 0 => .msg 0 1 w0
  | 1 => .choice 1 [(0, w1), (2, w2)]
  | _ + 2 => .choice 0 []

def E : Env where
  world r m o :=
    match m, r, o with
    | 0, 0, _ => waits 1 1 2 (by decide)
    | 0, _, _ => waits 0 1 2 (by decide)
    | 1, 1, 0 => waits 2 2 2 (by decide)
    | 1, 1, _ => waits 2 2 1 (by decide)
    | 1, 0, _ => waits 1 2 2 (by decide)
    | _, _, _ => waits 0 2 2 (by decide)
  fin _ _ _ := 2000000000

def cl0 : Nat → Clocks := fun _ => clockA

def S : Schedule where
  slot r m :=
    match m, r with
    | 0, 0 => (1000000000, 1000000000)
    | 0, _ => (0, 1000000000)
    | _, 0 => (1000000000, 2000000000)
    | _, 1 => (2000000000, 2000000000)
    | _, _ => (0, 2000000000)
  origin _ _ := (0, 0)

theorem mem {m p q : Nat} {w : Window} (h : (p, q, w) ∈ messages (evs m)) :
    (m = 0 ∧ p = 0 ∧ q = 1 ∧ w = w0) ∨ (m = 1 ∧ p = 1 ∧ q = 0 ∧ w = w1) ∨
    (m = 1 ∧ p = 1 ∧ q = 2 ∧ w = w2) := by
  match m with
  | 0 => simpa [evs, messages] using h
  | 1 =>
    simp only [evs, messages, List.map_cons, List.map_nil, List.mem_cons, List.not_mem_nil, or_false,
      Prod.mk.injEq] at h
    rcases h with ⟨h1, h2, h3⟩ | ⟨h1, h2, h3⟩
    · exact Or.inr (Or.inl ⟨rfl, h1, h2, h3⟩)
    · exact Or.inr (Or.inr ⟨rfl, h1, h2, h3⟩)
  | m + 2 => simp [evs, messages] at h

theorem xfer_some {u v K k : Nat} {h : u ≤ v} {d : Option Nat} {t : Nat}
    (hx : (waits u v K h).xfer k d = some t) : t = v * 1000000000 := by
  simp only [waits] at hx
  split at hx
  · split at hx
    · cases hx; rfl
    · split at hx
      · cases hx; rfl
      · cases hx
  · cases hx

theorem xfer_long {u v K : Nat} {h : u ≤ v} {d : Option Nat}
    (hd : ∀ x, d = some x → v * 1000000000 ≤ u * 1000000000 + x) :
    (waits u v K h).xfer K d = some (v * 1000000000) := by
  simp only [waits, if_true]
  cases d with
  | none => rfl
  | some x => exact if_pos (hd x rfl)

theorem transport : Transport E evs cl0 (fun _ _ _ => False) where
  put m p q w h d _ := by
    rcases mem h with ⟨rfl, rfl, rfl, rfl⟩ | ⟨rfl, rfl, rfl, rfl⟩ | ⟨rfl, rfl, rfl, rfl⟩
    · exact ⟨_, xfer_long (u := 1) (v := 1) (K := 2) (h := by decide) fun x _ => by omega⟩
    · exact ⟨_, xfer_long (u := 2) (v := 2) (K := 2) (h := by decide) fun x _ => by omega⟩
    · exact ⟨_, xfer_long (u := 2) (v := 2) (K := 1) (h := by decide) fun x _ => by omega⟩
  drop _ _ _ _ _ _ h := h.elim
  get m p q w ts h hm d hd := by
    rcases mem h with ⟨rfl, rfl, rfl, rfl⟩ | ⟨rfl, rfl, rfl, rfl⟩ | ⟨rfl, rfl, rfl, rfl⟩
    · have : movedAt E evs cl0 0 0 1 = some 1000000000 := by decide
      rw [this] at hm
      cases hm
      exact ⟨_, xfer_long (u := 0) (v := 1) (K := 2) (h := by decide) hd⟩
    · have : movedAt E evs cl0 1 1 0 = some 2000000000 := by decide
      rw [this] at hm
      cases hm
      exact ⟨_, xfer_long (u := 1) (v := 2) (K := 2) (h := by decide) hd⟩
    · have : movedAt E evs cl0 1 1 2 = some 2000000000 := by decide
      rw [this] at hm
      cases hm
      exact ⟨_, xfer_long (u := 0) (v := 2) (K := 2) (h := by decide) hd⟩
  only m p q w k d t h hx := by
    rcases mem h with ⟨rfl, rfl, rfl, rfl⟩ | ⟨rfl, rfl, rfl, rfl⟩ | ⟨rfl, rfl, rfl, rfl⟩
    · exact ⟨1000000000, by decide, by rw [xfer_some (u := 0) (v := 1) (K := 2) (h := by decide) hx]; decide⟩
    · exact ⟨2000000000, by decide, by rw [xfer_some (u := 1) (v := 2) (K := 2) (h := by decide) hx]; decide⟩
    · exact ⟨2000000000, by decide, by rw [xfer_some (u := 0) (v := 2) (K := 2) (h := by decide) hx]; decide⟩

theorem wellFormed (m : Nat) : WellFormed (evs m) := by
  refine ⟨?_, ?_⟩
  · intro p q w h
    rcases mem h with ⟨rfl, rfl, rfl, rfl⟩ | ⟨rfl, rfl, rfl, rfl⟩ | ⟨rfl, rfl, rfl, rfl⟩ <;> decide
  · match m with
    | 0 => decide
    | 1 => decide
    | m + 2 => exact List.nodup_nil

theorem fits (N : Nat) : FitsSchedule S evs cl0 N := by
  intro m _
  refine ⟨wellFormed m, ?_⟩
  intro p q w h
  rcases mem h with ⟨rfl, rfl, rfl, rfl⟩ | ⟨rfl, rfl, rfl, rfl⟩ | ⟨rfl, rfl, rfl, rfl⟩
  all_goals
    refine ⟨Or.inr (by decide), by decide,
      ⟨by decide, ?_, Or.inr ⟨0, by decide⟩, by first | exact Or.inl rfl | exact Or.inr ⟨0, by decide⟩⟩,
      ⟨by decide, ?_, Or.inr ⟨0, by decide⟩, by first | exact Or.inl rfl | exact Or.inr ⟨0, by decide⟩⟩⟩ <;>
    · intro v h1 h2
      simp only [S, Schedule.since, evs, resets, messages] at h1 h2
      refine ⟨⟨?_, ?_⟩, ?_⟩ <;>
        simp [AfterStart, BeforeStop, w0, w1, w2] at h1 h2 ⊢ <;> omega

theorem onTime (N : Nat) : OnTime S E evs cl0 N where
  origin r x c h := by
    simp only [cl0, clockA] at h
    split at h
    · cases h; exact ⟨Nat.le_refl _, Nat.le_refl _⟩
    · cases h
  sender m p q w k _ h _ := by
    rcases mem h with ⟨rfl, rfl, rfl, rfl⟩ | ⟨rfl, rfl, rfl, rfl⟩ | ⟨rfl, rfl, rfl, rfl⟩ <;>
      simp only [E, S, waits] <;> split <;> omega
  receiver m p q w k _ h _ := by
    rcases mem h with ⟨rfl, rfl, rfl, rfl⟩ | ⟨rfl, rfl, rfl, rfl⟩ | ⟨rfl, rfl, rfl, rfl⟩ <;>
      simp only [E, S, waits] <;> split <;> omega
  chooser m p to k _ h := by
    match m with
    | 0 => simp [evs] at h
    | 1 => simp only [evs, Event.choice.injEq] at h; obtain ⟨rfl, -⟩ := h; simp [E, S]
    | m + 2 => simp only [evs, Event.choice.injEq] at h; obtain ⟨rfl, -⟩ := h; simp [E, S]

/-- The hypotheses of `C52_on_schedule_partial` are met; so all three roles reach the end of the second step. -/
example : ∀ r, ∃ cl, clocksAt E evs cl0 r 2 = some cl := fun r => by
  obtain ⟨cl, h, -⟩ := (C52_on_schedule_partial S E evs cl0 _ 2 transport (fits 2) (onTime 2)).1 2 r (Nat.le_refl _)
  exact ⟨cl, h⟩

/-- Those of `C52_received_sent` and `C52_window_partial` are met as well. -/
example : (∃ ts tr, movedAt E evs cl0 1 1 2 = some ts ∧ movedAt E evs cl0 2 1 1 = some tr ∧ ts ≤ tr) ∧
    ∃ t, movedAt E evs cl0 0 1 1 = some t ∧ (Unbounded w1 ∨ ∃ c, SetBefore E evs cl0 0 'a' 1 c ∧
      AfterStart w1 (t - c) ∧ (0 ≤ w1.stop → ((t - c : Nat) : Int) ≤ w1.stop * 1000000000 + (0 : Nat))) := by
  have inv := (C52_on_schedule_partial S E evs cl0 _ 2 transport (fits 2) (onTime 2)).1
  obtain ⟨c2, h2, -⟩ := inv 2 2 (Nat.le_refl _)
  obtain ⟨c0, h0, -⟩ := inv 2 0 (Nat.le_refl _)
  refine ⟨C52_received_sent E evs cl0 _ transport 1 1 2 w2 c2 (wellFormed 1) (by simp [evs, messages]) h2, ?_⟩
  refine C52_window_partial E evs cl0 0 ?_ 1 1 0 w1 (fun j _ => wellFormed j) (by simp [evs, messages]) 0 1
    (Or.inr ⟨rfl, rfl⟩) c0 h0
  intro r m o k
  simp only [E]
  split <;> simp [waits]

/-- So are those of `C52_schedule_kept`, with the ends of the slots as instants. -/
example : ∃ E' gone, Transport E' evs cl0 gone ∧ OnTime S E' evs cl0 2 ∧
    ∀ r m n, ReadAt E' r m n → n = (S.slot r m).2 := by
  refine C52_schedule_kept S evs cl0 2 (fits 2) ?_ (onTime 2).origin (fun r m => (S.slot r m).2) ?_ ?_
  · intro m hm
    match m with
    | 0 => omega
    | 1 => omega
    | m + 2 => rfl
  · intro r m
    refine ⟨?_, Nat.le_refl _⟩
    simp only [S]
    split <;> decide
  · intro m p q w h
    rcases mem h with ⟨rfl, rfl, rfl, rfl⟩ | ⟨rfl, rfl, rfl, rfl⟩ | ⟨rfl, rfl, rfl, rfl⟩ <;> decide

end RunExample

end Verif.Prop
