import Verif.Proof.TransportUdp
import Verif.Prop.C05_C38
/-!
# Transports: the values of the session
-/
namespace Verif.Transport
open Verif.Types Verif.Spec
open Verif.Heap (Val Entry EP Env Sig Reach Ev Out Op)

variable {P : Type} [DecidableEq P] {G : Env P}

theorem num_foldl (data : List UInt8) : ∀ a : Nat, data.foldl (fun a b => a * 256 + b.toNat) a = a * 256 ^ data.length + num data := by
  induction data with
  | nil => intro a; simp [num]
  | cons b data ih =>
    intro a
    simp only [num, List.foldl_cons, List.length_cons]
    rw [ih, ih (0 * 256 + b.toNat), Nat.pow_succ]
    simp only [Nat.zero_mul, Nat.zero_add]
    rw [Nat.add_mul, Nat.mul_assoc, Nat.mul_comm (256 ^ _) 256, Nat.add_assoc]

theorem num_lt : ∀ data : List UInt8, num data < 256 ^ data.length := by
  intro data
  induction data with
  | nil => decide
  | cons b data ih =>
    unfold num
    rw [List.foldl_cons, num_foldl, List.length_cons, Nat.pow_succ]
    have hb : b.toNat < 256 := b.toNat_lt
    have : b.toNat * 256 ^ data.length ≤ 255 * 256 ^ data.length := Nat.mul_le_mul_right _ (by omega)
    simp only [Nat.zero_mul, Nat.zero_add]
    omega

theorem fst_pair (x : Val) {data : List UInt8} (h : data.length = size) : fst (pair x data) = x := by
  have hn := num_lt data
  rw [h] at hn
  have hp : 0 < 256 ^ size := Nat.pow_pos (by decide)
  cases x with
  | mk tag d eps =>
    simp only [fst, pair]
    congr 1
    rw [Nat.mul_comm, Nat.mul_add_div hp, Nat.div_eq_of_lt hn, Nat.add_zero]

/-- What a call of `src/binary` adds to the history. -/
theorem trace_step {h h' : Heap.St P} {op : Op P} {o : Out} (hr : Reach G h) (hs : Heap.step G h op = some (h', o)) :
    match op, o with
    | .send e v, .unit => ∃ ty, h'.trace = h.trace ++ [.sent e.ep.sid e.ep.side ty v]
    | .recv e, .value v => ∃ ty, h'.trace = h.trace ++ [.rcvd e.ep.sid e.ep.side ty v]
    | .send _ _, _ => False
    | _, _ => h'.trace = h.trace := by
  cases op with
  | new s =>
    simp only [Heap.step] at hs
    have al := Heap.alloc_spec h s h.nsid 0 true
    cases hs
    exact al.trace
  | send e v =>
    have hu := (Verif.Prop.C03_never_blocks hr hs).1
    subst hu
    simp only [Heap.step, Heap.sendStep] at hs
    repeat' split at hs
    all_goals cases hs
    all_goals exact ⟨_, rfl⟩
  | recv e =>
    simp only [Heap.step, Heap.recvStep] at hs
    repeat' split at hs
    all_goals cases hs
    all_goals first | exact ⟨_, rfl⟩ | rfl
  | sigSend e s =>
    simp only [Heap.step, Heap.sigSendStep] at hs
    repeat' split at hs
    all_goals cases hs
    all_goals rfl
  | sigRecv e =>
    simp only [Heap.step, Heap.sigRecvStep] at hs
    repeat' split at hs
    all_goals cases hs
    all_goals rfl
  | drop e =>
    simp only [Heap.step] at hs
    split at hs <;> cases hs
    rfl
  | gc i =>
    simp only [Heap.step] at hs
    split at hs <;> cases hs
    rename_i t _
    cases t <;> rfl

theorem dropAll_trace {es : List (Entry P)} : ∀ {h h' : Heap.St P}, dropAll G h es = some h' → h'.trace = h.trace := by
  induction es with
  | nil => intro h h' hd; cases hd; rfl
  | cons e es ih =>
    intro h h' hd
    unfold dropAll at hd
    split at hd
    · rename_i h1 o hs
      rw [ih hd]
      simp only [Heap.step] at hs
      split at hs <;> cases hs
      rfl
    · cases hd

theorem chanSend_trace {h : Heap.St P} {e : Entry P} {x : Val} {data : List UInt8} {r : Heap.St P ⊕ Heap.St P × Entry P}
    (hr : Reach G h) (hs : chanSend G h e x data = some r) :
    ∃ ty, (match r with | .inl h' => h' | .inr p => p.1).trace = h.trace ++ [.sent e.ep.sid e.ep.side ty (pair x data)] := by
  unfold chanSend at hs
  split at hs
  · rename_i h1 hst
    have ht := trace_step hr hst
    split at hs
    · split at hs
      · obtain ⟨h2, hd, h3⟩ := map_some' hs
        cases h3
        simp only [dropAll_trace hd]
        exact ht
      · cases hs; exact ht
    · cases hs
  · cases hs

theorem chanRecv_trace {h : Heap.St P} {e : Entry P} {r : Heap.St P ⊕ Heap.St P × Val × List (Entry P)}
    (hr : Reach G h) (hs : chanRecv G h e = some r) :
    match r with
    | .inl h' => h'.trace = h.trace
    | .inr p => ∃ ty v, p.1.trace = h.trace ++ [.rcvd e.ep.sid e.ep.side ty v] ∧ p.2.1 = fst v := by
  unfold chanRecv at hs
  split at hs
  · rename_i h1 v hst
    cases hs
    obtain ⟨ty, ht⟩ := trace_step hr hst
    exact ⟨ty, v, ht, rfl⟩
  · rename_i h1 hst
    cases hs; exact trace_step hr hst
  · cases hs

/-- The value a thread has received in its call. -/
def pv : Call P → Option Val
  | .reading _ _ x _ => some x
  | .taking _ x _ => some x
  | _ => none

theorem pv_upd {f : Nat → Call P} {t : Nat} {k : Call P} (h : pv k = pv (f t)) : ∀ t', pv (Heap.upd f t k t') = pv (f t') := by
  intro t'
  by_cases e : t' = t
  · subst e; rw [upd_same, h]
  · rw [upd_ne e]

theorem pv_upd' {f : Nat → Call P} {t : Nat} {k : Call P} :
    ∀ t', pv (Heap.upd f t k t') = if t' = t then pv k else pv (f t') := by
  intro t'
  by_cases e : t' = t
  · subst e; rw [upd_same, if_pos rfl]
  · rw [upd_ne e, if_neg e]

/-- What a step does to the values of the sessions. -/
inductive ValCase (st st' : St P) (a : Act P) (r : Ret P) : Prop
  | quiet : (∀ t, pv (st'.thr t) = pv (st.thr t)) → st'.heap.trace = st.heap.trace → gives (a, r) = none →
      (∀ us, valUse us (a, r) = us) → ValCase st st' a r
  | sent {s b ty v} : (∀ t, pv (st'.thr t) = pv (st.thr t)) → st'.heap.trace = st.heap.trace ++ [.sent s b ty v] →
      gives (a, r) = some (s, b, fst v) → (∀ us, valUse us (a, r) = us) → ValCase st st' a r
  | rcvd {s b ty v} (t : Nat) : (∀ t, pv (st'.thr t) = pv (st.thr t)) → st'.heap.trace = st.heap.trace ++ [.rcvd s b ty v] →
      gives (a, r) = none → (∀ us, valUse us (a, r) = us ++ [⟨t, s, b, some (some (fst v))⟩]) → ValCase st st' a r
  | start {s b ty v} (t : Nat) : st.thr t = .idle → (∀ t', pv (st'.thr t') = if t' = t then some (fst v) else pv (st.thr t')) →
      st'.heap.trace = st.heap.trace ++ [.rcvd s b ty v] →
      gives (a, r) = none → (∀ us, valUse us (a, r) = us ++ [⟨t, s, b, none⟩]) → ValCase st st' a r
  | ret {x} (t : Nat) (res : Option Val) : pv (st.thr t) = some x → (res = none ∨ res = some x) →
      (∀ t', pv (st'.thr t') = if t' = t then none else pv (st.thr t')) →
      st'.heap.trace = st.heap.trace → gives (a, r) = none → (∀ us, valUse us (a, r) = returnsVal t res us) →
      ValCase st st' a r

theorem val_cases {st st' : St P} {a : Act P} {r : Ret P} (hr : Reach G st.heap) (hs : step G st a = some (st', r)) :
    ValCase st st' a r := by
  cases a with
  | api op =>
    simp only [step] at hs
    split at hs
    · obtain ⟨⟨h1, o⟩, h2, h3⟩ := map_some' hs
      cases h3
      have ht := trace_step hr h2
      cases op with
      | send e v =>
        cases o <;> first
          | exact ht.elim
          | (obtain ⟨ty, ht⟩ := ht; exact .sent (fun _ => rfl) ht rfl fun _ => rfl)
      | recv e =>
        cases o <;> first
          | exact .quiet (fun _ => rfl) ht rfl fun _ => rfl
          | (obtain ⟨ty, ht⟩ := ht; exact .rcvd 0 (fun _ => rfl) ht rfl fun _ => rfl)
      | _ => exact .quiet (fun _ => rfl) ht rfl fun _ => rfl
    · cases hs
  | forkTcp s g =>
    simp only [step] at hs
    cases g with
    | connect => cases hs; exact .quiet (fun _ => rfl) rfl rfl fun _ => rfl
    | clone => cases hs; exact .quiet (fun _ => rfl) rfl rfl fun _ => rfl
    | spawn =>
      simp only [forkTcp] at hs
      split at hs
      · rename_i hst
        have ht := trace_step hr hst
        split at hs
        · obtain ⟨h2, hd, h3⟩ := map_some' hs
          cases h3
          exact .quiet (fun _ => rfl) ((dropAll_trace hd).trans ht) rfl fun _ => rfl
        · cases hs
      · cases hs
    | done =>
      simp only [forkTcp] at hs
      split at hs
      · rename_i hst
        have ht := trace_step hr hst
        split at hs
        · cases hs
          exact .quiet (fun _ => rfl) ht rfl fun _ => rfl
        · cases hs
      · cases hs
  | forkUdp s g =>
    simp only [step] at hs
    cases g with
    | connect => cases hs; exact .quiet (fun _ => rfl) rfl rfl fun _ => rfl
    | clone => cases hs; exact .quiet (fun _ => rfl) rfl rfl fun _ => rfl
    | spawn =>
      simp only [forkUdp] at hs
      split at hs
      · rename_i hst
        have ht := trace_step hr hst
        split at hs
        · obtain ⟨h2, hd, h3⟩ := map_some' hs
          cases h3
          exact .quiet (fun _ => rfl) ((dropAll_trace hd).trans ht) rfl fun _ => rfl
        · cases hs
      · cases hs
    | done =>
      simp only [forkUdp] at hs
      split at hs
      · rename_i hst
        have ht := trace_step hr hst
        split at hs
        · cases hs
          exact .quiet (fun _ => rfl) ht rfl fun _ => rfl
        · cases hs
      · cases hs
  | sendTcp t e x data c tcp =>
    simp only [step, sendTcp] at hs
    split at hs
    · rename_i hg
      simp only [Bool.and_eq_true, decide_eq_true_eq, beq_iff_eq] at hg
      have hi := idle_of hg.1.1.1
      have hx := fst_pair x hg.1.1.2
      split at hs
      · obtain ⟨ty, ht⟩ := chanSend_trace (G := G) hr (by assumption : chanSend G st.heap e x data = some _)
        cases hs
        exact .sent (fun _ => rfl) ht (by rw [hx]; rfl) fun _ => rfl
      · obtain ⟨ty, ht⟩ := chanSend_trace (G := G) hr (by assumption : chanSend G st.heap e x data = some _)
        split at hs
        · cases hs
          exact .sent (pv_upd (by show _ = pv (st.thr t); rw [hi]; rfl)) ht (by rw [hx]; rfl) fun _ => rfl
        · cases hs
          exact .sent (fun _ => rfl) ht (by rw [hx]; rfl) fun _ => rfl
      · cases hs
    · cases hs
  | sendUdp t e x data u udp ok =>
    simp only [step, sendUdp] at hs
    split at hs
    · rename_i hg
      simp only [Bool.and_eq_true, decide_eq_true_eq, beq_iff_eq] at hg
      have hx := fst_pair x hg.1.1.2
      split at hs
      · obtain ⟨ty, ht⟩ := chanSend_trace (G := G) hr (by assumption : chanSend G st.heap e x data = some _)
        cases hs
        exact .sent (fun _ => rfl) ht (by rw [hx]; rfl) fun _ => rfl
      · obtain ⟨ty, ht⟩ := chanSend_trace (G := G) hr (by assumption : chanSend G st.heap e x data = some _)
        split at hs
        · split at hs
          · cases hs
            exact .sent (fun _ => rfl) ht (by rw [hx]; rfl) fun _ => rfl
          · obtain ⟨h2, hd, h3⟩ := map_some' hs
            cases h3
            exact .sent (fun _ => rfl) ((dropAll_trace hd).trans ht) (by rw [hx]; rfl) fun _ => rfl
        · cases hs
          exact .sent (fun _ => rfl) ht (by rw [hx]; rfl) fun _ => rfl
      · cases hs
    · cases hs
  | recvTcp t e c tcp =>
    simp only [step, recvTcp] at hs
    split at hs
    · rename_i hg
      simp only [Bool.and_eq_true, decide_eq_true_eq, beq_iff_eq] at hg
      have hi := idle_of hg.1.1
      split at hs
      · have ht := chanRecv_trace (G := G) hr (by assumption : chanRecv G st.heap e = some _)
        cases hs
        exact .quiet (fun _ => rfl) ht rfl fun _ => rfl
      · obtain ⟨ty, v, ht, hv⟩ := chanRecv_trace (G := G) hr (by assumption : chanRecv G st.heap e = some _)
        simp only at hv
        subst hv
        split at hs
        · cases hs
          exact .start t hi (fun t' => pv_upd' t') ht rfl fun _ => rfl
        · cases hs
          exact .rcvd t (fun _ => rfl) ht rfl fun _ => rfl
      · cases hs
    · cases hs
  | recvUdp t e c tcp =>
    simp only [step, recvUdp] at hs
    split at hs
    · rename_i hg
      simp only [Bool.and_eq_true, decide_eq_true_eq, beq_iff_eq] at hg
      have hi := idle_of hg.1.1
      split at hs
      · have ht := chanRecv_trace (G := G) hr (by assumption : chanRecv G st.heap e = some _)
        cases hs
        exact .quiet (fun _ => rfl) ht rfl fun _ => rfl
      · obtain ⟨ty, v, ht, hv⟩ := chanRecv_trace (G := G) hr (by assumption : chanRecv G st.heap e = some _)
        simp only at hv
        subst hv
        split at hs
        · cases hs
          exact .start t hi (fun t' => pv_upd' t') ht rfl fun _ => rfl
        · cases hs
          exact .rcvd t (fun _ => rfl) ht rfl fun _ => rfl
      · cases hs
    · cases hs
  | write t n =>
    simp only [step, write] at hs
    split at hs
    · rename_i ht
      repeat' split at hs
      all_goals first | (cases hs; done) | skip
      all_goals cases hs
      all_goals exact .quiet (pv_upd (by show _ = pv (st.thr t); rw [ht]; rfl)) rfl rfl fun _ => rfl
    · cases hs
  | read t n =>
    simp only [step, read] at hs
    split at hs
    · rename_i c buf x es ht
      split at hs
      · split at hs
        · cases hs
          exact .ret t (some x) (by rw [ht]; rfl) (Or.inr rfl) (fun t' => pv_upd' t') rfl rfl fun _ => rfl
        · cases hs
          exact .quiet (pv_upd (by show _ = pv (st.thr t); rw [ht]; rfl)) rfl rfl fun _ => rfl
      · cases hs
    · cases hs
  | take t =>
    simp only [step, take] at hs
    split at hs
    · rename_i u x es ht
      split at hs
      · cases hs
      · cases hs
        exact .ret t (some x) (by rw [ht]; rfl) (Or.inr rfl) (fun t' => pv_upd' t') rfl rfl fun _ => rfl
    · cases hs
  | writeErr t =>
    simp only [step, writeErr] at hs
    split at hs
    · rename_i ht
      obtain ⟨h2, hd, h3⟩ := map_some' hs
      cases h3; exact .quiet (pv_upd (by show _ = pv (st.thr t); rw [ht]; rfl)) (dropAll_trace hd) rfl fun _ => rfl
    · cases hs
  | readErr t =>
    simp only [step, readErr] at hs
    split at hs
    · rename_i ht
      obtain ⟨h2, hd, h3⟩ := map_some' hs
      cases h3
      exact .ret t none (by rw [ht]; rfl) (Or.inl rfl) (fun t' => pv_upd' t') (dropAll_trace hd) rfl fun _ => rfl
    · cases hs
  | takeErr t =>
    simp only [step, takeErr] at hs
    split at hs
    · rename_i ht
      obtain ⟨h2, hd, h3⟩ := map_some' hs
      cases h3
      exact .ret t none (by rw [ht]; rfl) (Or.inl rfl) (fun t' => pv_upd' t') (dropAll_trace hd) rfl fun _ => rfl
    · cases hs
  | readEnd t =>
    simp only [step, readEnd, readErr] at hs
    split at hs
    · rename_i ht
      split at hs
      · obtain ⟨h2, hd, h3⟩ := map_some' hs
        cases h3
        exact .ret t none (by rw [ht]; rfl) (Or.inl rfl) (fun t' => pv_upd' t') (dropAll_trace hd) rfl fun _ => rfl
      · cases hs
    · cases hs
  | closeTcp t e c tcp =>
    simp only [step, closeTcp] at hs
    split at hs
    · rename_i hg
      simp only [Bool.and_eq_true, decide_eq_true_eq] at hg
      have hi := idle_of hg.1.1
      split at hs
      · rename_i hst
        cases hs
        exact .quiet (pv_upd (by show _ = pv (st.thr t); rw [hi]; rfl)) (trace_step hr hst) rfl fun _ => rfl
      · rename_i hst
        obtain ⟨h2, hd, h3⟩ := map_some' hs
        cases h3
        exact .quiet (fun _ => rfl) ((dropAll_trace hd).trans (trace_step hr hst)) rfl fun _ => rfl
      · cases hs
    · cases hs
  | closeWait t b =>
    simp only [step, closeWait] at hs
    split at hs
    · rename_i c tcp e ht
      have hw : pv (.idle : Call P) = pv (st.thr t) := by rw [ht]; rfl
      split at hs
      · rename_i hst
        have htr := trace_step hr hst
        split at hs
        · cases hs
        · rename_i hd
          split at hs
          · obtain ⟨s2, hsh, h3⟩ := map_some' hs
            cases h3
            exact .quiet (pv_upd hw) ((dropAll_trace hd).trans htr) rfl fun _ => rfl
          · cases hs; exact .quiet (pv_upd hw) ((dropAll_trace hd).trans htr) rfl fun _ => rfl
      · rename_i hst
        have htr := trace_step hr hst
        obtain ⟨h2, hd, h3⟩ := map_some' hs
        cases h3; exact .quiet (pv_upd hw) ((dropAll_trace hd).trans htr) rfl fun _ => rfl
      · cases hs
    · cases hs
  | cancelTcp t e c b =>
    simp only [step, cancelTcp] at hs
    split at hs
    · split at hs
      · cases hs
      · rename_i hd
        obtain ⟨s2, hsh, h3⟩ := map_some' hs
        cases h3
        exact .quiet (fun _ => rfl) (dropAll_trace hd) rfl fun _ => rfl
    · cases hs
  | cancelUdp t e c =>
    simp only [step, cancelUdp] at hs
    split at hs
    · obtain ⟨h2, hd, h3⟩ := map_some' hs
      cases h3; exact .quiet (fun _ => rfl) (dropAll_trace hd) rfl fun _ => rfl
    · cases hs
  | _ =>
    simp only [step] at hs; split at hs <;> cases hs
    exact .quiet (fun _ => rfl) rfl rfl fun _ => rfl

/-- The elements of two lists are related one by one. -/
inductive Both {α β : Type} (R : α → β → Prop) : List α → List β → Prop
  | nil : Both R [] []
  | cons {a b l m} : R a b → Both R l m → Both R (a :: l) (b :: m)

/-- The messages received, in order. -/
def rcvds (tr : List (Ev P)) : List (Nat × Bool × Val) := tr.filterMap fun
  | .rcvd s b _ v => some (s, b, v)
  | .sent _ _ _ _ => none

/-- The messages sent, in order. -/
def sents (tr : List (Ev P)) : List (Nat × Bool × Val) := tr.filterMap fun
  | .sent s b _ v => some (s, b, v)
  | .rcvd _ _ _ _ => none

def ValRel (st : St P) (u : Recv) (m : Nat × Bool × Val) : Prop :=
  u.sid = m.1 ∧ u.side = m.2.1 ∧
  match u.result with
  | none => pv (st.thr u.thread) = some (fst m.2.2)
  | some none => True
  | some (some x) => x = fst m.2.2

structure ValInv (st : St P) (run : List (Act P × Ret P)) : Prop where
  given : run.filterMap gives = (sents st.heap.trace).map fun m => (m.1, m.2.1, fst m.2.2)
  recvs : Both (ValRel st) (run.foldl valUse []) (rcvds st.heap.trace)

theorem forall₂_append {α β : Type} {R : α → β → Prop} {l1 l2 : List α} {m1 m2 : List β} (h1 : Both R l1 m1)
    (h2 : Both R l2 m2) : Both R (l1 ++ l2) (m1 ++ m2) := by
  induction h1 with
  | nil => exact h2
  | cons h _ ih => exact .cons h ih

theorem forall₂_imp {α β : Type} {R S : α → β → Prop} {l : List α} {m : List β} (h : Both R l m)
    (hi : ∀ a b, R a b → S a b) : Both S l m := by
  induction h with
  | nil => exact .nil
  | cons h _ ih => exact .cons (hi _ _ h) ih

theorem forall₂_map {α β : Type} {R S : α → β → Prop} {l : List α} {m : List β} (h : Both R l m) (f : α → α)
    (hi : ∀ a b, R a b → S (f a) b) : Both S (l.map f) m := by
  induction h with
  | nil => exact .nil
  | cons h _ ih => exact .cons (hi _ _ h) ih

theorem run_valInv {run : List (Act P × Ret P)} {st : St P} (h : Run G run st) : ValInv st run := by
  induction h with
  | init => exact ⟨rfl, .nil⟩
  | @snoc run st a r st' hr hs ih =>
    have same : (∀ t, pv (st'.thr t) = pv (st.thr t)) → ∀ u m, ValRel st u m → ValRel st' u m := by
      intro hp u m hv
      refine ⟨hv.1, hv.2.1, ?_⟩
      have h3 := hv.2.2
      split at h3
      · rw [hp]; exact h3
      · trivial
      · exact h3
    have hgiv : ∀ g, gives (a, r) = g → (run ++ [(a, r)]).filterMap gives = run.filterMap gives ++ g.toList := by
      intro g hg
      rw [List.filterMap_append]
      congr 1
      simp only [List.filterMap_cons, hg, List.filterMap_nil]
      cases g <;> rfl
    cases val_cases (run_reach hr) hs with
    | quiet hp ht hg hu =>
      refine ⟨?_, ?_⟩
      · rw [hgiv _ hg, ht, ih.given, Option.toList_none, List.append_nil]
      · rw [List.foldl_append, List.foldl_cons, List.foldl_nil, hu, ht]
        exact forall₂_imp ih.recvs (same hp)
    | sent hp ht hg hu =>
      refine ⟨?_, ?_⟩
      · rw [hgiv _ hg, ht, ih.given]
        simp [sents]
      · rw [List.foldl_append, List.foldl_cons, List.foldl_nil, hu, ht, rcvds, List.filterMap_append]
        simpa [rcvds] using forall₂_imp ih.recvs (same hp)
    | rcvd t hp ht hg hu =>
      refine ⟨?_, ?_⟩
      · rw [hgiv _ hg, ht, ih.given]
        simp [sents]
      · rw [List.foldl_append, List.foldl_cons, List.foldl_nil, hu, ht, rcvds, List.filterMap_append]
        exact forall₂_append (forall₂_imp ih.recvs (same hp)) (.cons ⟨rfl, rfl, rfl⟩ .nil)
    | start t hi hp ht hg hu =>
      refine ⟨?_, ?_⟩
      · rw [hgiv _ hg, ht, ih.given]
        simp [sents]
      · rw [List.foldl_append, List.foldl_cons, List.foldl_nil, hu, ht, rcvds, List.filterMap_append]
        refine forall₂_append (forall₂_imp ih.recvs fun u m hv => ⟨hv.1, hv.2.1, ?_⟩) (.cons ⟨rfl, rfl, by simp only [hp, if_true]⟩ .nil)
        have h3 := hv.2.2
        split at h3
        · have : u.thread ≠ t := by rintro rfl; rw [hi] at h3; cases h3
          rw [hp, if_neg this]; exact h3
        · trivial
        · exact h3
    | ret t res hx hres hp ht hg hu =>
      refine ⟨?_, ?_⟩
      · rw [hgiv _ hg, ht, ih.given, Option.toList_none, List.append_nil]
      · rw [List.foldl_append, List.foldl_cons, List.foldl_nil, hu, ht]
        refine forall₂_map ih.recvs _ fun u m hv => ?_
        have h3 := hv.2.2
        by_cases hn : u.result = none
        · rw [hn] at h3
          by_cases e : u.thread = t
          · rw [if_pos ⟨e, hn⟩]
            refine ⟨hv.1, hv.2.1, ?_⟩
            rcases hres with rfl | rfl
            · trivial
            · simp only
              rw [e, hx] at h3
              exact Option.some.inj h3
          · rw [if_neg (fun hh => e hh.1)]
            refine ⟨hv.1, hv.2.1, ?_⟩
            rw [hn]
            simp only [hp, if_neg e]; exact h3
        · rw [if_neg (fun hh => hn hh.2)]
          refine ⟨hv.1, hv.2.1, ?_⟩
          split at h3
          · exact absurd ‹_› hn
          · trivial
          · exact h3

theorem sents_by (s : Nat) (b : Bool) : ∀ tr : List (Ev P), ((sents tr).filterMap fun m => if m.1 = s ∧ m.2.1 = b then some m.2.2 else none) =
    (sentBy s b tr).map (·.2) := by
  intro tr
  induction tr with
  | nil => rfl
  | cons ev tr ih =>
    cases ev with
    | sent s' b' t v =>
      by_cases e : s' = s ∧ b' = b
      · simp only [sents, sentBy, List.filterMap_cons, if_pos e, List.map_cons] at ih ⊢; rw [ih]
      · simp only [sents, sentBy, List.filterMap_cons, if_neg e] at ih ⊢; rw [ih]
    | rcvd s' b' t v => exact ih

/-- The receiving calls of one side and the messages it has received. -/
theorem recvs_side {st : St P} {s : Nat} {b : Bool} : ∀ {us : List Recv} {tr : List (Ev P)},
    Both (ValRel st) us (rcvds tr) →
    Both (fun (u : Recv) (m : P × Val) => ∀ x, u.result = some (some x) → x = fst m.2)
      (us.filter fun u => u.sid = s ∧ u.side = b) (rcvdBy s b tr) := by
  intro us tr
  induction tr generalizing us with
  | nil => intro h; cases h; exact .nil
  | cons ev tr ih =>
    intro h
    cases ev with
    | sent s' b' t v => exact ih h
    | rcvd s' b' t v =>
      simp only [rcvds, List.filterMap_cons] at h
      cases h with
      | cons h1 h2 =>
        rename_i u us
        have ih := ih (us := us) h2
        obtain ⟨e1, e2, e3⟩ := h1
        simp only at e1 e2 e3
        by_cases e : s' = s ∧ b' = b
        · rw [List.filter_cons_of_pos (by simp [e1, e2, e.1, e.2])]
          simp only [rcvdBy, List.filterMap_cons, if_pos e]
          refine .cons (fun x hx => ?_) ih
          rw [hx] at e3; exact e3
        · rw [List.filter_cons_of_neg (by simp only [e1, e2, decide_eq_true_eq]; exact e)]
          simp only [rcvdBy, List.filterMap_cons, if_neg e]
          exact ih

theorem forall₂_get {α β : Type} {R : α → β → Prop} {l : List α} {m : List β} (h : Both R l m) :
    l.length = m.length ∧ ∀ (i : Nat) (a : α), l[i]? = some a → ∃ b, m[i]? = some b ∧ R a b := by
  induction h with
  | nil => exact ⟨rfl, fun i a h => by simp at h⟩
  | cons h _ ih =>
    refine ⟨by simp [ih.1], fun i a ha => ?_⟩
    cases i with
    | zero => simp at ha; subst ha; exact ⟨_, rfl, h⟩
    | succ i => simpa using ih.2 i a (by simpa using ha)

theorem run_values {run : List (Act P × Ret P)} {st : St P} (h : Run G run st) (s : Nat) (b : Bool) :
    (received s b run).length ≤ (given s (!b) run).length ∧
    ∀ (i : Nat) (u : Recv) (x : Val), (received s b run)[i]? = some u → u.result = some (some x) → (given s (!b) run)[i]? = some x := by
  have hv := run_valInv h
  have hg : given s (!b) run = ((sentBy s (!b) st.heap.trace).map (·.2)).map fst := by
    unfold given
    rw [hv.given, ← sents_by, List.map_filterMap, List.filterMap_map]
    congr 1
    funext m
    simp only [Function.comp]
    split <;> rfl
  obtain ⟨h1, h2⟩ := forall₂_get (recvs_side (s := s) (b := b) hv.recvs)
  obtain ⟨rest, hpre⟩ := Verif.Prop.C05_prefix (run_reach h) s b
  refine ⟨?_, fun i u x hu hx => ?_⟩
  · rw [hg, List.length_map, List.length_map, ← hpre, List.length_append]
    unfold received
    omega
  · obtain ⟨m, hm, hmx⟩ := h2 i u hu
    rw [hg, ← hpre]
    simp only [List.map_append]
    rw [List.getElem?_append_left (by
      rw [List.length_map, List.length_map]
      exact (List.getElem?_eq_some_iff.mp hm).1)]
    rw [List.getElem?_map, List.getElem?_map, hm, hmx x hx]
    rfl

end Verif.Transport
