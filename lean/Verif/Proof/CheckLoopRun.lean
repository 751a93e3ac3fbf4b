import Verif.Proof.CheckLoop

/-! # The graph of an endpoint with enum choices -/
namespace Verif.Check
open Verif.Spec Verif.Prop

/-- What an edge stands for. -/
inductive Act where
  | comm (c : Comm)
  | fin
  | loop

def Act.label (roles : List Str) (role : Str) : Act → Str
  | .comm c => c.label roles role
  | .fin => ['0']
  | .loop => ['µ']

/-- What may come next in a part, and what is then left; nothing after the end. -/
inductive Arc (parts : Nat → List Part) : Part → Act → Option Part → Prop
  | comm {c : Comm} {cs : List Comm} {nx : Option Nat} : Arc parts ⟨c :: cs, nx⟩ (.comm c) (some ⟨cs, nx⟩)
  | fin : Arc parts ⟨[], none⟩ .fin none
  | choice {c : Nat} {B : Part} {a : Act} {R : Option Part} (hB : B ∈ parts c) (h : Arc parts B a R) :
      Arc parts ⟨[], some c⟩ a R

theorem Arc.not_loop {parts : Nat → List Part} {P : Part} {R : Option Part} (h : Arc parts P .loop R) : False := by
  generalize ha : Act.loop = a at h
  induction h with
  | comm => cases ha
  | fin => cases ha
  | choice _ _ ih => exact ih ha

abbrev Edge := Nat × Nat × Act

/-- The transition of the machine for an edge, `ρ` being where a node is replaced by the node of its loop. -/
def transAt (ρ : Nat → Nat) (e : Edge) : Option Trans :=
  match e.2.2 with
  | .comm c => some ⟨e.1, c.out, c.partner, c.payload.print, ρ e.2.1⟩
  | _ => none

/-- What the construction has done below node `prev` when it has numbered new nodes from `n` to `n'`: `D` are the parts
that begin at `prev`, `L` the parts that begin at the nodes. -/
structure Post (parts : Nat → List Part) (D : Part → Prop) (prev n n' : Nat) (E : List Edge) (L : Nat → Option Part)
    (ρ : Nat → Nat) : Prop where
  le : n ≤ n'
  src : ∀ e ∈ E, e.1 = prev ∨ (n ≤ e.1 ∧ e.1 < n')
  tgt : ∀ e ∈ E, e.2.1 < n'
  snd : ∀ e ∈ E, n ≤ e.1 → ∃ Q, L e.1 = some Q ∧
    (Arc parts Q e.2.2 (L e.2.1) ∨ (e.2.2 = .loop ∧ e.2.1 < e.1 ∧ L e.2.1 = some Q))
  sndP : ∀ e ∈ E, e.1 = prev → ∃ B, D B ∧ Arc parts B e.2.2 (L e.2.1)
  cpl : ∀ v, n ≤ v → v < n' → ∀ Q, L v = some Q →
    (∀ a R, Arc parts Q a R → ∃ u, (v, u, a) ∈ E ∧ L u = R) ∨ ∃ u, u < v ∧ (v, u, .loop) ∈ E ∧ L u = some Q
  cplP : ∀ B, D B → ∀ a R, Arc parts B a R → ∃ u, (prev, u, a) ∈ E ∧ L u = R
  rho1 : ∀ v u, n ≤ v → (v, u, .loop) ∈ E → ρ v = u
  idem : ∀ v, n ≤ v → v < n' → ρ v < n' ∧ ρ (ρ v) = ρ v ∧ L (ρ v) = L v

variable {parts : Nat → List Part} {prev n n' : Nat} {E : List Edge} {L L' : Nat → Option Part} {ρ ρ' : Nat → Nat}

theorem Post.empty (prev n : Nat) : Post parts (fun _ => False) prev n n [] L ρ where
  le := Nat.le_refl _
  src := by simp
  tgt := by simp
  snd := by simp
  sndP := by simp
  cpl := by intros; omega
  cplP := by simp
  rho1 := by simp
  idem := by intros; omega

theorem Post.mono {D D' : Part → Prop} (h : Post parts D prev n n' E L ρ) (hD : ∀ B, D B ↔ D' B) :
    Post parts D' prev n n' E L ρ := by
  have : D = D' := funext fun B => propext (hD B)
  exact this ▸ h

/-- One after the other. -/
theorem Post.append {D1 D2 : Part → Prop} {n1 n2 : Nat} {E1 E2 : List Edge} (hp : prev < n)
    (h1 : Post parts D1 prev n n1 E1 L ρ) (h2 : Post parts D2 prev n1 n2 E2 L' ρ')
    (hL : ∀ v, v < n1 → L' v = L v ∧ ρ' v = ρ v) : Post parts (fun B => D1 B ∨ D2 B) prev n n2 (E1 ++ E2) L' ρ' where
  le := Nat.le_trans h1.le h2.le
  src := by
    intro e he
    have := h1.le; have := h2.le
    rcases List.mem_append.mp he with he | he
    · rcases h1.src e he with h | h
      · exact .inl h
      · right; omega
    · rcases h2.src e he with h | h
      · exact .inl h
      · right; omega
  tgt := by
    intro e he
    have := h2.le
    rcases List.mem_append.mp he with he | he
    · have := h1.tgt e he; omega
    · exact h2.tgt e he
  snd := by
    intro e he hn
    rcases List.mem_append.mp he with he | he
    · have hs : e.1 < n1 := by
        rcases h1.src e he with h | h
        · have := h1.le; omega
        · exact h.2
      rw [(hL _ hs).1, (hL _ (h1.tgt e he)).1]
      exact h1.snd e he hn
    · rcases h2.src e he with h | h
      · omega
      · exact h2.snd e he h.1
  sndP := by
    intro e he hp
    rcases List.mem_append.mp he with he | he
    · obtain ⟨B, hB, ha⟩ := h1.sndP e he hp
      rw [← (hL _ (h1.tgt e he)).1] at ha
      exact ⟨B, .inl hB, ha⟩
    · obtain ⟨B, hB, ha⟩ := h2.sndP e he hp
      exact ⟨B, .inr hB, ha⟩
  cpl := by
    intro v hv hv' Q hQ
    by_cases hc : v < n1
    · rw [(hL v hc).1] at hQ
      rcases h1.cpl v hv hc Q hQ with h | ⟨u, h, h', h''⟩
      · left
        intro a R ha
        obtain ⟨u, hu, hR⟩ := h a R ha
        exact ⟨u, List.mem_append_left _ hu, by rw [(hL u (h1.tgt _ hu)).1]; exact hR⟩
      · exact .inr ⟨u, h, List.mem_append_left _ h', by rw [(hL u (h1.tgt _ h')).1]; exact h''⟩
    · rcases h2.cpl v (by omega) hv' Q hQ with h | ⟨u, h, h', h''⟩
      · left
        intro a R ha
        obtain ⟨u, hu, hR⟩ := h a R ha
        exact ⟨u, List.mem_append_right _ hu, hR⟩
      · exact .inr ⟨u, h, List.mem_append_right _ h', h''⟩
  cplP := by
    rintro B (hB | hB) a R ha
    · obtain ⟨u, hu, hR⟩ := h1.cplP B hB a R ha
      exact ⟨u, List.mem_append_left _ hu, by rw [(hL u (h1.tgt _ hu)).1]; exact hR⟩
    · obtain ⟨u, hu, hR⟩ := h2.cplP B hB a R ha
      exact ⟨u, List.mem_append_right _ hu, hR⟩
  rho1 := by
    intro v u hv he
    rcases List.mem_append.mp he with he | he
    · have hs : v < n1 := by
        rcases h1.src _ he with h | h
        · simp only at h; omega
        · exact h.2
      rw [(hL v hs).2]
      exact h1.rho1 v u hv he
    · rcases h2.src _ he with h | h
      · simp only at h; omega
      · exact h2.rho1 v u h.1 he
  idem := by
    intro v hv hv'
    by_cases hc : v < n1
    · obtain ⟨a, b, c⟩ := h1.idem v hv hc
      rw [(hL v hc).2, (hL v hc).1, (hL _ a).2, (hL _ a).1]
      exact ⟨Nat.lt_of_lt_of_le a h2.le, b, c⟩
    · exact h2.idem v (by omega) hv'

theorem Post.comm {c : Comm} {cs : List Comm} {nx : Option Nat} (hp : prev < n)
    (h : Post parts (· = ⟨cs, nx⟩) n (n + 1) n' E L ρ) (hL : L n = some ⟨cs, nx⟩) (hρ : ρ n = n) :
    Post parts (· = ⟨c :: cs, nx⟩) prev n n' ((prev, n, .comm c) :: E) L ρ where
  le := by have := h.le; omega
  src := by
    intro e he
    have := h.le
    rcases List.mem_cons.mp he with rfl | he
    · exact .inl rfl
    · rcases h.src e he with h | h
      · right; omega
      · right; omega
  tgt := by
    intro e he
    have := h.le
    rcases List.mem_cons.mp he with rfl | he
    · simp only; omega
    · exact h.tgt e he
  snd := by
    intro e he hn
    rcases List.mem_cons.mp he with rfl | he
    · simp only at hn; omega
    · rcases h.src e he with h' | h'
      · obtain ⟨B, rfl, ha⟩ := h.sndP e he h'
        exact ⟨_, h' ▸ hL, .inl ha⟩
      · exact h.snd e he (by omega)
  sndP := by
    intro e he hp'
    rcases List.mem_cons.mp he with rfl | he
    · exact ⟨_, rfl, by simp only; rw [hL]; exact .comm⟩
    · rcases h.src e he with h' | h' <;> omega
  cpl := by
    intro v hv hv' Q hQ
    by_cases hc : v = n
    · subst hc
      rw [hL] at hQ
      cases hQ
      left
      intro a R ha
      obtain ⟨u, hu, hR⟩ := h.cplP _ rfl a R ha
      exact ⟨u, List.mem_cons_of_mem _ hu, hR⟩
    · rcases h.cpl v (by omega) hv' Q hQ with h | ⟨u, h, h', h''⟩
      · left
        intro a R ha
        obtain ⟨u, hu, hR⟩ := h a R ha
        exact ⟨u, List.mem_cons_of_mem _ hu, hR⟩
      · exact .inr ⟨u, h, List.mem_cons_of_mem _ h', h''⟩
  cplP := by
    rintro B rfl a R ha
    cases ha with
    | comm => exact ⟨n, List.mem_cons_self, hL⟩
  rho1 := by
    intro v u hv he
    rcases List.mem_cons.mp he with he | he
    · simp at he
    · rcases h.src _ he with h' | h'
      · obtain ⟨B, rfl, ha⟩ := h.sndP _ he h'
        exact ha.not_loop.elim
      · exact h.rho1 v u (by simpa using h'.1) he
  idem := by
    intro v hv hv'
    by_cases hc : v = n
    · subst hc
      rw [hρ, hρ]
      exact ⟨hv', rfl, rfl⟩
    · exact h.idem v (by omega) hv'

theorem Post.fin (hp : prev < n) (hL : L n = none) (hρ : ρ n = n) :
    Post parts (· = ⟨[], none⟩) prev n (n + 1) [(prev, n, .fin)] L ρ where
  le := by omega
  src := by simp
  tgt := by simp
  snd := by
    intro e he hn
    simp only [List.mem_singleton] at he
    subst he; simp only at hn; omega
  sndP := by
    intro e he hn
    simp only [List.mem_singleton] at he
    subst he
    exact ⟨_, rfl, by simp only [hL]; exact .fin⟩
  cpl := by
    intro v hv hv' Q hQ
    have : v = n := by omega
    subst this
    rw [hL] at hQ; cases hQ
  cplP := by
    rintro B rfl a R ha
    cases ha
    exact ⟨n, List.mem_singleton.mpr rfl, hL⟩
  rho1 := by
    intro v u hv he
    simp at he
  idem := by
    intro v hv hv'
    have : v = n := by omega
    subst this
    rw [hρ, hρ]
    exact ⟨by omega, rfl, rfl⟩

theorem Post.back {c : Comm} {d u : Nat} (hp : prev < n) (hu : u < n) (hLn : L n = some ⟨[], some d⟩)
    (hLu : L u = some ⟨[], some d⟩) (hρn : ρ n = u) (hρu : ρ u = u) :
    Post parts (· = ⟨[c], some d⟩) prev n (n + 1) [(prev, n, .comm c), (n, u, .loop)] L ρ where
  le := by omega
  src := by simp
  tgt := by simp; omega
  snd := by
    intro e he hn
    simp only [List.mem_cons, List.not_mem_nil, or_false] at he
    rcases he with rfl | rfl
    · simp only at hn; omega
    · exact ⟨_, hLn, .inr ⟨rfl, hu, hLu⟩⟩
  sndP := by
    intro e he hn
    simp only [List.mem_cons, List.not_mem_nil, or_false] at he
    rcases he with rfl | rfl
    · exact ⟨_, rfl, by simp only [hLn]; exact .comm⟩
    · simp only at hn; omega
  cpl := by
    intro v hv hv' Q hQ
    have : v = n := by omega
    subst this
    rw [hLn] at hQ; cases hQ
    exact .inr ⟨u, hu, by simp, hLu⟩
  cplP := by
    rintro B rfl a R ha
    cases ha
    exact ⟨n, by simp, hLn⟩
  rho1 := by
    intro v u' hv he
    simp only [List.mem_cons, Prod.mk.injEq, List.not_mem_nil, or_false, reduceCtorEq, and_false, false_or] at he
    obtain ⟨rfl, rfl, _⟩ := he
    exact hρn
  idem := by
    intro v hv hv'
    have : v = n := by omega
    subst this
    rw [hρn, hρu, hLn, hLu]
    exact ⟨by omega, rfl, rfl⟩

theorem Post.choice {c : Nat} (h : Post parts (fun B => B ∈ parts c) prev n n' E L ρ) :
    Post parts (· = ⟨[], some c⟩) prev n n' E L ρ where
  le := h.le
  src := h.src
  tgt := h.tgt
  snd := h.snd
  sndP := by
    intro e he hp
    obtain ⟨B, hB, ha⟩ := h.sndP e he hp
    exact ⟨_, rfl, .choice hB ha⟩
  cpl := h.cpl
  cplP := by
    rintro B rfl a R ha
    cases ha with
    | choice hB ha => exact h.cplP _ hB a R ha
  rho1 := h.rho1
  idem := h.idem

theorem transAt_congr {E : List Edge} (h : ∀ e ∈ E, ρ' e.2.1 = ρ e.2.1) :
    E.filterMap (transAt ρ') = E.filterMap (transAt ρ) := by
  induction E with
  | nil => rfl
  | cons e E ih =>
    have h1 : transAt ρ' e = transAt ρ e := by
      unfold transAt
      split
      · rw [h e List.mem_cons_self]
      · rfl
    rw [List.filterMap_cons, List.filterMap_cons, h1, ih fun e he => h e (List.mem_cons_of_mem _ he)]

/-! ## Keys -/

theorem branchKey_inj {e e' b b' : Str} (he : ':' ∉ e) (he' : ':' ∉ e') (h : branchKey e b = branchKey e' b') :
    e = e' ∧ b = b' := by
  unfold branchKey at h
  rw [List.append_assoc, List.append_assoc] at h
  induction e generalizing e' with
  | nil =>
    cases e' with
    | nil => exact ⟨rfl, by simpa using h⟩
    | cons x e' =>
      simp only [List.nil_append, List.cons_append, List.cons.injEq] at h
      exact absurd (by rw [← h.1]; exact List.mem_cons_self) he'
  | cons y e ih =>
    cases e' with
    | nil =>
      simp only [List.nil_append, List.cons_append, List.cons.injEq] at h
      exact absurd (by rw [h.1]; exact List.mem_cons_self) he
    | cons x e' =>
      simp only [List.cons_append, List.cons.injEq] at h
      obtain ⟨h1, h2⟩ := ih (fun hh => he (List.mem_cons_of_mem _ hh)) (fun hh => he' (List.mem_cons_of_mem _ hh)) h.2
      exact ⟨by rw [h.1, h1], h2⟩

variable {roles : List Str} {sites : List Site} {me : Nat} {C : Ctx}

theorem relevant_valid (H : Setting roles sites me) {s : Site} {x : Nat} (h : Relevant roles me s x) :
    x < roles.length ∧ x ≠ s.sender := by
  unfold Relevant at h
  split at h
  · rename_i hs; rw [hs]; exact h
  · rename_i hs; subst h; exact ⟨H.me, Ne.symm hs⟩

theorem relevant_exists (hlen : 2 ≤ roles.length) (s : Site) : ∃ x, Relevant roles me s x := by
  unfold Relevant
  split
  · refine ⟨if me = 0 then 1 else 0, ?_⟩
    split <;> omega
  · exact ⟨me, rfl⟩

theorem key_inj (H : Setting roles sites me) {c d : Nat} {s t : Site} (hs : sites[c]? = some s) (ht : sites[d]? = some t)
    {x y : Nat} (hx : x < roles.length) (hy : y < roles.length) {b b' : Str}
    (h : branchKey (s.enum x) b = branchKey (t.enum y) b') : c = d ∧ x = y ∧ b = b' := by
  have h1 : ':' ∉ s.enum x := fun hm => (H.named.enumPlain s (List.mem_of_getElem? hs) x hx _ hm).2 rfl
  have h2 : ':' ∉ t.enum y := fun hm => (H.named.enumPlain t (List.mem_of_getElem? ht) y hy _ hm).2 rfl
  obtain ⟨h3, h4⟩ := branchKey_inj h1 h2 h
  obtain ⟨h5, h6⟩ := H.named.enumInj c d s t hs ht x hx y hy h3
  exact ⟨h5, h6, h4⟩

/-- `branches_already_seen` seen as a map from choices to nodes. -/
def SeenRel (roles : List Str) (sites : List Site) (me : Nat) (seen : Seen) (seenC : Nat → Option Nat) : Prop :=
  ∀ c s x b, sites[c]? = some s → Relevant roles me s x → b ∈ s.branches → seen (branchKey (s.enum x) b) = seenC c

/-- A loop over branches that have all been seen at `u`. -/
theorem fold_seen (C : Ctx) (fuel prev u : Nat) (K : List Str) (hne : prev ≠ u) :
    ∀ (items : List (Str × Option (List Str))) (s : BranchSt), (∀ it ∈ items, s.seen it.1 = some u) →
    s.g.hasEdge prev u = true →
    items.foldlM (fun s it => body C fuel prev K s it.1 it.2) s = some s
  | [], _, _, _ => rfl
  | it :: items, s, h, hg => by
    simp only [List.foldlM_cons]
    have : body C fuel prev K s it.1 it.2 = some s := by
      unfold body
      rw [h it List.mem_cons_self]
      simp only
      unfold backEdge
      rw [if_neg (by rw [hg]; simp)]
    rw [this]
    exact fold_seen C fuel prev u K hne items s (fun i hi => h i (List.mem_cons_of_mem _ hi)) hg

theorem step_back (H : Setting roles sites me) (hC : CtxOf C roles sites me) (hlen : 2 ≤ roles.length) {c : Nat} {st : Site}
    (hs : sites[c]? = some st) (fuel : Nat) (idx : List Nat) (prev depth : Nat) {seen : Seen} {seenC : Nat → Option Nat}
    (hsr : SeenRel roles sites me seen seenC) {u : Nat} (hu : seenC c = some u) (hne : prev ≠ u) (g : Graph)
    (hg : g.hasEdge prev u = false) (cfsm : Cfsm) (line : Str) (m : Nat) :
    auxGraph C (fuel + 1) (texts roles sites me ⟨[], some c⟩) idx prev depth seen g (cfsm ++ [(line, m)]) =
      some (g.addEdge prev u ['µ'], cfsm ++ [(line, u)]) := by
  obtain ⟨items, h1, h2, h3⟩ := step_choice H hC c st hs hlen fuel idx prev depth seen g (cfsm ++ [(line, m)])
  rw [h3]
  have hseen : ∀ it ∈ items, seen it.1 = some u := by
    intro it hit
    obtain ⟨x, b, hx, hb, hk, _⟩ := h1 it hit
    rw [hk, hsr c st x b hs hx hb, hu]
  obtain ⟨x, hx⟩ := relevant_exists (me := me) hlen st
  obtain ⟨b, hb⟩ := List.exists_mem_of_ne_nil _ (H.named.branches st (List.mem_of_getElem? hs)).1
  have hk := h2 x b hx hb
  generalize items.map (·.1) = K at hk ⊢
  cases items with
  | nil =>
    obtain ⟨_, _, h3⟩ := step_choice H hC c st hs hlen fuel idx prev depth seen g (cfsm ++ [(line, m)])
    have := h2 x b hx hb
    simp at this
  | cons it items =>
    simp only [List.foldlM_cons]
    have : body C fuel prev K ⟨idx, depth, false, g, cfsm ++ [(line, m)], seen⟩ it.1 it.2 =
        some ⟨idx, depth, false, g.addEdge prev u ['µ'], cfsm ++ [(line, u)], seen⟩ := by
      unfold body
      simp only [hseen it List.mem_cons_self]
      unfold backEdge
      simp only
      rw [if_pos ⟨hg, hne⟩]
      simp
    rw [this]
    simp only [Option.bind_eq_bind, Option.bind_some]
    rw [fold_seen C fuel prev u K hne items _ (fun i hi => hseen i (List.mem_cons_of_mem _ hi))]
    · rfl
    · simp [Graph.hasEdge, Graph.addEdge]

/-! ## The whole construction -/

/-- The number of choices not yet seen. -/
def unseen (sites : List Site) (seenC : Nat → Option Nat) : Nat :=
  ((List.range sites.length).filter fun c => (seenC c).isNone).length

def cost (sites : List Site) (M : Nat) (P : Part) (seenC : Nat → Option Nat) : Nat :=
  P.comms.length + 1 + unseen sites seenC * (M + 2)

theorem unseen_set {c : Nat} (hc : c < sites.length) {seenC : Nat → Option Nat} (hn : seenC c = none) (u : Nat) :
    unseen sites (fun d => if d = c then some u else seenC d) + 1 = unseen sites seenC := by
  unfold unseen
  have key : ∀ l : List Nat, l.Nodup →
      (l.filter fun d => (seenC d).isNone).length =
        (l.filter fun d => ((fun d => if d = c then some u else seenC d) d).isNone).length + (if c ∈ l then 1 else 0) := by
    intro l
    induction l with
    | nil => intro _; rfl
    | cons a l ih =>
      intro hnd
      obtain ⟨h1, h2⟩ := List.nodup_cons.mp hnd
      have := ih h2
      by_cases ha : a = c
      · subst ha
        rw [if_neg h1] at this
        simp only [List.filter_cons, hn, Option.isNone_none, if_true, Option.isNone_some, Bool.false_eq_true, if_false,
          List.length_cons, List.mem_cons, true_or] at this ⊢
        omega
      · have h3 : (c ∈ a :: l) ↔ c ∈ l := by simp [List.mem_cons, Ne.symm ha]
        simp only [List.filter_cons, if_neg ha, h3] at this ⊢
        split
        · simp only [List.length_cons]; omega
        · exact this
  have := key (List.range sites.length) List.nodup_range
  rw [if_pos (List.mem_range.mpr hc)] at this
  exact this.symm

def lineOf (role : Str) (t : Trans) : Str × Nat :=
  (cfsmLine role t.src t.partner (if t.out then '!' else '?') t.payload, t.dst)

/-- What is claimed of a run of the construction. -/
def Explored (C : Ctx) (roles : List Str) (parts : Nat → List Part) (D : Part → Prop) (prev : Nat) (g : Graph) (cfsm : Cfsm)
    (L : Nat → Option Part) (ρ : Nat → Nat) (g' : Graph) (cfsm' : Cfsm) (E : List Edge) (L' : Nat → Option Part)
    (ρ' : Nat → Nat) : Prop :=
  cfsm' = cfsm ++ (E.filterMap (transAt ρ')).map (lineOf C.role) ∧
  g'.edges = g.edges ++ E.map (fun e => (e.1, e.2.1, e.2.2.label roles C.role)) ∧
  (∀ v, v < g.nodes.length → L' v = L v ∧ ρ' v = ρ v) ∧
  Post parts D prev g.nodes.length g'.nodes.length E L' ρ'

theorem Explored.append {D1 D2 : Part → Prop} {g g1 g2 : Graph} {cf cf1 cf2 : Cfsm} {E1 E2 : List Edge}
    {L0 L1 L2 : Nat → Option Part} {ρ0 ρ1 ρ2 : Nat → Nat} (hp : prev < g.nodes.length)
    (h1 : Explored C roles parts D1 prev g cf L0 ρ0 g1 cf1 E1 L1 ρ1)
    (h2 : Explored C roles parts D2 prev g1 cf1 L1 ρ1 g2 cf2 E2 L2 ρ2) :
    Explored C roles parts (fun B => D1 B ∨ D2 B) prev g cf L0 ρ0 g2 cf2 (E1 ++ E2) L2 ρ2 := by
  obtain ⟨a1, a2, a3, a4⟩ := h1
  obtain ⟨b1, b2, b3, b4⟩ := h2
  refine ⟨?_, ?_, ?_, a4.append hp b4 b3⟩
  · rw [b1, a1, List.filterMap_append, List.map_append, List.append_assoc,
      transAt_congr (ρ' := ρ2) (ρ := ρ1) fun e he => (b3 _ (a4.tgt e he)).2]
  · rw [b2, a2, List.map_append, List.append_assoc]
  · intro v hv
    have := a4.le
    obtain ⟨c1, c2⟩ := b3 v (by omega)
    rw [c1, c2]
    exact a3 v hv

/-- The hypotheses on the branches. -/
structure Branches (roles : List Str) (sites : List Site) (me M : Nat) : Prop where
  fit : ∀ s ∈ sites, ∀ b ∈ s.branches, (s.part b me).Fit roles sites me
  guarded : ∀ s ∈ sites, ∀ b ∈ s.branches, (s.part b me).Guarded
  size : ∀ s ∈ sites, ∀ b ∈ s.branches, (s.part b me).comms.length ≤ M

/-- The claim, for a given fuel. -/
def Claim (C : Ctx) (roles : List Str) (sites : List Site) (me M fuel : Nat) : Prop :=
  ∀ (P : Part) (idx : List Nat) (prev depth : Nat) (seen : Seen) (g : Graph) (cfsm : Cfsm) (seenC : Nat → Option Nat)
    (L : Nat → Option Part) (ρ : Nat → Nat),
    P.Fit roles sites me → cost sites M P seenC ≤ fuel → idx.length = depth + 1 → prev < g.nodes.length →
    (∀ c, P = ⟨[], some c⟩ → seenC c = none ∧ L prev = some P) → ρ prev = prev → SeenRel roles sites me seen seenC →
    (∀ c u, seenC c = some u → u ≤ prev ∧ L u = some ⟨[], some c⟩ ∧ ρ u = u) →
    (∀ e ∈ g.edges, e.1 < g.nodes.length) →
    ∃ g' cfsm' E L' ρ', auxGraph C fuel (texts roles sites me P) idx prev depth seen g cfsm = some (g', cfsm') ∧
      Explored C roles (partsOf sites me) (· = P) prev g cfsm L ρ g' cfsm' E L' ρ'

/-- The invariant of the loop over the branches of a choice not seen before. -/
structure LoopInv (C : Ctx) (roles : List Str) (sites : List Site) (me c : Nat) (st : Site) (prev : Nat)
    (seenC : Nat → Option Nat) (g : Graph) (cfsm : Cfsm) (L : Nat → Option Part) (ρ : Nat → Nat) (s : BranchSt)
    (D : List Str) (E : List Edge) (L' : Nat → Option Part) (ρ' : Nat → Nat) : Prop where
  idx : s.idx.length = s.depth + 1
  seen : ∀ d t x b, sites[d]? = some t → Relevant roles me t x → b ∈ t.branches →
    s.seen (branchKey (t.enum x) b) = if d = c then (if b ∈ D then some prev else none) else seenC d
  ok : Explored C roles (partsOf sites me) (fun B => ∃ b ∈ D, B = st.part b me) prev g cfsm L ρ s.g s.cfsm E L' ρ'
  sub : ∀ b ∈ D, b ∈ st.branches

theorem edges_lt {D : Part → Prop} {g g' : Graph} {cfsm cfsm' : Cfsm} (hp : prev < g.nodes.length)
    (hg : ∀ e ∈ g.edges, e.1 < g.nodes.length)
    (h : Explored C roles parts D prev g cfsm L ρ g' cfsm' E L' ρ') : ∀ e ∈ g'.edges, e.1 < g'.nodes.length := by
  obtain ⟨_, h2, _, h4⟩ := h
  intro e he
  have := h4.le
  rw [h2] at he
  rcases List.mem_append.mp he with he | he
  · have := hg e he; omega
  · obtain ⟨x, hx, rfl⟩ := List.mem_map.mp he
    simp only
    rcases h4.src x hx with h | h <;> omega

theorem loop_fold (H : Setting roles sites me) (hC : CtxOf C roles sites me) {M fuel : Nat}
    (hB : Branches roles sites me M) (IH : Claim C roles sites me M fuel) {c : Nat} {st : Site} (hs : sites[c]? = some st)
    {prev : Nat} {seenC : Nat → Option Nat} {g : Graph} {cfsm : Cfsm} {L : Nat → Option Part} {ρ : Nat → Nat}
    (hn : seenC c = none) (hfuel : unseen sites seenC * (M + 2) ≤ fuel) (hp : prev < g.nodes.length)
    (hLp : L prev = some ⟨[], some c⟩) (hρp : ρ prev = prev)
    (hsc : ∀ c u, seenC c = some u → u ≤ prev ∧ L u = some ⟨[], some c⟩ ∧ ρ u = u)
    (hg : ∀ e ∈ g.edges, e.1 < g.nodes.length) (K : List Str)
    (hK : ∀ k, k ∈ K ↔ ∃ x b, Relevant roles me st x ∧ b ∈ st.branches ∧ k = branchKey (st.enum x) b) :
    ∀ (items : List (Str × Option (List Str))) (s : BranchSt) (D : List Str) (E : List Edge) (L1 : Nat → Option Part)
      (ρ1 : Nat → Nat),
      (∀ it ∈ items, ∃ x b, Relevant roles me st x ∧ b ∈ st.branches ∧ it.1 = branchKey (st.enum x) b ∧
        it.2 = some (texts roles sites me (st.part b me))) →
      LoopInv C roles sites me c st prev seenC g cfsm L ρ s D E L1 ρ1 →
      ∃ s' D' E' L2 ρ2, items.foldlM (fun s it => body C fuel prev K s it.1 it.2) s = some s' ∧
        LoopInv C roles sites me c st prev seenC g cfsm L ρ s' D' E' L2 ρ2 ∧ (∀ b ∈ D, b ∈ D') ∧
        ∀ it ∈ items, ∃ x b, Relevant roles me st x ∧ b ∈ D' ∧ it.1 = branchKey (st.enum x) b := by
  have hmem := List.mem_of_getElem? hs
  have hclt : c < sites.length := by
    obtain ⟨h, _⟩ := List.getElem?_eq_some_iff.mp hs
    exact h
  intro items
  induction items with
  | nil => intro s D E L1 ρ1 _ hI; exact ⟨s, D, E, L1, ρ1, rfl, hI, fun _ h => h, by simp⟩
  | cons it items ih =>
    intro s D E L1 ρ1 hit hI
    obtain ⟨x, b, hx, hb, hk, hse⟩ := hit it List.mem_cons_self
    have hseen := hI.seen c st x b hs hx hb
    rw [if_pos rfl, ← hk] at hseen
    have hlen := hI.ok.2.2.2.le
    by_cases hbD : b ∈ D
    · rw [if_pos hbD] at hseen
      have hstep : body C fuel prev K s it.1 it.2 = some s := by
        unfold body
        rw [hseen]
        simp only
        unfold backEdge
        rw [if_neg (by simp)]
      obtain ⟨s', D', E', L2, ρ2, r1, r2, r3, r4⟩ := ih s D E L1 ρ1 (fun i hi => hit i (List.mem_cons_of_mem _ hi)) hI
      refine ⟨s', D', E', L2, ρ2, ?_, r2, r3, ?_⟩
      · simp only [List.foldlM_cons, hstep]
        exact r1
      · intro i hi
        rcases List.mem_cons.mp hi with rfl | hi
        · exact ⟨x, b, hx, r3 b hbD, hk⟩
        · exact r4 i hi
    · rw [if_neg hbD] at hseen
      have hfit := hB.fit st hmem b hb
      have hgd := hB.guarded st hmem b hb
      have hsz := hB.size st hmem b hb
      have hun := unseen_set (sites := sites) hclt hn prev
      have hL1p : L1 prev = some ⟨[], some c⟩ := by rw [(hI.ok.2.2.1 prev hp).1]; exact hLp
      obtain ⟨g', cf', E1, L2, ρ2, a1, a2⟩ := IH (st.part b me) (if s.added then s.idx else s.idx ++ [0]) prev
        (if s.added then s.depth else s.depth + 1) (fun y => if y ∈ K then some prev else s.seen y) s.g s.cfsm
        (fun d => if d = c then some prev else seenC d) L1 ρ1 hfit
        (by
          unfold cost
          have h1 : unseen sites (fun d => if d = c then some prev else seenC d) * (M + 2) + (M + 2) ≤ fuel := by
            rw [← hun, Nat.add_mul] at hfuel
            omega
          omega)
        (by
          have := hI.idx
          split
          · exact this
          · simp only [List.length_append, List.length_cons, List.length_nil]; omega)
        (by omega)
        (by
          intro d hd
          rw [hd] at hgd
          have := hgd rfl
          simp at this)
        (by rw [(hI.ok.2.2.1 prev hp).2]; exact hρp)
        (by
          intro d t y b' hd hy hb'
          by_cases hdc : d = c
          · subst hdc
            rw [hs] at hd
            cases hd
            have : branchKey (st.enum y) b' ∈ K := (hK _).mpr ⟨y, b', hy, hb', rfl⟩
            simp only [this, if_true]
          · have : branchKey (t.enum y) b' ∉ K := by
              intro hm
              obtain ⟨z, b'', hz, _, he⟩ := (hK _).mp hm
              exact hdc (key_inj H hd hs (relevant_valid H hy).1 (relevant_valid H hz).1 he).1
            simp only [this, if_false, if_neg hdc]
            rw [hI.seen d t y b' hd hy hb', if_neg hdc])
        (by
          intro d u hd
          by_cases hdc : d = c
          · subst hdc
            simp only [if_true, Option.some.injEq] at hd
            subst hd
            exact ⟨Nat.le_refl _, hL1p, by rw [(hI.ok.2.2.1 prev hp).2]; exact hρp⟩
          · simp only [if_neg hdc] at hd
            obtain ⟨h1, h2, h3⟩ := hsc d u hd
            have hu : u < g.nodes.length := by omega
            exact ⟨h1, by rw [(hI.ok.2.2.1 u hu).1]; exact h2, by rw [(hI.ok.2.2.1 u hu).2]; exact h3⟩)
        (edges_lt hp hg hI.ok)
      obtain ⟨num, n1, n2, n3⟩ := hC.given.groups
      obtain ⟨hxl, hxs⟩ := relevant_valid H hx
      obtain ⟨m1, m2⟩ := n1 c st hs x hxl hxs b hb
      let s1 : BranchSt := ⟨if s.added then s.idx else s.idx ++ [0], if s.added then s.depth else s.depth + 1, true, g', cf',
        fun y => if y ∈ C.groupKeys ∧ C.group y = some (num c b) then some prev else s.seen y⟩
      have hstep : body C fuel prev K s it.1 it.2 = some s1 := by
        unfold body
        rw [hseen]
        simp only [hse, Option.bind_eq_bind, Option.bind_some]
        rw [a1]
        simp only [Option.bind_some, markGroup]
        rw [hk, m1]
        rfl
      have hI1 : LoopInv C roles sites me c st prev seenC g cfsm L ρ s1 (b :: D) (E ++ E1) L2 ρ2 := by
        refine ⟨?_, ?_, ?_, ?_⟩
        · have := hI.idx
          simp only [s1]
          split
          · exact this
          · simp only [List.length_append, List.length_cons, List.length_nil]; omega
        · intro d t y b' hd hy hb'
          obtain ⟨hyl, hys⟩ := relevant_valid H hy
          obtain ⟨k1, k2⟩ := n1 d t hd y hyl hys b' hb'
          simp only [s1, k2, true_and, k1, Option.some.injEq]
          by_cases hdc : d = c
          · subst hdc
            rw [hs] at hd
            cases hd
            by_cases hbb : b' = b
            · subst hbb
              simp
            · rw [if_neg fun he => hbb (n2 d d st st hs hs b' hb' b hb he).2, hI.seen d st y b' hs hy hb']
              simp [hbb]
          · rw [if_neg fun he => hdc (n2 d c t st hd hs b' hb' b hb he).1, hI.seen d t y b' hd hy hb']
            simp [hdc]
        · have := hI.ok.append hp a2
          obtain ⟨q1, q2, q3, q4⟩ := this
          refine ⟨q1, q2, q3, q4.mono ?_⟩
          intro B
          simp only [List.mem_cons, exists_eq_or_imp]
          exact Or.comm
        · intro b' hb'
          rcases List.mem_cons.mp hb' with rfl | hb'
          · exact hb
          · exact hI.sub b' hb'
      obtain ⟨s', D', E', L3, ρ3, r1, r2, r3, r4⟩ := ih s1 (b :: D) _ _ _ (fun i hi => hit i (List.mem_cons_of_mem _ hi)) hI1
      refine ⟨s', D', E', L3, ρ3, ?_, r2, fun b' hb' => r3 b' (List.mem_cons_of_mem _ hb'), ?_⟩
      · simp only [List.foldlM_cons, hstep]
        exact r1
      · intro i hi
        rcases List.mem_cons.mp hi with rfl | hi
        · exact ⟨x, b, hx, r3 b List.mem_cons_self, hk⟩
        · exact r4 i hi

theorem hasEdge_fresh {g : Graph} {a b : Nat} (h : ∀ e ∈ g.edges, e.1 ≠ a) : g.hasEdge a b = false := by
  unfold Graph.hasEdge
  rw [List.any_eq_false]
  intro e he
  simp [h e he]

theorem explore (H : Setting roles sites me) (hC : CtxOf C roles sites me) (hlen : 2 ≤ roles.length) {M : Nat}
    (hB : Branches roles sites me M) : ∀ fuel, Claim C roles sites me M fuel := by
  intro fuel
  induction fuel with
  | zero =>
    intro P idx prev depth seen g cfsm seenC L ρ _ hc
    unfold cost at hc
    omega
  | succ fuel IH =>
    intro P idx prev depth seen g cfsm seenC L ρ hP hcost hidx hp hch hρp hsr hsc hg
    obtain ⟨cs, nx⟩ := P
    cases cs with
    | cons c cs =>
      obtain ⟨l, idx', hi', hstep⟩ := step_comm H hC c cs nx hP fuel idx prev depth seen g cfsm hidx
      have hP' : Part.Fit roles sites me ⟨cs, nx⟩ := ⟨fun d hd => hP.partner d (List.mem_cons_of_mem _ hd),
        fun d hd => hP.plain d (List.mem_cons_of_mem _ hd), fun d hd => hP.notEnum d (List.mem_cons_of_mem _ hd), hP.next⟩
      have hnl : ((g.addNode l).1.addEdge prev g.nodes.length (c.label roles C.role)).nodes.length = g.nodes.length + 1 := by
        simp [Graph.addNode, Graph.addEdge]
      have hed : ((g.addNode l).1.addEdge prev g.nodes.length (c.label roles C.role)).edges =
          g.edges ++ [(prev, g.nodes.length, c.label roles C.role)] := rfl
      by_cases hback : ∃ d u, cs = [] ∧ nx = some d ∧ seenC d = some u
      · obtain ⟨d, u, rfl, rfl, hu⟩ := hback
        obtain ⟨hu1, hu2, hu3⟩ := hsc d u hu
        have hd := hP.next d rfl
        have hcost' : 1 ≤ fuel := by unfold cost at hcost; simp only [List.length_cons] at hcost; omega
        obtain ⟨fuel, rfl⟩ : ∃ f, fuel = f + 1 := ⟨fuel - 1, by omega⟩
        have hb := step_back H hC hlen (List.getElem?_eq_getElem hd) fuel idx' g.nodes.length depth hsr hu (by omega)
          ((g.addNode l).1.addEdge prev g.nodes.length (c.label roles C.role))
          (hasEdge_fresh (by
            intro e he
            rw [hed] at he
            rcases List.mem_append.mp he with he | he
            · have := hg e he; omega
            · simp only [List.mem_singleton] at he
              subst he; simp only; omega)) cfsm
          (cfsmLine C.role prev c.partner (if c.out then '!' else '?') c.payload.print) g.nodes.length
        refine ⟨_, _, [(prev, g.nodes.length, .comm c), (g.nodes.length, u, .loop)],
          fun v => if v = g.nodes.length then some ⟨[], some d⟩ else L v, fun v => if v = g.nodes.length then u else ρ v,
          by rw [hstep]; exact hb, ?_, ?_, ?_, ?_⟩
        · simp [transAt, lineOf]
        · simp [Graph.addEdge, Graph.addNode, Act.label]
        · intro v hv
          have : v ≠ g.nodes.length := by omega
          simp [this]
        · have hne : u ≠ g.nodes.length := by omega
          have : ((((g.addNode l).1.addEdge prev g.nodes.length (c.label roles C.role))).addEdge g.nodes.length u
            ['µ']).nodes.length = g.nodes.length + 1 := hnl
          rw [this]
          refine Post.back hp (by omega) (by simp) ?_ (by simp) ?_
          · simp only [if_neg hne]; exact hu2
          · simp only [if_neg hne]; exact hu3
      · obtain ⟨g', cf', E, L2, ρ2, a1, a2, a3, a4, a5⟩ := IH ⟨cs, nx⟩ idx' g.nodes.length depth seen
          ((g.addNode l).1.addEdge prev g.nodes.length (c.label roles C.role))
          (cfsm ++ [(cfsmLine C.role prev c.partner (if c.out then '!' else '?') c.payload.print, g.nodes.length)])
          seenC (fun v => if v = g.nodes.length then some ⟨cs, nx⟩ else L v)
          (fun v => if v = g.nodes.length then g.nodes.length else ρ v) hP'
          (by unfold cost at hcost ⊢; simp only [List.length_cons] at hcost ⊢; omega) hi' (by rw [hnl]; omega)
          (by
            intro d hd
            refine ⟨?_, by simp⟩
            simp only [Part.mk.injEq] at hd
            cases hsd : seenC d with
            | none => rfl
            | some u => exact absurd ⟨d, u, hd.1, hd.2, hsd⟩ hback)
          (by simp) hsr
          (by
            intro d u hd
            obtain ⟨h1, h2, h3⟩ := hsc d u hd
            have : u ≠ g.nodes.length := by omega
            simp only [if_neg this]
            exact ⟨by omega, h2, h3⟩)
          (by
            intro e he
            rw [hnl]
            rw [hed] at he
            rcases List.mem_append.mp he with he | he
            · have := hg e he; omega
            · simp only [List.mem_singleton] at he
              subst he; simp only; omega)
        rw [hnl] at a4 a5
        have hLn := (a4 g.nodes.length (by omega)).1
        have hρn := (a4 g.nodes.length (by omega)).2
        simp only [if_true] at hLn hρn
        refine ⟨g', cf', (prev, g.nodes.length, .comm c) :: E, L2, ρ2, by rw [hstep]; exact a1, ?_, ?_, ?_, ?_⟩
        · rw [a2, List.filterMap_cons]
          simp [transAt, lineOf, hρn]
        · rw [a3, hed]
          simp [Act.label]
        · intro v hv
          obtain ⟨h1, h2⟩ := a4 v (by omega)
          have : v ≠ g.nodes.length := by omega
          rw [h1, h2]
          simp [this]
        · exact Post.comm hp a5 hLn hρn
    | nil =>
      cases nx with
      | none =>
        obtain ⟨l, hstep⟩ := step_fin hC fuel idx prev depth seen g cfsm hidx
        refine ⟨_, _, [(prev, g.nodes.length, .fin)], fun v => if v = g.nodes.length then none else L v,
          fun v => if v = g.nodes.length then g.nodes.length else ρ v, hstep, ?_, ?_, ?_, ?_⟩
        · simp [transAt]
        · simp [Graph.addEdge, Graph.addNode, Act.label]
        · intro v hv
          have : v ≠ g.nodes.length := by omega
          simp [this]
        · have : ((g.addNode l).1.addEdge prev g.nodes.length ['0']).nodes.length = g.nodes.length + 1 := by
            simp [Graph.addNode, Graph.addEdge]
          rw [this]
          exact Post.fin hp (by simp) (by simp)
      | some c =>
        have hc := hP.next c rfl
        have hs : sites[c]? = some sites[c] := List.getElem?_eq_getElem hc
        obtain ⟨hn, hLp⟩ := hch c rfl
        obtain ⟨items, h1, h2, h3⟩ := step_choice H hC c _ hs hlen fuel idx prev depth seen g cfsm
        have hI0 : LoopInv C roles sites me c sites[c] prev seenC g cfsm L ρ ⟨idx, depth, false, g, cfsm, seen⟩ [] [] L ρ := by
          refine ⟨hidx, ?_, ?_, by simp⟩
          · intro d t x b hd hx hb
            simp only [hsr d t x b hd hx hb]
            split
            · rename_i he; subst he; simp [hn]
            · rfl
          · refine ⟨by simp, by simp, by simp, (Post.empty prev g.nodes.length).mono ?_⟩
            intro B; simp
        obtain ⟨s', D', E', L2, ρ2, r1, r2, r3, r4⟩ := loop_fold H hC hB IH hs hn
          (by unfold cost at hcost; simp only [List.length_nil] at hcost; omega) hp hLp hρp hsc hg (items.map (·.1))
          (by
            intro k
            constructor
            · intro hk
              obtain ⟨it, hit, rfl⟩ := List.mem_map.mp hk
              obtain ⟨x, b, hx, hb, hk, _⟩ := h1 it hit
              exact ⟨x, b, hx, hb, hk⟩
            · rintro ⟨x, b, hx, hb, rfl⟩
              exact h2 x b hx hb)
          items _ [] [] L ρ h1 hI0
        refine ⟨s'.g, s'.cfsm, E', L2, ρ2, ?_, ?_⟩
        · rw [h3, r1]; rfl
        · obtain ⟨q1, q2, q3, q4⟩ := r2.ok
          refine ⟨q1, q2, q3, Post.choice (q4.mono ?_)⟩
          intro B
          simp only [partsOf, hs, List.mem_map]
          constructor
          · rintro ⟨b, hb, rfl⟩
            exact ⟨b, r2.sub b hb, rfl⟩
          · rintro ⟨b, hb, rfl⟩
            obtain ⟨x, hx⟩ := relevant_exists (me := me) hlen sites[c]
            obtain ⟨it, hit, hk⟩ := List.mem_map.mp (h2 x b hx hb)
            obtain ⟨y, b', hy, hb', hk'⟩ := r4 it hit
            have hk2 : branchKey (sites[c].enum x) b = branchKey (sites[c].enum y) b' := by rw [← hk, hk']
            obtain ⟨_, _, e3⟩ := key_inj H hs hs (relevant_valid H hx).1 (relevant_valid H hy).1 hk2
            exact ⟨b', hb', by rw [e3]⟩

end Verif.Check
