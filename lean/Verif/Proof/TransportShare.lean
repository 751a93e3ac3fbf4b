import Verif.Spec.Transport
/-!
# Bytes shared out among calls
-/
namespace Verif.Transport
open Verif.Spec

theorem bytesOf_append (i : Nat) (l m : List (Nat × UInt8)) : bytesOf i (l ++ m) = bytesOf i l ++ bytesOf i m := by
  simp [bytesOf]

theorem bytesOf_tagged (i j : Nat) (bs : List UInt8) :
    bytesOf i (bs.map fun b => (j, b)) = if j = i then bs else [] := by
  unfold bytesOf
  by_cases e : j = i
  · subst e
    rw [if_pos rfl, List.filter_eq_self.2 (by simp), List.map_map]
    exact List.map_id bs
  · rw [if_neg e, List.filter_eq_nil_iff.2 (by simp [e])]; rfl

theorem bytesOf_none {i : Nat} {l : List (Nat × UInt8)} (h : ∀ p ∈ l, p.1 ≠ i) : bytesOf i l = [] := by
  unfold bytesOf
  rw [List.filter_eq_nil_iff.2 (by simpa using fun a b hm => h (a, b) hm)]; rfl

/-- The invariant of a socket: `R` relates a call to the bytes it has moved; `act t`: thread `t` is inside a call. -/
structure Shared (R : Use → List UInt8 → Prop) (act : Nat → Prop) (us : List Use) (bs : List UInt8)
    (l : List (Nat × UInt8)) : Prop where
  shares : Shares us bs l
  rel : ∀ (i : Nat) (u : Use), us[i]? = some u → R u (bytesOf i l)
  open_act : ∀ u ∈ us, u.result = none → act u.thread
  act_open : ∀ t, act t → ∃ (i : Nat) (u : Use), us[i]? = some u ∧ u.thread = t ∧ u.result = none
  uniq : ∀ (i j : Nat) (u v : Use), us[i]? = some u → us[j]? = some v → u.result = none → v.result = none → u.thread = v.thread → i = j
  one : OneThread us → InOrder l ∧ ∀ (i : Nat) (u : Use), us[i]? = some u → u.result = none → i + 1 = us.length

theorem Shared.start {R R' : Use → List UInt8 → Prop} {act act' : Nat → Prop} {us : List Use} {bs : List UInt8}
    {l : List (Nat × UInt8)} (h : Shared R act us bs l) {t : Nat} {g : List UInt8} (ht : ¬ act t)
    (hR : ∀ u b, R u b → (u.result = none → u.thread ≠ t) → R' u b) (h0 : R' ⟨t, g, none⟩ [])
    (ha : ∀ t', act' t' ↔ act t' ∨ t' = t) : Shared R' act' (us ++ [⟨t, g, none⟩]) bs l := by
  have hne : ∀ u ∈ us, u.result = none → u.thread ≠ t := fun u hu hr e => ht (e ▸ h.open_act u hu hr)
  have get : ∀ i u, (us ++ [⟨t, g, none⟩])[i]? = some u → us[i]? = some u ∨ (i = us.length ∧ u = ⟨t, g, none⟩) := by
    intro i u hi
    by_cases hlt : i < us.length
    · rw [List.getElem?_append_left hlt] at hi; exact Or.inl hi
    · rw [List.getElem?_append_right (by omega)] at hi
      cases hk : i - us.length with
      | zero => rw [hk] at hi; cases hi; exact Or.inr ⟨by omega, rfl⟩
      | succ k => rw [hk] at hi; cases hi
  refine ⟨⟨h.shares.bytes, fun p hp => ?_⟩, fun i u hi => ?_, fun u hu hr => ?_, fun t' ht' => ?_, ?_, ?_⟩
  · have := h.shares.calls p hp
    simp; omega
  · rcases get i u hi with h1 | ⟨rfl, rfl⟩
    · exact hR u _ (h.rel i u h1) (hne u (List.mem_of_getElem? h1))
    · rw [bytesOf_none fun p hp => by have := h.shares.calls p hp; omega]
      exact h0
  · rw [List.mem_append] at hu
    rcases hu with hu | hu
    · exact (ha _).2 (Or.inl (h.open_act u hu hr))
    · rw [List.mem_singleton] at hu
      subst hu
      exact (ha _).2 (Or.inr rfl)
  · rcases (ha t').1 ht' with h1 | rfl
    · obtain ⟨i, u, h2, h3⟩ := h.act_open t' h1
      refine ⟨i, u, ?_, h3⟩
      rw [List.getElem?_append_left (by
        refine Nat.lt_of_not_le fun hle => ?_
        rw [List.getElem?_eq_none hle] at h2; cases h2)]
      exact h2
    · exact ⟨us.length, ⟨t', g, none⟩, by simp, rfl, rfl⟩
  · intro i j u v hi hj hu hv e
    rcases get i u hi with h1 | ⟨rfl, rfl⟩ <;> rcases get j v hj with h2 | ⟨rfl, rfl⟩
    · exact h.uniq i j u v h1 h2 hu hv e
    · exact absurd e (hne u (List.mem_of_getElem? h1) hu)
    · exact absurd e.symm (hne v (List.mem_of_getElem? h2) hv)
    · rfl
  · rintro ⟨t0, h1⟩
    have hone := h.one ⟨t0, fun u hu => h1 u (List.mem_append_left _ hu)⟩
    refine ⟨hone.1, fun i u hi hu => ?_⟩
    rcases get i u hi with h2 | ⟨rfl, rfl⟩
    · have hm := List.mem_of_getElem? h2
      have e1 := h1 u (List.mem_append_left _ hm)
      have e2 := h1 ⟨t, g, none⟩ (by simp)
      exact absurd (e1.trans e2.symm) (hne u hm hu)
    · simp

theorem Shared.move {R R' : Use → List UInt8 → Prop} {act : Nat → Prop} {us : List Use} {bs : List UInt8}
    {l : List (Nat × UInt8)} (h : Shared R act us bs l) {t : Nat} (m : List UInt8) (ht : act t)
    (hR : ∀ u b, R u b → (u.thread ≠ t ∨ u.result ≠ none) → R' u b)
    (hR' : ∀ u b, R u b → u.thread = t → u.result = none → R' u (b ++ m)) :
    ∃ l', Shared R' act us (bs ++ m) l' := by
  obtain ⟨i, u, hi, hu, hr⟩ := h.act_open t ht
  have hlt : i < us.length := by
    refine Nat.lt_of_not_le fun hle => ?_
    rw [List.getElem?_eq_none hle] at hi; cases hi
  refine ⟨l ++ m.map (fun b => (i, b)), ⟨by rw [List.map_append, h.shares.bytes, List.map_map]; exact congrArg _ (List.map_id m), fun p hp => ?_⟩, fun j v hj => ?_, h.open_act, h.act_open,
    h.uniq, fun ho => ⟨?_, (h.one ho).2⟩⟩
  · rw [List.mem_append] at hp
    rcases hp with hp | hp
    · exact h.shares.calls p hp
    · simp at hp; obtain ⟨b, _, rfl⟩ := hp; exact hlt
  · rw [bytesOf_append, bytesOf_tagged]
    by_cases e : i = j
    · subst e
      rw [hi] at hj; cases hj
      rw [if_pos rfl]
      exact hR' _ _ (h.rel i _ hi) hu hr
    · rw [if_neg e, List.append_nil]
      refine hR _ _ (h.rel j v hj) ?_
      by_cases ht : v.thread = t
      · refine Or.inr fun hv => e (h.uniq i j u v hi hj hr hv (hu.trans ht.symm))
      · exact Or.inl ht
  · have hl := (h.one ho).2 i u hi hr
    unfold InOrder
    rw [List.pairwise_append]
    refine ⟨(h.one ho).1, List.pairwise_map.2 (List.pairwise_of_forall fun _ _ => Nat.le_refl _), fun p hp q hq => ?_⟩
    have := h.shares.calls p hp
    simp at hq
    obtain ⟨b, _, rfl⟩ := hq
    show p.1 ≤ i
    omega

theorem returns_get {t : Nat} {r : Option (List UInt8)} {us : List Use} {i : Nat} {u : Use}
    (h : (returns t r us)[i]? = some u) :
    ∃ v, us[i]? = some v ∧ u.thread = v.thread ∧ u.given = v.given ∧
      ((v.thread = t ∧ v.result = none ∧ u = { v with result := some r }) ∨
        ((v.thread ≠ t ∨ v.result ≠ none) ∧ u = v)) := by
  unfold returns at h
  rw [List.getElem?_map] at h
  cases hv : us[i]? with
  | none => rw [hv] at h; cases h
  | some v =>
    rw [hv] at h
    simp only [Option.map_some, Option.some.injEq] at h
    refine ⟨v, rfl, ?_⟩
    by_cases hc : v.thread = t ∧ v.result = none
    · rw [if_pos hc] at h; subst h; exact ⟨rfl, rfl, Or.inl ⟨hc.1, hc.2, rfl⟩⟩
    · rw [if_neg hc] at h; subst h
      refine ⟨rfl, rfl, Or.inr ⟨?_, rfl⟩⟩
      by_cases ht : v.thread = t
      · exact Or.inr fun hr => hc ⟨ht, hr⟩
      · exact Or.inl ht

theorem Shared.ret {R R' : Use → List UInt8 → Prop} {act act' : Nat → Prop} {us : List Use} {bs : List UInt8}
    {l : List (Nat × UInt8)} (h : Shared R act us bs l) {t : Nat} {r : Option (List UInt8)}
    (hR : ∀ u b, R u b → (u.thread ≠ t ∨ u.result ≠ none) → R' u b)
    (hR' : ∀ u b, R u b → u.thread = t → u.result = none → R' { u with result := some r } b)
    (ha : ∀ t', act' t' ↔ act t' ∧ t' ≠ t) : Shared R' act' (returns t r us) bs l := by
  refine ⟨⟨h.shares.bytes, fun p hp => by simpa [returns] using h.shares.calls p hp⟩, fun i u hi => ?_, fun u hu hr => ?_,
    fun t' ht' => ?_, ?_, ?_⟩
  · obtain ⟨v, h1, h2, h3, ⟨h4, h5, h6⟩ | ⟨h4, h6⟩⟩ := returns_get hi
    · rw [h6]; exact hR' v _ (h.rel i v h1) h4 h5
    · rw [h6]; exact hR v _ (h.rel i v h1) h4
  · obtain ⟨i, hi⟩ := List.mem_iff_getElem?.1 hu
    obtain ⟨v, h1, h2, h3, ⟨h4, h5, h6⟩ | ⟨h4, h6⟩⟩ := returns_get hi
    · rw [h6] at hr; cases hr
    · subst h6
      refine (ha _).2 ⟨h.open_act u (List.mem_of_getElem? h1) hr, ?_⟩
      rcases h4 with h4 | h4
      · exact h4
      · exact absurd hr h4
  · obtain ⟨h1, h2⟩ := (ha t').1 ht'
    obtain ⟨i, u, hi, hu, hr⟩ := h.act_open t' h1
    refine ⟨i, u, ?_, hu, hr⟩
    unfold returns
    rw [List.getElem?_map, hi]
    have : ¬ (u.thread = t ∧ u.result = none) := fun hc => h2 (hu ▸ hc.1)
    simp [this]
  · intro i j u v hi hj hu hv e
    obtain ⟨u', h1, _, _, ⟨_, _, h6⟩ | ⟨_, h6⟩⟩ := returns_get hi
    · rw [h6] at hu; cases hu
    · obtain ⟨v', k1, _, _, ⟨_, _, k6⟩ | ⟨_, k6⟩⟩ := returns_get hj
      · rw [k6] at hv; cases hv
      · subst h6 k6; exact h.uniq i j u v h1 k1 hu hv e
  · rintro ⟨t0, ho⟩
    have ho' : OneThread us := by
      refine ⟨t0, fun u hu => ?_⟩
      obtain ⟨i, hi⟩ := List.mem_iff_getElem?.1 hu
      have hm : (if u.thread = t ∧ u.result = none then { u with result := some r } else u) ∈ returns t r us :=
        List.mem_map.2 ⟨u, hu, rfl⟩
      have := ho _ hm
      split at this <;> exact this
    refine ⟨(h.one ho').1, fun i u hi hu => ?_⟩
    obtain ⟨u', h1, _, _, ⟨_, _, h6⟩ | ⟨_, h6⟩⟩ := returns_get hi
    · rw [h6] at hu; cases hu
    · subst h6
      have := (h.one ho').2 i u h1 hu
      simpa [returns] using this

theorem Shared.nil {R : Use → List UInt8 → Prop} {act : Nat → Prop} (h : ∀ t, ¬ act t) : Shared R act [] [] [] where
  shares := ⟨rfl, fun p hp => by cases hp⟩
  rel := fun i u hi => by simp at hi
  open_act := fun u hu => by cases hu
  act_open := fun t ht => absurd ht (h t)
  uniq := fun i j u v hi => by simp at hi
  one := fun _ => ⟨List.Pairwise.nil, fun i u hi => by simp at hi⟩

theorem Shared.quiet {R R' : Use → List UInt8 → Prop} {act act' : Nat → Prop} {us : List Use} {bs : List UInt8}
    {l : List (Nat × UInt8)} (h : Shared R act us bs l) (hR : ∀ u b, R u b → R' u b) (ha : ∀ t, act' t ↔ act t) :
    Shared R' act' us bs l :=
  ⟨h.shares, fun i u hi => hR _ _ (h.rel i u hi), fun u hu hr => (ha _).2 (h.open_act u hu hr),
    fun t ht => h.act_open t ((ha t).1 ht), h.uniq, h.one⟩

/-- Tags in order: the bytes are those of call 0, then those of call 1, and so on. -/
theorem inOrder_flatten : ∀ (n : Nat) (l : List (Nat × UInt8)), InOrder l → (∀ p ∈ l, p.1 < n) →
    l.map (·.2) = ((List.range n).map fun i => bytesOf i l).flatten := by
  intro n
  induction n with
  | zero =>
    intro l _ h
    cases l with
    | nil => rfl
    | cons p l => exact absurd (h p (by simp)) (by omega)
  | succ n ih =>
    intro l ho h
    have hsplit : l = l.filter (fun p => p.1 < n) ++ l.filter (fun p => p.1 = n) := by
      clear ih
      induction l with
      | nil => rfl
      | cons p l ihl =>
        unfold InOrder at ho ihl
        rw [List.pairwise_cons] at ho
        have h' : ∀ q ∈ l, q.1 < n + 1 := fun q hq => h q (List.mem_cons_of_mem _ hq)
        have := ihl ho.2 h'
        by_cases hp : p.1 < n
        · have hpn : ¬ p.1 = n := by omega
          simp only [List.filter_cons, hp, hpn, decide_true, decide_false, if_true, Bool.false_eq_true, if_false]
          rw [List.cons_append, ← this]
        · have hpn : p.1 = n := by have := h p (by simp); omega
          have hall : ∀ q ∈ l, ¬ q.1 < n := fun q hq => by have := ho.1 q hq; omega
          have hall' : ∀ q ∈ l, q.1 = n := fun q hq => by have := ho.1 q hq; have := h' q hq; omega
          rw [List.filter_cons_of_neg (by simpa using hp), List.filter_cons_of_pos (by simpa using hpn),
            List.filter_eq_nil_iff.2 (by simpa using fun a b hm => hall (a, b) hm),
            List.filter_eq_self.2 (by simpa using fun a b hm => hall' (a, b) hm)]
          rfl
    rw [List.range_succ, List.map_append, List.flatten_append]
    simp only [List.map_cons, List.map_nil, List.flatten_cons, List.flatten_nil, List.append_nil]
    have hf : l.map (·.2) = (l.filter (fun p => p.1 < n)).map (·.2) ++ bytesOf n l := by
      conv => lhs; rw [hsplit]
      rw [List.map_append]; rfl
    rw [hf, ih _ (List.Pairwise.filter _ ho) (by simp)]
    congr 2
    apply List.map_congr_left
    intro i hi
    rw [List.mem_range] at hi
    unfold bytesOf
    rw [List.filter_filter]
    congr 1
    apply List.filter_congr
    intro p _
    by_cases hp : p.1 = i
    · simp [hp, hi]
    · simp [hp]

end Verif.Transport
