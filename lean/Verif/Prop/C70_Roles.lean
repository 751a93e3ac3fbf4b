import Verif.Prop.C70_Stuck
/-!
# C70: texts with any number of roles all of whose executions can be carried out
-/
namespace Verif.Prop
open Verif.Nuscr Verif.NuscrSpec Verif.NuscrText Verif.NuscrTextSpec Verif.EndToEnd Verif.Runtime
open Verif.Timed (Clocks)

/-- The first second in the window. -/
def firstIn (m : Msg) : Nat := value m.leftBound + (if m.leftBracket = .opening then 0 else 1)

theorem le_fits {m : Msg} {t : Int} (h : NuscrSpec.Fits m t) : (firstIn m : Int) ≤ t := by
  obtain ⟨h1, -⟩ := h
  unfold firstIn
  split at h1 <;> simp only [*, if_true, if_false, reduceCtorEq] at h1 ⊢ <;> omega

theorem inBounds_between {m : Msg} {s : Nat} (h : ∃ t, NuscrSpec.Fits m t) (h1 : firstIn m ≤ s) (h2 : s ≤ lastIn m) : InBounds m (s * 1000000000) := by
  obtain ⟨t, h3, h4⟩ := h
  unfold InBounds
  unfold firstIn at h1
  unfold lastIn at h2
  split at h3 <;> split at h4 <;> simp only [*, if_true, if_false, reduceCtorEq] at h1 h2 ⊢ <;> omega

/-- When the messages between two choices have been exchanged, if they begin at the second `now`. -/
def partEnd (now : Nat) (l : List Msg) : Nat := (l.map firstIn).foldr max now

theorem le_partEnd {now : Nat} {l : List Msg} : now ≤ partEnd now l := by
  unfold partEnd
  induction l with
  | nil => exact Nat.le_refl _
  | cons a l ih => simp only [List.map_cons, List.foldr_cons]; omega

theorem first_le_partEnd {now : Nat} {l : List Msg} {m : Msg} (hm : m ∈ l) : firstIn m ≤ partEnd now l := by
  unfold partEnd
  induction l with
  | nil => cases hm
  | cons a l ih =>
    simp only [List.map_cons, List.foldr_cons]
    rcases List.mem_cons.1 hm with rfl | h
    · omega
    · have := ih h; omega

theorem partEnd_le {now k : Nat} {l : List Msg} (h0 : now ≤ k) (h : ∀ m ∈ l, firstIn m ≤ k) : partEnd now l ≤ k := by
  unfold partEnd
  induction l with
  | nil => exact h0
  | cons a l ih =>
    simp only [List.map_cons, List.foldr_cons]
    have := h a (by simp)
    have := ih fun m hm => h m (by simp [hm])
    omega

/-- The second of a message between two choices: as late as possible, but not later than needed. -/
def dueIn (now c : Nat) (m : Msg) : Nat := max now (min (lastIn m) c)

/-- The messages between two choices, in the order of their instants. -/
def inTime (now : Nat) (l : List Msg) : List Msg :=
  l.mergeSort fun a b => decide (dueIn now (partEnd now l) a ≤ dueIn now (partEnd now l) b)

/-- With the instants. -/
def part (t₀ now : Nat) (l : List Msg) : List (Happening × Nat) :=
  (inTime now l).map fun m => (.exchange m, t₀ + dueIn now (partEnd now l) m * 1000000000)

theorem Permitted.mono {cl : Text → Clocks} {n n' : Nat} {L : List (Happening × Nat)} (h : Permitted cl n' L) (hn : n ≤ n') : Permitted cl n L := by
  cases h with
  | nil => exact .nil
  | exchange h1 h2 h3 h4 => exact .exchange (Nat.le_trans hn h1) h2 h3 h4
  | choice h1 h2 => exact .choice (Nat.le_trans hn h1) h2

section
variable {roles : List Text} {x : Char} {cl : Text → Clocks} {t₀ : Nat}

theorem permitted_part (hcl : ∀ p ∈ roles, cl p x = some t₀) {d : Msg → Nat} {c : Nat} {L : List (Happening × Nat)}
    (hL : Permitted cl (t₀ + c * 1000000000) L) : ∀ {ms : List Msg} {now : Nat}, now ≤ c → ms.Pairwise (fun a b => d a ≤ d b) →
      (∀ m ∈ ms, m.clock = [x] ∧ m.reset = none ∧ Valid roles m ∧ InBounds m (d m * 1000000000) ∧ now ≤ d m ∧ d m ≤ c) →
      Permitted cl (t₀ + now * 1000000000) ((ms.map fun m => (Happening.exchange m, t₀ + d m * 1000000000)) ++ L) := by
  intro ms
  induction ms with
  | nil => intro now hn _ _; exact Permitted.mono hL (by omega)
  | cons m ms ih =>
    intro now hn hp hm
    obtain ⟨h1, h2, h3, h4, h5, h6⟩ := hm m (by simp)
    obtain ⟨p1, p2⟩ := List.pairwise_cons.1 hp
    have may : ∀ p ∈ roles, MayExchange (cl p) m (t₀ + d m * 1000000000) := by
      intro p hp
      refine ⟨⟨t₀, by rw [h1]; exact hcl p hp, ?_⟩, fun y hy => by rw [h2] at hy; cases hy⟩
      rw [Nat.add_sub_cancel_left]
      exact h4
    have e : (fun p => if p = m.sender ∨ p = m.receiver then resetBy m (t₀ + d m * 1000000000) (cl p) else cl p) = cl := by
      funext p y
      split
      · simp only [resetBy, h2]
      · rfl
    refine .exchange (by omega) (may _ h3.1) (may _ h3.2.1) ?_
    rw [e]
    refine ih h6 p2 fun a ha => ?_
    obtain ⟨g1, g2, g3, g4, -, g6⟩ := hm a (by simp [ha])
    exact ⟨g1, g2, g3, g4, p1 a ha, g6⟩

/-- The windows of each role end later and later. -/
def Rising (roles : List Text) (l : List Msg) : Prop := ∀ p ∈ roles, l.Pairwise fun a b => Involved p a → Involved p b → lastIn a ≤ lastIn b

theorem inTime_same {now : Nat} {l : List Msg} (h : Rising roles l) : SameFor roles ((inTime now l).map .exchange) (l.map .exchange) := by
  refine ⟨(List.mergeSort_perm _ _).map _, fun p hp => ?_⟩
  rw [List.filter_map, List.filter_map]
  congr 1
  let g : Msg → Bool := Happening.of p ∘ Happening.exchange
  have hg : ∀ m, g m = true → Involved p m := by intro m hm; simpa [g, Happening.of, Involved] using hm
  have hs : (l.filter g).Sublist (inTime now l) := by
    refine List.sublist_mergeSort ?_ ?_ ?_ (List.filter_sublist)
    · intro a b c; simp only [decide_eq_true_eq]; omega
    · intro a b; simp only [Bool.or_eq_true, decide_eq_true_eq]; omega
    · refine List.pairwise_filter.2 ((h p hp).imp fun {a b} hab ha hb => ?_)
      have := hab (hg a ha) (hg b hb)
      refine decide_eq_true ?_
      unfold dueIn
      omega
  have hs' := hs.filter g
  rw [List.filter_filter] at hs'
  simp only [Bool.and_self] at hs'
  exact (hs'.eq_of_length ((List.mergeSort_perm l _).filter g).length_eq.symm).symm

theorem part_permitted (hcl : ∀ p ∈ roles, cl p x = some t₀) {now : Nat} {l : List Msg} {L : List (Happening × Nat)}
    (hL : Permitted cl (t₀ + partEnd now l * 1000000000) L)
    (hm : ∀ m ∈ l, m.clock = [x] ∧ m.reset = none ∧ Valid roles m ∧ (∃ t, NuscrSpec.Fits m t) ∧ now ≤ lastIn m) :
    Permitted cl (t₀ + now * 1000000000) (part t₀ now l ++ L) := by
  refine permitted_part hcl hL le_partEnd ?_ ?_
  · refine (List.pairwise_mergeSort (le := fun a b => decide (dueIn now (partEnd now l) a ≤ dueIn now (partEnd now l) b)) ?_ ?_ l).imp fun h => by simpa using h
    · intro a b c; simp only [decide_eq_true_eq]; omega
    · intro a b; simp only [Bool.or_eq_true, decide_eq_true_eq]; omega
  · intro m h
    have h : m ∈ l := (List.mergeSort_perm l _).mem_iff.1 h
    obtain ⟨h1, h2, h3, h4, h5⟩ := hm m h
    have a1 := first_le_partEnd (now := now) h
    have a2 := le_partEnd (now := now) (l := l)
    obtain ⟨t, ht⟩ := id h4
    have a3 := le_fits ht
    have a4 := NuscrSpec.fits_le ht
    refine ⟨h1, h2, h3, inBounds_between h4 ?_ ?_, ?_, ?_⟩ <;> unfold dueIn <;> omega

theorem part_same {t₀ now : Nat} {l : List Msg} (h : Rising roles l) : SameFor roles ((part t₀ now l).map (·.1)) (l.map .exchange) := by
  have : (part t₀ now l).map (·.1) = (inTime now l).map .exchange := by
    unfold part
    rw [List.map_map]
    rfl
  rw [this]
  exact inTime_same h

theorem SameFor.append {a a' b b' : List Happening} (h : SameFor roles a a') (h' : SameFor roles b b') : SameFor roles (a ++ b) (a' ++ b') :=
  ⟨h.1.append h'.1, fun p hp => by rw [List.filter_append, List.filter_append, h.2 p hp, h'.2 p hp]⟩

theorem SameFor.cons {b b' : List Happening} (e : Happening) (h : SameFor roles b b') : SameFor roles (e :: b) (e :: b') :=
  SameFor.append (a := [e]) (a' := [e]) ⟨.refl _, fun _ _ => rfl⟩ h

/-- What a list of messages between two choices has to be like. -/
def Fine (roles : List Text) (x : Char) (l : List Msg) : Prop :=
  Rising roles l ∧ ∀ m ∈ l, m.clock = [x] ∧ m.reset = none ∧ Valid roles m ∧ ∃ t, NuscrSpec.Fits m t

theorem after_permitted {P : Proto} (hcl : ∀ p ∈ roles, cl p x = some t₀) (hl : ∀ b ∈ P.branches, Fine roles x (P.exchanges b))
    (h2 : ∀ b ∈ P.branches, b.back ≠ none → ∀ a ∈ P.exchanges b, ∀ b' ∈ P.branches, ∀ m ∈ P.exchanges b', firstIn a ≤ lastIn m)
    {c : Bool} {tr : List Happening} (h : After P c tr) : ∀ {now : Nat}, (∀ b ∈ P.branches, ∀ m ∈ P.exchanges b, now ≤ lastIn m) →
      ∃ L, SameFor roles (L.map (·.1)) tr ∧ Permitted cl (t₀ + now * 1000000000) L := by
  induction h with
  | wait => intro now _; exact ⟨[], ⟨.refl _, fun _ _ => rfl⟩, .nil⟩
  | @ends i b e1 e2 =>
    intro now hn
    have hb := List.mem_of_getElem? e1
    have e : P.exchanges b = b.msgs := by simp [Proto.exchanges, e2]
    obtain ⟨r1, r2⟩ := hl b hb
    refine ⟨(.choice P.chooser i, t₀ + now * 1000000000) :: (part t₀ now (P.exchanges b) ++ []), ?_, .choice (Nat.le_refl _) (part_permitted hcl .nil fun m hm => ?_)⟩
    · rw [List.append_nil, List.map_cons, ← e]
      exact SameFor.cons _ (part_same r1)
    · obtain ⟨g1, g2, g3, g4⟩ := r2 m hm
      exact ⟨g1, g2, g3, g4, hn b hb m hm⟩
  | @again i b l' body c tr e1 e2 e3 _ ih =>
    intro now hn
    have hb := List.mem_of_getElem? e1
    have e : P.exchanges b = b.msgs ++ body := by simp [Proto.exchanges, e2, e3]
    obtain ⟨r1, r2⟩ := hl b hb
    obtain ⟨L, l1, l2⟩ := ih (now := partEnd now (P.exchanges b)) fun b' hb' m hm =>
      partEnd_le (hn b' hb' m hm) fun a ha => h2 b hb (by simp [e2]) a ha b' hb' m hm
    refine ⟨(.choice P.chooser i, t₀ + now * 1000000000) :: (part t₀ now (P.exchanges b) ++ L), ?_, .choice (Nat.le_refl _) (part_permitted hcl l2 fun m hm => ?_)⟩
    · rw [show b.msgs.map Happening.exchange ++ (body.map .exchange ++ tr) = (P.exchanges b).map .exchange ++ tr by rw [e]; simp, List.map_cons, List.map_append]
      exact SameFor.cons _ (SameFor.append (part_same r1) l1)
    · obtain ⟨g1, g2, g3, g4⟩ := r2 m hm
      exact ⟨g1, g2, g3, g4, hn b hb m hm⟩

end

section
variable {title : Text → Text} {C : Classes} {text : List Text} {prog : Program} {code : Params → Nat} {V : Windows}

/-- What the generator accepts, on one clock that is not reset. -/
theorem accepted_rising {roles : List Text} {msgs : List Msg} {x : Char} (title : Text → Text) (hv : ∀ m ∈ msgs, Valid roles m) (hbs : ∃ bs, boundsOf msgs = .ok bs)
    (hx : OneClock x msgs) (hno : ∀ m ∈ msgs, m.reset = none) (hw : ∀ m ∈ msgs, ∃ t, NuscrSpec.Fits m t) : Rising roles msgs := by
  have ha : Prop.Accepted title ['P'] roles msgs := (accepted_iff title _ roles msgs).2 ⟨hv, hbs⟩
  have hw' : ∀ m ∈ msgs, Wide (2 * 0) m := by
    intro m hm
    obtain ⟨t, ht⟩ := hw m hm
    exact ⟨t, t, ht, ht, by omega⟩
  refine fun p _ => List.pairwise_iff_getElem.2 fun i j hi hj hij h1 h2 => ?_
  exact NuscrSpec.last_mono ha hx hw' p j i _ _ hij (List.getElem?_eq_getElem _) (List.getElem?_eq_getElem _) h1 h2
    fun k a _ _ h3 _ => hno a (List.mem_of_getElem? h3)

/-- **C70**, any number of roles: an accepted text with a choice, on one clock that is never reset.  If no message before the choice has to be later than a message of a branch, and no message of a
branch that goes back has to be later than a message of a branch, then every execution of the text, with any number of turns, can be carried out, each role in its order.  The windows hold a whole
second. -/
theorem C70_roles_partial {P : Proto} (h : EndToEnd.Accepted title C (.choice P) text prog) (hV : AsWritten code title V (Plan.messages (.choice P))) (hf : FreeChoices V)
    (hb : ∀ m ∈ Plan.messages (.choice P), value m.rightBound < 18446744073709551616) (x : Char) (hx : OneClock x (Plan.messages (.choice P)))
    (hno : ∀ m ∈ Plan.messages (.choice P), m.reset = none) (hw : ∀ m ∈ Plan.messages (.choice P), ∃ t, NuscrSpec.Fits m t)
    (h1 : ∀ a ∈ messagesOf P.pre, ∀ b ∈ P.branches, ∀ m ∈ P.exchanges b, ∃ t t', t ≤ t' ∧ NuscrSpec.Fits a t ∧ NuscrSpec.Fits m t')
    (h2 : ∀ b ∈ P.branches, b.back ≠ none → ∀ a ∈ P.exchanges b, ∀ b' ∈ P.branches, ∀ m ∈ P.exchanges b', ∃ t t', t ≤ t' ∧ NuscrSpec.Fits a t ∧ NuscrSpec.Fits m t')
    (tr : List Happening) (he : Execution (.choice P) true tr) (t₀ : Nat) :
    ∃ L, SameFor P.roles (L.map (·.1)) tr ∧ CarriedOut prog code title V (.choice P) (fun _ _ => some t₀) t₀ L := by
  have conv : ∀ {a m : Msg}, (∃ t t', t ≤ t' ∧ NuscrSpec.Fits a t ∧ NuscrSpec.Fits m t') → firstIn a ≤ lastIn m := by
    rintro a m ⟨t, t', g1, g2, g3⟩
    have := le_fits g2
    have := NuscrSpec.fits_le g3
    omega
  have hpre : ∀ m ∈ messagesOf P.pre, m ∈ Plan.messages (.choice P) := fun m hm => List.mem_append_left _ hm
  have hbody : ∀ b ∈ P.branches, ∀ m ∈ P.exchanges b, m ∈ b.msgs ∨ m ∈ messagesOf P.pre := by
    intro b hb m hm
    unfold Proto.exchanges at hm
    rcases List.mem_append.1 hm with h | h
    · exact .inl h
    · refine .inr ?_
      cases hl : b.back with
      | none => rw [hl] at h; cases h
      | some l =>
        rw [hl] at h
        cases hlb : loopBody l P.pre with
        | none => simp [hlb] at h
        | some body => exact loopBody_messages hlb (by simpa [hlb] using h)
  have hmem : ∀ b ∈ P.branches, ∀ m ∈ P.exchanges b, m ∈ Plan.messages (.choice P) := by
    intro b hb m hm
    rcases hbody b hb m hm with h | h
    · exact List.mem_append_right _ (List.mem_flatMap.2 ⟨b, hb, h⟩)
    · exact hpre m h
  obtain ⟨-, c1, c2, c3⟩ := (C47_accepts title P h.distinct (fun e => by have := h.two; rw [show Plan.roles (.choice P) = P.roles from rfl, e] at this; simp at this)).1
    ⟨prog, accepted_generator h⟩
  have fine : ∀ l, (∀ m ∈ l, m ∈ Plan.messages (.choice P)) → (∀ m ∈ l, Valid P.roles m) → (∃ bs, boundsOf l = .ok bs) → Fine P.roles x l := by
    intro l hl hv hbs
    exact ⟨accepted_rising title hv hbs ⟨hx.1, fun m hm => hx.2 m (hl m hm)⟩ (fun m hm => hno m (hl m hm)) fun m hm => hw m (hl m hm),
      fun m hm => ⟨(hx.2 m (hl m hm)).1, hno m (hl m hm), hv m hm, hw m (hl m hm)⟩⟩
  have f1 := fine _ hpre c1 c2
  have f2 : ∀ b ∈ P.branches, Fine P.roles x (P.exchanges b) := fun b hb =>
    fine _ (hmem b hb) (fun m hm => (hbody b hb m hm).elim ((c3 b hb).1 m) (c1 m)) (c3 b hb).2.2
  have : ∃ L, SameFor P.roles (L.map (·.1)) tr ∧ Permitted (fun _ _ => some t₀) t₀ L := by
    cases he with
    | @choice _ _ tr he =>
      obtain ⟨L, l1, l2⟩ := after_permitted (roles := P.roles) (x := x) (cl := fun _ _ => some t₀) (t₀ := t₀) (fun _ _ => rfl) f2
        (fun b hb hn a ha b' hb' m hm => conv (h2 b hb hn a ha b' hb' m hm)) he (now := partEnd 0 (messagesOf P.pre))
        fun b hb m hm => partEnd_le (Nat.zero_le _) fun a ha => conv (h1 a ha b hb m hm)
      refine ⟨part t₀ 0 (messagesOf P.pre) ++ L, by rw [List.map_append]; exact SameFor.append (part_same f1.1) l1, ?_⟩
      have := part_permitted (roles := P.roles) (x := x) (cl := fun _ _ => some t₀) (t₀ := t₀) (fun _ _ => rfl) l2
        fun m hm => by obtain ⟨g1, g2, g3, g4⟩ := f1.2 m hm; exact ⟨g1, g2, g3, g4, Nat.zero_le _⟩
      simpa using this
  obtain ⟨L, l1, l2⟩ := this
  exact ⟨L, l1, C70_carried_out_partial h hV hf hb tr he L l1 _ t₀ (by intro p y c hc; cases hc; exact Nat.le_refl _) l2⟩

end

/-! ## The hypotheses are met -/

/-- `B` tells `C` something between the seconds `l` and `r`. -/
def bc (label : Text) (l r : Char) : Msg := { ab label l r with sender := ['B'], receiver := ['C'] }

/-- `A` greets `B`; then `A` asks `B`, who tells `C`, and greets again, or stops. -/
def relay : Proto :=
  ⟨['P'], [['A'], ['B'], ['C']], [.loop ['L'], .msg (ab ['H'] '0' '9')], ['A'],
    ⟨[ab ['M'] '0' '5', bc ['N'] '2' '9'], some ['L']⟩, [⟨[ab ['S'] '0' '9'], none⟩]⟩

/-- Its text. -/
def relayText : List Text :=
  [headerText one ['P'] [(['A'], 0, 1), (['B'], 0, 1), (['C'], 0, 0)], loopText one ['L'], messageText one none (ab ['H'] '0' '9'),
    choiceText one ['A'], messageText one none (ab ['M'] '0' '5'), messageText one none (bc ['N'] '2' '9'), jumpText one ['L'], orText one,
    messageText one none (ab ['S'] '0' '9'), closeText one, closeText one, closeText one]

theorem relay_accepted : ∃ prog, EndToEnd.Accepted id ascii (.choice relay) relayText prog := by
  have w : ∀ c : Char, ascii.word c = true → IsWord ascii [c] := fun c h => ⟨by simp, by simpa using h⟩
  have m : ∀ m ∈ [ab ['H'] '0' '9', ab ['M'] '0' '5', bc ['N'] '2' '9', ab ['S'] '0' '9'],
      Written ascii ⟨0, 0, false, .message m⟩ (messageText one none m) :=
    fun m hm => .message _ _ _ (well_written (by decide) m hm)
  have ht : IsText ascii relay.lines relayText := by
    refine .cons (.header ['P'] [(['A'], 0, 1), (['B'], 0, 1), (['C'], 0, 0)] one (w _ (by decide)) (by simp) ?_)
      (.cons (.loop _ _ (w _ (by decide)))
      (.cons (m _ (by decide))
      (.cons (.choice _ _ (w _ (by decide)))
      (.cons (m _ (by decide))
      (.cons (m _ (by decide))
      (.cons (.jump _ _ (w _ (by decide)))
      (.cons (.or _)
      (.cons (m _ (by decide))
      (.cons (.close _) (.cons (.close _) (.cons (.close _) .nil)))))))))))
    intro r hr
    simp only [List.mem_cons, List.not_mem_nil, or_false] at hr
    rcases hr with rfl | rfl | rfl <;> exact w _ (by decide)
  obtain ⟨prog, h⟩ := (okB_iff (generator id relay.lines)).mp (by decide)
  refine ⟨prog, ascii_usual, ht, by decide, by decide, ?_⟩
  rw [C48_generator id ascii ascii_usual _ _ ht]
  exact h

/-- However often `A` goes on, the program can be carried out to its end. -/
example : ∃ prog code V, EndToEnd.Accepted id ascii (.choice relay) relayText prog ∧ AsWritten code id V (Plan.messages (.choice relay)) ∧ FreeChoices V ∧
    ∀ tr, Execution (.choice relay) true tr →
      ∃ L, SameFor relay.roles (L.map (·.1)) tr ∧ CarriedOut prog code id V (.choice relay) (fun _ _ => some 7) 7 L := by
  obtain ⟨prog, h⟩ := relay_accepted
  obtain ⟨code, V, hV, hf⟩ := asGenerated_exists id (Plan.messages (.choice relay))
  have fits : ∀ m ∈ [ab ['H'] '0' '9', ab ['M'] '0' '5', bc ['N'] '2' '9', ab ['S'] '0' '9'], NuscrSpec.Fits m 4 := by
    intro m hm
    simp only [List.mem_cons, List.not_mem_nil, or_false] at hm
    rcases hm with rfl | rfl | rfl | rfl <;> exact ⟨by decide, by decide⟩
  have all : ∀ b ∈ relay.branches, ∀ m ∈ relay.exchanges b, m ∈ [ab ['H'] '0' '9', ab ['M'] '0' '5', bc ['N'] '2' '9', ab ['S'] '0' '9'] := by
    intro b hb
    simp only [relay, Proto.branches, List.mem_cons, List.not_mem_nil, or_false] at hb
    rcases hb with rfl | rfl <;> decide
  refine ⟨prog, code, V, h, hV, hf, fun tr he => C70_roles_partial h hV hf (by decide) 'a' ⟨by decide, by decide⟩ (by decide) (fun m hm => ⟨4, fits m hm⟩) ?_ ?_ tr he 7⟩
  · exact fun a ha b hb m hm => ⟨4, 4, Int.le_refl _, fits a (List.mem_append_left _ ha), fits m (all b hb m hm)⟩
  · exact fun b hb _ a ha b' hb' m hm => ⟨4, 4, Int.le_refl _, fits a (all b hb a ha), fits m (all b' hb' m hm)⟩

/-- There are such executions. -/
example : Execution (.choice relay) true [.exchange (ab ['H'] '0' '9'), .choice ['A'] 0, .exchange (ab ['M'] '0' '5'), .exchange (bc ['N'] '2' '9'),
    .exchange (ab ['H'] '0' '9'), .choice ['A'] 1, .exchange (ab ['S'] '0' '9')] :=
  .choice (P := relay) (.again (P := relay) (i := 0) (b := relay.first) (l := ['L']) (body := [ab ['H'] '0' '9']) rfl rfl rfl
    (.ends (P := relay) (i := 1) (b := ⟨[ab ['S'] '0' '9'], none⟩) rfl rfl))

end Verif.Prop
