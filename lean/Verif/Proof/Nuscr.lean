import Verif.Model.Nuscr

/-!
# The line processor: what it reads, and that its fuel suffices
-/
namespace Verif.Nuscr

def opensOf (l : List (Nat × Line)) : Nat := (l.map fun x => x.2.opens).sum
def closesOf (l : List (Nat × Line)) : Nat := (l.map fun x => x.2.closes).sum

theorem bind_ok {α β : Type} {x : Except Fault α} {f : α → Except Fault β} {b : β} (h : (x >>= f) = .ok b) :
    ∃ a, x = .ok a ∧ f a = .ok b := by
  cases x with
  | error e => cases h
  | ok a => exact ⟨a, rfl, h⟩

/-- `pre` was read between the two states: the counters grew by its brackets and never crossed. -/
structure Span (g g' : Glob) (pre : List (Nat × Line)) : Prop where
  opening : g'.opening = g.opening + opensOf pre
  closing : g'.closing = g.closing + closesOf pre
  never : ∀ k, 0 < k → k ≤ pre.length → g.closing + closesOf (pre.take k) ≤ g.opening + opensOf (pre.take k)

theorem Span.nil (g : Glob) : Span g g [] :=
  ⟨by simp [opensOf], by simp [closesOf], fun k h1 h2 => by simp at h2; omega⟩

theorem Span.trans {g g' g'' : Glob} {p q : List (Nat × Line)} (h : Span g g' p) (h' : Span g' g'' q) :
    Span g g'' (p ++ q) := by
  refine ⟨?_, ?_, ?_⟩
  · rw [h'.opening, h.opening]; simp [opensOf]; omega
  · rw [h'.closing, h.closing]; simp [closesOf]; omega
  · intro k h1 h2
    by_cases hk : k ≤ p.length
    · rw [List.take_append_of_le_length hk]; exact h.never k h1 hk
    · have := h'.never (k - p.length) (by omega) (by simp at h2; omega)
      rw [List.take_append, List.take_of_length_le (by omega)]
      have e1 := h.opening
      have e2 := h.closing
      simp only [opensOf, closesOf, List.map_append, List.sum_append] at *
      omega

/-- Reading one line. -/
theorem Span.line {g g' : Glob} {n : Nat} {l : Line} (ho : g'.opening = g.opening + l.opens)
    (hc : g'.closing = g.closing + l.closes) (h : ¬ g.opening + l.opens < g.closing + l.closes) :
    Span g g' [(n, l)] := by
  refine ⟨by simpa [opensOf] using ho, by simpa [closesOf] using hc, ?_⟩
  intro k h1 h2
  have : k = 1 := by simp at h2; omega
  subst this
  simp [opensOf, closesOf]
  omega

theorem processLine_reads (title : Text → Text) : ∀ (fuel : Nat) (g : Glob) (parent main : Tree) (offset : Nat)
    (lines : List (Nat × Line)) (d : Done), processLine title fuel g parent main offset lines = .ok d →
    ∃ pre, lines = pre ++ d.rest ∧ Span g d.glob pre ∧ (lines ≠ [] → pre ≠ [])
  | 0, _, _, _, _, _, _, h => by cases h
  | fuel + 1, g, parent, main, offset, [], d, h => by
    simp only [processLine, Except.ok.injEq] at h
    subst h
    exact ⟨[], rfl, Span.nil g, fun h => absurd rfl h⟩
  | fuel + 1, g, parent, main, offset, (n, l) :: rest, d, h => by
    have one : ∀ (g' : Glob), g'.opening = g.opening + l.opens → g'.closing = g.closing + l.closes →
        ¬ g.opening + l.opens < g.closing + l.closes →
        ∀ {pa ma : Tree} {o : Nat}, processLine title fuel g' pa ma o rest = .ok d →
        ∃ pre, (n, l) :: rest = pre ++ d.rest ∧ Span g d.glob pre ∧ ((n, l) :: rest ≠ [] → pre ≠ []) := by
      intro g' h1 h2 h3 pa ma o hd
      obtain ⟨pre, e, s, _⟩ := processLine_reads title fuel g' pa ma o rest d hd
      exact ⟨(n, l) :: pre, by rw [e]; rfl, (Span.line h1 h2 h3).trans s, fun _ => by simp⟩
    have two : ∀ (g' : Glob), g'.opening = g.opening + l.opens → g'.closing = g.closing + l.closes →
        ¬ g.opening + l.opens < g.closing + l.closes →
        ∀ {pa ma pa' ma' : Tree} {o : Nat} {d' : Done}, processLine title fuel g' pa ma o rest = .ok d' →
        processLine title fuel d'.glob pa' ma' d'.offset d'.rest = .ok d →
        ∃ pre, (n, l) :: rest = pre ++ d.rest ∧ Span g d.glob pre ∧ ((n, l) :: rest ≠ [] → pre ≠ []) := by
      intro g' h1 h2 h3 pa ma pa' ma' o d' hd' hd
      obtain ⟨pre, e, s, _⟩ := processLine_reads title fuel g' pa ma o rest d' hd'
      obtain ⟨pre', e', s', _⟩ := processLine_reads title fuel d'.glob pa' ma' d'.offset d'.rest d hd
      exact ⟨(n, l) :: pre ++ pre', by rw [e, e']; simp, ((Span.line h1 h2 h3).trans s).trans s', fun _ => by simp⟩
    unfold processLine at h
    simp only at h
    split at h
    · cases h
    · rename_i hb
      split at h
      · cases h
      · split at h
        · simp only [Except.ok.injEq] at h
          subst h
          exact ⟨[(n, l)], rfl, Span.line rfl rfl hb, fun _ => by simp⟩
        · split at h
          · exact one _ (by rfl) (by rfl) hb h
          · split at h
            · split at h
              · cases h
              · exact one _ (by rfl) (by rfl) hb h
            · split at h
              · cases h
              · obtain ⟨t, _, h⟩ := bind_ok h
                exact one _ (by rfl) (by rfl) hb h
            · split at h
              · cases h
              · obtain ⟨t, _, h⟩ := bind_ok h
                obtain ⟨d', h', h⟩ := bind_ok h
                exact two _ (by rfl) (by rfl) hb h' h
            · split at h
              · cases h
              · obtain ⟨t, _, h⟩ := bind_ok h
                obtain ⟨d', h', h⟩ := bind_ok h
                exact two _ (by rfl) (by rfl) hb h' h
            · split at h
              · cases h
              · exact one _ (by rfl) (by rfl) hb h
            · split at h
              · cases h
              · split at h
                · obtain ⟨t, _, h⟩ := bind_ok h
                  exact one _ (by rfl) (by rfl) hb h
                · cases h
            · split at h
              · cases h
              · exact one _ (by rfl) (by rfl) hb h

/-! The fuel. -/

def NoFuel {α : Type} (x : Except Fault α) : Prop := x ≠ .error .fuel

theorem NoFuel.ok {α : Type} (a : α) : NoFuel (.ok a) := by intro h; cases h

theorem NoFuel.bind {α β : Type} {x : Except Fault α} {f : α → Except Fault β} (h : NoFuel x)
    (hf : ∀ a, x = .ok a → NoFuel (f a)) : NoFuel (x >>= f) := by
  cases x with
  | error e =>
    intro h'
    have : e = .fuel := by cases h'; rfl
    exact h (by rw [this])
  | ok a => exact hf a rfl

theorem NoFuel.unwrap {α : Type} (o : Option α) : NoFuel (unwrap o) := by
  cases o <;> intro h <;> cases h

theorem noFuel_parse (t : Text) : NoFuel (parseI32 t) := by
  unfold parseI32 NoFuel
  intro h
  split at h
  · split at h <;> cases h
  · cases h

theorem noFuel_add (a : Nat) (b : Bool) : NoFuel (addFlag a b) := by
  unfold addFlag NoFuel
  intro h
  split at h <;> cases h

theorem noFuel_early (m : Msg) (p : Text × Bool) : NoFuel (tooEarly m p) := by
  unfold tooEarly
  refine .bind (noFuel_parse _) fun _ _ => .bind (noFuel_add _ _) fun _ _ => .bind (noFuel_parse _) fun _ _ =>
    .bind (noFuel_add _ _) fun _ _ => ?_
  split
  · exact .bind (noFuel_parse _) fun _ _ => .bind (noFuel_add _ _) fun _ _ => .ok _
  · exact .ok _

theorem noFuel_checkRole (r : Text) (m : Msg) (bs : Bounds) : NoFuel (checkRole r m bs) := by
  unfold checkRole
  split
  · split
    · refine .bind (noFuel_early _ _) fun _ _ => ?_
      split
      · intro h; cases h
      · split <;> exact .ok _
    · exact .ok _
  · exact .ok _

theorem noFuel_previous (m : Msg) (bs : Bounds) : NoFuel (previousMessage m bs) := by
  unfold previousMessage
  split
  · intro h; cases h
  · exact .bind (noFuel_checkRole _ _ _) fun _ _ => noFuel_checkRole _ _ _

theorem noFuel_update (title : Text → Text) (roles : List Text) (m : Msg) (t : Tree) :
    NoFuel (updateMessages title roles m t) := by
  unfold updateMessages
  split
  · intro h; cases h
  · split
    · intro h; cases h
    · split
      · intro h; cases h
      · split
        · intro h; cases h
        · unfold messagesAndStacks
          refine .bind ?_ fun _ _ => .bind ?_ fun _ _ => .bind ?_ fun _ _ => ?_
          · unfold senderMessages
            exact .bind (.unwrap _) fun _ _ => .bind (.unwrap _) fun _ _ => .bind (noFuel_previous _ _) fun _ _ => .ok _
          · unfold receiverMessages
            exact .bind (.unwrap _) fun _ _ => .bind (.unwrap _) fun _ _ => .ok _
          · unfold pushStack
            exact .bind (.unwrap _) fun _ _ => .bind (.unwrap _) fun _ _ => .ok _
          · unfold pushStack
            exact .bind (.unwrap _) fun _ _ => .bind (.unwrap _) fun _ _ => .ok _

theorem noFuel_choiceFor (idx s : Text) (t : Tree) (r : Text) : NoFuel (choiceFor idx s t r) := by
  unfold choiceFor
  split
  · exact .bind (.unwrap _) fun _ _ => .bind (.unwrap _) fun _ _ => .bind (.unwrap _) fun _ _ =>
      .bind (.unwrap _) fun _ _ => .bind (.unwrap _) fun _ _ => .bind (.unwrap _) fun _ _ => .ok _
  · exact .bind (.unwrap _) fun _ _ => .bind (.unwrap _) fun _ _ => .ok _

theorem noFuel_choiceAll (idx s : Text) : ∀ (roles : List Text) (t : Tree), NoFuel (choiceAll roles idx s t)
  | [], t => .ok _
  | r :: rs, t => by
    unfold choiceAll
    rw [List.foldlM_cons]
    exact .bind (noFuel_choiceFor _ _ _ _) fun t' _ => noFuel_choiceAll idx s rs t'

theorem noFuel_replay (title : Text → Text) (roles : List Text) (loop idx : Text) : ∀ (ks : List Kind) (b : Bool)
    (t : Tree), NoFuel (replay title roles loop idx b ks t) := by
  intro ks
  induction ks with
  | nil => intro b t; simp only [replay]; exact .ok _
  | cons k ks ih =>
    intro b t
    unfold replay
    split
    · exact .ok _
    · rename_i he; cases he; exact ih _ _
    · rename_i he; cases he; exact .bind (noFuel_update _ _ _ _) fun _ _ => ih _ _
    · exact noFuel_choiceAll _ _ _ _
    · rename_i he; cases he; exact ih _ _

/-- The fuel `generator` gives to the line processor is never used up. -/
theorem fuel_enough (title : Text → Text) : ∀ (fuel : Nat) (g : Glob) (parent main : Tree) (offset : Nat)
    (lines : List (Nat × Line)), lines.length < fuel → NoFuel (processLine title fuel g parent main offset lines)
  | 0, _, _, _, _, _, h => by omega
  | fuel + 1, g, parent, main, offset, [], _ => by simp only [processLine]; exact .ok _
  | fuel + 1, g, parent, main, offset, (n, l) :: rest, h => by
    have ih := fuel_enough title fuel
    have hl : rest.length < fuel := by simp at h; omega
    have shorter : ∀ {g' : Glob} {pa ma : Tree} {o : Nat} {d : Done},
        processLine title fuel g' pa ma o rest = .ok d → d.rest.length < fuel := by
      intro g' pa ma o d hd
      obtain ⟨pre, e, _, _⟩ := processLine_reads title fuel g' pa ma o rest d hd
      have := congrArg List.length e
      simp at this
      omega
    unfold processLine
    simp only
    split
    · intro h; cases h
    · split
      · intro h; cases h
      · split
        · exact .ok _
        · split
          · exact ih _ _ _ _ _ hl
          · split
            · split
              · intro h; cases h
              · exact ih _ _ _ _ _ hl
            · split
              · intro h; cases h
              · exact .bind (noFuel_update _ _ _ _) fun _ _ => ih _ _ _ _ _ hl
            · split
              · intro h; cases h
              · exact .bind (noFuel_choiceAll _ _ _ _) fun _ _ => .bind (ih _ _ _ _ _ hl) fun d hd =>
                  ih _ _ _ _ _ (shorter hd)
            · split
              · intro h; cases h
              · exact .bind (.unwrap _) fun _ _ => .bind (ih _ _ _ _ _ hl) fun d hd => ih _ _ _ _ _ (shorter hd)
            · split
              · intro h; cases h
              · exact ih _ _ _ _ _ hl
            · split
              · intro h; cases h
              · split
                · exact .bind (noFuel_replay _ _ _ _ _ _ _) fun _ _ => ih _ _ _ _ _ hl
                · intro h; cases h
            · split
              · intro h; cases h
              · exact ih _ _ _ _ _ hl

theorem number_snd {α : Type} : ∀ (n : Nat) (l : List α), (number n l).map (·.2) = l
  | _, [] => rfl
  | n, a :: l => by simp [number, number_snd]

theorem number_length {α : Type} : ∀ (n : Nat) (l : List α), (number n l).length = l.length
  | _, [] => rfl
  | n, a :: l => by simp [number, number_length]

theorem reading_bind {α : Type} (title : Text → Text) (lines : List Line) (k : Known → Except Fault α) :
    (reading title lines >>= k) =
      (processLine title (lines.length + 1) Glob.start (Tree.new []) (Tree.new [0]) 0 (number 0 lines) >>= fun d =>
        if d.glob.opening ≠ d.glob.closing then .error .unbalanced
        else if d.glob.output = none then .error .noOutput
        else k ⟨d.glob.roles, d.glob.tables, d.main⟩) := by
  unfold reading
  cases h : processLine title (lines.length + 1) Glob.start (Tree.new []) (Tree.new [0]) 0 (number 0 lines) with
  | error e => rfl
  | ok d =>
    simp only [bind, Except.bind]
    split
    · rename_i e
      split at e
      · simp_all
      · split at e <;> simp_all
    · rename_i e
      split at e
      · cases e
      · split at e
        · cases e
        · cases e
          simp_all

theorem generator_eq (title : Text → Text) (lines : List Line) : generator title lines =
      (processLine title (lines.length + 1) Glob.start (Tree.new []) (Tree.new [0]) 0 (number 0 lines) >>= fun d =>
        if d.glob.opening ≠ d.glob.closing then .error .unbalanced
        else if d.glob.output = none then .error .noOutput
        else .ok (programOf d.glob.roles d.main)) := reading_bind _ _ _

end Verif.Nuscr
