import Verif.Spec.NuscrLayout
import Verif.Proof.NuscrChoice

/-!
# The generator does not see the layout
-/
namespace Verif.NuscrLayout
open Verif.Nuscr Verif.NuscrSpec

/-- `Layout` of numbered lines; and there may be a closing bracket, silent lines, and an opening bracket. -/
inductive Laid : Nat → Bool → List (Nat × Line) → List (Nat × Line) → Prop where
  | nil (d c) : Laid d c [] []
  | line (d c n n' l ls ls') : (n = 0 ↔ n' = 0) → Laid (d + l.opens - l.closes) (c || isChoice l.kind) ls ls' →
      Laid d c ((n, l) :: ls) ((n', l) :: ls')
  | silent (d c n l ls ls') : 0 < n → Silent l → Inside d c → ls ≠ [] → Laid d c ls ls' → Laid d c ls ((n, l) :: ls')
  | bracket (d c n n' n'' k ls ls') : 0 < n → 0 < n' → 0 < n'' → isBlock k = true → Inside d c → ls ≠ [] →
      Laid (d + 1) (c || isChoice k) ls ls' →
      Laid d c ((n, ⟨1, 0, false, k⟩) :: ls) ((n', ⟨0, 0, false, k⟩) :: (n'', ⟨1, 0, false, .other⟩) :: ls')
  | pause (d c n n' ss ls ls') : 0 < n → 0 < n' → (∀ s ∈ ss, 0 < s.1 ∧ Silent s.2) → Inside d c → ls ≠ [] →
      Laid (d + 1) c ls ls' →
      Laid (d + 1) c ls ((n, ⟨0, 1, false, .other⟩) :: (ss ++ (n', ⟨1, 0, false, .other⟩) :: ls'))

theorem number_ne {α : Type} {ls : List α} (n : Nat) (h : ls ≠ []) : number n ls ≠ [] := by
  cases ls with
  | nil => exact absurd rfl h
  | cons a as => simp [number]

/-- `Layout`, and there may be a closing bracket, silent lines, and an opening bracket. -/
inductive Loose : Nat → Bool → List Line → List Line → Prop where
  | nil (d c) : Loose d c [] []
  | line (d c l ls ls') : Loose (d + l.opens - l.closes) (c || isChoice l.kind) ls ls' → Loose d c (l :: ls) (l :: ls')
  | silent (d c l ls ls') : Silent l → Inside d c → ls ≠ [] → Loose d c ls ls' → Loose d c ls (l :: ls')
  | bracket (d c k ls ls') : isBlock k = true → Inside d c → ls ≠ [] → Loose (d + 1) (c || isChoice k) ls ls' →
      Loose d c (⟨1, 0, false, k⟩ :: ls) (⟨0, 0, false, k⟩ :: ⟨1, 0, false, .other⟩ :: ls')
  | pause (d c ss ls ls') : (∀ s ∈ ss, Silent s) → Inside d c → ls ≠ [] → Loose (d + 1) c ls ls' →
      Loose (d + 1) c ls (⟨0, 1, false, .other⟩ :: (ss ++ ⟨1, 0, false, .other⟩ :: ls'))

theorem loose_of_layout {d : Nat} {c : Bool} {ls ls' : List Line} (h : Layout d c ls ls') : Loose d c ls ls' := by
  induction h with
  | nil d c => exact .nil d c
  | line d c l ls ls' _ ih => exact .line d c l ls ls' ih
  | silent d c l ls ls' hl hi hne _ ih => exact .silent d c l ls ls' hl hi hne ih
  | bracket d c k ls ls' hk hi hne _ ih => exact .bracket d c k ls ls' hk hi hne ih

theorem number_join {α : Type} : ∀ (ss : List α) (n : Nat) (ls : List α),
    number n (ss ++ ls) = number n ss ++ number (n + ss.length) ls := by
  intro ss n ls
  exact number_append n ss ls

theorem number_mem {α : Type} : ∀ (ss : List α) (n : Nat), ∀ s ∈ number n ss, n ≤ s.1 ∧ s.2 ∈ ss
  | [], _, s, h => by simp [number] at h
  | a :: ss, n, s, h => by
    simp only [number, List.mem_cons] at h
    rcases h with rfl | h
    · exact ⟨Nat.le_refl _, List.mem_cons_self ..⟩
    · obtain ⟨h1, h2⟩ := number_mem ss (n + 1) s h
      exact ⟨by omega, List.mem_cons_of_mem _ h2⟩

theorem laid_of_loose {d : Nat} {c : Bool} {ls ls' : List Line} (h : Loose d c ls ls') :
    ∀ (n n' : Nat), (n = 0 ↔ n' = 0) → (n = 0 → d = 0) → Laid d c (number n ls) (number n' ls') := by
  induction h with
  | nil d c => intro n n' _ _; exact .nil d c
  | line d c l ls ls' _ ih =>
    intro n n' hn _
    exact .line d c n n' l _ _ hn (ih (n + 1) (n' + 1) (by simp) (by omega))
  | silent d c l ls ls' hl hi hne _ ih =>
    intro n n' hn h0
    have : n ≠ 0 := fun e => by have := hi.1; have := h0 e; omega
    exact .silent d c n' l _ _ (by omega) hl hi (number_ne n hne) (ih n (n' + 1) (by omega) h0)
  | bracket d c k ls ls' hk hi hne _ ih =>
    intro n n' hn h0
    have : n ≠ 0 := fun e => by have := hi.1; have := h0 e; omega
    exact .bracket d c n n' (n' + 1) k _ _ (by omega) (by omega) (by omega) hk hi (number_ne (n + 1) hne)
      (ih (n + 1) (n' + 2) (by omega) (by omega))
  | pause d c ss ls ls' hss hi hne _ ih =>
    intro n n' hn h0
    have : n ≠ 0 := fun e => by have := h0 e; omega
    simp only [number, number_join]
    refine .pause d c n' _ _ _ _ (by omega) (by omega) (fun s hs => ?_) hi (number_ne n hne)
      (ih n _ (by omega) h0)
    obtain ⟨h1, h2⟩ := number_mem ss _ s hs
    exact ⟨by omega, hss _ h2⟩

theorem Laid.nil_iff {d : Nat} {c : Bool} {ls ls' : List (Nat × Line)} (h : Laid d c ls ls') : ls' = [] ↔ ls = [] := by
  cases h <;> simp_all

/-- The same, but for pairs of brackets. -/
structure Shifted (g g' : Glob) : Prop where
  output : g'.output = g.output
  roles : g'.roles = g.roles
  loops : g'.loops = g.loops
  tables : g'.tables = g.tables
  brackets : g'.opening + g.closing = g.opening + g'.closing

theorem Shifted.refl (g : Glob) : Shifted g g := ⟨rfl, rfl, rfl, rfl, rfl⟩

/-- Two ends of readings, the same up to the layout of the lines not read. -/
def Close (a b : Done) : Prop :=
  Shifted a.glob b.glob ∧ a.parent = b.parent ∧ a.main = b.main ∧ a.offset = b.offset ∧ a.glob.closing ≤ a.glob.opening ∧
    ∃ c, (c = false → a.offset = 0) ∧ Laid (a.glob.opening - a.glob.closing) c a.rest b.rest

/-- Two results: both failures, or both the same up to layout. -/
def Alike : Except Fault Done → Except Fault Done → Prop
  | .ok a, .ok b => Close a b
  | .error _, .error _ => True
  | _, _ => False

theorem Alike.bind {x x' : Except Fault Done} {f f' : Done → Except Fault Done} (h : Alike x x')
    (hf : ∀ a b, x = .ok a → x' = .ok b → Close a b → Alike (f a) (f' b)) : Alike (x >>= f) (x' >>= f') := by
  cases x with
  | error e =>
    cases x' with
    | error e' => exact trivial
    | ok b => exact h.elim
  | ok a =>
    cases x' with
    | error e' => exact h.elim
    | ok b => exact hf a b rfl rfl h

theorem alike_bind {α : Type} (x : Except Fault α) {f f' : α → Except Fault Done}
    (hf : ∀ a, x = .ok a → Alike (f a) (f' a)) : Alike (x >>= f) (x >>= f') := by
  cases x with
  | error e => exact trivial
  | ok a => exact hf a rfl

theorem nested_error (title : Text → Text) (fuel : Nat) (g : Glob) (parent main : Tree) (offset : Nat)
    (ls : List (Nat × Line)) (ho : 1 < offset) (hl : ls ≠ []) :
    ∃ e, processLine title fuel g parent main offset ls = .error e := by
  cases fuel with
  | zero => exact ⟨_, rfl⟩
  | succ fuel =>
    cases ls with
    | nil => exact absurd rfl hl
    | cons p ls =>
      obtain ⟨n, l⟩ := p
      unfold processLine
      simp only
      split
      · exact ⟨_, rfl⟩
      · exact ⟨_, rfl⟩

theorem Alike.errors {x y : Except Fault Done} (hx : ∃ e, x = .error e) (hy : ∃ e, y = .error e) : Alike x y := by
  obtain ⟨e, rfl⟩ := hx
  obtain ⟨e', rfl⟩ := hy
  exact trivial

theorem rest_short {title : Text → Text} {fuel : Nat} {g : Glob} {pa ma : Tree} {o : Nat} {ls : List (Nat × Line)} {d : Done}
    (h : processLine title fuel g pa ma o ls = .ok d) : d.rest.length ≤ ls.length := by
  obtain ⟨pre, e, _, _⟩ := processLine_reads title fuel g pa ma o ls d h
  have := congrArg List.length e
  simp only [List.length_append] at this
  omega

theorem step_loop (title : Text → Text) (F : Nat) (g : Glob) (pa ma : Tree) (o n w : Nat) (x : Text) (ls : List (Nat × Line))
    (hn : 0 < n) (ho : ¬ 1 < o) (hg : g.closing + o < g.opening + w) :
    processLine title (F + 1) g pa ma o ((n, ⟨w, 0, false, .loop x⟩) :: ls) = processLine title F
      ({ g with opening := g.opening + w, loops := upd g.loops x (indexText ma.index, []) }.save (.loop x)) pa ma o ls := by
  conv => lhs; unfold processLine
  simp only [Nat.add_zero]
  rw [if_neg (by omega), if_neg ho, if_neg (by omega)]
  simp only [Bool.false_eq_true, if_false]
  rw [if_neg (by omega)]

theorem step_choice (title : Text → Text) (F : Nat) (g : Glob) (pa ma : Tree) (o n w : Nat) (x : Text)
    (ls : List (Nat × Line)) (hn : 0 < n) (ho : ¬ 1 < o) (hg : g.closing + o < g.opening + w) :
    processLine title (F + 1) g pa ma o ((n, ⟨w, 0, false, .choice x⟩) :: ls) =
      (choiceAll g.roles (indexText ma.index) x
        { ma with enums := upd ma.enums (indexText (ma.index ++ [0])) (x, 0) } >>= fun t =>
      processLine title F ({ g with opening := g.opening + w }.save (.choice x)) t
        (initSubTree g.roles (ma.index ++ [0]) x) (o + 1) ls >>= fun d =>
      processLine title F d.glob pa { d.parent with subTrees := d.parent.subTrees ++ [d.main] } d.offset d.rest) := by
  conv => lhs; unfold processLine
  simp only [Nat.add_zero]
  rw [if_neg (by omega), if_neg ho, if_neg (by omega)]
  simp only [Bool.false_eq_true, if_false]
  rw [if_neg (by omega)]

theorem step_silent (title : Text → Text) (F : Nat) (g : Glob) (pa ma : Tree) (o n : Nat) (l : Line) (ls : List (Nat × Line))
    (hn : 0 < n) (hl : Silent l) (ho : ¬ 1 < o) (hg : g.closing + o < g.opening) :
    processLine title (F + 1) g pa ma o ((n, l) :: ls) = processLine title F g pa ma o ls := by
  obtain ⟨w, cl, e, k⟩ := l
  obtain ⟨h1, h2, h3⟩ := hl
  simp only at h1 h2 h3
  subst h1 h2
  conv => lhs; unfold processLine
  simp only [Nat.add_zero]
  rw [if_neg (by omega), if_neg ho, if_neg (by omega)]
  cases e with
  | true => simp only [if_true]
  | false =>
    simp only [Bool.false_eq_true, if_false, false_or] at h3 ⊢
    subst h3
    simp only
    rw [if_neg (by omega)]

theorem laid_run (title : Text → Text) : ∀ (N fuel fuel' : Nat), fuel' ≤ N → ∀ (g g' : Glob) (parent main : Tree)
    (offset : Nat) (c : Bool) (ls ls' : List (Nat × Line)), Laid (g.opening - g.closing) c ls ls' →
    g.closing ≤ g.opening → Shifted g g' → (c = false → offset = 0) → ls.length < fuel → ls'.length < fuel' →
    Alike (processLine title fuel g parent main offset ls) (processLine title fuel' g' parent main offset ls') := by
  intro N
  induction N with
  | zero => intro fuel fuel' h1 g g' parent main offset c ls ls' _ _ _ _ _ h2; omega
  | succ N ih =>
    intro fuel fuel' hN g g' parent main offset c ls ls' h hg hs hc hf hf'
    -- the rest after a part read in both
    have two : ∀ {F F' : Nat} {a b : Done} (pa ma : Tree), F' ≤ N → a.rest.length < F → b.rest.length < F' → Close a b →
        Alike (processLine title F a.glob pa ma a.offset a.rest) (processLine title F' b.glob pa ma b.offset b.rest) := by
      intro F F' a b pa ma hF h1 h2 hcl
      obtain ⟨e1, e2, e3, e4, e5, c', e6, e7⟩ := hcl
      rw [← e4]
      exact ih F F' hF a.glob b.glob pa ma a.offset c' a.rest b.rest e7 e5 e1 e6 h1 h2
    obtain ⟨o', r', l', op', cl', t'⟩ := g'
    obtain ⟨rfl, rfl, rfl, rfl, hs⟩ := hs
    simp only at hs
    cases fuel with
    | zero => omega
    | succ fuel =>
    cases fuel' with
    | zero => omega
    | succ fuel' =>
    generalize hd : g.opening - g.closing = d at h
    cases h with
    | nil =>
      exact ⟨⟨rfl, rfl, rfl, rfl, hs⟩, rfl, rfl, rfl, hg, c, hc, .nil _ _⟩
    | line _ _ n n' l ls ls' hn h =>
      simp only [List.length_cons] at hf hf'
      have hz : (n ≠ 0) = (n' ≠ 0) := by simp [hn]
      have hz' : (n = 0) = (n' = 0) := by simp [hn]
      have hA : (op' + l.opens < cl' + l.closes) = (g.opening + l.opens < g.closing + l.closes) := propext (by omega)
      have hB : (op' + l.opens ≤ cl' + l.closes + offset) = (g.opening + l.opens ≤ g.closing + l.closes + offset) :=
        propext (by omega)
      unfold processLine
      simp only [hz, hz', hA, hB]
      split
      · exact trivial
      · rename_i hb
        have hdl : (g.opening + l.opens) - (g.closing + l.closes) = d + l.opens - l.closes := by omega
        split
        · exact trivial
        · rename_i ho
          split
          · refine ⟨⟨rfl, rfl, rfl, rfl, by simp only; omega⟩, rfl, rfl, rfl, by simp only; omega, c || isChoice l.kind, ?_, ?_⟩
            · intro hcf
              simp only [Bool.or_eq_false_iff] at hcf
              exact hc hcf.1
            · simp only
              rw [hdl]
              exact h
          · have one : ∀ (g1 g2 : Glob), g1.opening = g.opening + l.opens → g1.closing = g.closing + l.closes →
                g2.opening = op' + l.opens → g2.closing = cl' + l.closes →
                g2.output = g1.output → g2.roles = g1.roles → g2.loops = g1.loops → g2.tables = g1.tables →
                ∀ (pa ma : Tree) (o : Nat), ((c || isChoice l.kind) = false → o = 0) →
                Alike (processLine title fuel g1 pa ma o ls) (processLine title fuel' g2 pa ma o ls') := by
              intro g1 g2 h1 h2 h3 h4 h5 h6 h7 h8 pa ma o hoo
              refine ih fuel fuel' (by omega) g1 g2 pa ma o (c || isChoice l.kind) ls ls' ?_ (by omega)
                ⟨h5, h6, h7, h8, by omega⟩ hoo (by omega) (by omega)
              rw [h1, h2, hdl]
              exact h
            have keep : (c || isChoice l.kind) = false → offset = 0 := by
              intro hcf
              simp only [Bool.or_eq_false_iff] at hcf
              exact hc hcf.1
            split
            · exact one _ _ (by rfl) (by rfl) (by rfl) (by rfl) (by rfl) (by rfl) (by rfl) (by rfl) _ _ _ keep
            · split
              · split
                · exact trivial
                · exact one _ _ (by rfl) (by rfl) (by rfl) (by rfl) (by rfl) (by rfl) (by rfl) (by rfl) _ _ _ keep
              · split
                · exact trivial
                · exact alike_bind _ fun t _ => one _ _ (by rfl) (by rfl) (by rfl) (by rfl) (by rfl) (by rfl) (by rfl) (by rfl) _ _ _ keep
              · rename_i hk
                split
                · exact trivial
                · refine alike_bind _ fun t _ => Alike.bind (one _ _ (by rfl) (by rfl) (by rfl) (by rfl) (by rfl) (by rfl) (by rfl) (by rfl) _ _ _ (by simp [hk, isChoice])) ?_
                  intro a b ha hb hcl
                  have := rest_short ha
                  have := rest_short hb
                  rw [← hcl.2.1, ← hcl.2.2.1]
                  exact two _ _ (by omega) (by omega) (by omega) hcl
              · split
                · exact trivial
                · refine alike_bind _ fun t _ => Alike.bind (one _ _ (by rfl) (by rfl) (by rfl) (by rfl) (by rfl) (by rfl) (by rfl) (by rfl) _ _ _ keep) ?_
                  intro a b ha hb hcl
                  have := rest_short ha
                  have := rest_short hb
                  rw [← hcl.2.1, ← hcl.2.2.1]
                  exact two _ _ (by omega) (by omega) (by omega) hcl
              · split
                · exact trivial
                · exact one _ _ (by rfl) (by rfl) (by rfl) (by rfl) (by rfl) (by rfl) (by rfl) (by rfl) _ _ _ keep
              · split
                · exact trivial
                · split
                  · exact alike_bind _ fun t _ => one _ _ (by rfl) (by rfl) (by rfl) (by rfl) (by rfl) (by rfl) (by rfl) (by rfl) _ _ _ keep
                  · exact trivial
              · split
                · exact trivial
                · exact one _ _ (by rfl) (by rfl) (by rfl) (by rfl) (by rfl) (by rfl) (by rfl) (by rfl) _ _ _ keep
    | silent _ _ n l ls ls' hn hl hi hne h =>
      simp only [List.length_cons] at hf'
      by_cases ho : 1 < offset
      · exact Alike.errors (nested_error title _ g parent main offset _ ho hne)
          (nested_error title _ _ parent main offset _ ho (by simp))
      · have hlt : cl' + offset < op' := by
          have h1 := hi.1
          cases c with
          | false => have := hc rfl; omega
          | true => have := hi.2 rfl; omega
        rw [step_silent title fuel' _ parent main offset n l ls' hn hl ho hlt]
        exact ih (fuel + 1) fuel' (by omega) g _ parent main offset c ls ls' (by rw [hd]; exact h) hg ⟨rfl, rfl, rfl, rfl, hs⟩ hc hf (by omega)
    | bracket _ _ n n' n'' k ls ls' hn hn' hn'' hk hi hne h =>
      simp only [List.length_cons] at hf hf'
      cases fuel' with
      | zero => omega
      | succ fuel' =>
      by_cases ho : 1 < offset
      · exact Alike.errors (nested_error title _ g parent main offset _ ho (by simp))
          (nested_error title _ _ parent main offset _ ho (by simp))
      · have hlt : g.closing + offset < g.opening := by
          have h1 := hi.1
          cases c with
          | false => have := hc rfl; omega
          | true => have := hi.2 rfl; omega
        have hne' : ls' ≠ [] := fun e => hne (h.nil_iff.mp e)
        have one : ∀ (g1 g2 : Glob), g1.opening = g.opening + 1 → g1.closing = g.closing →
            g2.opening = op' + 1 → g2.closing = cl' →
            g2.output = g1.output → g2.roles = g1.roles → g2.loops = g1.loops → g2.tables = g1.tables →
            ∀ (pa ma : Tree) (o : Nat), ((c || isChoice k) = false → o = 0) →
            Alike (processLine title fuel g1 pa ma o ls) (processLine title fuel' g2 pa ma o ls') := by
          intro g1 g2 h1 h2 h3 h4 h5 h6 h7 h8 pa ma o hoo
          refine ih fuel fuel' (by omega) g1 g2 pa ma o (c || isChoice k) ls ls' ?_ (by omega)
            ⟨h5, h6, h7, h8, by omega⟩ hoo (by omega) (by omega)
          rw [h1, h2, show g.opening + 1 - g.closing = d + 1 by omega]
          exact h
        -- the line with the bracket
        have open' : ∀ (g' : Glob) (pa ma : Tree) (o : Nat), o ≤ 1 → g'.closing + o < g'.opening + 1 →
            g'.closing ≤ g'.opening →
            processLine title (fuel' + 1) g' pa ma o ((n'', ⟨1, 0, false, .other⟩) :: ls') =
            processLine title fuel' { g' with opening := g'.opening + 1, closing := g'.closing + 0 } pa ma o ls' := by
          intro g' pa ma o h1 h2 h3
          conv => lhs; unfold processLine
          simp only [Nat.add_zero]
          rw [if_neg (by omega), if_neg (by omega), if_neg (by omega)]
          simp only [Bool.false_eq_true, if_false]
          rw [if_neg (by omega)]
        cases k with
        | loop x =>
          rw [step_loop title fuel g parent main offset n 1 x ls hn ho (by omega),
            step_loop title (fuel' + 1) _ parent main offset n' 0 x _ hn' ho (by simp only; omega),
            open' _ _ _ _ (by omega) (by simp only [Glob.save]; omega) (by simp only [Glob.save]; omega)]
          refine one _ _ (by rfl) (by rfl) (by rfl) (by rfl) (by rfl) (by rfl) (by rfl) (by rfl) _ _ _ ?_
          intro hcf
          simp only [Bool.or_eq_false_iff] at hcf
          exact hc hcf.1
        | choice x =>
          rw [step_choice title fuel g parent main offset n 1 x ls hn ho (by omega),
            step_choice title (fuel' + 1) _ parent main offset n' 0 x _ hn' ho (by simp only; omega)]
          refine alike_bind _ fun t _ => Alike.bind ?_ ?_
          · by_cases h0 : offset = 0
            · subst h0
              rw [open' _ _ _ _ (by omega) (by simp only [Glob.save]; omega) (by simp only [Glob.save]; omega)]
              exact one _ _ (by rfl) (by rfl) (by rfl) (by rfl) (by rfl) (by rfl) (by rfl) (by rfl) _ _ _ (by simp [isChoice])
            · exact Alike.errors (nested_error title _ _ _ _ _ _ (by omega) hne)
                (nested_error title _ _ _ _ _ _ (by omega) (by simp))
          · intro a b ha hb hcl
            have := rest_short ha
            have hr := rest_short hb
            simp only [List.length_cons] at hr
            rw [← hcl.2.1, ← hcl.2.2.1]
            exact two _ _ (by omega) (by omega) (by omega) hcl
        | _ => simp [isBlock] at hk
    | pause d _ n n' ss ls ls' hn hn' hss hi hne h =>
      simp only [List.length_cons, List.length_append] at hf'
      by_cases ho : 1 < offset
      · exact Alike.errors (nested_error title _ g parent main offset _ ho hne)
          (nested_error title _ _ parent main offset _ ho (by simp))
      · have hlt : cl' + 1 + offset < op' := by
          have h1 := hi.1
          cases c with
          | false => have := hc rfl; omega
          | true => have := hi.2 rfl; omega
        have quiet : ∀ (ss : List (Nat × Line)) (F : Nat) (rest : List (Nat × Line)), (∀ s ∈ ss, 0 < s.1 ∧ Silent s.2) →
            ∃ F', F + 0 = F' + 0 ∧
            processLine title (F + ss.length) ⟨g.output, g.roles, g.loops, op', cl' + 1, g.tables⟩ parent main offset (ss ++ rest) =
            processLine title F' ⟨g.output, g.roles, g.loops, op', cl' + 1, g.tables⟩ parent main offset rest := by
          intro ss
          induction ss with
          | nil => intro F rest _; exact ⟨F, rfl, rfl⟩
          | cons s ss ih' =>
            intro F rest hss
            obtain ⟨hs1, hs2⟩ := hss s (List.mem_cons_self ..)
            obtain ⟨m, l⟩ := s
            obtain ⟨F', e, h'⟩ := ih' F rest fun s hs => hss s (List.mem_cons_of_mem _ hs)
            refine ⟨F', e, ?_⟩
            rw [List.cons_append, List.length_cons, ← Nat.add_assoc,
              step_silent title _ _ parent main offset m l _ hs1 hs2 ho (by simp only; omega)]
            exact h'
        obtain ⟨k, hk⟩ : ∃ k, fuel' = (k + 1) + ss.length := ⟨fuel' - ss.length - 1, by omega⟩
        have s1 : processLine title (fuel' + 1) ⟨g.output, g.roles, g.loops, op', cl', g.tables⟩ parent main offset
            ((n, ⟨0, 1, false, .other⟩) :: (ss ++ (n', ⟨1, 0, false, .other⟩) :: ls')) =
            processLine title fuel' ⟨g.output, g.roles, g.loops, op', cl' + 1, g.tables⟩ parent main offset
              (ss ++ (n', ⟨1, 0, false, .other⟩) :: ls') := by
          conv => lhs; unfold processLine
          simp only [Nat.add_zero]
          rw [if_neg (by omega), if_neg ho, if_neg (by omega)]
          simp only [Bool.false_eq_true, if_false]
          rw [if_neg (by omega)]
        have s2 : processLine title (k + 1) ⟨g.output, g.roles, g.loops, op', cl' + 1, g.tables⟩ parent main offset
            ((n', ⟨1, 0, false, .other⟩) :: ls') =
            processLine title k ⟨g.output, g.roles, g.loops, op' + 1, cl' + 1, g.tables⟩ parent main offset ls' := by
          conv => lhs; unfold processLine
          simp only [Nat.add_zero]
          rw [if_neg (by omega), if_neg ho, if_neg (by omega)]
          simp only [Bool.false_eq_true, if_false]
          rw [if_neg (by omega)]
        obtain ⟨F', e, hq⟩ := quiet ss (k + 1) ((n', ⟨1, 0, false, .other⟩) :: ls') hss
        rw [s1, hk, hq, show F' = k + 1 by omega, s2]
        exact ih (fuel + 1) k (by omega) g _ parent main offset c ls ls' (by rw [hd]; exact h) hg
          ⟨rfl, rfl, rfl, rfl, by simp only; omega⟩ hc hf (by omega)

/-- Whatever is read, it is read of both or of neither. -/
theorem loose_reading (title : Text → Text) {ls ls' : List Line} (h : Loose 0 false ls ls') (k : Known) :
    reading title ls = .ok k ↔ reading title ls' = .ok k := by
  have ha := laid_run title _ (ls.length + 1) (ls'.length + 1) (Nat.le_refl _) Glob.start Glob.start (Tree.new []) (Tree.new [0]) 0 false
    (number 0 ls) (number 0 ls') (laid_of_loose h 0 0 (by simp) (fun _ => rfl)) (Nat.le_refl _) (.refl _) (fun _ => rfl)
    (by rw [number_length]; omega) (by rw [number_length]; omega)
  unfold reading
  revert ha
  cases processLine title (ls.length + 1) Glob.start (Tree.new []) (Tree.new [0]) 0 (number 0 ls) with
  | error e =>
    cases processLine title (ls'.length + 1) Glob.start (Tree.new []) (Tree.new [0]) 0 (number 0 ls') with
    | error e' => intro _; constructor <;> intro h <;> cases h
    | ok b => intro h; exact h.elim
  | ok a =>
    cases processLine title (ls'.length + 1) Glob.start (Tree.new []) (Tree.new [0]) 0 (number 0 ls') with
    | error e' => intro h; exact h.elim
    | ok b =>
      intro h
      obtain ⟨e1, e2, e3, e4, _⟩ := h
      have hb : (b.glob.opening ≠ b.glob.closing) = (a.glob.opening ≠ a.glob.closing) := by
        have := e1.brackets
        exact propext ⟨fun h h' => h (by omega), fun h h' => h (by omega)⟩
      simp only [ok_bind, e3, hb, e1.output, e1.roles, e1.tables]

theorem layout_reading (title : Text → Text) {ls ls' : List Line} (h : Layout 0 false ls ls') (k : Known) :
    reading title ls = .ok k ↔ reading title ls' = .ok k := loose_reading title (loose_of_layout h) k

end Verif.NuscrLayout
