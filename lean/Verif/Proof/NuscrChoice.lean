import Verif.Proof.NuscrRun
import Verif.Spec.NuscrChoice

/-!
# The generator on protocols with loops and a choice: the lines
-/
namespace Verif.Nuscr
open Verif.NuscrSpec

theorem bind_congr_ok {α β : Type} {x : Except Fault α} {f f' : α → Except Fault β} (h : ∀ a, x = .ok a → f a = f' a) :
    (x >>= f) = (x >>= f') := by
  cases x with
  | error e => rfl
  | ok a => exact h a rfl

theorem ok_bind {α β : Type} (a : α) (f : α → Except Fault β) : ((Except.ok a : Except Fault α) >>= f) = f a := rfl

theorem bind_assoc' {α β γ : Type} (x : Except Fault α) (f : α → Except Fault β) (h : β → Except Fault γ) :
    ((x >>= f) >>= h) = (x >>= fun a => f a >>= h) := by
  cases x <;> rfl

/-- The result does not depend on the fuel. -/
theorem fuel_irrelevant (title : Text → Text) : ∀ (fuel fuel' : Nat) (g : Glob) (parent main : Tree) (offset : Nat)
    (lines : List (Nat × Line)), lines.length < fuel → lines.length < fuel' →
    processLine title fuel g parent main offset lines = processLine title fuel' g parent main offset lines
  | 0, _, _, _, _, _, _, h, _ => by omega
  | _, 0, _, _, _, _, _, _, h => by omega
  | fuel + 1, fuel' + 1, g, parent, main, offset, [], _, _ => rfl
  | fuel + 1, fuel' + 1, g, parent, main, offset, (n, l) :: rest, h, h' => by
    have hl : rest.length < fuel := by simp at h; omega
    have hl' : rest.length < fuel' := by simp at h'; omega
    have ih : ∀ (g : Glob) (pa ma : Tree) (o : Nat),
        processLine title fuel g pa ma o rest = processLine title fuel' g pa ma o rest :=
      fun g pa ma o => fuel_irrelevant title fuel fuel' g pa ma o rest hl hl'
    have ih2 : ∀ {g : Glob} {pa ma : Tree} {o : Nat} {d : Done}, processLine title fuel' g pa ma o rest = .ok d →
        ∀ (g' : Glob) (pa' ma' : Tree) (o' : Nat),
        processLine title fuel g' pa' ma' o' d.rest = processLine title fuel' g' pa' ma' o' d.rest := by
      intro g pa ma o d hd g' pa' ma' o'
      obtain ⟨pre, e, _, _⟩ := processLine_reads title fuel' g pa ma o rest d hd
      have := congrArg List.length e
      simp at this
      exact fuel_irrelevant title fuel fuel' g' pa' ma' o' d.rest (by omega) (by omega)
    unfold processLine
    simp only
    split
    · rfl
    · split
      · rfl
      · split
        · rfl
        · split
          · exact ih _ _ _ _
          · split
            · split
              · rfl
              · exact ih _ _ _ _
            · split
              · rfl
              · exact bind_congr_ok fun _ _ => ih _ _ _ _
            · split
              · rfl
              · refine bind_congr_ok fun _ _ => ?_
                rw [ih]
                exact bind_congr_ok fun d hd => ih2 hd _ _ _ _
            · split
              · rfl
              · refine bind_congr_ok fun _ _ => ?_
                rw [ih]
                exact bind_congr_ok fun d hd => ih2 hd _ _ _ _
            · split
              · rfl
              · exact ih _ _ _ _
            · split
              · rfl
              · split
                · exact bind_congr_ok fun _ _ => ih _ _ _ _
                · rfl
            · split
              · rfl
              · exact ih _ _ _ _

/-- The line processor with enough fuel. -/
def run (title : Text → Text) (g : Glob) (parent main : Tree) (offset : Nat) (lines : List (Nat × Line)) :
    Except Fault Done :=
  processLine title (lines.length + 1) g parent main offset lines

theorem run_eq (title : Text → Text) (fuel : Nat) (g : Glob) (parent main : Tree) (offset : Nat)
    (lines : List (Nat × Line)) (h : lines.length < fuel) :
    processLine title fuel g parent main offset lines = run title g parent main offset lines :=
  fuel_irrelevant title _ _ _ _ _ _ _ h (by omega)

theorem run_nil (title : Text → Text) (g : Glob) (parent main : Tree) (offset : Nat) :
    run title g parent main offset [] = .ok ⟨g, parent, main, offset, []⟩ := rfl

section lines

variable (title : Text → Text) (g : Glob) (parent main : Tree) (offset n : Nat) (rest : List (Nat × Line))

theorem run_message (m : Msg) (hn : 0 < n) (ho : offset ≤ 1) (hg : g.closing + offset < g.opening) :
    run title g parent main offset ((n, ⟨0, 0, false, .message m⟩) :: rest) =
      (updateMessages title g.roles m main >>= fun main' => run title (g.save (.message m)) parent main' offset rest) := by
  unfold run
  conv => lhs; unfold processLine
  simp only [Nat.add_zero]
  rw [if_neg (by omega), if_neg (by omega), if_neg (by omega)]
  simp only [Bool.false_eq_true, if_false]
  rw [if_neg (by omega)]
  rfl

theorem run_loop (l : Text) (hn : 0 < n) (ho : offset ≤ 1) (hg : g.closing + offset < g.opening) :
    run title g parent main offset ((n, ⟨1, 0, false, .loop l⟩) :: rest) =
      run title ({ g with loops := upd g.loops l (indexText main.index, []), opening := g.opening + 1 }.save (.loop l))
        parent main offset rest := by
  unfold run
  conv => lhs; unfold processLine
  simp only [Nat.add_zero]
  rw [if_neg (by omega), if_neg (by omega), if_neg (by omega)]
  simp only [Bool.false_eq_true, if_false]
  rw [if_neg (by omega)]
  rfl

theorem run_jump (l : Text) (hn : 0 < n) (ho : offset ≤ 1) (hg : g.closing + offset < g.opening) :
    run title g parent main offset ((n, ⟨0, 0, false, .jump l⟩) :: rest) =
      match g.loops l with
      | some (idx, saved) => replay title g.roles l idx false saved main >>= fun main' =>
          run title g parent main' offset rest
      | none => .error .noLoop := by
  unfold run
  conv => lhs; unfold processLine
  simp only [Nat.add_zero]
  rw [if_neg (by omega), if_neg (by omega), if_neg (by omega)]
  simp only [Bool.false_eq_true, if_false]
  rw [if_neg (by omega)]
  rfl

theorem run_choice (x : Text) (hn : 0 < n) (ho : offset ≤ 1) (hg : g.closing + offset < g.opening) :
    run title g parent main offset ((n, ⟨1, 0, false, .choice x⟩) :: rest) =
      (choiceAll g.roles (indexText main.index) x
          { main with enums := upd main.enums (indexText (main.index ++ [0])) (x, 0) } >>= fun t =>
        run title ({ g with opening := g.opening + 1 }.save (.choice x)) t
            (initSubTree g.roles (main.index ++ [0]) x) (offset + 1) rest >>= fun d =>
          run title d.glob parent { d.parent with subTrees := d.parent.subTrees ++ [d.main] } d.offset d.rest) := by
  unfold run
  conv => lhs; unfold processLine
  simp only [Nat.add_zero]
  rw [if_neg (by omega), if_neg (by omega), if_neg (by omega)]
  simp only [Bool.false_eq_true, if_false]
  rw [if_neg (by omega)]
  refine bind_congr_ok fun t _ => bind_congr_ok fun d hd => ?_
  obtain ⟨pre, e, _, _⟩ := processLine_reads title _ _ _ _ _ rest d hd
  have := congrArg List.length e
  simp at this
  exact run_eq _ _ _ _ _ _ _ (by simp; omega)

theorem run_or (hn : 0 < n) (ho : offset ≤ 1) (hg : g.closing + offset < g.opening) (x : Text) (c : Nat)
    (he : parent.enums (indexText (main.index.dropLast ++ [0])) = some (x, c)) :
    run title g parent main offset ((n, ⟨1, 1, false, .or⟩) :: rest) =
      (run title { g with opening := g.opening + 1, closing := g.closing + 1 }
          { parent with enums := upd parent.enums (indexText (main.index.dropLast ++ [0])) (x, c + 1) }
          (initSubTree g.roles (main.index.dropLast ++ [main.index.getLastD 0 + 1]) x) offset rest >>= fun d =>
        run title d.glob { d.parent with subTrees := d.parent.subTrees ++ [d.main] } main d.offset d.rest) := by
  unfold run
  conv => lhs; unfold processLine
  simp only
  rw [if_neg (by omega), if_neg (by omega), if_neg (by omega)]
  simp only [Bool.false_eq_true, if_false]
  rw [if_neg (by omega)]
  rw [he]
  simp only [unwrap]
  rw [ok_bind]
  refine bind_congr_ok fun d hd => ?_
  obtain ⟨pre, e, _, _⟩ := processLine_reads title _ _ _ _ _ rest d hd
  have := congrArg List.length e
  simp at this
  exact run_eq _ _ _ _ _ _ _ (by simp; omega)

/-- A closing bracket that is not the last one of the level. -/
theorem run_close (hn : 0 < n) (ho : offset ≤ 1) (hg : g.closing + 1 + offset < g.opening) :
    run title g parent main offset ((n, ⟨0, 1, false, .other⟩) :: rest) =
      run title { g with closing := g.closing + 1 } parent main offset rest := by
  unfold run
  conv => lhs; unfold processLine
  simp only [Nat.add_zero]
  rw [if_neg (by omega), if_neg (by omega), if_neg (by omega)]
  simp only [Bool.false_eq_true, if_false]
  rw [if_neg (by omega)]
  rfl

/-- A closing bracket that ends the level. -/
theorem run_last (ho : offset ≤ 1) (hc : g.closing < g.opening) (hg : g.opening ≤ g.closing + 1 + offset) :
    run title g parent main offset ((n, ⟨0, 1, false, .other⟩) :: rest) =
      .ok ⟨{ g with closing := g.closing + 1 }, parent, main, offset, rest⟩ := by
  unfold run
  conv => lhs; unfold processLine
  simp only [Nat.add_zero]
  rw [if_neg (by omega), if_neg (by omega), if_pos hg, if_neg (by omega)]

end lines

/-- Several lines are saved in the loops. -/
def Glob.saves (g : Glob) (ks : List Kind) : Glob :=
  { g with
    loops := fun x => (g.loops x).map fun s => (s.1, s.2 ++ ks)
    tables := ks.foldl Tables.note g.tables }

theorem saves_nil (g : Glob) : g.saves [] = g := by
  simp [Glob.saves]

theorem save_saves (g : Glob) (k : Kind) (ks : List Kind) : (g.save k).saves ks = g.saves (k :: ks) := by
  simp [Glob.saves, Glob.save, Function.comp_def]

theorem saves_saves (g : Glob) (k ks : List Kind) : (g.saves k).saves ks = g.saves (k ++ ks) := by
  simp [Glob.saves, Function.comp_def]

/-- The messages `msgs` one after another. -/
def addMessages (title : Text → Text) (roles : List Text) (msgs : List Msg) (t : Tree) : Except Fault Tree :=
  msgs.foldlM (fun t m => updateMessages title roles m t) t

theorem number_append {α : Type} : ∀ (n : Nat) (l l' : List α), number n (l ++ l') = number n l ++ number (n + l.length) l'
  | _, [], _ => by simp [number]
  | n, a :: l, l' => by simp [number, number_append (n + 1) l l', Nat.add_comm 1, Nat.add_assoc]

theorem run_msgs (title : Text → Text) (parent : Tree) (offset : Nat) (ho : offset ≤ 1) (rest : List Line) :
    ∀ (msgs : List Msg) (n : Nat) (g : Glob) (main : Tree), 0 < n → g.closing + offset < g.opening →
    run title g parent main offset (number n ((msgs.map fun m => (⟨0, 0, false, .message m⟩ : Line)) ++ rest)) =
      (addMessages title g.roles msgs main >>= fun main' =>
        run title (g.saves (msgs.map .message)) parent main' offset (number (n + msgs.length) rest))
  | [], n, g, main, hn, hg => by simp [addMessages, saves_nil, pure, Except.pure, ok_bind]
  | m :: msgs, n, g, main, hn, hg => by
    simp only [List.map_cons, List.cons_append, number]
    rw [run_message title g parent main offset n _ m hn ho hg]
    unfold addMessages
    rw [List.foldlM_cons, bind_assoc']
    refine bind_congr_ok fun t _ => ?_
    rw [run_msgs title parent offset ho rest msgs (n + 1) (g.save (.message m)) t (by omega) hg, save_saves]
    simp only [addMessages, List.length_cons]
    rw [Nat.add_assoc n 1, Nat.add_comm 1]
    rfl

theorem update_index {title : Text → Text} {roles : List Text} {m : Msg} {t t' : Tree}
    (h : updateMessages title roles m t = .ok t') : t'.index = t.index ∧ t'.enums = t.enums ∧ t'.subTrees = t.subTrees := by
  unfold updateMessages at h
  split at h
  · cases h
  · split at h
    · cases h
    · split at h
      · cases h
      · split at h
        · cases h
        · unfold messagesAndStacks senderMessages receiverMessages pushStack at h
          obtain ⟨t1, h1, h⟩ := bind_ok h
          obtain ⟨_, _, h1⟩ := bind_ok h1
          obtain ⟨_, _, h1⟩ := bind_ok h1
          obtain ⟨_, _, h1⟩ := bind_ok h1
          obtain ⟨t2, h2, h⟩ := bind_ok h
          obtain ⟨_, _, h2⟩ := bind_ok h2
          obtain ⟨_, _, h2⟩ := bind_ok h2
          obtain ⟨t3, h3, h⟩ := bind_ok h
          obtain ⟨_, _, h3⟩ := bind_ok h3
          obtain ⟨_, _, h3⟩ := bind_ok h3
          obtain ⟨_, _, h⟩ := bind_ok h
          obtain ⟨_, _, h⟩ := bind_ok h
          simp only [Except.ok.injEq] at h h1 h2 h3
          subst h1 h2 h3 h
          exact ⟨rfl, rfl, rfl⟩

theorem add_index {title : Text → Text} {roles : List Text} : ∀ {msgs : List Msg} {t t' : Tree},
    addMessages title roles msgs t = .ok t' → t'.index = t.index ∧ t'.enums = t.enums ∧ t'.subTrees = t.subTrees
  | [], t, t', h => by
    simp only [addMessages, List.foldlM_nil, pure, Except.pure, Except.ok.injEq] at h
    subst h
    exact ⟨rfl, rfl, rfl⟩
  | m :: msgs, t, t', h => by
    unfold addMessages at h
    rw [List.foldlM_cons] at h
    obtain ⟨t1, h1, h⟩ := bind_ok h
    obtain ⟨a1, a2, a3⟩ := update_index h1
    obtain ⟨b1, b2, b3⟩ := add_index (msgs := msgs) h
    exact ⟨b1.trans a1, b2.trans a2, b3.trans a3⟩

theorem choiceFor_index {idx x r : Text} {t t' : Tree} (h : choiceFor idx x t r = .ok t') :
    t'.index = t.index ∧ t'.enums = t.enums ∧ t'.subTrees = t.subTrees := by
  unfold choiceFor at h
  split at h
  · obtain ⟨_, _, h⟩ := bind_ok h
    obtain ⟨_, _, h⟩ := bind_ok h
    obtain ⟨_, _, h⟩ := bind_ok h
    obtain ⟨_, _, h⟩ := bind_ok h
    obtain ⟨_, _, h⟩ := bind_ok h
    obtain ⟨_, _, h⟩ := bind_ok h
    simp only [Except.ok.injEq] at h
    subst h
    exact ⟨rfl, rfl, rfl⟩
  · obtain ⟨_, _, h⟩ := bind_ok h
    obtain ⟨_, _, h⟩ := bind_ok h
    simp only [Except.ok.injEq] at h
    subst h
    exact ⟨rfl, rfl, rfl⟩

theorem choiceAll_index {idx x : Text} : ∀ {roles : List Text} {t t' : Tree}, choiceAll roles idx x t = .ok t' →
    t'.index = t.index ∧ t'.enums = t.enums ∧ t'.subTrees = t.subTrees
  | [], t, t', h => by
    simp only [choiceAll, List.foldlM_nil, pure, Except.pure, Except.ok.injEq] at h
    subst h
    exact ⟨rfl, rfl, rfl⟩
  | r :: roles, t, t', h => by
    unfold choiceAll at h
    rw [List.foldlM_cons] at h
    obtain ⟨t1, h1, h⟩ := bind_ok h
    obtain ⟨a1, a2, a3⟩ := choiceFor_index h1
    obtain ⟨b1, b2, b3⟩ := choiceAll_index (roles := roles) h
    exact ⟨b1.trans a1, b2.trans a2, b3.trans a3⟩

/-- The kind of the line of an item. -/
def itemKind : Item → Kind
  | .msg m => .message m
  | .loop l => .loop l

/-- The state after the items. -/
def itemsGlob (idx : Text) : List Item → Glob → Glob
  | [], g => g
  | .msg m :: is, g => itemsGlob idx is (g.save (.message m))
  | .loop l :: is, g =>
    itemsGlob idx is ({ g with loops := upd g.loops l (idx, []), opening := g.opening + 1 }.save (.loop l))

theorem run_items (title : Text → Text) (parent : Tree) (rest : List Line) :
    ∀ (items : List Item) (n : Nat) (g : Glob) (main : Tree), 0 < n → g.closing < g.opening →
    run title g parent main 0 (number n (items.map Item.line ++ rest)) =
      (addMessages title g.roles (messagesOf items) main >>= fun main' =>
        run title (itemsGlob (indexText main.index) items g) parent main' 0 (number (n + items.length) rest))
  | [], n, g, main, hn, hg => by simp [addMessages, messagesOf, itemsGlob, pure, Except.pure, ok_bind]
  | .msg m :: is, n, g, main, hn, hg => by
    simp only [List.map_cons, List.cons_append, number, Item.line, messagesOf, itemsGlob, List.length_cons]
    rw [run_message title g parent main 0 n _ m hn (by omega) hg]
    unfold addMessages
    rw [List.foldlM_cons, bind_assoc']
    refine bind_congr_ok fun t ht => ?_
    rw [run_items title parent rest is (n + 1) (g.save (.message m)) t (by omega) hg, (update_index ht).1]
    simp only [addMessages]
    rw [Nat.add_assoc n 1, Nat.add_comm 1]
    rfl
  | .loop l :: is, n, g, main, hn, hg => by
    simp only [List.map_cons, List.cons_append, number, Item.line, messagesOf, itemsGlob, List.length_cons]
    rw [run_loop title g parent main 0 n _ l hn (by omega) hg]
    rw [run_items title parent rest is (n + 1) _ main (by omega) (by simp only [Glob.save]; omega)]
    rw [Nat.add_assoc n 1, Nat.add_comm 1]
    rfl

/-- The items after the innermost loop of that name. -/
def loopItems (l : Text) : List Item → Option (List Item)
  | [] => none
  | .msg _ :: is => loopItems l is
  | .loop x :: is =>
    match loopItems l is with
    | some b => some b
    | none => if x = l then some is else none

theorem loopBody_eq (l : Text) : ∀ is : List Item, loopBody l is = (loopItems l is).map messagesOf
  | [] => rfl
  | .msg _ :: is => by simp [loopBody, loopItems, loopBody_eq l is]
  | .loop x :: is => by
    simp only [loopBody, loopItems, loopBody_eq l is]
    cases loopItems l is with
    | some b => rfl
    | none => simp only [Option.map_none]; split <;> rfl

theorem itemsGlob_loops (idx l : Text) : ∀ (is : List Item) (g : Glob), (itemsGlob idx is g).loops l =
    match loopItems l is with
    | some its => some (idx, .loop l :: its.map itemKind)
    | none => (g.loops l).map fun s => (s.1, s.2 ++ is.map itemKind)
  | [], g => by simp [itemsGlob, loopItems]
  | .msg m :: is, g => by
    simp only [itemsGlob, loopItems, itemsGlob_loops idx l is]
    cases loopItems l is with
    | some b => rfl
    | none => simp [Glob.save, itemKind, Function.comp_def]
  | .loop x :: is, g => by
    simp only [itemsGlob, loopItems, itemsGlob_loops idx l is]
    cases loopItems l is with
    | some b => rfl
    | none =>
      simp only [Glob.save, upd]
      by_cases h : x = l
      · subst h; simp
      · rw [if_neg (Ne.symm h), if_neg h]
        simp [itemKind, Function.comp_def]

theorem itemsGlob_fields (idx : Text) : ∀ (is : List Item) (g : Glob), (itemsGlob idx is g).roles = g.roles ∧
    (itemsGlob idx is g).output = g.output ∧ (itemsGlob idx is g).opening = g.opening + loopCount is ∧
    (itemsGlob idx is g).closing = g.closing
  | [], g => ⟨rfl, rfl, rfl, rfl⟩
  | .msg m :: is, g => by
    simp only [itemsGlob, loopCount]
    exact itemsGlob_fields idx is (g.save (.message m))
  | .loop l :: is, g => by
    simp only [itemsGlob, loopCount]
    obtain ⟨h1, h2, h3, h4⟩ := itemsGlob_fields idx is
      ({ g with loops := upd g.loops l (idx, []), opening := g.opening + 1 }.save (.loop l))
    refine ⟨h1, h2, ?_, h4⟩
    rw [h3]
    simp only [Glob.save]
    omega

/-- The lines saved for the loops: the items since the beginning of the loop, the choice, and more. -/
def LoopsOk (idx : Text) (pre : List Item) (x : Text) (g : Glob) : Prop :=
  ∀ l, match loopItems l pre with
    | some its => ∃ junk, g.loops l = some (idx, .loop l :: its.map itemKind ++ .choice x :: junk)
    | none => g.loops l = none

theorem LoopsOk.saves {idx : Text} {pre : List Item} {x : Text} {g : Glob} (h : LoopsOk idx pre x g) (ks : List Kind) :
    LoopsOk idx pre x (g.saves ks) := by
  intro l
  have := h l
  cases hl : loopItems l pre with
  | some its =>
    rw [hl] at this
    obtain ⟨junk, hj⟩ := this
    exact ⟨junk ++ ks, by simp [Glob.saves, hj]⟩
  | none =>
    rw [hl] at this
    simp only at this ⊢
    simp [Glob.saves, this]

theorem contains_self (l : Text) : contains l l = true := by
  unfold contains
  rw [List.any_eq_true]
  exact ⟨0, by simp, by simp⟩

theorem replay_active (title : Text → Text) (roles : List Text) (l idx x : Text) (junk : List Kind) :
    ∀ (its : List Item) (t : Tree), replay title roles l idx true (its.map itemKind ++ .choice x :: junk) t =
      (addMessages title roles (messagesOf its) t >>= fun t => choiceAll roles idx x t)
  | [], t => by simp [replay, addMessages, messagesOf, pure, Except.pure, ok_bind]
  | .msg m :: is, t => by
    simp only [List.map_cons, List.cons_append, itemKind, replay, messagesOf]
    unfold addMessages
    rw [List.foldlM_cons, bind_assoc']
    refine bind_congr_ok fun t _ => ?_
    rw [replay_active title roles l idx x junk is t]
    rfl
  | .loop y :: is, t => by
    simp only [List.map_cons, List.cons_append, itemKind, replay, messagesOf, Bool.true_or]
    exact replay_active title roles l idx x junk is t

/-- The tree of a branch. -/
def branchTree (title : Text → Text) (roles : List Text) (idx : Text) (pre : List Item) (x : Text) (b : Branch)
    (t : Tree) : Except Fault Tree :=
  addMessages title roles b.msgs t >>= fun t =>
    match b.back with
    | none => .ok t
    | some l =>
      match loopBody l pre with
      | none => .error .noLoop
      | some ms => addMessages title roles ms t >>= fun t => choiceAll roles idx x t

theorem branch_index {title : Text → Text} {roles : List Text} {idx : Text} {pre : List Item} {x : Text} {b : Branch}
    {t t' : Tree} (h : branchTree title roles idx pre x b t = .ok t') :
    t'.index = t.index ∧ t'.enums = t.enums ∧ t'.subTrees = t.subTrees := by
  unfold branchTree at h
  obtain ⟨t1, h1, h⟩ := bind_ok h
  obtain ⟨a1, a2, a3⟩ := add_index h1
  split at h
  · simp only [Except.ok.injEq] at h
    subst h
    exact ⟨a1, a2, a3⟩
  · split at h
    · cases h
    · obtain ⟨t2, h2, h⟩ := bind_ok h
      obtain ⟨b1, b2, b3⟩ := add_index h2
      obtain ⟨c1, c2, c3⟩ := choiceAll_index h
      exact ⟨c1.trans (b1.trans a1), c2.trans (b2.trans a2), c3.trans (b3.trans a3)⟩

theorem run_branch (title : Text → Text) (parent : Tree) (idx : Text) (pre : List Item) (x : Text) (b : Branch)
    (rest : List Line) (n : Nat) (g : Glob) (main : Tree) (hl : LoopsOk idx pre x g) (hn : 0 < n)
    (hg : g.closing + 1 < g.opening) :
    run title g parent main 1 (number n (b.lines ++ rest)) =
      (branchTree title g.roles idx pre x b main >>= fun main' =>
        run title (g.saves (b.msgs.map .message)) parent main' 1 (number (n + b.lines.length) rest)) := by
  obtain ⟨msgs, back⟩ := b
  unfold branchTree
  simp only [Branch.lines]
  rw [List.append_assoc, run_msgs title parent 1 (by omega) _ msgs n g main hn hg, bind_assoc']
  refine bind_congr_ok fun t _ => ?_
  cases back with
  | none => simp [ok_bind]
  | some l =>
    simp only [List.cons_append, List.nil_append, number]
    rw [run_jump title (g.saves (msgs.map .message)) parent t 1 _ _ l (by omega) (by omega) hg]
    have := hl.saves (msgs.map .message) l
    rw [loopBody_eq]
    cases hi : loopItems l pre with
    | none =>
      rw [hi] at this
      simp only at this
      rw [this]
      rfl
    | some its =>
      rw [hi] at this
      obtain ⟨junk, hj⟩ := this
      rw [hj]
      simp only [List.cons_append, replay, contains_self, Bool.false_or, Option.map_some]
      rw [replay_active]
      simp only [List.length_append, List.length_map, List.length_cons, List.length_nil, Glob.saves, Nat.zero_add,
        ← Nat.add_assoc]

theorem run_closers (title : Text → Text) (parent main : Tree) : ∀ (k n : Nat) (g : Glob), 0 < n →
    g.opening = g.closing + k + 2 →
    run title g parent main 1 (number n (List.replicate (k + 2) ⟨0, 1, false, .other⟩)) =
      .ok ⟨{ g with closing := g.closing + k + 1 }, parent, main, 1, [(n + k + 1, ⟨0, 1, false, .other⟩)]⟩
  | 0, n, g, hn, hg => by
    simp only [List.replicate, number]
    rw [run_last title g parent main 1 n _ (by omega) (by omega) (by omega)]
  | k + 1, n, g, hn, hg => by
    rw [List.replicate_succ, number, run_close title g parent main 1 n _ hn (by omega) (by omega),
      run_closers title parent main k (n + 1) _ (by omega) (by simp only; omega)]
    simp only [Except.ok.injEq, Done.mk.injEq, Glob.mk.injEq, true_and, List.cons.injEq, Prod.mk.injEq, and_true]
    omega

/-- The trees of the branches from number `j` on. -/
def treesFrom (F : Nat → Branch → Except Fault Tree) : Nat → List Branch → Except Fault (List Tree)
  | _, [] => .ok []
  | j, b :: bs => F j b >>= fun t => treesFrom F (j + 1) bs >>= fun ts => .ok (t :: ts)

theorem upd_upd {α : Type} (f : Text → Option α) (k : Text) (a b : α) : upd (upd f k a) k b = upd f k b := by
  funext x
  simp only [upd]
  split <;> rfl

theorem upd_same {α : Type} (f : Text → Option α) (k : Text) (a : α) (h : f k = some a) : upd f k a = f := by
  funext x
  simp only [upd]
  split
  · rename_i e; rw [e, h]
  · rfl

/-- The branches, to the end of the choice.  The last closing bracket is left if there is one branch. -/
theorem run_branches (title : Text → Text) (idx : Text) (pre : List Item) (x : Text) (k : Nat) :
    ∀ (bs : List Branch) (b : Branch) (i n c : Nat) (g : Glob) (parent main : Tree), LoopsOk idx pre x g → 0 < n →
    g.opening = g.closing + k + 2 → main.index = [0, i] → parent.enums (indexText [0, 0]) = some (x, c) →
    (run title g parent main 1 (number n (b.lines ++ (bs.flatMap (fun b => ⟨1, 1, false, .or⟩ :: b.lines) ++
        List.replicate (k + 2) ⟨0, 1, false, .other⟩)))) =
      (branchTree title g.roles idx pre x b main >>= fun t =>
        treesFrom (fun j b => branchTree title g.roles idx pre x b (initSubTree g.roles [0, j] x)) (i + 1) bs
          >>= fun ts =>
        .ok ⟨{ g.saves ((b :: bs).flatMap fun b => b.msgs.map .message) with
              opening := g.opening + bs.length
              closing := g.opening + bs.length - (if bs = [] then 1 else 0) },
          { parent with
            enums := upd parent.enums (indexText [0, 0]) (x, c + bs.length)
            subTrees := parent.subTrees ++ ts.reverse },
          t, 1, if bs = [] then [(n + b.lines.length + k + 1, ⟨0, 1, false, .other⟩)] else []⟩) := by
  intro bs
  induction bs with
  | nil =>
    intro b i n c g parent main hl hn hg hi he
    rw [run_branch title parent idx pre x b _ n g main hl hn (by omega)]
    refine bind_congr_ok fun t _ => ?_
    rw [List.flatMap_nil, List.nil_append, run_closers title parent t k _ _ (by omega) (by exact hg)]
    simp only [treesFrom, ok_bind, Glob.saves, List.flatMap_cons, List.flatMap_nil, List.append_nil, List.length_nil,
      Nat.add_zero, if_true, List.reverse_nil, upd_same _ _ _ he, Except.ok.injEq, Done.mk.injEq, Glob.mk.injEq, true_and,
      and_true]
    exact ⟨by omega, by cases parent; rfl⟩
  | cons b' bs ih =>
    intro b i n c g parent main hl hn hg hi he
    rw [run_branch title parent idx pre x b _ n g main hl hn (by omega)]
    refine bind_congr_ok fun t ht => ?_
    have hti : t.index = [0, i] := (branch_index ht).1.trans hi
    simp only [List.flatMap_cons, List.cons_append, number, List.append_assoc]
    rw [run_or title _ parent t 1 _ _ (by omega) (by omega) (by simp only [Glob.saves]; omega) x c (by rw [hti]; exact he)]
    rw [ih b' (i + 1) _ (c + 1) _ _ _ ?_ (by omega) ?_ ?_ ?_]
    · simp only [treesFrom]
      rw [hti, bind_assoc', bind_assoc']
      refine bind_congr_ok fun t' _ => ?_
      rw [bind_assoc', bind_assoc']
      refine bind_congr_ok fun ts _ => ?_
      rw [ok_bind, ok_bind]
      cases bs with
      | nil =>
        simp only [if_true]
        rw [run_last title _ _ t 1 _ _ (by omega) (by simp only [Glob.saves, List.length_nil]; omega)
          (by simp only [Glob.saves, List.length_nil]; omega)]
        simp [Glob.saves, upd_upd, Function.comp_def]
      | cons b'' bs =>
        simp only [reduceCtorEq, if_false]
        rw [run_nil]
        simp [Glob.saves, upd_upd, Function.comp_def]
        rw [Nat.add_right_comm c, Nat.add_right_comm g.opening]
        simp [Nat.add_assoc]
    · exact hl.saves _
    · simp only [Glob.saves]; omega
    · rw [hti]; rfl
    · rw [hti]; simp [upd]

theorem itemsGlob_tables (idx : Text) : ∀ (is : List Item) (g : Glob),
    (itemsGlob idx is g).tables = ((messagesOf is).map Kind.message).foldl Tables.note g.tables
  | [], g => rfl
  | .msg m :: is, g => by
    simp only [itemsGlob, messagesOf, List.map_cons, List.foldl_cons]
    exact itemsGlob_tables idx is _
  | .loop l :: is, g => by
    simp only [itemsGlob, messagesOf]
    exact itemsGlob_tables idx is _

/-- What is known after reading a protocol with a choice. -/
theorem reading_choice (title : Text → Text) (P : Proto) :
    reading title P.lines =
      (addMessages title (sorted P.roles) (messagesOf P.pre) (initTree (sorted P.roles) ['0'] (Tree.new [0])) >>= fun m =>
        choiceAll (sorted P.roles) ['0'] P.chooser
            { m with enums := upd m.enums (indexText [0, 0]) (P.chooser, 0) } >>= fun m =>
          treesFrom (fun j b => branchTree title (sorted P.roles) ['0'] P.pre P.chooser b
              (initSubTree (sorted P.roles) [0, j] P.chooser)) 0 P.branches >>= fun ts =>
            .ok ⟨sorted P.roles, (P.messages.map .message).foldl Tables.note Tables.empty,
              { m with
                enums := upd m.enums (indexText [0, 0]) (P.chooser, P.others.length)
                subTrees := m.subTrees ++ (ts.drop 1).reverse ++ ts.take 1 }⟩) := by
  have e : reading title P.lines = (run title ⟨some P.name, sorted P.roles, fun _ => none, 1, 0, Tables.empty⟩ (Tree.new [])
        (initTree (sorted P.roles) ['0'] (Tree.new [0])) 0
        (number 1 (P.pre.map Item.line ++ ((⟨1, 0, false, .choice P.chooser⟩ : Line) :: (P.first.lines ++
          (P.others.flatMap (fun b => (⟨1, 1, false, .or⟩ : Line) :: b.lines) ++
          List.replicate (loopCount P.pre + 2) ⟨0, 1, false, .other⟩)))) ) >>= fun d =>
        if d.glob.opening ≠ d.glob.closing then .error .unbalanced
        else if d.glob.output = none then .error .noOutput
        else .ok ⟨d.glob.roles, d.glob.tables, d.main⟩) := by
    unfold reading
    have : processLine title (P.lines.length + 1) Glob.start (Tree.new []) (Tree.new [0]) 0 (number 0 P.lines) =
        run title ⟨some P.name, sorted P.roles, fun _ => none, 1, 0, Tables.empty⟩ (Tree.new [])
          (initTree (sorted P.roles) ['0'] (Tree.new [0])) 0
          (number 1 (P.pre.map Item.line ++ ((⟨1, 0, false, .choice P.chooser⟩ : Line) :: (P.first.lines ++
            (P.others.flatMap (fun b => (⟨1, 1, false, .or⟩ : Line) :: b.lines) ++
            List.replicate (loopCount P.pre + 2) ⟨0, 1, false, .other⟩))))) := by
      conv => lhs; unfold Proto.lines; simp only [List.cons_append, number, List.append_assoc]; unfold processLine
      simp [Glob.start, header]
      exact run_eq _ _ _ _ _ _ _ (by simp [number_length])
    rw [this]
  rw [e, run_items title _ _ _ 1 _ _ (by omega) (by simp), bind_assoc']
  refine bind_congr_ok fun m hm => ?_
  have hi : m.index = [0] := (add_index hm).1
  have hs : indexText [0] = ['0'] := rfl
  have ft := itemsGlob_tables (indexText (initTree (sorted P.roles) ['0'] (Tree.new [0])).index) P.pre
    ⟨some P.name, sorted P.roles, fun _ => none, 1, 0, Tables.empty⟩
  obtain ⟨f1, f2, f3, f4⟩ := itemsGlob_fields (indexText (initTree (sorted P.roles) ['0'] (Tree.new [0])).index) P.pre
    ⟨some P.name, sorted P.roles, fun _ => none, 1, 0, Tables.empty⟩
  have fl := fun l => itemsGlob_loops (indexText (initTree (sorted P.roles) ['0'] (Tree.new [0])).index) l P.pre
    ⟨some P.name, sorted P.roles, fun _ => none, 1, 0, Tables.empty⟩
  generalize itemsGlob (indexText (initTree (sorted P.roles) ['0'] (Tree.new [0])).index) P.pre
    ⟨some P.name, sorted P.roles, fun _ => none, 1, 0, Tables.empty⟩ = G at f1 f2 f3 f4 fl ft ⊢
  simp only at f1 f2 f3 f4 ft
  simp only [number]
  rw [run_choice title G _ m 0 _ _ P.chooser (by omega) (by omega) (by omega), bind_assoc']
  rw [hi, f1, hs]
  refine bind_congr_ok fun m' hm' => ?_
  obtain ⟨a1, a2, a3⟩ := choiceAll_index hm'
  rw [run_branches title ['0'] P.pre P.chooser (loopCount P.pre) P.others P.first 0 _ 0 _ _ _ ?_ (by omega) ?_ ?_ ?_]
  · simp only [Glob.save, Proto.branches, treesFrom]
    rw [bind_assoc', bind_assoc', bind_assoc']
    refine bind_congr_ok fun t _ => ?_
    rw [bind_assoc', bind_assoc']
    refine bind_congr_ok fun ts _ => ?_
    rw [ok_bind, ok_bind]
    have hout : G.output ≠ none := by rw [f2]; simp
    cases ho : P.others with
    | nil =>
      simp only [if_true]
      rw [run_last title _ _ _ 1 _ _ (by omega) (by simp only [List.length_nil]; omega)
          (by simp only [List.length_nil]; omega)]
      rw [ok_bind]
      simp [Glob.saves, f2, ft, Proto.messages, Proto.branches, ho, Tables.note, List.map_flatMap]
    | cons b bs =>
      simp only [reduceCtorEq, if_false]
      rw [run_nil, ok_bind]
      simp [Glob.saves, f2, ft, Proto.messages, Proto.branches, ho, Tables.note, List.map_flatMap]
  · intro l
    have := fl l
    cases hl : loopItems l P.pre with
    | some its =>
      rw [hl] at this
      simp only at this
      refine ⟨[], ?_⟩
      simp only [Glob.save, this]
      rfl
    | none =>
      rw [hl] at this
      simp only [Option.map_none] at this
      simp [Glob.save, this]
  · simp only [Glob.save]; omega
  · rfl
  · rw [a2]; simp [upd]

/-- The generator on a protocol with a choice. -/
theorem generator_choice (title : Text → Text) (P : Proto) :
    generator title P.lines =
      (addMessages title (sorted P.roles) (messagesOf P.pre) (initTree (sorted P.roles) ['0'] (Tree.new [0])) >>= fun m =>
        choiceAll (sorted P.roles) ['0'] P.chooser
            { m with enums := upd m.enums (indexText [0, 0]) (P.chooser, 0) } >>= fun m =>
          treesFrom (fun j b => branchTree title (sorted P.roles) ['0'] P.pre P.chooser b
              (initSubTree (sorted P.roles) [0, j] P.chooser)) 0 P.branches >>= fun ts =>
            .ok (programOf (sorted P.roles)
              { m with
                enums := upd m.enums (indexText [0, 0]) (P.chooser, P.others.length)
                subTrees := m.subTrees ++ (ts.drop 1).reverse ++ ts.take 1 })) := by
  unfold generator
  rw [reading_choice]
  simp only [bind_assoc', ok_bind]

/-- What is known after reading a choice-free protocol. -/
theorem reading_protocol (title : Text → Text) (name : Text) (roles : List Text) (msgs : List Msg) :
    reading title (protocol name roles msgs) =
      (addMessages title (sorted roles) msgs (initTree (sorted roles) ['0'] (Tree.new [0])) >>= fun m =>
        .ok ⟨sorted roles, (msgs.map .message).foldl Tables.note Tables.empty, m⟩) := by
  unfold reading
  have : processLine title ((protocol name roles msgs).length + 1) Glob.start (Tree.new []) (Tree.new [0]) 0
      (number 0 (protocol name roles msgs)) =
      run title ⟨some name, sorted roles, fun _ => none, 1, 0, Tables.empty⟩ (Tree.new [])
        (initTree (sorted roles) ['0'] (Tree.new [0])) 0
        (number 1 ((msgs.map fun m => (⟨0, 0, false, .message m⟩ : Line)) ++ [⟨0, 1, false, .other⟩])) := by
    conv => lhs; unfold protocol; simp only [List.cons_append, number]; unfold processLine
    simp [Glob.start, header]
    exact run_eq _ _ _ _ _ _ _ (by simp [number_length])
  rw [this, run_msgs title _ 0 (by omega) _ _ _ _ _ (by omega) (by simp), bind_assoc']
  refine bind_congr_ok fun m _ => ?_
  simp only [number]
  rw [run_last title _ _ _ 0 _ _ (by omega) (by simp [Glob.saves]) (by simp [Glob.saves]), ok_bind]
  simp [Glob.saves]

end Verif.Nuscr
