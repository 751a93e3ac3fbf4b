import Verif.Prop.C73_Continue

/-!
# C73: `} or {` on several lines, in a loop
-/
namespace Verif.Prop
open Verif.Nuscr Verif.NuscrSpec Verif.NuscrText Verif.NuscrTextSpec Verif.NuscrLayout Verif.EndToEnd

/-- The protocol with one more branch, the first, of the messages `ms`; between it and the next the brackets are on lines of
their own, with the lines `ss` between them. -/
def Proto.linesApart (ms : List Msg) (ss : List Line) (P : Proto) : List Line :=
  ⟨1, 0, false, .global P.name P.roles⟩ :: (P.pre.map Item.line ++
    (⟨1, 0, false, .choice P.chooser⟩ :: ((ms.map fun m => ⟨0, 0, false, .message m⟩) ++
    (⟨0, 1, false, .other⟩ :: (ss ++ ⟨1, 0, false, .other⟩ :: (P.first.lines ++
    (P.others.flatMap (fun b => ⟨1, 1, false, .or⟩ :: b.lines) ++
    List.replicate (loopCount P.pre + 2) ⟨0, 1, false, .other⟩)))))))

/-- The protocol in which the messages `ms` come before those of the first branch, in the same branch. -/
def Proto.merged (ms : List Msg) (P : Proto) : Proto := { P with first := ⟨ms ++ P.first.msgs, P.first.back⟩ }

theorem loose_refl : ∀ (ls : List Line) (d : Nat) (c : Bool), Loose d c ls ls
  | [], d, c => .nil d c
  | l :: ls, d, c => .line d c l ls ls (loose_refl ls _ _)

theorem loose_append {ls ls' : List Line} : ∀ (pre : List Line) (d : Nat) (c : Bool),
    Loose (pre.foldl (fun d l => d + l.opens - l.closes) d) (pre.foldl (fun c l => c || isChoice l.kind) c) ls ls' →
    Loose d c (pre ++ ls) (pre ++ ls')
  | [], _, _, h => h
  | l :: pre, d, c, h => .line d c l _ _ (loose_append pre _ _ h)

theorem fold_items : ∀ (is : List Item) (d : Nat), (is.map Item.line).foldl (fun d l => d + l.opens - l.closes) d = d + loopCount is
  | [], d => rfl
  | .msg m :: is, d => by
    simp only [List.map_cons, List.foldl_cons, Item.line, Nat.add_zero, Nat.sub_zero, loopCount]
    exact fold_items is d
  | .loop x :: is, d => by
    simp only [List.map_cons, List.foldl_cons, Item.line, Nat.sub_zero, loopCount]
    rw [fold_items is]
    omega

theorem fold_msgs : ∀ (ms : List Msg) (d : Nat),
    (ms.map fun m => (⟨0, 0, false, .message m⟩ : Line)).foldl (fun d l => d + l.opens - l.closes) d = d
  | [], _ => rfl
  | m :: ms, d => by
    simp only [List.map_cons, List.foldl_cons, Nat.add_zero, Nat.sub_zero]
    exact fold_msgs ms d

theorem fold_true : ∀ (ls : List Line), ls.foldl (fun c l => c || isChoice l.kind) true = true
  | [] => rfl
  | l :: ls => by
    simp only [List.foldl_cons, Bool.true_or]
    exact fold_true ls

/-- C73, `or` in a loop: with its brackets on other lines it is not seen, and the two branches become one, in which the
messages of both are to be exchanged. -/
theorem C73_or_merged (title : Text → Text) (P : Proto) (ms : List Msg) (ss : List Line) (hs : ∀ s ∈ ss, Silent s)
    (hl : 1 ≤ loopCount P.pre) (prog : Program) :
    generator title (Proto.linesApart ms ss P) = .ok prog ↔ generator title (Proto.merged ms P).lines = .ok prog := by
  have e : (Proto.merged ms P).lines = (⟨1, 0, false, .global P.name P.roles⟩ :: (P.pre.map Item.line ++
      (⟨1, 0, false, .choice P.chooser⟩ :: (ms.map fun m => ⟨0, 0, false, .message m⟩)))) ++ (P.first.lines ++
      (P.others.flatMap (fun b => ⟨1, 1, false, .or⟩ :: b.lines) ++
      List.replicate (loopCount P.pre + 2) ⟨0, 1, false, .other⟩)) := by
    simp [Proto.lines, Proto.merged, Branch.lines]
  have e' : Proto.linesApart ms ss P = (⟨1, 0, false, .global P.name P.roles⟩ :: (P.pre.map Item.line ++
      (⟨1, 0, false, .choice P.chooser⟩ :: (ms.map fun m => ⟨0, 0, false, .message m⟩)))) ++
      (⟨0, 1, false, .other⟩ :: (ss ++ ⟨1, 0, false, .other⟩ :: (P.first.lines ++
      (P.others.flatMap (fun b => ⟨1, 1, false, .or⟩ :: b.lines) ++
      List.replicate (loopCount P.pre + 2) ⟨0, 1, false, .other⟩)))) := by
    simp [Proto.linesApart]
  have h : Loose 0 false (Proto.merged ms P).lines (Proto.linesApart ms ss P) := by
    rw [e, e']
    refine loose_append _ _ _ ?_
    simp only [List.foldl_cons, List.foldl_append, fold_items, fold_msgs, show isChoice (.choice P.chooser) = true from rfl, Bool.or_true, fold_true,
      Nat.sub_zero, Nat.zero_add]
    refine .pause (1 + loopCount P.pre) true ss _ _ hs ⟨by omega, fun _ => by omega⟩ ?_ ?_
    · simp [List.replicate_succ]
    · exact loose_refl _ _ _
  unfold generator
  constructor
  · intro h1
    obtain ⟨k, hk, h1⟩ := bind_ok h1
    rw [(loose_reading title h k).mpr hk]
    exact h1
  · intro h1
    obtain ⟨k, hk, h1⟩ := bind_ok h1
    rw [(loose_reading title h k).mp hk]
    exact h1

/-- The lines `}`, `or` and `{`. -/
theorem or_apart_lines : lineOf ascii ['}'] = ⟨0, 1, false, .other⟩ ∧ lineOf ascii ['o', 'r'] = ⟨0, 0, false, .other⟩ ∧
    lineOf ascii ['{'] = ⟨1, 0, false, .other⟩ ∧ lineOf ascii ['}', ' ', 'o', 'r'] = ⟨0, 1, false, .other⟩ ∧
    lineOf ascii ['o', 'r', ' ', '{'] = ⟨1, 0, false, .other⟩ := by decide +kernel

/-- Again and again, `A` asks, or stops. -/
def askOrStop : Proto :=
  ⟨['P'], [['A'], ['B']], [.loop ['L']], ['A'], ⟨[ab ['S'] '0' '9'], none⟩, []⟩

/-- The text with `}`, `or` and `{` on three lines is accepted, and has one branch, of both messages. -/
example : (∃ prog, generator id (Proto.linesApart [ab ['M'] '0' '9'] [⟨0, 0, false, .other⟩] askOrStop) = .ok prog) ∧
    (Proto.merged [ab ['M'] '0' '9'] askOrStop).branches = [⟨[ab ['M'] '0' '9', ab ['S'] '0' '9'], none⟩] := by
  refine ⟨?_, rfl⟩
  obtain ⟨prog, h⟩ := (okB_iff (generator id (Proto.merged [ab ['M'] '0' '9'] askOrStop).lines)).mp (by decide +kernel)
  exact ⟨prog, (C73_or_merged id askOrStop _ _ (by simp [Silent]) (by decide) prog).mpr h⟩

end Verif.Prop
