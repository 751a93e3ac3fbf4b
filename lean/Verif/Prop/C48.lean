import Verif.Proof.NuscrHeader
import Verif.Prop.C47

/-!
# C48: reading the text of a protocol
-/
namespace Verif.Prop
open Verif.Nuscr Verif.NuscrSpec Verif.NuscrText Verif.NuscrTextSpec

/-- C48, matching: `is_match` answers whether some part of the line is described by the regular expression. -/
theorem C48_matcher (C : Classes) (r : Rx) (t : Text) :
    isMatch C r t = true ↔ ∃ a s b, t = a ++ s ++ b ∧ Describes C r s := search_isSome C r t

/-- C48, lines: however it is indented and spaced, a line is read as the line meant. -/
theorem C48_reads (C : Classes) (hC : Usual C) (l : Line) (t : Text) (h : Written C l t) : lineOf C t = l :=
  lineOf_written hC h

/-- C48, payloads: the payload of a message is the one written, and none if none is. -/
theorem C48_payload (C : Classes) (hC : Usual C) (g : Nat → Nat) (payload : Option Text) (m : Msg)
    (h : Wellwritten C payload m) : payloadOf C (messageText g payload m) = payload.getD [] := payloadOf_message hC h

/-- C48, texts: of a text that is a way of writing a protocol, the result is that of the protocol; so what C29, C43 and C47
say of protocols they say of their texts. -/
theorem C48_generator (title : Text → Text) (C : Classes) (hC : Usual C) (protocol : List Line) (text : List Text)
    (h : IsText C protocol text) : generatorText title C text = generator title protocol := by
  unfold generatorText
  rw [lines_written hC h]

/-- A line the generator has nothing to do with. -/
def Blank (l : Line) : Prop := l.opens = 0 ∧ l.closes = 0 ∧ (l.empty = true ∨ l.kind = .other)

/-- The messages, with such lines in between. -/
inductive Padded : List Msg → List Line → Prop where
  | nil : Padded [] []
  | blank (l ms ls) : Blank l → Padded ms ls → Padded ms (l :: ls)
  | message (m ms ls) : Padded ms ls → Padded (m :: ms) (⟨0, 0, false, .message m⟩ :: ls)

theorem run_blank (title : Text → Text) (g : Glob) (parent main : Tree) (offset n : Nat) (rest : List (Nat × Line)) (l : Line)
    (hl : Blank l) (hn : 0 < n) (ho : offset ≤ 1) (hg : g.closing + offset < g.opening) :
    run title g parent main offset ((n, l) :: rest) = run title g parent main offset rest := by
  obtain ⟨o, c, e, k⟩ := l
  obtain ⟨h1, h2, h3⟩ := hl
  simp only at h1 h2 h3
  subst h1 h2
  unfold run
  conv => lhs; unfold processLine
  simp only [Nat.add_zero]
  rw [if_neg (by omega), if_neg (by omega), if_neg (by omega)]
  cases e with
  | true => simp only [if_true]; rfl
  | false =>
    simp only [Bool.false_eq_true, if_false, false_or] at h3 ⊢
    subst h3
    simp only
    rw [if_neg (by omega)]
    rfl

theorem run_padded (title : Text → Text) (parent : Tree) {ms : List Msg} {ls : List Line} (h : Padded ms ls)
    (rest : List Line) : ∀ (n : Nat) (g : Glob) (main : Tree), 0 < n → g.closing < g.opening →
    run title g parent main 0 (number n (ls ++ rest)) =
      (addMessages title g.roles ms main >>= fun main' =>
        run title (g.saves (ms.map .message)) parent main' 0 (number (n + ls.length) rest)) := by
  induction h with
  | nil => intro n g main _ _; simp [addMessages, saves_nil, pure, Except.pure, ok_bind]
  | blank l ms ls hl _ ih =>
    intro n g main hn hg
    simp only [List.cons_append, number]
    rw [run_blank title g parent main 0 n _ l hl hn (by omega) (by omega), ih (n + 1) g main (by omega) hg]
    simp only [List.length_cons, Nat.add_assoc, Nat.add_comm 1]
  | message m ms ls _ ih =>
    intro n g main hn hg
    simp only [List.cons_append, number]
    rw [run_message title g parent main 0 n _ m hn (by omega) (by omega)]
    unfold addMessages
    rw [List.foldlM_cons, bind_assoc']
    refine bind_congr_ok fun main' _ => ?_
    rw [ih (n + 1) _ main' (by omega) (by simpa [Glob.save] using hg)]
    simp only [List.length_cons, Nat.add_assoc, Nat.add_comm 1, List.map_cons, save_saves]
    rfl

/-- C48, lines that say nothing, and the end: in a choice-free protocol, lines the generator has nothing to do with change
nothing, and neither does anything written after the closing bracket. -/
theorem C48_blank_lines (title : Text → Text) (name : Text) (roles : List Text) (msgs : List Msg) (ls after : List Line)
    (h : Padded msgs ls) :
    generator title (⟨1, 0, false, .global name roles⟩ :: ls ++ ⟨0, 1, false, .other⟩ :: after) =
      generator title (protocol name roles msgs) := by
  unfold protocol
  rw [List.cons_append, List.cons_append, generator_header, generator_header]
  rw [run_padded title _ h _ 1 _ _ (by omega) (by simp), run_msgs title _ 0 (by omega) _ _ 1 _ _ (by omega) (by simp)]
  simp only [bind_assoc']
  refine bind_congr_ok fun m1 h1 => ?_
  simp only [number]
  rw [run_last title _ _ _ 0 _ _ (by omega) (by simp [Glob.saves]) (by simp [Glob.saves]),
    run_last title _ _ _ 0 _ _ (by omega) (by simp [Glob.saves]) (by simp [Glob.saves])]
  rfl

/-- C48, such lines: those with no bracket in them and none of the three words. -/
theorem C48_blank_text (C : Classes) (t : Text) (h1 : '(' ∉ t) (h2 : '{' ∉ t) (h3 : '}' ∉ t)
    (h4 : ¬ ['c', 'h', 'o', 'i', 'c', 'e'] <:+: t) (h5 : ¬ ['r', 'e', 'c'] <:+: t)
    (h6 : ¬ ['c', 'o', 'n', 't', 'i', 'n', 'u', 'e'] <:+: t) : Blank (lineOf C t) := by
  refine ⟨List.count_eq_zero.mpr h2, List.count_eq_zero.mpr h3, .inr ?_⟩
  have hp := no_paren C h1
  show kindOf C t = .other
  unfold kindOf rxMessage
  rw [hp.1, hp.2, show search C rxChoice t = none from search_needs (w := ['c', 'h', 'o', 'i', 'c', 'e']) (by simp) h4,
    no_close h3, show search C rxRec t = none from search_needs (w := ['r', 'e', 'c']) (by simp) h5,
    show search C rxContinue t = none from search_needs (w := ['c', 'o', 'n', 't', 'i', 'n', 'u', 'e']) (by simp) h6]
  rfl

theorem run_stop_blank (title : Text → Text) (g : Glob) (parent main : Tree) (offset n : Nat) (rest : List (Nat × Line))
    (l : Line) (hl : Blank l) (ho : offset ≤ 1) (hc : g.closing ≤ g.opening) (hg : g.opening ≤ g.closing + offset) :
    run title g parent main offset ((n, l) :: rest) = .ok ⟨g, parent, main, offset, rest⟩ := by
  obtain ⟨o, c, e, k⟩ := l
  obtain ⟨h1, h2, h3⟩ := hl
  simp only at h1 h2 h3
  subst h1 h2
  unfold run
  conv => lhs; unfold processLine
  simp only [Nat.add_zero]
  rw [if_neg (by omega), if_neg (by omega), if_pos hg, if_neg (by omega)]

/-- C48, after a choice that is not so: two empty lines between the end of a choice and the end of the protocol, and the
protocol is rejected, whatever it is. -/
theorem C48_blank_after_choice (title : Text → Text) (name : Text) (roles : List Text) (x : Text) (a b : List Msg) (l k : Line)
    (hl : Blank l) (hk : Blank k) : ¬ ∃ prog, generator title (twoBranches name roles x a b [l, k]) = .ok prog := by
  rintro ⟨prog, h⟩
  unfold twoBranches at h
  rw [generator_header] at h
  simp only [number] at h
  rw [run_choice title _ _ _ 0 _ _ x (by omega) (by omega) (by simp)] at h
  simp only [bind_assoc'] at h
  obtain ⟨m1, h1, h⟩ := bind_ok h
  rw [run_msgs title _ 1 (by omega) _ _ _ _ _ (by omega) (by simp [Glob.save])] at h
  simp only [bind_assoc'] at h
  obtain ⟨m2, h2, h⟩ := bind_ok h
  have e1 := (choiceAll_index h1).2.1
  have i2 := (add_index h2).1
  have hx : m1.enums (indexText (m2.index.dropLast ++ [0])) = some (x, 0) := by
    rw [e1, i2]
    rfl
  simp only [number] at h
  rw [run_or title _ _ _ 1 _ _ (by omega) (by omega) (by simp [Glob.save, Glob.saves]) x 0 hx] at h
  simp only [bind_assoc'] at h
  rw [run_msgs title _ 1 (by omega) _ _ _ _ _ (by omega) (by simp [Glob.save, Glob.saves])] at h
  simp only [bind_assoc'] at h
  obtain ⟨m3, h3, h⟩ := bind_ok h
  simp only [number, List.cons_append, List.nil_append] at h
  rw [run_last title _ _ _ 1 _ _ (by omega) (by simp [Glob.save, Glob.saves]) (by simp [Glob.save, Glob.saves]), ok_bind] at h
  simp only at h
  rw [run_stop_blank title _ _ _ 1 _ _ l hl (by omega) (by simp [Glob.save, Glob.saves]) (by simp [Glob.save, Glob.saves]),
    ok_bind] at h
  simp only at h
  rw [run_stop_blank title _ _ _ 1 _ _ k hk (by omega) (by simp [Glob.save, Glob.saves]) (by simp [Glob.save, Glob.saves]),
    ok_bind] at h
  simp [Glob.save, Glob.saves] at h

/-! Concrete texts. -/

deriving instance DecidableEq for Kind

/-- Letters, digits and the underscore. -/
def ascii : Classes := ⟨fun c => c.isAlphanum || c == '_', fun c => c.isDigit⟩

theorem ascii_usual : Usual ascii := ⟨by decide, by decide⟩

def one : Nat → Nat := fun _ => 0

theorem ab_written (payload : Option Text) (hp : ∀ x, payload = some x → IsWord ascii x) (label : Text)
    (hl : IsWord ascii label) (l r : Char) (h1 : l.isDigit = true) (h2 : r.isDigit = true) :
    Wellwritten ascii payload { ab label l r with payload := payload.getD [] } where
  agrees := rfl
  message := hl
  payload := hp
  sender := ⟨by simp [ab], by simp [ab]; decide⟩
  receiver := ⟨by simp [ab], by simp [ab]; decide⟩
  leftBound := ⟨by simp [ab], by simp [ab, ascii, h1]⟩
  rightBound := ⟨by simp [ab], by simp [ab, ascii, h2]⟩
  clock := ⟨by simp [ab], by simp [ab]; decide⟩
  reset := by simp [ab]

/-- A text of a protocol with one message, one blank everywhere, indented. -/
example : ∃ text, IsText ascii (protocol ['P'] [['A'], ['B']] [{ ab ['M'] '0' '1' with payload := ['x'] }]) text ∧ text.length = 3 ∧
    ∃ prog, generatorText id ascii text = .ok prog := by
  have h : IsText ascii (protocol ['P'] [['A'], ['B']] [{ ab ['M'] '0' '1' with payload := ['x'] }])
      [headerText one ['P'] [(['A'], 0, 1), (['B'], 0, 0)], messageText (fun _ => 4) (some ['x']) { ab ['M'] '0' '1' with payload := ['x'] },
        closeText one] := by
    refine .cons (.header ['P'] [(['A'], 0, 1), (['B'], 0, 0)] one ⟨by simp, by decide⟩ (by simp) ?_)
      (.cons (.message _ _ _ (ab_written _ ?_ _ ⟨by simp, by decide⟩ _ _ (by decide) (by decide))) (.cons (.close one) .nil))
    · intro r hr
      simp only [List.mem_cons, List.not_mem_nil, or_false] at hr
      rcases hr with rfl | rfl <;> exact ⟨by simp, by decide⟩
    · rintro x ⟨⟩
      exact ⟨by simp, by decide⟩
  refine ⟨_, h, rfl, ?_⟩
  rw [C48_generator id ascii ascii_usual _ _ h, ← okB_iff]
  decide

/-- The header written so. -/
example : headerText one ['P'] [(['A'], 0, 1), (['B'], 0, 0)] = "timed global protocol P(role A, role B){".toList := by decide

/-- C48, comments: a message that has been commented out is read all the same. -/
theorem C48_comment : kindOf ascii (['/', '/', ' '] ++ messageText one none (ab ['M'] '0' '1')) =
    .message (ab ['M'] '0' '1') := by decide +kernel

/-- C48, one message per line: of two messages on a line the first is read, with the reset and the payload of the
second, and the second is lost. -/
theorem C48_two_messages : kindOf ascii (messageText one none (ab ['M'] '0' '1') ++
      ' ' :: messageText one (some ['x']) { ab ['N'] '2' '3' with reset := some ['a'] }) =
    .message { ab ['M'] '0' '1' with reset := some ['a'], payload := ['x'] } := by decide +kernel

/-- C48, `or` must stand between the brackets: on a line of its own it is not seen. -/
theorem C48_or_alone : kindOf ascii ['o', 'r', ' ', '{'] = .other ∧ kindOf ascii ['}'] = .other ∧
    kindOf ascii ['}', ' ', 'o', 'r', ' ', '{'] = .or := by decide +kernel

/-- C48, the roles of the header: with two blanks after `role` the header is accepted, but the role is not one of the
roles; without a blank before `role` two roles become one. -/
theorem C48_roles :
    kindOf ascii ("timed global protocol P(role A, role  B, role C) {".toList) = .global ['P'] [['A'], ['C']] ∧
    kindOf ascii ("timed global protocol P(role Arole B) {".toList) =
      .global ['P'] [['A', 'r', 'o', 'l', 'e']] := by decide +kernel

/-- `\d` as it is by default, with the digits of other scripts; here those of one. -/
def unicode : Classes := ⟨fun c => c.isAlphanum || c == '_', fun c => c.isDigit || ('٠' ≤ c && c ≤ '٩')⟩

/-- Whether the generator panics. -/
def panics {α : Type} : Except Fault α → Bool
  | .error .panicked => true
  | _ => false

/-- C48, digits: a bound written with the digits of another script is read, and then the generator panics. -/
theorem C48_digits : Usual unicode ∧ IsNumber unicode ['٣'] ∧
    panics (generatorText id unicode [headerText one ['P'] [(['A'], 0, 1), (['B'], 0, 0)],
      messageText one none { ab ['M'] '0' '1' with rightBound := ['٣'] },
      messageText one none (ab ['N'] '5' '6'), closeText one]) = true :=
  ⟨⟨by decide, by decide⟩, ⟨by simp, by decide⟩, by decide +kernel⟩

end Verif.Prop
