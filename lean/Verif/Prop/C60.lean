import Verif.Proof.NuscrRegular
import Verif.Prop.C48

/-!
# C60: the protocol given to the external tool
-/
namespace Verif.Prop
open Verif.Nuscr Verif.NuscrSpec Verif.NuscrText Verif.NuscrTextSpec Verif.NuscrRegular

/-- Blank is white, and no character of a word is. -/
structure Whites (C : Classes) (white : Char → Bool) : Prop where
  blank : white ' ' = true
  word : ∀ c, C.word c = true → white c = false

/-- C60, lines: one line is written for each line, it depends on that line alone, and the name is the one the generator
reads in the last header, if there is any. -/
theorem C60_lines (C : Classes) (white : Char → Bool) (text : List Text) :
    (regular C white [] text).1 = text.map (regularLine C white) ∧
    ((regular C white [] text).2 = [] ∧ (∀ t ∈ text, ∀ name roles, kindOf C t ≠ .global name roles) ∨
      ∃ a t b roles, text = a ++ t :: b ∧ kindOf C t = .global (regular C white [] text).2 roles ∧
        ∀ t' ∈ b, ∀ name roles, kindOf C t' ≠ .global name roles) := by
  have key : ∀ (text : List Text) (n : Text), (regular C white n text).1 = text.map (regularLine C white) ∧
      ((regular C white n text).2 = n ∧ (∀ t ∈ text, ∀ name roles, kindOf C t ≠ .global name roles) ∨
        ∃ a t b roles, text = a ++ t :: b ∧ kindOf C t = .global (regular C white n text).2 roles ∧
          ∀ t' ∈ b, ∀ name roles, kindOf C t' ≠ .global name roles) := by
    intro text
    induction text with
    | nil => intro n; exact ⟨rfl, .inl ⟨rfl, by simp⟩⟩
    | cons t ts ih =>
      intro n
      obtain ⟨h1, h2⟩ := ih (nameAfter C n t)
      refine ⟨by simp only [regular, h1, List.map_cons], ?_⟩
      simp only [regular]
      rcases h2 with ⟨h2, h3⟩ | ⟨a, t', b, roles, e, h4, h5⟩
      · cases hs : search C rxGlobal t with
        | none =>
          left
          refine ⟨by rw [h2]; simp [nameAfter, hs], ?_⟩
          intro x hx name roles
          rcases List.mem_cons.mp hx with rfl | hx
          · unfold kindOf
            rw [hs]
            simp only
            intro hk
            repeat' split at hk
            all_goals cases hk
          · exact h3 x hx name roles
        | some x =>
          right
          refine ⟨[], t, ts, rolesOf C t, rfl, ?_, h3⟩
          rw [h2]
          simp [kindOf, nameAfter, hs]
      · right
        exact ⟨t :: a, t', b, roles, by rw [e]; rfl, h4, h5⟩
  exact key text []

theorem kind_message {C : Classes} {t : Text} {m : Msg} (h : kindOf C t = .message m) :
    search C rxGlobal t = none ∧ ∃ x, search C rxMessage t = some x ∧ msgOf C t x.2 = m := by
  unfold kindOf at h
  cases h1 : search C rxGlobal t with
  | some x => rw [h1] at h; cases h
  | none =>
    rw [h1] at h
    cases h2 : search C rxMessage t with
    | some x =>
      rw [h2] at h
      simp only [Kind.message.injEq] at h
      exact ⟨rfl, x, rfl, h⟩
    | none =>
      rw [h2] at h
      simp only at h
      repeat' split at h
      all_goals cases h

theorem starting_eq (white : Char → Bool) (t : Text) :
    starting white t = blanks (t.takeWhile fun a => white a && a != '\n').length := by
  unfold starting blanks
  exact List.map_const' ..

/-- C60, messages: whatever is on the line, if the generator reads a message in it, the tool is given that message: the same
name, payload, sender and receiver, no times, indented as the line is. -/
theorem C60_message (C : Classes) (white : Char → Bool) (t : Text) (m : Msg) (h : kindOf C t = .message m) :
    regularLine C white t =
      plainMessage (t.takeWhile fun a => white a && a != '\n').length m.message m.payload m.sender m.receiver := by
  obtain ⟨h1, x, h2, h3⟩ := kind_message h
  unfold regularLine isMatch
  rw [h1, h2, ← h3]
  simp only [Option.isSome_none, Bool.false_eq_true, if_false, msgOf]
  unfold regularMessage payloadOf
  rw [starting_eq]
  cases search C rxPayloadReset t with
  | some y => simp [untimed, plainMessage]
  | none =>
    simp only
    cases isMatch C rxReset t with
    | true => simp [untimedEmpty, plainMessage]
    | false =>
      simp only [Bool.false_eq_true, if_false]
      cases search C rxPayload t with
      | some y => simp [untimed, plainMessage]
      | none => simp [untimedEmpty, plainMessage]

/-- C60, the other lines: what the generator reads neither as a header nor as a message is given as it is. -/
theorem C60_other (C : Classes) (white : Char → Bool) (t : Text) (h1 : ∀ name roles, kindOf C t ≠ .global name roles)
    (h2 : ∀ m, kindOf C t ≠ .message m) : regularLine C white t = t := by
  have hg : search C rxGlobal t = none := by
    cases hs : search C rxGlobal t with
    | none => rfl
    | some x => exact absurd (by simp [kindOf, hs]) (h1 (x.2.get .name) (rolesOf C t))
  have hm : search C rxMessage t = none := by
    cases hs : search C rxMessage t with
    | none => rfl
    | some x => exact absurd (by simp [kindOf, hg, hs]) (h2 (msgOf C t x.2))
  unfold regularLine isMatch
  rw [hg, hm]
  rfl

/-- C60, headers: the header given is the one written without the word `timed`, the same name, the same roles, exactly if
no role whose name ends in `timed` is followed by a blank. -/
theorem C60_header_iff (C : Classes) (hC : Usual C) (white : Char → Bool) (g : Nat → Nat) (name : Text)
    (hn : IsWord C name) (rs : List (Text × Nat × Nat)) (h0 : rs ≠ []) (hw : ∀ r ∈ rs, IsWord C r.1) :
    regularLine C white (headerText g name rs) = plainHeader g name rs ↔ Clear rs := by
  obtain ⟨t, ht⟩ := search_header hC g hn h0 hw
  unfold regularLine isMatch
  rw [ht, Option.isSome_some, if_pos rfl, remove_header hC g hn hw]
  exact plainHeader_iff g name rs

theorem takeWhile_blanks {C : Classes} {white : Char → Bool} (hW : Whites C white) {w : Text} (hw : IsWord C w) (rest : Text)
    (n : Nat) : ((blanks n ++ (w ++ rest)).takeWhile fun a => white a && a != '\n').length = n := by
  induction n with
  | zero =>
    cases w with
    | nil => exact absurd rfl hw.1
    | cons a w =>
      have := hW.word a (hw.2 a (by simp))
      simp [blanks, this]
  | succ n ih =>
    have e : blanks (n + 1) = ' ' :: blanks n := List.replicate_succ ..
    rw [e, List.cons_append, List.takeWhile_cons, hW.blank]
    simp only [bne_iff_ne, ne_eq, Char.reduceEq, not_false_eq_true, Bool.true_and]
    rw [if_pos (by decide)]
    simpa using ih

/-- C60, texts: of a text that is a way of writing a protocol, with times, what is given is the way of writing it without,
if no role whose name ends in `timed` is followed by a blank. -/
theorem C60_text_partial (C : Classes) (hC : Usual C) (white : Char → Bool) (hW : Whites C white) (protocol : List Line)
    (text : List Text) (h : IsText C protocol text) (hc : ∀ t ∈ text, ClearLine t) :
    ∃ plain, (regular C white [] text).1 = plain ∧ text.length = plain.length ∧
      ∀ (i : Nat) l t t', protocol[i]? = some l → text[i]? = some t → plain[i]? = some t' → Plain C l t t' := by
  refine ⟨text.map (regularLine C white), (C60_lines C white text).1, by simp, ?_⟩
  intro i l t t' hl ht ht'
  rw [List.getElem?_map, ht] at ht'
  simp only [Option.map_some, Option.some.injEq] at ht'
  subst ht'
  have hwr : Written C l t := by
    rw [IsText, List.forall₂_iff_get] at h
    obtain ⟨hi, e⟩ := List.getElem?_eq_some_iff.mp hl
    obtain ⟨hj, e'⟩ := List.getElem?_eq_some_iff.mp ht
    rw [← e, ← e']
    exact h.2 i hi hj
  have hcl := hc t (List.mem_of_getElem? ht)
  have hk := lineOf_written hC hwr
  have hk' : kindOf C t = l.kind := by rw [← hk]; rfl
  cases hwr with
  | header name rs g hn h0 hw =>
    rw [(C60_header_iff C hC white g name hn rs h0 hw).mpr (hcl g name rs rfl)]
    exact .header name rs g hn h0 hw
  | message m payload g hm =>
    have e1 : (List.takeWhile (fun a => white a && a != '\n') (messageText g payload m)).length = g 0 := by
      have : messageText g payload m = blanks (g 0) ++ (m.message ++ (messageText g payload m).drop (g 0 + m.message.length)) := by
        unfold messageText
        rw [List.flatten_cons, List.flatten_cons, ← List.drop_drop]
        simp [blanks]
      rw [this]
      exact takeWhile_blanks hW hm.message _ _
    rw [C60_message C white _ m hk', e1]
    exact .message m payload g hm
  | loop name g hn =>
    have hw : Written C ⟨1, 0, false, .loop name⟩ (loopText g name) := .loop name g hn
    rw [C60_other C white _ (by rw [hk']; simp) (by rw [hk']; simp)]
    exact .same _ _ hw (by simp) (by simp)
  | choice x g hx =>
    rw [C60_other C white _ (by rw [hk']; simp) (by rw [hk']; simp)]
    exact .same _ _ (.choice x g hx) (by simp) (by simp)
  | or g =>
    rw [C60_other C white _ (by rw [hk']; simp) (by rw [hk']; simp)]
    exact .same _ _ (.or g) (by simp) (by simp)
  | jump name g hn =>
    rw [C60_other C white _ (by rw [hk']; simp) (by rw [hk']; simp)]
    exact .same _ _ (.jump name g hn) (by simp) (by simp)
  | close g =>
    rw [C60_other C white _ (by rw [hk']; simp) (by rw [hk']; simp)]
    exact .same _ _ (.close g) (by simp) (by simp)

/-- C60, times: the answer of the tool does not depend on the times.  Two messages with the same name, payload, sender,
receiver and indentation are given as the same line, whatever the intervals, the clocks, the resets and the blanks. -/
theorem C60_times (C : Classes) (hC : Usual C) (white : Char → Bool) (hW : Whites C white) (g g' : Nat → Nat)
    (payload : Option Text) (m m' : Msg) (h : Wellwritten C payload m) (h' : Wellwritten C payload m') (hg : g 0 = g' 0)
    (h1 : m.message = m'.message) (h2 : m.sender = m'.sender) (h3 : m.receiver = m'.receiver) :
    regularLine C white (messageText g payload m) = regularLine C white (messageText g' payload m') := by
  have e : ∀ (g : Nat → Nat) (m : Msg), Wellwritten C payload m → regularLine C white (messageText g payload m) =
      plainMessage (g 0) m.message m.payload m.sender m.receiver := by
    intro g m hm
    have e1 : (List.takeWhile (fun a => white a && a != '\n') (messageText g payload m)).length = g 0 := by
      have : messageText g payload m = blanks (g 0) ++ (m.message ++ (messageText g payload m).drop (g 0 + m.message.length)) := by
        unfold messageText
        rw [List.flatten_cons, List.flatten_cons, ← List.drop_drop]
        simp [blanks]
      rw [this]
      exact takeWhile_blanks hW hm.message _ _
    rw [C60_message C white _ m (kindOf_message hC hm), e1]
  rw [e g m h, e g' m' h', hg, h1, h2, h3, h.agrees, h'.agrees]

/-- C60, the command: between `nuscr --generate-sexp=` and the blank before the name of the file there are only characters
of words, whatever the text; so no text makes the shell do anything else. -/
theorem C60_command (C : Classes) (white : Char → Bool) (text : List Text) :
    ∀ c ∈ (regular C white [] text).2, C.word c = true := by
  rcases (C60_lines C white text).2 with ⟨h, _⟩ | ⟨a, t, b, roles, _, h, _⟩
  · simp [h]
  · unfold kindOf at h
    cases hs : search C rxGlobal t with
    | none =>
      rw [hs] at h
      simp only at h
      repeat' split at h
      all_goals cases h
    | some x =>
      rw [hs] at h
      simp only [Kind.global.injEq] at h
      rw [← h.1]
      exact name_word C t x hs

/-- C60, the command for a protocol: its name is asked for. -/
theorem C60_name (C : Classes) (hC : Usual C) (white : Char → Bool) (name : Text) (roles : List Text) (l : Line)
    (ls : List Line) (text : List Text) (h : IsText C (l :: ls) text) (hl : l.kind = .global name roles)
    (hls : ∀ l ∈ ls, ∀ name roles, l.kind ≠ .global name roles) (file : Text) (shell : Shell) :
    checkFsm C white false shell file text =
      if shell ("nuscr --generate-sexp=".toList ++ name ++ " ".toList ++ file ++ ".nuscr".toList)
        (text.map (regularLine C white)) = [] then .error (.issue name) else .ok () := by
  have hname : (regular C white [] text).2 = name := by
    have hk := lines_written hC h
    rcases (C60_lines C white text).2 with ⟨_, h2⟩ | ⟨a, t, b, roles', e, h2, h3⟩
    · cases text with
      | nil => cases hk
      | cons t ts =>
        simp only [List.map_cons, List.cons.injEq] at hk
        exact absurd (by rw [← hl, ← hk.1]; rfl) (h2 t (by simp) name roles)
    · cases a with
      | nil =>
        subst e
        simp only [List.nil_append, List.map_cons, List.cons.injEq] at hk
        have : kindOf C t = .global name roles := by rw [← hl, ← hk.1]; rfl
        rw [h2] at this
        simp only [Kind.global.injEq] at this
        exact this.1
      | cons a0 a =>
        subst e
        simp only [List.cons_append, List.map_cons, List.cons.injEq] at hk
        have : lineOf C t ∈ ls := by rw [← hk.2]; simp
        exact absurd h2 (hls _ this _ _)
  unfold checkFsm
  simp only [Bool.false_eq_true, if_false, hname, (C60_lines C white text).1, command, List.isEmpty_iff]
  simp only [List.append_assoc]
  rfl

/-- C60, the check: with it, a program is generated exactly if the tool has something to say about the protocol and one
would be generated without; without it, the tool is not asked. -/
theorem C60_gate (title : Text → Text) (C : Classes) (white : Char → Bool) (shell : Shell) (file : Text) (text : List Text)
    (p : Program) :
    (generatorChecked title C white false shell file true text = .ok p ↔
      shell (command (regular C white [] text).2 (file ++ ['.', 'n', 'u', 's', 'c', 'r'])) (text.map (regularLine C white)) ≠ [] ∧
        generatorText title C text = .ok p) ∧
    (∀ windows shell' file', generatorChecked title C white windows shell' file' false text = .ok p ↔
      generatorText title C text = .ok p) ∧
    generatorChecked title C white true shell file true text = .error .notSupported := by
  refine ⟨?_, ?_, rfl⟩
  · unfold generatorChecked checkFsm
    simp only [if_true, Bool.false_eq_true, if_false, (C60_lines C white text).1]
    cases hs : shell (command (regular C white [] text).2 (file ++ ['.', 'n', 'u', 's', 'c', 'r']))
        (text.map (regularLine C white)) with
    | nil => simp
    | cons a s =>
      simp only [List.isEmpty_cons, Bool.false_eq_true, if_false]
      cases generatorText title C text <;> simp
  · intro windows shell' file'
    unfold generatorChecked
    simp only [Bool.false_eq_true, if_false]
    cases generatorText title C text <;> simp

end Verif.Prop
