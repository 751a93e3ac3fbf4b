import Verif.Model.Nuscr

/-!
# Model of the reading of protocol texts: the regular expressions of the top-down generator

`/repo/src/top_down_nuscr/auxiliary_objects/regex_nuscr.rs` and their uses in `process_line.rs` and `line_is_message.rs`.
The crate `regex` is not part of the repository: its documented semantics, leftmost start and then the first match a
backtracking matcher would find, is modelled by such a matcher.  The classes `\w` and `\d` are parameters.
-/
namespace Verif.NuscrText
open Verif.Nuscr

/-- The characters matched by `\w` and `\d`. -/
structure Classes where
  word : Char → Bool
  digit : Char → Bool

/-- A class of characters. -/
inductive Cls where
  | one (c : Char)
  | word
  | digit
  deriving DecidableEq

def Cls.has (C : Classes) : Cls → Char → Bool
  | .one c, a => a == c
  | .word, a => C.word a
  | .digit, a => C.digit a

/-- The named groups. -/
inductive Group where
  | name | choice | message | payload | sender | receiver | leftBracket | leftBound | rightBound | rightBracket | clock
  | reset | loop
  deriving DecidableEq

/-- Regular expressions. -/
inductive Rx where
  | eps
  | cls (c : Cls)
  | seq (a b : Rx)
  | alt (a b : Rx)
  | star (a : Rx)
  | cap (g : Group) (a : Rx)
  deriving DecidableEq

/-- The captures, the last one first. -/
abbrev Caps := List (Group × Text)

/-- What is to be done with the rest of the text. -/
abbrev Cont := Text → Caps → Option (Text × Caps)

/-- Greedy repetition, at most `n` times, each time consuming something. -/
def iter (step : Cont → Cont) (k : Cont) : Nat → Cont
  | 0, t, c => k t c
  | n + 1, t, c =>
    match step (fun t' c' => if t'.length < t.length then iter step k n t' c' else none) t c with
    | some r => some r
    | none => k t c

/-- The backtracking matcher. -/
def Rx.run (C : Classes) : Rx → Cont → Cont
  | .eps, k => k
  | .cls x, k => fun t c =>
    match t with
    | [] => none
    | a :: t => if x.has C a then k t c else none
  | .seq a b, k => a.run C (b.run C k)
  | .alt a b, k => fun t c =>
    match a.run C k t c with
    | some r => some r
    | none => b.run C k t c
  | .star a, k => fun t c => iter (a.run C) k t.length t c
  | .cap g a, k => fun t c => a.run C (fun t' c' => k t' ((g, t.take (t.length - t'.length)) :: c')) t c

/-- The end of a match. -/
def done : Cont := fun t c => some (t, c)

/-- `captures`: the match with the leftmost start; the rest of the text and the captures. -/
def search (C : Classes) (r : Rx) : Text → Option (Text × Caps)
  | [] => r.run C done [] []
  | a :: t =>
    match r.run C done (a :: t) [] with
    | some x => some x
    | none => search C r t

/-- `is_match`. -/
def isMatch (C : Classes) (r : Rx) (t : Text) : Bool := (search C r t).isSome

/-- `captures_iter`: the successive matches, none of which is empty in the use made of it; at most `n`. -/
def searchAll (C : Classes) (r : Rx) : Nat → Text → List Caps
  | 0, _ => []
  | n + 1, t =>
    match search C r t with
    | some (t', c) => c :: searchAll C r n t'
    | none => []

/-- `captured_fields[..]`. -/
def Caps.get (c : Caps) (g : Group) : Text :=
  match c.find? (fun x => x.1 == g) with
  | some x => x.2
  | none => []

/-! The regular expressions, `regex_nuscr.rs:3-43`. -/

/-- Parts one after another. -/
def seqs : List Rx → Rx
  | [] => .eps
  | r :: rs => .seq r (seqs rs)

def lit (s : Text) : Rx := seqs (s.map fun c => .cls (.one c))
/-- `( *)` -/
def sp0 : Rx := .star (.cls (.one ' '))
/-- `( +)` -/
def sp1 : Rx := .seq (.cls (.one ' ')) sp0
/-- `\w*` -/
def word0 : Rx := .star (.cls .word)
/-- `\w+` -/
def word1 : Rx := .seq (.cls .word) word0
/-- `\d+` -/
def num1 : Rx := .seq (.cls .digit) (.star (.cls .digit))
/-- `(\[|\])` -/
def bracket : Rx := .alt (.cls (.one '[')) (.cls (.one ']'))
/-- `r?` -/
def opt (r : Rx) : Rx := .alt r .eps
/-- `r+` -/
def plus (r : Rx) : Rx := .seq r (.star r)

/-- `role( +)\w+( *),?( *)` -/
def rxRoles : Rx := seqs [lit ['r', 'o', 'l', 'e'], sp1, word1, sp0, opt (lit [',']), sp0]

/-- `GLOBAL_PROTOCOL` -/
def rxGlobal : Rx := seqs
  [lit ['t', 'i', 'm', 'e', 'd'], sp1, lit ['g', 'l', 'o', 'b', 'a', 'l'], sp1,
    lit ['p', 'r', 'o', 't', 'o', 'c', 'o', 'l'], sp1, .cap .name word1, lit ['('], plus rxRoles, lit [')'], sp0,
    opt (lit ['{'])]

/-- `ROLE` -/
def rxRole : Rx := seqs [lit ['r', 'o', 'l', 'e', ' '], .cap .name word1]

/-- `CHOICE` -/
def rxChoice : Rx := seqs
  [lit ['c', 'h', 'o', 'i', 'c', 'e'], sp1, lit ['a', 't'], sp1, .cap .choice word1, sp0, opt (lit ['{'])]

/-- `OR` -/
def rxOr : Rx := seqs [lit ['}'], sp0, lit ['o', 'r'], sp0, lit ['{']]

/-- `MESSAGE`, `MESSAGE_WITH_PAYLOAD`, `MESSAGE_WITH_RESET` and `MESSAGE_WITH_PAYLOAD_AND_RESET` differ only in what they
have between the brackets. -/
def rxMsg (payload reset : Rx) : Rx := seqs
  [.cap .message word1, lit ['('], payload, lit [')'], sp1, lit ['f', 'r', 'o', 'm'], sp1, .cap .sender word1, sp1,
    lit ['t', 'o'], sp1, .cap .receiver word1, sp1, lit ['w', 'i', 't', 'h', 'i', 'n'], sp1, .cap .leftBracket bracket,
    sp0, .cap .leftBound num1, sp0, lit [';'], sp0, .cap .rightBound num1, sp0, .cap .rightBracket bracket, sp1,
    lit ['u', 's', 'i', 'n', 'g'], sp1, .cap .clock word1, sp1, lit ['a', 'n', 'd'], sp1,
    lit ['r', 'e', 's', 'e', 't', 't', 'i', 'n', 'g'], sp1, lit ['('], reset, lit [')'], sp0, lit [';']]

def rxMessage : Rx := rxMsg word0 word0
def rxPayload : Rx := rxMsg (.cap .payload word1) .eps
def rxReset : Rx := rxMsg .eps (.cap .reset word1)
def rxPayloadReset : Rx := rxMsg (.cap .payload word1) (.cap .reset word1)

/-- `REC` -/
def rxRec : Rx := seqs [lit ['r', 'e', 'c'], sp1, .cap .loop word1]

/-- `CONTINUE` -/
def rxContinue : Rx := seqs
  [lit ['c', 'o', 'n', 't', 'i', 'n', 'u', 'e'], sp1, .cap .loop word1, sp0, lit [';']]

/-- The bracket captured. -/
def bracketOf (t : Text) : Bracket := if t = ['['] then .opening else .closing

/-- The reset clock, `line_is_message.rs:86-148`. -/
def resetOf (C : Classes) (t : Text) : Option Text :=
  match search C rxPayloadReset t with
  | some x => some (x.2.get .reset)
  | none =>
    match search C rxReset t with
    | some x => some (x.2.get .reset)
    | none => none

/-- The payload, `line_is_message.rs:91-170`; none is written as the empty text. -/
def payloadOf (C : Classes) (t : Text) : Text :=
  match search C rxPayloadReset t with
  | some x => x.2.get .payload
  | none =>
    if isMatch C rxReset t then []
    else
      match search C rxPayload t with
      | some x => x.2.get .payload
      | none => []

/-- The fields of a message, `line_is_message.rs:22-31,74-165`. -/
def msgOf (C : Classes) (t : Text) (c : Caps) : Msg where
  sender := c.get .sender
  receiver := c.get .receiver
  message := c.get .message
  clock := c.get .clock
  leftBound := c.get .leftBound
  leftBracket := bracketOf (c.get .leftBracket)
  rightBound := c.get .rightBound
  rightBracket := bracketOf (c.get .rightBracket)
  reset := resetOf C t
  payload := payloadOf C t

/-- The roles named in the header, `process_line.rs:158,170`. -/
def rolesOf (C : Classes) (t : Text) : List Text := (searchAll C rxRole t.length t).map fun c => c.get .name

/-- Which of the tests of `process_line` succeeds, `process_line.rs:143-360`. -/
def kindOf (C : Classes) (t : Text) : Kind :=
  match search C rxGlobal t with
  | some x => .global (x.2.get .name) (rolesOf C t)
  | none =>
    match search C rxMessage t with
    | some x => .message (msgOf C t x.2)
    | none =>
      match search C rxChoice t with
      | some x => .choice (x.2.get .choice)
      | none =>
        if isMatch C rxOr t then .or
        else
          match search C rxRec t with
          | some x => .loop (x.2.get .loop)
          | none =>
            match search C rxContinue t with
            | some x => .jump (x.2.get .loop)
            | none => .other

/-- What the code observes of a line, `process_line.rs:121-143`. -/
def lineOf (C : Classes) (t : Text) : Line where
  opens := t.count '{'
  closes := t.count '}'
  empty := t.isEmpty
  kind := kindOf C t

/-- `generator` on the lines of a text. -/
def generatorText (title : Text → Text) (C : Classes) (lines : List Text) : Except Fault Program :=
  generator title (lines.map (lineOf C))

end Verif.NuscrText
