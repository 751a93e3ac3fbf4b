import Verif.Model.NuscrText

/-!
# Model of the check by the external tool: the untimed protocol given to `nuscr`

`/repo/src/top_down_nuscr/generate_regular_protocol.rs` and its use in `generator.rs:52-54`.  A file is the list of its
lines.  What the shell answers to a command, with a file of the given contents beside it, is a parameter; errors of the file
system are not modelled.
-/
namespace Verif.NuscrRegular
open Verif.Nuscr Verif.NuscrText

/-- `str::replace(w, "")`, from left to right: the first `n` characters belong to an occurrence already found. -/
def removeFrom (w : Text) : Nat → Text → Text
  | _, [] => []
  | n + 1, _ :: t => removeFrom w n t
  | 0, a :: t => if w.isPrefixOf (a :: t) then removeFrom w (w.length - 1) t else a :: removeFrom w 0 t

/-- `"timed "`, `generate_regular_protocol.rs:22`. -/
def timed : Text := ['t', 'i', 'm', 'e', 'd', ' ']

/-- The starting spaces, `generate_regular_protocol.rs:24-28`; `white` is `char::is_whitespace`.  A line contains no `\n`. -/
def starting (white : Char → Bool) (t : Text) : Text := (t.takeWhile fun a => white a && a != '\n').map fun _ => ' '

/-- The line written for a message, `generate_regular_protocol.rs:41-45,49-53,61-65`. -/
def untimed (spaces message payload sender receiver : Text) : Text :=
  spaces ++ message ++ ['('] ++ payload ++ [')', ' ', 'f', 'r', 'o', 'm', ' '] ++ sender ++ [' ', 't', 'o', ' '] ++ receiver ++
    [';']

/-- The line written for a message without payload, `generate_regular_protocol.rs:49-53,67-71`. -/
def untimedEmpty (spaces message sender receiver : Text) : Text :=
  spaces ++ message ++ ['(', ')', ' ', 'f', 'r', 'o', 'm', ' '] ++ sender ++ [' ', 't', 'o', ' '] ++ receiver ++ [';']

/-- The four cases of a message, `generate_regular_protocol.rs:36-72`; `c` are the captures of `MESSAGE`. -/
def regularMessage (C : Classes) (white : Char → Bool) (t : Text) (c : Caps) : Text :=
  match search C rxPayloadReset t with
  | some x => untimed (starting white t) (c.get .message) (x.2.get .payload) (c.get .sender) (c.get .receiver)
  | none =>
    if isMatch C rxReset t then untimedEmpty (starting white t) (c.get .message) (c.get .sender) (c.get .receiver)
    else
      match search C rxPayload t with
      | some x => untimed (starting white t) (c.get .message) (x.2.get .payload) (c.get .sender) (c.get .receiver)
      | none => untimedEmpty (starting white t) (c.get .message) (c.get .sender) (c.get .receiver)

/-- The line written for a line, `generate_regular_protocol.rs:17-75`. -/
def regularLine (C : Classes) (white : Char → Bool) (t : Text) : Text :=
  if isMatch C rxGlobal t then removeFrom timed 0 t
  else
    match search C rxMessage t with
    | some x => regularMessage C white t x.2
    | none => t

/-- `name_protocol` after a line, `generate_regular_protocol.rs:17-20`. -/
def nameAfter (C : Classes) (name : Text) (t : Text) : Text :=
  match search C rxGlobal t with
  | some x => x.2.get .name
  | none => name

/-- `generate_regular_protocol`, `generate_regular_protocol.rs:10-80`: the lines written and the name of the protocol. -/
def regular (C : Classes) (white : Char → Bool) : Text → List Text → List Text × Text
  | name, [] => ([], name)
  | name, t :: ts =>
    let r := regular C white (nameAfter C name t) ts
    (regularLine C white t :: r.1, r.2)

/-- What the shell prints on its standard output, given a command and the contents of the file written. -/
abbrev Shell := Text → List Text → Text

/-- The command, `generate_regular_protocol.rs:106-111`. -/
def command (name file : Text) : Text :=
  ['n', 'u', 's', 'c', 'r', ' ', '-', '-', 'g', 'e', 'n', 'e', 'r', 'a', 't', 'e', '-', 's', 'e', 'x', 'p', '='] ++ name ++
    [' '] ++ file

/-- Why the protocol is not accepted: the operating system, the name of the protocol in the message, or the generator
itself. -/
inductive Refusal where
  | notSupported
  | issue (name : Text)
  | fault (f : Fault)
  deriving DecidableEq

/-- `check_fsm`, `generate_regular_protocol.rs:82-127`; `file` is the name drawn for the file, `windows` is the `cfg!`. -/
def checkFsm (C : Classes) (white : Char → Bool) (windows : Bool) (shell : Shell) (file : Text) (lines : List Text) :
    Except Refusal Unit :=
  let r := regular C white [] lines
  if windows then .error .notSupported
  else if (shell (command r.2 (file ++ ['.', 'n', 'u', 's', 'c', 'r'])) r.1).isEmpty then .error (.issue r.2)
  else .ok ()

/-- `generator` with its third argument, `generator.rs:52-54`. -/
def generatorChecked (title : Text → Text) (C : Classes) (white : Char → Bool) (windows : Bool) (shell : Shell)
    (file : Text) (nuscrCheck : Bool) (lines : List Text) : Except Refusal Program :=
  match (if nuscrCheck then checkFsm C white windows shell file lines else .ok ()) with
  | .error e => .error e
  | .ok () =>
    match generatorText title C lines with
    | .error f => .error (.fault f)
    | .ok p => .ok p

end Verif.NuscrRegular
