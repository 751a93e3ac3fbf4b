import Verif.Spec.NuscrChoice

/-!
# Specification: the types of the messages

Every message of the protocol needs a Rust type, with a field for its payload, and every payload needs a type.
-/
namespace Verif.NuscrSpec
open Verif.Nuscr

/-- The messages of a text. -/
def messagesIn (lines : List Line) : List Msg :=
  lines.filterMap fun l =>
    match l.kind with
    | .message m => some m
    | _ => none

/-- The type written in a session, if it is the one of a message. -/
def writtenParams : Rhs → Option Params
  | .send p _ => some p
  | .recv p _ => some p
  | _ => none

/-- The structure a message needs. -/
def structOf (title : Text → Text) (m : Msg) : Struct :=
  (title m.message, if m.payload = [] then none else some (title m.payload))

/-- Labels that are the same in title case carry the same payload, and no label is, in title case, a payload. -/
structure Consistent (titleCase : Text → Text) (msgs : List Msg) : Prop where
  same : ∀ m ∈ msgs, ∀ m' ∈ msgs, titleCase m.message = titleCase m'.message → m.payload = m'.payload
  apart : ∀ m ∈ msgs, ∀ m' ∈ msgs, m'.payload ≠ [] → titleCase m.message ≠ titleCase m'.payload

/-- The names that become types. -/
def named (msgs : List Msg) : List Text := msgs.map (·.message) ++ (msgs.map (·.payload)).filter (· ≠ [])

end Verif.NuscrSpec
