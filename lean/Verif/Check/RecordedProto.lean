import Verif.Spec.Proto

/-!
# Tests of the model of protobuf against recorded bytes

`descriptor` is `file_descriptor_proto_data`, /repo/src/protobuf/generated/globaltype.rs:669-737, written by protoc; this
file is written by tools/recorded_proto.py.  It is read with the model of the runtime, with the numbers of
google/protobuf/descriptor.proto, and compared with the declared fields of the specification.
-/
namespace Verif.Check.Proto
open Verif.Proto

def descriptor : Bytes := [
    10, 16, 103, 108, 111, 98, 97, 108, 116, 121, 112, 101, 46, 112, 114, 111, 116, 111, 34, 185, 3, 10, 6, 65, 99, 116, 105, 111, 110, 18,
    16, 10, 3, 105, 100, 120, 24, 1, 32, 1, 40, 5, 82, 3, 105, 100, 120, 18, 38, 10, 4, 116, 121, 112, 101, 24, 2, 32, 1, 40,
    14, 50, 18, 46, 65, 99, 116, 105, 111, 110, 46, 65, 99, 116, 105, 111, 110, 84, 121, 112, 101, 82, 4, 116, 121, 112, 101, 18, 27, 10,
    9, 102, 114, 111, 109, 95, 114, 111, 108, 101, 24, 3, 32, 1, 40, 9, 82, 8, 102, 114, 111, 109, 82, 111, 108, 101, 18, 23, 10, 7,
    116, 111, 95, 114, 111, 108, 101, 24, 4, 32, 1, 40, 9, 82, 6, 116, 111, 82, 111, 108, 101, 18, 51, 10, 13, 99, 111, 110, 116, 105,
    110, 117, 97, 116, 105, 111, 110, 115, 24, 5, 32, 3, 40, 11, 50, 13, 46, 65, 99, 116, 105, 111, 110, 46, 73, 110, 100, 101, 120, 82,
    13, 99, 111, 110, 116, 105, 110, 117, 97, 116, 105, 111, 110, 115, 18, 20, 10, 5, 99, 108, 111, 99, 107, 24, 6, 32, 1, 40, 9, 82,
    5, 99, 108, 111, 99, 107, 18, 31, 10, 11, 108, 111, 119, 101, 114, 95, 98, 111, 117, 110, 100, 24, 7, 32, 1, 40, 3, 82, 10, 108,
    111, 119, 101, 114, 66, 111, 117, 110, 100, 18, 29, 10, 10, 105, 110, 99, 108, 117, 100, 101, 95, 108, 98, 24, 8, 32, 1, 40, 8, 82,
    9, 105, 110, 99, 108, 117, 100, 101, 76, 98, 18, 31, 10, 11, 117, 112, 112, 101, 114, 95, 98, 111, 117, 110, 100, 24, 9, 32, 1, 40,
    3, 82, 10, 117, 112, 112, 101, 114, 66, 111, 117, 110, 100, 18, 29, 10, 10, 105, 110, 99, 108, 117, 100, 101, 95, 117, 98, 24, 10, 32,
    1, 40, 8, 82, 9, 105, 110, 99, 108, 117, 100, 101, 85, 98, 18, 31, 10, 11, 114, 101, 115, 101, 116, 95, 99, 108, 111, 99, 107, 24,
    11, 32, 1, 40, 8, 82, 10, 114, 101, 115, 101, 116, 67, 108, 111, 99, 107, 26, 49, 10, 5, 73, 110, 100, 101, 120, 18, 20, 10, 5,
    108, 97, 98, 101, 108, 24, 1, 32, 1, 40, 9, 82, 5, 108, 97, 98, 101, 108, 18, 18, 10, 4, 110, 101, 120, 116, 24, 2, 32, 1,
    40, 5, 82, 4, 110, 101, 120, 116, 34, 32, 10, 10, 65, 99, 116, 105, 111, 110, 84, 121, 112, 101, 18, 8, 10, 4, 83, 69, 78, 68,
    16, 0, 18, 8, 10, 4, 82, 69, 67, 86, 16, 1, 34, 69, 10, 10, 71, 108, 111, 98, 97, 108, 84, 121, 112, 101, 18, 20, 10, 5,
    115, 116, 97, 114, 116, 24, 1, 32, 1, 40, 5, 82, 5, 115, 116, 97, 114, 116, 18, 33, 10, 7, 97, 99, 116, 105, 111, 110, 115, 24,
    2, 32, 3, 40, 11, 50, 7, 46, 65, 99, 116, 105, 111, 110, 82, 7, 97, 99, 116, 105, 111, 110, 115, 74, 189, 8, 10, 6, 18, 4,
    0, 0, 27, 1, 10, 8, 10, 1, 12, 18, 3, 0, 0, 18, 10, 10, 10, 2, 4, 0, 18, 4, 2, 0, 22, 1, 10, 10, 10, 3,
    4, 0, 1, 18, 3, 2, 8, 14, 10, 12, 10, 4, 4, 0, 3, 0, 18, 4, 3, 2, 6, 3, 10, 12, 10, 5, 4, 0, 3, 0,
    1, 18, 3, 3, 10, 15, 10, 13, 10, 6, 4, 0, 3, 0, 2, 0, 18, 3, 4, 4, 21, 10, 14, 10, 7, 4, 0, 3, 0, 2,
    0, 5, 18, 3, 4, 4, 10, 10, 14, 10, 7, 4, 0, 3, 0, 2, 0, 1, 18, 3, 4, 11, 16, 10, 14, 10, 7, 4, 0, 3,
    0, 2, 0, 3, 18, 3, 4, 19, 20, 10, 13, 10, 6, 4, 0, 3, 0, 2, 1, 18, 3, 5, 4, 19, 10, 14, 10, 7, 4, 0,
    3, 0, 2, 1, 5, 18, 3, 5, 4, 9, 10, 14, 10, 7, 4, 0, 3, 0, 2, 1, 1, 18, 3, 5, 10, 14, 10, 14, 10, 7,
    4, 0, 3, 0, 2, 1, 3, 18, 3, 5, 17, 18, 10, 11, 10, 4, 4, 0, 2, 0, 18, 3, 7, 2, 16, 10, 12, 10, 5, 4,
    0, 2, 0, 5, 18, 3, 7, 2, 7, 10, 12, 10, 5, 4, 0, 2, 0, 1, 18, 3, 7, 8, 11, 10, 12, 10, 5, 4, 0, 2,
    0, 3, 18, 3, 7, 14, 15, 10, 12, 10, 4, 4, 0, 4, 0, 18, 4, 8, 2, 11, 3, 10, 12, 10, 5, 4, 0, 4, 0, 1,
    18, 3, 8, 7, 17, 10, 13, 10, 6, 4, 0, 4, 0, 2, 0, 18, 3, 9, 4, 13, 10, 14, 10, 7, 4, 0, 4, 0, 2, 0,
    1, 18, 3, 9, 4, 8, 10, 14, 10, 7, 4, 0, 4, 0, 2, 0, 2, 18, 3, 9, 11, 12, 10, 13, 10, 6, 4, 0, 4, 0,
    2, 1, 18, 3, 10, 4, 13, 10, 14, 10, 7, 4, 0, 4, 0, 2, 1, 1, 18, 3, 10, 4, 8, 10, 14, 10, 7, 4, 0, 4,
    0, 2, 1, 2, 18, 3, 10, 11, 12, 10, 11, 10, 4, 4, 0, 2, 1, 18, 3, 12, 2, 22, 10, 12, 10, 5, 4, 0, 2, 1,
    6, 18, 3, 12, 2, 12, 10, 12, 10, 5, 4, 0, 2, 1, 1, 18, 3, 12, 13, 17, 10, 12, 10, 5, 4, 0, 2, 1, 3, 18,
    3, 12, 20, 21, 10, 11, 10, 4, 4, 0, 2, 2, 18, 3, 13, 2, 23, 10, 12, 10, 5, 4, 0, 2, 2, 5, 18, 3, 13, 2,
    8, 10, 12, 10, 5, 4, 0, 2, 2, 1, 18, 3, 13, 9, 18, 10, 12, 10, 5, 4, 0, 2, 2, 3, 18, 3, 13, 21, 22, 10,
    11, 10, 4, 4, 0, 2, 3, 18, 3, 14, 2, 21, 10, 12, 10, 5, 4, 0, 2, 3, 5, 18, 3, 14, 2, 8, 10, 12, 10, 5,
    4, 0, 2, 3, 1, 18, 3, 14, 9, 16, 10, 12, 10, 5, 4, 0, 2, 3, 3, 18, 3, 14, 19, 20, 10, 11, 10, 4, 4, 0,
    2, 4, 18, 3, 15, 2, 35, 10, 12, 10, 5, 4, 0, 2, 4, 4, 18, 3, 15, 2, 10, 10, 12, 10, 5, 4, 0, 2, 4, 6,
    18, 3, 15, 11, 16, 10, 12, 10, 5, 4, 0, 2, 4, 1, 18, 3, 15, 17, 30, 10, 12, 10, 5, 4, 0, 2, 4, 3, 18, 3,
    15, 33, 34, 10, 11, 10, 4, 4, 0, 2, 5, 18, 3, 16, 2, 19, 10, 12, 10, 5, 4, 0, 2, 5, 5, 18, 3, 16, 2, 8,
    10, 12, 10, 5, 4, 0, 2, 5, 1, 18, 3, 16, 9, 14, 10, 12, 10, 5, 4, 0, 2, 5, 3, 18, 3, 16, 17, 18, 10, 11,
    10, 4, 4, 0, 2, 6, 18, 3, 17, 2, 24, 10, 12, 10, 5, 4, 0, 2, 6, 5, 18, 3, 17, 2, 7, 10, 12, 10, 5, 4,
    0, 2, 6, 1, 18, 3, 17, 8, 19, 10, 12, 10, 5, 4, 0, 2, 6, 3, 18, 3, 17, 22, 23, 10, 11, 10, 4, 4, 0, 2,
    7, 18, 3, 18, 2, 22, 10, 12, 10, 5, 4, 0, 2, 7, 5, 18, 3, 18, 2, 6, 10, 12, 10, 5, 4, 0, 2, 7, 1, 18,
    3, 18, 7, 17, 10, 12, 10, 5, 4, 0, 2, 7, 3, 18, 3, 18, 20, 21, 10, 11, 10, 4, 4, 0, 2, 8, 18, 3, 19, 2,
    24, 10, 12, 10, 5, 4, 0, 2, 8, 5, 18, 3, 19, 2, 7, 10, 12, 10, 5, 4, 0, 2, 8, 1, 18, 3, 19, 8, 19, 10,
    12, 10, 5, 4, 0, 2, 8, 3, 18, 3, 19, 22, 23, 10, 11, 10, 4, 4, 0, 2, 9, 18, 3, 20, 2, 23, 10, 12, 10, 5,
    4, 0, 2, 9, 5, 18, 3, 20, 2, 6, 10, 12, 10, 5, 4, 0, 2, 9, 1, 18, 3, 20, 7, 17, 10, 12, 10, 5, 4, 0,
    2, 9, 3, 18, 3, 20, 20, 22, 10, 11, 10, 4, 4, 0, 2, 10, 18, 3, 21, 2, 24, 10, 12, 10, 5, 4, 0, 2, 10, 5,
    18, 3, 21, 2, 6, 10, 12, 10, 5, 4, 0, 2, 10, 1, 18, 3, 21, 7, 18, 10, 12, 10, 5, 4, 0, 2, 10, 3, 18, 3,
    21, 21, 23, 10, 10, 10, 2, 4, 1, 18, 4, 24, 0, 27, 1, 10, 10, 10, 3, 4, 1, 1, 18, 3, 24, 8, 18, 10, 11, 10,
    4, 4, 1, 2, 0, 18, 3, 25, 2, 18, 10, 12, 10, 5, 4, 1, 2, 0, 5, 18, 3, 25, 2, 7, 10, 12, 10, 5, 4, 1,
    2, 0, 1, 18, 3, 25, 8, 13, 10, 12, 10, 5, 4, 1, 2, 0, 3, 18, 3, 25, 16, 17, 10, 11, 10, 4, 4, 1, 2, 1,
    18, 3, 26, 2, 30, 10, 12, 10, 5, 4, 1, 2, 1, 4, 18, 3, 26, 2, 10, 10, 12, 10, 5, 4, 1, 2, 1, 6, 18, 3,
    26, 11, 17, 10, 12, 10, 5, 4, 1, 2, 1, 1, 18, 3, 26, 18, 25, 10, 12, 10, 5, 4, 1, 2, 1, 3, 18, 3, 26, 28,
    29, 98, 6, 112, 114, 111, 116, 111, 51]

/-- The fields of a message, read with the loop of the model and no declared field. -/
def fields (bs : Bytes) : Option Unknowns := mergeLoop (fun t u r => readUnknown t u r) bs.length [] bs

/-- The bytes of the length-delimited fields of one number. -/
def lens (num : Nat) (u : Unknowns) : List Bytes :=
  u.filterMap fun p => if p.1 = num then match p.2 with | .len b => some b | _ => none else none

/-- The last varint of one number. -/
def num (n : Nat) (u : Unknowns) : Nat :=
  (u.filterMap fun p => if p.1 = n then match p.2 with | .varint v => some v | _ => none else none).getLast?.getD 0

def name (u : Unknowns) : String := (((lens 1 u).head?.bind fun b => String.fromUTF8? ⟨b.toArray⟩)).getD "?"

def sub (n : Nat) (u : Unknowns) : List Unknowns := (lens n u).filterMap fields

/-- Wire type of a type number of descriptor.proto: 3 int64, 5 int32, 8 bool, 9 string, 11 message, 14 enum. -/
def wireOf (t : Nat) : Nat := if t = 9 ∨ t = 11 then 2 else 0

/-- Name, number and type of the fields of a message type. -/
def layout (u : Unknowns) : List (String × Nat × Nat) := (sub 2 u).map fun f => (name f, num 3 f, num 5 f)

def messages : List Unknowns := ((fields descriptor).map (sub 4)).getD []

#guard descriptor.length = 1629
#guard (fields descriptor).isSome
#guard messages.map name = ["Action", "GlobalType"]
#guard messages.map (fun m => (sub 3 m).map name) = [["Index"], []]
#guard messages.map layout = [
  [("idx", 1, 5), ("type", 2, 14), ("from_role", 3, 9), ("to_role", 4, 9), ("continuations", 5, 11), ("clock", 6, 9),
    ("lower_bound", 7, 3), ("include_lb", 8, 8), ("upper_bound", 9, 3), ("include_ub", 10, 8), ("reset_clock", 11, 8)],
  [("start", 1, 5), ("actions", 2, 11)]]
#guard messages.map (fun m => (sub 3 m).map layout) = [[[("label", 1, 9), ("next", 2, 5)]], []]
#guard messages.map (fun m => (layout m).map fun f => (f.2.1, wireOf f.2.2)) = [Action.declared, GlobalType.declared]
#guard messages.map (fun m => (sub 3 m).map fun i => (layout i).map fun f => (f.2.1, wireOf f.2.2))
  = [[Index.declared], []]
-- the values of the enum
#guard messages.map (fun m => (sub 4 m).map fun e => (name e, (sub 2 e).map fun v => (name v, num 2 v)))
  = [[("ActionType", [("SEND", 0), ("RECV", 1)])], []]
-- protoc writes the fields of its own messages in the order of their numbers and in the shortest form, as the model does
#guard (fields descriptor).map writeUnknowns = some descriptor

end Verif.Check.Proto
