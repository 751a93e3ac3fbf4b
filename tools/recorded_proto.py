"""Writes lean/Verif/Check/RecordedProto.lean: the bytes that protoc put into globaltype.rs (file_descriptor_proto_data),
read with the model of the runtime, and compared with the field numbers and types of the model's messages.
Run: python3 tools/recorded_proto.py
"""
import re
s = open("/repo/src/protobuf/generated/globaltype.rs").read()
lit = re.search(r'file_descriptor_proto_data: &\'static \[u8\] = b"(.*?)\n";', s, re.S).group(1)
lit = re.sub(r'\\\n\s*', '', lit + "\n") if lit.endswith("\\") else lit
out, i = [], 0
esc = {'n': 10, 't': 9, 'r': 13, '0': 0, '"': 34, '\\': 92}
while i < len(lit):
    if lit[i] == '\\':
        if lit[i+1] == 'x': out.append(int(lit[i+2:i+4], 16)); i += 4
        else: out.append(esc[lit[i+1]]); i += 2
    else: out.append(ord(lit[i])); i += 1
rows = []
for k in range(0, len(out), 30): rows.append("    " + ", ".join(map(str, out[k:k+30])))
body = ",\n".join(rows)
open("/verif/lean/Verif/Check/RecordedProto.lean", "w").write('''import Verif.Spec.Proto

/-!
# Tests of the model of protobuf against recorded bytes

`descriptor` is `file_descriptor_proto_data`, /repo/src/protobuf/generated/globaltype.rs:669-737, written by protoc; this
file is written by tools/recorded_proto.py.  It is read with the model of the runtime, with the numbers of
google/protobuf/descriptor.proto, and compared with the declared fields of the specification.
-/
namespace Verif.Check.Proto
open Verif.Proto

def descriptor : Bytes := [
''' + body + ''']

/-- The fields of a message, read with the loop of the model and no declared field. -/
def fields (bs : Bytes) : Option Unknowns := mergeLoop (fun t u r => readUnknown t u r) bs.length [] bs

/-- The bytes of the length-delimited fields of one number. -/
def lens (num : Nat) (u : Unknowns) : List Bytes :=
  u.filterMap fun p => if p.1 = num then match p.2 with | .len b => some b | _ => none else none

/-- The last varint of one number. -/
def num (n : Nat) (u : Unknowns) : Nat :=
  (u.filterMap fun p => if p.1 = n then match p.2 with | .varint v => some v | _ => none else none).getLast?.getD 0

def name (u : Unknowns) : String := (((lens 1 u).head?.bind fun b => String.fromUTF8? ⟨b.toArray⟩)).getD "?"

def sub (n : Nat) (u : Unknowns) : List Unknowns := (lens n u).filterMap fields

/-- Wire type of a type number of descriptor.proto: 3 int64, 5 int32, 8 bool, 9 string, 11 message, 14 enum. -/
def wireOf (t : Nat) : Nat := if t = 9 ∨ t = 11 then 2 else 0

/-- Name, number and type of the fields of a message type. -/
def layout (u : Unknowns) : List (String × Nat × Nat) := (sub 2 u).map fun f => (name f, num 3 f, num 5 f)

def messages : List Unknowns := ((fields descriptor).map (sub 4)).getD []

#guard descriptor.length = ''' + str(len(out)) + '''
#guard (fields descriptor).isSome
#guard messages.map name = ["Action", "GlobalType"]
#guard messages.map (fun m => (sub 3 m).map name) = [["Index"], []]
#guard messages.map layout = [
  [("idx", 1, 5), ("type", 2, 14), ("from_role", 3, 9), ("to_role", 4, 9), ("continuations", 5, 11), ("clock", 6, 9),
    ("lower_bound", 7, 3), ("include_lb", 8, 8), ("upper_bound", 9, 3), ("include_ub", 10, 8), ("reset_clock", 11, 8)],
  [("start", 1, 5), ("actions", 2, 11)]]
#guard messages.map (fun m => (sub 3 m).map layout) = [[[("label", 1, 9), ("next", 2, 5)]], []]
#guard messages.map (fun m => (layout m).map fun f => (f.2.1, wireOf f.2.2)) = [Action.declared, GlobalType.declared]
#guard messages.map (fun m => (sub 3 m).map fun i => (layout i).map fun f => (f.2.1, wireOf f.2.2))
  = [[Index.declared], []]
-- the values of the enum
#guard messages.map (fun m => (sub 4 m).map fun e => (name e, (sub 2 e).map fun v => (name v, num 2 v)))
  = [[("ActionType", [("SEND", 0), ("RECV", 1)])], []]
-- protoc writes the fields of its own messages in the order of their numbers and in the shortest form, as the model does
#guard (fields descriptor).map writeUnknowns = some descriptor

end Verif.Check.Proto
''')
