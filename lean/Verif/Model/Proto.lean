/-!
# Model of the stored form of global types (/repo/src/protobuf)

`/repo/src/protobuf/generated/globaltype.rs` is the code generated from `globaltype.proto`: three
messages, each with `merge_from` (reading), `compute_size` and `write_to_with_cached_sizes`
(writing).  These are modelled function by function.  The runtime they call
(`CodedInputStream`, `CodedOutputStream`, `protobuf::rt`) is not in /repo: the section "Runtime"
below is a contract that follows the protobuf wire format.

Simplifications: every error is `none`; a stream is the list of bytes that are left; unknown
fields are kept in the order they are read, where the runtime keeps them in a map by field number;
a varint must fit 64 bits, and a 32-bit read keeps its low 32 bits.

The module is behind `#[cfg(feature = "protobuf")]` (/repo/src/lib.rs:341-342) and
/repo/Cargo.toml declares no such feature (the one it declares, line 275, is `protobuf_feature`,
and the dependency of line 234 is not optional), so the crate as shipped never compiles it.
-/

namespace Verif.Proto

abbrev Bytes := List UInt8

/-! ## Runtime -/

/-- `CodedOutputStream::write_raw_varint64`: seven bits per byte, low bits first, high bit set on
every byte but the last; called at globaltype.rs:230-266.  Ten bytes are enough for 64 bits. -/
def varintN : Nat → Nat → Bytes
  | 0, _ => []
  | k + 1, n =>
    if n < 128 then [UInt8.ofNat n] else UInt8.ofNat (n % 128 + 128) :: varintN k (n / 128)

/-- `write_raw_varint64`, see `varintN`. -/
def varint (n : Nat) : Bytes := varintN 10 n

/-- `CodedInputStream::read_raw_varint64`, called by the reads of globaltype.rs:143-185: at most
ten bytes. -/
def readVarintN : Nat → Bytes → Option (Nat × Bytes)
  | 0, _ => none
  | _ + 1, [] => none
  | k + 1, b :: bs =>
    if b.toNat < 128 then some (b.toNat, bs)
    else (readVarintN k bs).map fun r => (b.toNat - 128 + 128 * r.1, r.2)

/-- `read_raw_varint64`, see `readVarintN`. -/
def readVarint64 (bs : Bytes) : Option (Nat × Bytes) :=
  match readVarintN 10 bs with
  | some (v, r) => if v < 2 ^ 64 then some (v, r) else none
  | none => none

/-- `read_raw_varint32` and `read_raw_tag`, called at globaltype.rs:144: the low 32 bits. -/
def readVarint32 (bs : Bytes) : Option (Nat × Bytes) :=
  (readVarint64 bs).map fun r => (r.1 % 2 ^ 32, r.2)

/-- An `i32` or `i64` cast to `u64`, as `write_int32` (globaltype.rs:232) and `write_int64`
(globaltype.rs:250) do before writing a varint. -/
def ofInt (x : Int) : Nat := (x % 2 ^ 64).toNat

/-- A `u64` cast to `i64`, `read_int64`, globaltype.rs:165. -/
def toI64 (n : Nat) : Int := if n < 2 ^ 63 then n else (n : Int) - 2 ^ 64

/-- A `u32` cast to `i32`, `read_int32`, globaltype.rs:147. -/
def toI32 (n : Nat) : Int := if n < 2 ^ 31 then n else (n : Int) - 2 ^ 32

/-- `read_int32`, globaltype.rs:147; also `read_enum_or_unknown`, globaltype.rs:150. -/
def readInt32 (bs : Bytes) : Option (Int × Bytes) :=
  (readVarint32 bs).map fun r => (toI32 r.1, r.2)

/-- `read_int64`, globaltype.rs:165. -/
def readInt64 (bs : Bytes) : Option (Int × Bytes) :=
  (readVarint64 bs).map fun r => (toI64 r.1, r.2)

/-- `read_bool`, globaltype.rs:168. -/
def readBool (bs : Bytes) : Option (Bool × Bytes) :=
  (readVarint32 bs).map fun r => (r.1 != 0, r.2)

/-- The first `n` bytes and the rest, or an error at the end of the input. -/
def takeBytes (n : Nat) (bs : Bytes) : Option (Bytes × Bytes) :=
  if n ≤ bs.length then some (bs.take n, bs.drop n) else none

/-- A length and that many bytes, as `read_string` (globaltype.rs:153) and `read_message`
(globaltype.rs:159) read them. -/
def readLen (bs : Bytes) : Option (Bytes × Bytes) :=
  match readVarint32 bs with
  | some (n, r) => takeBytes n r
  | none => none

/-- The bytes of a string. -/
def strBytes (s : String) : Bytes := s.toByteArray.data.toList

/-- `read_string`, globaltype.rs:153: the bytes must be UTF-8. -/
def readString (bs : Bytes) : Option (String × Bytes) :=
  match readLen bs with
  | some (b, r) => (String.fromUTF8? ⟨b.toArray⟩).map fun s => (s, r)
  | none => none

/-- The value of a field that the message does not know, `UnknownValue`. -/
inductive Unk where
  | varint (n : Nat)
  | fixed64 (b : Bytes)
  | len (b : Bytes)
  | fixed32 (b : Bytes)
  deriving DecidableEq, Repr

/-- The fields of a message that its type does not declare, `SpecialFields::unknown_fields`. -/
abbrev Unknowns := List (Nat × Unk)

/-- Tag of a field: number and wire type, `write_tag`. -/
def tagOf (num wire : Nat) : Nat := num * 8 + wire

/-- `skip_group`: fields up to the end-of-group tag, called at globaltype.rs:180. -/
def skipGroup : Nat → Bytes → Option Bytes
  | 0, _ => none
  | k + 1, bs =>
    match readVarint32 bs with
    | none => none
    | some (t, r) =>
      if t % 8 = 4 then some r
      else
        let rest :=
          if t % 8 = 0 then (readVarint64 r).map (·.2)
          else if t % 8 = 1 then (takeBytes 8 r).map (·.2)
          else if t % 8 = 2 then (readLen r).map (·.2)
          else if t % 8 = 3 then skipGroup k r
          else if t % 8 = 5 then (takeBytes 4 r).map (·.2)
          else none
        match rest with
        | some r' => skipGroup k r'
        | none => none

/-- `read_unknown_or_skip_group`, called at globaltype.rs:179-181: field number 0 and an
end-of-group tag are errors, a group is skipped, anything else is kept. -/
def readUnknown (t : Nat) (u : Unknowns) (bs : Bytes) : Option (Unknowns × Bytes) :=
  if t / 8 = 0 then none
  else if t % 8 = 0 then (readVarint64 bs).map fun r => (u ++ [(t / 8, .varint r.1)], r.2)
  else if t % 8 = 1 then (takeBytes 8 bs).map fun r => (u ++ [(t / 8, .fixed64 r.1)], r.2)
  else if t % 8 = 2 then (readLen bs).map fun r => (u ++ [(t / 8, .len r.1)], r.2)
  else if t % 8 = 3 then (skipGroup (bs.length + 1) bs).map fun r => (u, r)
  else if t % 8 = 5 then (takeBytes 4 bs).map fun r => (u ++ [(t / 8, .fixed32 r.1)], r.2)
  else none

/-- `while let Some(tag) = is.read_raw_tag_or_eof()? { ... }`, globaltype.rs:144-184: until the
end of the input.  Every round reads at least one byte, so the length of the input is enough
fuel. -/
def mergeLoop {M : Type} (step : Nat → M → Bytes → Option (M × Bytes)) :
    Nat → M → Bytes → Option M
  | _, m, [] => some m
  | 0, _, _ :: _ => none
  | k + 1, m, b :: bs =>
    match readVarint32 (b :: bs) with
    | none => none
    | some (t, r) =>
      match step t m r with
      | none => none
      | some (m', r') => mergeLoop step k m' r'

/-- `compute_raw_varint64_size`, called at globaltype.rs:205: by comparison with powers of 2. -/
def varintSize (n : Nat) : Nat :=
  if n < 2 ^ 7 then 1 else if n < 2 ^ 14 then 2 else if n < 2 ^ 21 then 3
  else if n < 2 ^ 28 then 4 else if n < 2 ^ 35 then 5 else if n < 2 ^ 42 then 6
  else if n < 2 ^ 49 then 7 else if n < 2 ^ 56 then 8 else if n < 2 ^ 63 then 9 else 10

/-- `tag_size`: a tag is a varint, its size does not depend on the wire type. -/
def tagSize (num : Nat) : Nat := varintSize (tagOf num 0)

/-- `int32_size` and `int64_size`, called at globaltype.rs:192 and 213. -/
def intSize (num : Nat) (x : Int) : Nat := tagSize num + varintSize (ofInt x)

/-- `string_size`, called at globaltype.rs:198. -/
def stringSize (num : Nat) (s : String) : Nat :=
  tagSize num + varintSize (strBytes s).length + (strBytes s).length

/-- Size of the value of an unknown field, `unknown_fields_size`, called at globaltype.rs:224. -/
def Unk.size : Unk → Nat
  | .varint n => varintSize n
  | .fixed64 _ => 8
  | .len b => varintSize b.length + b.length
  | .fixed32 _ => 4

/-- `unknown_fields_size`, called at globaltype.rs:224. -/
def unknownSize (u : Unknowns) : Nat := (u.map fun p => tagSize p.1 + p.2.size).sum

/-- `write_int32` and `write_int64`, called at globaltype.rs:232 and 250; `write_enum`, line 235. -/
def writeInt (num : Nat) (x : Int) : Bytes := varint (tagOf num 0) ++ varint (ofInt x)

/-- `write_bool`, called at globaltype.rs:253. -/
def writeBool (num : Nat) (b : Bool) : Bytes := varint (tagOf num 0) ++ varint b.toNat

/-- `write_string`, called at globaltype.rs:238. -/
def writeString (num : Nat) (s : String) : Bytes :=
  varint (tagOf num 2) ++ varint (strBytes s).length ++ strBytes s

/-- `write_message_field_with_cached_size`, called at globaltype.rs:244: `size` is what
`compute_size` has stored, as a `u32` (globaltype.rs:225). -/
def writeMessage (num size : Nat) (body : Bytes) : Bytes :=
  varint (tagOf num 2) ++ varint (size % 2 ^ 32) ++ body

/-- One unknown field, `write_unknown_fields`, called at globaltype.rs:264. -/
def writeUnk (p : Nat × Unk) : Bytes :=
  match p.2 with
  | .varint n => varint (tagOf p.1 0) ++ varint n
  | .fixed64 b => varint (tagOf p.1 1) ++ b
  | .len b => varint (tagOf p.1 2) ++ varint b.length ++ b
  | .fixed32 b => varint (tagOf p.1 5) ++ b

/-- `write_unknown_fields`, called at globaltype.rs:264. -/
def writeUnknowns (u : Unknowns) : Bytes := u.flatMap writeUnk

/-- `read_message`, called at globaltype.rs:159: a length, and a message read from that many
bytes only. -/
def readMessage {M : Type} (parse : Bytes → Option M) (bs : Bytes) : Option (M × Bytes) :=
  match readLen bs with
  | some (b, r) => (parse b).map fun m => (m, r)
  | none => none

/-! ## `Action.Index` -/

/-- `struct Index`, globaltype.rs:335-342. -/
structure Index where
  label : String := ""
  next : Int := 0
  unknown : Unknowns := []
  deriving DecidableEq, Repr

/-- The `match tag` of `Index::merge_from`, globaltype.rs:387-397. -/
def Index.step (t : Nat) (m : Index) (bs : Bytes) : Option (Index × Bytes) :=
  match t with
  | 10 => (readString bs).map fun r => ({ m with label := r.1 }, r.2)
  | 16 => (readInt32 bs).map fun r => ({ m with next := r.1 }, r.2)
  | t => (readUnknown t m.unknown bs).map fun r => ({ m with unknown := r.1 }, r.2)

/-- `Index::merge_from`, globaltype.rs:385-400. -/
def Index.mergeFrom (m : Index) (bs : Bytes) : Option Index := mergeLoop Index.step bs.length m bs

/-- `Index::compute_size`, globaltype.rs:404-415. -/
def Index.size (m : Index) : Nat :=
  (if m.label = "" then 0 else stringSize 1 m.label)
    + (if m.next = 0 then 0 else intSize 2 m.next)
    + unknownSize m.unknown

/-- `Index::write_to_with_cached_sizes`, globaltype.rs:417-426. -/
def Index.write (m : Index) : Bytes :=
  (if m.label = "" then [] else writeString 1 m.label)
    ++ (if m.next = 0 then [] else writeInt 2 m.next)
    ++ writeUnknowns m.unknown

/-! ## `Action` -/

/-- `struct Action`, globaltype.rs:30-57; `type_` is the number of an `EnumOrUnknown`. -/
structure Action where
  idx : Int := 0
  type : Int := 0
  fromRole : String := ""
  toRole : String := ""
  continuations : List Index := []
  clock : String := ""
  lowerBound : Int := 0
  includeLb : Bool := false
  upperBound : Int := 0
  includeUb : Bool := false
  resetClock : Bool := false
  unknown : Unknowns := []
  deriving DecidableEq, Repr

/-- `ActionType::from_i32`, globaltype.rs:489-495: `true` is `SEND`. -/
def actionType (n : Int) : Option Bool :=
  if n = 0 then some true else if n = 1 then some false else none

/-- The `match tag` of `Action::merge_from`, globaltype.rs:145-183. -/
def Action.step (t : Nat) (m : Action) (bs : Bytes) : Option (Action × Bytes) :=
  match t with
  | 8 => (readInt32 bs).map fun r => ({ m with idx := r.1 }, r.2)
  | 16 => (readInt32 bs).map fun r => ({ m with type := r.1 }, r.2)
  | 26 => (readString bs).map fun r => ({ m with fromRole := r.1 }, r.2)
  | 34 => (readString bs).map fun r => ({ m with toRole := r.1 }, r.2)
  | 42 => (readMessage (Index.mergeFrom {}) bs).map fun r =>
      ({ m with continuations := m.continuations ++ [r.1] }, r.2)
  | 50 => (readString bs).map fun r => ({ m with clock := r.1 }, r.2)
  | 56 => (readInt64 bs).map fun r => ({ m with lowerBound := r.1 }, r.2)
  | 64 => (readBool bs).map fun r => ({ m with includeLb := r.1 }, r.2)
  | 72 => (readInt64 bs).map fun r => ({ m with upperBound := r.1 }, r.2)
  | 80 => (readBool bs).map fun r => ({ m with includeUb := r.1 }, r.2)
  | 88 => (readBool bs).map fun r => ({ m with resetClock := r.1 }, r.2)
  | t => (readUnknown t m.unknown bs).map fun r => ({ m with unknown := r.1 }, r.2)

/-- `Action::merge_from`, globaltype.rs:143-186. -/
def Action.mergeFrom (m : Action) (bs : Bytes) : Option Action :=
  mergeLoop Action.step bs.length m bs

/-- `Action::compute_size`, globaltype.rs:189-227. -/
def Action.size (m : Action) : Nat :=
  (if m.idx = 0 then 0 else intSize 1 m.idx)
    + (if m.type = 0 then 0 else intSize 2 m.type)
    + (if m.fromRole = "" then 0 else stringSize 3 m.fromRole)
    + (if m.toRole = "" then 0 else stringSize 4 m.toRole)
    + (m.continuations.map fun v => 1 + varintSize v.size + v.size).sum
    + (if m.clock = "" then 0 else stringSize 6 m.clock)
    + (if m.lowerBound = 0 then 0 else intSize 7 m.lowerBound)
    + (if m.includeLb = false then 0 else 1 + 1)
    + (if m.upperBound = 0 then 0 else intSize 9 m.upperBound)
    + (if m.includeUb = false then 0 else 1 + 1)
    + (if m.resetClock = false then 0 else 1 + 1)
    + unknownSize m.unknown

/-- `Action::write_to_with_cached_sizes`, globaltype.rs:230-266. -/
def Action.write (m : Action) : Bytes :=
  (if m.idx = 0 then [] else writeInt 1 m.idx)
    ++ (if m.type = 0 then [] else writeInt 2 m.type)
    ++ (if m.fromRole = "" then [] else writeString 3 m.fromRole)
    ++ (if m.toRole = "" then [] else writeString 4 m.toRole)
    ++ m.continuations.flatMap (fun v => writeMessage 5 v.size v.write)
    ++ (if m.clock = "" then [] else writeString 6 m.clock)
    ++ (if m.lowerBound = 0 then [] else writeInt 7 m.lowerBound)
    ++ (if m.includeLb = false then [] else writeBool 8 m.includeLb)
    ++ (if m.upperBound = 0 then [] else writeInt 9 m.upperBound)
    ++ (if m.includeUb = false then [] else writeBool 10 m.includeUb)
    ++ (if m.resetClock = false then [] else writeBool 11 m.resetClock)
    ++ writeUnknowns m.unknown

/-! ## `GlobalType` -/

/-- `struct GlobalType`, globaltype.rs:530-538. -/
structure GlobalType where
  start : Int := 0
  actions : List Action := []
  unknown : Unknowns := []
  deriving DecidableEq, Repr

/-- The `match tag` of `GlobalType::merge_from`, globaltype.rs:582-592. -/
def GlobalType.step (t : Nat) (m : GlobalType) (bs : Bytes) : Option (GlobalType × Bytes) :=
  match t with
  | 8 => (readInt32 bs).map fun r => ({ m with start := r.1 }, r.2)
  | 18 => (readMessage (Action.mergeFrom {}) bs).map fun r =>
      ({ m with actions := m.actions ++ [r.1] }, r.2)
  | t => (readUnknown t m.unknown bs).map fun r => ({ m with unknown := r.1 }, r.2)

/-- `GlobalType::merge_from`, globaltype.rs:580-595. -/
def GlobalType.mergeFrom (m : GlobalType) (bs : Bytes) : Option GlobalType :=
  mergeLoop GlobalType.step bs.length m bs

/-- `GlobalType::compute_size`, globaltype.rs:599-611. -/
def GlobalType.size (m : GlobalType) : Nat :=
  (if m.start = 0 then 0 else intSize 1 m.start)
    + (m.actions.map fun v => 1 + varintSize v.size + v.size).sum
    + unknownSize m.unknown

/-- `GlobalType::write_to_with_cached_sizes`, globaltype.rs:613-622. -/
def GlobalType.write (m : GlobalType) : Bytes :=
  (if m.start = 0 then [] else writeInt 1 m.start)
    ++ m.actions.flatMap (fun v => writeMessage 2 v.size v.write)
    ++ writeUnknowns m.unknown

/-- `Message::write_to_bytes` (runtime): `compute_size` gives the length of the buffer, the
message is written into it, and the call fails unless the buffer is filled exactly. -/
def writeToBytes (size : Nat) (body : Bytes) : Option Bytes :=
  if body.length = size then some body else none

/-! ## Reading a file -/

/-- What `read_global_protocol_file` prints, /repo/src/protobuf/mod.rs:34-62. -/
structure Shown where
  action : Action
  start : Int
  actions : List Action
  deriving DecidableEq, Repr

/-- `Message::parse_from_reader` (runtime) on an open file: the message is read up to the end of
the file, and nothing is left in the file for a later call. -/
def parseFromReader {M : Type} (parse : Bytes → Option M) (file : Bytes) : Option (M × Bytes) :=
  (parse file).map fun m => (m, [])

/-- `read_global_protocol_file`, /repo/src/protobuf/mod.rs:34-62: an `Action` and then a
`GlobalType` are read from the same open file; `none` is the panic of an `unwrap`. -/
def readGlobalProtocolFile (file : Bytes) : Option Shown :=
  match parseFromReader (Action.mergeFrom {}) file with
  | none => none
  | some (a, rest) =>
    match parseFromReader (GlobalType.mergeFrom {}) rest with
    | none => none
    | some (g, _) => some { action := a, start := g.start, actions := g.actions }

end Verif.Proto
