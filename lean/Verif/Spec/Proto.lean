import Verif.Model.Proto

/-!
# The wire format, and what the fields of globaltype.proto mean

Written from the description of the format and from
/repo/src/protobuf/generated/globaltype.proto: nothing here refers to how the code reads or writes.
-/

namespace Verif.Proto

/-- The bytes of a number, seven bits each, low bits first; the last byte is the only one below
128.  An encoding may be longer than needed. -/
inductive IsVarint : Nat → Bytes → Prop
  | last (b : UInt8) : b.toNat < 128 → IsVarint b.toNat [b]
  | more (b : UInt8) (n : Nat) (bs : Bytes) :
      128 ≤ b.toNat → IsVarint n bs → IsVarint (b.toNat - 128 + 128 * n) (b :: bs)

/-- Wire type of a value. -/
def wire : Unk → Nat
  | .varint _ => 0
  | .fixed64 _ => 1
  | .len _ => 2
  | .fixed32 _ => 5

/-- The values that the format can carry. -/
def Carried : Unk → Prop
  | .varint n => n < 2 ^ 64
  | .fixed64 b => b.length = 8
  | .len b => b.length < 2 ^ 32
  | .fixed32 b => b.length = 4

/-- The bytes of a value. -/
inductive IsPayload : Unk → Bytes → Prop
  | varint (n : Nat) (bs : Bytes) : bs.length ≤ 10 → IsVarint n bs → IsPayload (.varint n) bs
  | fixed64 (b : Bytes) : IsPayload (.fixed64 b) b
  | fixed32 (b : Bytes) : IsPayload (.fixed32 b) b
  | len (b l : Bytes) : l.length ≤ 10 → IsVarint b.length l → IsPayload (.len b) (l ++ b)

/-- A field is a number, a value; its bytes are those of `8 * number + wire type`, then those of
the value. -/
inductive IsField : Nat × Unk → Bytes → Prop
  | mk (num : Nat) (u : Unk) (t p : Bytes) :
      1 ≤ num → num < 2 ^ 29 → Carried u → t.length ≤ 10 → IsVarint (num * 8 + wire u) t →
      IsPayload u p → IsField (num, u) (t ++ p)

/-- A message is its fields one after the other. -/
inductive IsMessage : List (Nat × Unk) → Bytes → Prop
  | nil : IsMessage [] []
  | cons (f : Nat × Unk) (fs : List (Nat × Unk)) (b bs : Bytes) :
      IsField f b → IsMessage fs bs → IsMessage (f :: fs) (b ++ bs)

/-- `int32`: the number in the 32-bit range that has the same low 32 bits. -/
def int32 (n : Nat) : Int := Int.bmod n (2 ^ 32)

/-- `int64`: the number in the 64-bit range that has the same low 64 bits. -/
def int64 (n : Nat) : Int := Int.bmod n (2 ^ 64)

/-- `string`: its UTF-8 bytes. -/
def Utf8 (s : String) (b : Bytes) : Prop := s.toUTF8.data.toList = b

/-- The fields of `fs` read one after the other, each changing the message as `Sets` says. -/
inductive Reads {M : Type} (Sets : Nat × Unk → M → M → Prop) : List (Nat × Unk) → M → M → Prop
  | nil (m : M) : Reads Sets [] m m
  | cons (f : Nat × Unk) (fs : List (Nat × Unk)) (m m' m'' : M) :
      Sets f m m' → Reads Sets fs m' m'' → Reads Sets (f :: fs) m m''

/-- Number and wire type of the declared fields, globaltype.proto:5-6. -/
def Index.declared : List (Nat × Nat) := [(1, 2), (2, 0)]

/-- globaltype.proto:4-7: a later value replaces an earlier one; fields that are not declared are
kept. -/
inductive Index.Sets : Nat × Unk → Index → Index → Prop
  | label (m : Index) (s : String) (b : Bytes) :
      Utf8 s b → Index.Sets (1, .len b) m { m with label := s }
  | next (m : Index) (n : Nat) : Index.Sets (2, .varint n) m { m with next := int32 n }
  | other (m : Index) (f : Nat × Unk) :
      (f.1, wire f.2) ∉ Index.declared → Index.Sets f m { m with unknown := m.unknown ++ [f] }

/-- Number and wire type of the declared fields, globaltype.proto:8-22. -/
def Action.declared : List (Nat × Nat) :=
  [(1, 0), (2, 0), (3, 2), (4, 2), (5, 2), (6, 2), (7, 0), (8, 0), (9, 0), (10, 0), (11, 0)]

/-- globaltype.proto:3-23: a later value replaces an earlier one, a later continuation comes
after the earlier ones; fields that are not declared are kept. -/
inductive Action.Sets : Nat × Unk → Action → Action → Prop
  | idx (m : Action) (n : Nat) : Action.Sets (1, .varint n) m { m with idx := int32 n }
  | type (m : Action) (n : Nat) : Action.Sets (2, .varint n) m { m with type := int32 n }
  | fromRole (m : Action) (s : String) (b : Bytes) :
      Utf8 s b → Action.Sets (3, .len b) m { m with fromRole := s }
  | toRole (m : Action) (s : String) (b : Bytes) :
      Utf8 s b → Action.Sets (4, .len b) m { m with toRole := s }
  | continuation (m : Action) (gs : List (Nat × Unk)) (b : Bytes) (i : Index) :
      IsMessage gs b → Reads Index.Sets gs {} i →
      Action.Sets (5, .len b) m { m with continuations := m.continuations ++ [i] }
  | clock (m : Action) (s : String) (b : Bytes) :
      Utf8 s b → Action.Sets (6, .len b) m { m with clock := s }
  | lowerBound (m : Action) (n : Nat) :
      Action.Sets (7, .varint n) m { m with lowerBound := int64 n }
  | includeLb (m : Action) (v : Bool) :
      Action.Sets (8, .varint (if v then 1 else 0)) m { m with includeLb := v }
  | upperBound (m : Action) (n : Nat) :
      Action.Sets (9, .varint n) m { m with upperBound := int64 n }
  | includeUb (m : Action) (v : Bool) :
      Action.Sets (10, .varint (if v then 1 else 0)) m { m with includeUb := v }
  | resetClock (m : Action) (v : Bool) :
      Action.Sets (11, .varint (if v then 1 else 0)) m { m with resetClock := v }
  | other (m : Action) (f : Nat × Unk) :
      (f.1, wire f.2) ∉ Action.declared → Action.Sets f m { m with unknown := m.unknown ++ [f] }

/-- Number and wire type of the declared fields, globaltype.proto:26-27. -/
def GlobalType.declared : List (Nat × Nat) := [(1, 0), (2, 2)]

/-- globaltype.proto:25-28. -/
inductive GlobalType.Sets : Nat × Unk → GlobalType → GlobalType → Prop
  | start (m : GlobalType) (n : Nat) :
      GlobalType.Sets (1, .varint n) m { m with start := int32 n }
  | action (m : GlobalType) (gs : List (Nat × Unk)) (b : Bytes) (a : Action) :
      IsMessage gs b → Reads Action.Sets gs {} a →
      GlobalType.Sets (2, .len b) m { m with actions := m.actions ++ [a] }
  | other (m : GlobalType) (f : Nat × Unk) :
      (f.1, wire f.2) ∉ GlobalType.declared →
      GlobalType.Sets f m { m with unknown := m.unknown ++ [f] }

/-! ## The values of the Rust types -/

/-- An `i32`. -/
def I32 (x : Int) : Prop := -2 ^ 31 ≤ x ∧ x < 2 ^ 31

/-- An `i64`. -/
def I64 (x : Int) : Prop := -2 ^ 63 ≤ x ∧ x < 2 ^ 63

/-- A string whose length fits the 32 bits that the format allows. -/
def Short (s : String) : Prop := s.utf8ByteSize < 2 ^ 32

/-- Unknown fields: of a number and a value that the format can carry, and not declared. -/
def Unknown (declared : List (Nat × Nat)) (u : Unknowns) : Prop :=
  ∀ f ∈ u, 1 ≤ f.1 ∧ f.1 < 2 ^ 29 ∧ Carried f.2 ∧ (f.1, wire f.2) ∉ declared

/-- An `Index` of the Rust type, of less than 4 GiB. -/
structure Index.Valid (m : Index) : Prop where
  label : Short m.label
  next : I32 m.next
  unknown : Unknown Index.declared m.unknown
  size : m.write.length < 2 ^ 32

/-- An `Action` of the Rust type, of less than 4 GiB. -/
structure Action.Valid (m : Action) : Prop where
  idx : I32 m.idx
  type : I32 m.type
  fromRole : Short m.fromRole
  toRole : Short m.toRole
  continuations : ∀ i ∈ m.continuations, i.Valid
  clock : Short m.clock
  lowerBound : I64 m.lowerBound
  upperBound : I64 m.upperBound
  unknown : Unknown Action.declared m.unknown
  size : m.write.length < 2 ^ 32

/-- A `GlobalType` of the Rust type, whose actions are of less than 4 GiB each. -/
structure GlobalType.Valid (m : GlobalType) : Prop where
  start : I32 m.start
  actions : ∀ a ∈ m.actions, a.Valid
  unknown : Unknown GlobalType.declared m.unknown

/-! ## Two messages one after the other

The format's rule for merging: a value that is present replaces, one that is the default is
absent, lists are appended. -/

/-- A number that is absent when 0. -/
def orInt (a b : Int) : Int := if b = 0 then a else b

/-- A string that is absent when empty. -/
def orStr (a b : String) : String := if b = "" then a else b

/-- `Index` merged. -/
def Index.merged (a b : Index) : Index where
  label := orStr a.label b.label
  next := orInt a.next b.next
  unknown := a.unknown ++ b.unknown

/-- `Action` merged. -/
def Action.merged (a b : Action) : Action where
  idx := orInt a.idx b.idx
  type := orInt a.type b.type
  fromRole := orStr a.fromRole b.fromRole
  toRole := orStr a.toRole b.toRole
  continuations := a.continuations ++ b.continuations
  clock := orStr a.clock b.clock
  lowerBound := orInt a.lowerBound b.lowerBound
  includeLb := a.includeLb || b.includeLb
  upperBound := orInt a.upperBound b.upperBound
  includeUb := a.includeUb || b.includeUb
  resetClock := a.resetClock || b.resetClock
  unknown := a.unknown ++ b.unknown

/-- `GlobalType` merged. -/
def GlobalType.merged (a b : GlobalType) : GlobalType where
  start := orInt a.start b.start
  actions := a.actions ++ b.actions
  unknown := a.unknown ++ b.unknown

end Verif.Proto
