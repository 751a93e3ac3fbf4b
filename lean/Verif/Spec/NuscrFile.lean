import Verif.Spec.Baking
import Verif.Spec.NuscrStructs
import Verif.Model.NuscrFile

/-!
# Specification: what the names in a file refer to

A name refers to the item of that name in its space; there must be exactly one, and it must be the one meant, with as
many parameters as arguments are written.  A name of the prelude refers to what is meant if the file declares nothing of
that name.
-/
namespace Verif.NuscrSpec
open Verif.Nuscr

/-- The items a name can refer to. -/
def candidates (items : List Entry) (space : Space) (name : Text) : List Entry :=
  items.filter fun d => d.space = space ∧ d.name = name

/-- The use of a name refers to what is meant. -/
def Refers (items : List Entry) (u : Entry) : Prop :=
  candidates items u.space u.name = if u.source = .prelude then [] else [u]

/-- All names refer to what is meant; no two items of one space, no two variants of one enum and no two of the variables
bound together have the same name. -/
structure WellNamed (f : File) : Prop where
  refers : ∀ u ∈ f.uses, Refers f.items u
  once : (f.items.map fun d => (d.space, d.name)).Nodup
  variants : ∀ vs ∈ f.variants, vs.Nodup
  threads : f.threads.Nodup

/-- Names of types that every file uses or declares, whatever the protocol. -/
def takenTypes : List Text :=
  ["End", "RecvTimed", "SendTimed", "RoleEnd", "HashMap", "Error", "Instant", "MeshedChannels", "String", "Self", "Box",
    "FnOnce", "Result", "char", "i128", "bool", "std", "mpstthree", "crossbeam_channel", "either"].map String.toList

/-- The same for values. -/
def takenValues : List Text := ["Ok", "Err", "drop", "main", "fork_mpst"].map String.toList

/-- The names of types made from the name of a role. -/
def roleTypes (r : Text) : List Text :=
  ["Role".toList ++ r, "Role".toList ++ r ++ "Dual".toList, "Role".toList ++ r ++ "toAll".toList,
    "RoleAllto".toList ++ r, "Name".toList ++ r]

/-- The names of roles and structures do not collide with each other or with other names of the file. -/
structure FreeNames (branching : Bool) (lower : Text → Text) (roles : List Text) (ss : List Struct) : Prop where
  /-- The types made from the names of the roles differ (C54). -/
  apart : Baking.NamesApart roles
  /-- `RoleEnd` and, if there is a choice, `RoleBroadcast` are types of the library. -/
  library : "End".toList ∉ roles ∧ (branching = true → "Broadcast".toList ∉ roles)
  /-- The roles differ in lower case. -/
  lowered : ∀ r ∈ roles, ∀ q ∈ roles, lower r = lower q → r = q
  /-- The structures differ. -/
  structs : (ss.map (·.1)).Nodup
  types : ∀ s ∈ ss, s.1 ∉ takenTypes ∧ (branching = true → s.1 ≠ "RoleBroadcast".toList) ∧ ∀ r ∈ roles, s.1 ∉ roleTypes r
  values : ∀ s ∈ ss, s.2 = none → s.1 ∉ takenValues

/-- The names written in a protocol do not collide with each other or with other names of the file; `title` makes the name
of a type. -/
structure FreeProtocol (branching : Bool) (title lower : Text → Text) (roles : List Text) (msgs : List Msg) : Prop where
  apart : Baking.NamesApart roles
  library : "End".toList ∉ roles ∧ (branching = true → "Broadcast".toList ∉ roles)
  lowered : ∀ r ∈ roles, ∀ q ∈ roles, lower r = lower q → r = q
  /-- Labels and payloads. -/
  types : ∀ a ∈ named msgs, title a ∉ takenTypes ∧ (branching = true → title a ≠ "RoleBroadcast".toList) ∧
    ∀ r ∈ roles, title a ∉ roleTypes r
  /-- Labels without a payload, and payloads. -/
  values : ∀ m ∈ msgs, (m.payload = [] → title m.message ∉ takenValues) ∧ (m.payload ≠ [] → title m.payload ∉ takenValues)

end Verif.NuscrSpec
