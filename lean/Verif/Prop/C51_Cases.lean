import Verif.Model.CheckClean

/-!
# C51: types that the cleaning mangles

What the conditions of `Prop/C51.lean` leave out, case by case.
-/
namespace Verif.Prop
open Verif.Check

/-- What the cleaning makes of a text. -/
def cleaned (s : String) : Option (List String) := (cleanSession s.toList).map (·.map String.ofList)

/-- The type `X` of the crate `q` and the type `X` of the module `q` of the crate `z`: of the second, a part of the path
is left. -/
theorem C51_nested_path :
    cleaned "m::MeshedChannels<m::Send<q::X, m::End>, m::Recv<z::q::X, m::End>, m::RoleEnd, m::NameA>" =
      some ["Send<X,End>", "Recv<z::X,End>", "RoleEnd", "RoleA<RoleEnd>", "RoleA"] := by decide +kernel

/-- The path of a type behind a reference is not removed: the two sides of a session no longer fit if only one payload is
given so. -/
theorem C51_reference :
    cleaned "m::MeshedChannels<m::Send<&a::B, m::End>, m::RoleB<m::RoleEnd>, m::NameA>" =
      some ["Send<a::B,End>", "RoleB<RoleEnd>", "RoleA<RoleEnd>", "RoleA"] := by decide +kernel

/-- The path of the first element of an array is removed with the bracket. -/
theorem C51_array :
    cleaned "m::MeshedChannels<m::Send<[a::X; 3], m::End>, m::RoleB<m::RoleEnd>, m::NameA>" =
      some ["Send<X;3],End>", "RoleB<RoleEnd>", "RoleA<RoleEnd>", "RoleA"] := by decide +kernel

/-- A payload type called `NameTag` becomes a role. -/
theorem C51_payload_name :
    cleaned "m::MeshedChannels<m::Send<a::NameTag, m::End>, m::RoleB<m::RoleEnd>, m::NameA>" =
      some ["Send<RoleTag<RoleEnd>,End>", "RoleB<RoleEnd>", "RoleA<RoleEnd>", "RoleA"] := by decide +kernel

/-- Roles `A1` and `A2` are taken for one role `A`, and the checker fails. -/
theorem C51_digits :
    cleaned "m::MeshedChannels<m::Send<i32, m::End>, m::RoleA2<m::RoleEnd>, m::NameA1>" =
      some ["Send<i32,End>", "RoleA2<RoleEnd>", "RoleA<RoleEnd>1", "RoleA"] ∧
    checkerConcat 50 (fun _ _ => true) []
      ["m::MeshedChannels<m::Send<i32, m::End>, m::RoleA2<m::RoleEnd>, m::NameA1>".toList,
       "m::MeshedChannels<m::Recv<i32, m::End>, m::RoleA1<m::RoleEnd>, m::NameA2>".toList] (fun _ _ => []) [] = none ∧
    (checkerConcat 50 (fun _ _ => true) []
      ["m::MeshedChannels<m::Send<i32, m::End>, m::RoleB<m::RoleEnd>, m::NameA>".toList,
       "m::MeshedChannels<m::Recv<i32, m::End>, m::RoleA<m::RoleEnd>, m::NameB>".toList] (fun _ _ => []) []).isSome := by
  decide +kernel

/-- The chooser `AB` of a choice between types of `A` is taken for `A`. -/
theorem C51_role_prefix :
    cleaned "m::MeshedChannels<m::Send<m::Either<m::MeshedChannels<m::End, m::RoleEnd, m::NameA>, m::MeshedChannels<m::End, m::RoleEnd, m::NameA>>, m::End>, m::RoleBroadcast, m::NameAB>" =
      some ["Send<Either<MeshedChannels<End,RoleEnd,RoleA<RoleEnd>>,MeshedChannels<End,RoleEnd,RoleA<RoleEnd>>>,End>",
        "RoleBroadcast", "RoleA<RoleEnd>B", "RoleA"] := by decide +kernel

end Verif.Prop
