import Verif.Model.CheckClean
/-!
# Tests of the model of the checker

Not proofs: the model is run on the inputs of tests of the repository and its results compared with those the tests
expect of the code.  They check that the model is a model of this code.
-/
namespace Verif.CheckTest
open Verif.Check

/-- `format!("{:?}", Dot::new(&graph))`, by lines. -/
def dot (g : Graph) : List String :=
  ["digraph {"] ++ (g.nodes.zipIdx).map (fun n => s!"    {n.2} [ label = \"\\\"{String.ofList n.1}\\\"\" ]") ++
    g.edges.map (fun e => s!"    {e.1} -> {e.2.1} [ label = \"\\\"{String.ofList e.2.2}\\\"\" ]") ++ ["}", ""]

/-- Does `checker_concat!` give these graphs, and no others?  (The external tool is not run: it plays no role here.) -/
def sameGraphs (nameFile : String) (sessions : List String) (groups : List (String × List (String × String)))
    (variants : List (String × List (String × String))) (expected : List (String × List String)) : Bool :=
  match checkerConcat 100 (fun _ _ => true) nameFile.toList (sessions.map String.toList)
    (fun e b => ((variants.find? (·.1.toList == e)).bind fun x => (x.2.find? (·.1.toList == b)).map (·.2.toList)).getD [])
    (groups.map fun g => ⟨g.1.toList, g.2.map fun c => (c.1.toList, c.2.toList)⟩) with
  | none => false
  | some (gs, _, _) =>
    gs.length == expected.length &&
      expected.all fun e => (gs.find? fun g => g.1 == e.1.toList).elim false fun g => dot g.2 == e.2

def strs (l : List Str) : List String := l.map String.ofList

/-! The unit tests of `/repo/src/checking/aux_checker.rs`. -/

-- 864-883
#guard (cleanSession ("&&mpstthree::meshedchannels::MeshedChannels<mpstthree::binary::struct_trait::recv::Recv<" ++
  "checking_recursion::Branches0AtoB, mpstthree::binary::struct_trait::end::End>, mpstthree::binary::struct_trait::" ++
  "recv::Recv<i32, mpstthree::binary::struct_trait::send::Send<i32, mpstthree::binary::struct_trait::end::End>>, " ++
  "mpstthree::role::c::RoleC<mpstthree::role::c::RoleC<mpstthree::role::b::RoleB<mpstthree::role::end::RoleEnd>>>, " ++
  "mpstthree::name::a::NameA>").toList).map strs ==
  some ["Recv<Branches0AtoB,End>", "Recv<i32,Send<i32,End>>", "RoleC<RoleC<RoleB<RoleEnd>>>", "RoleA<RoleEnd>", "RoleA"]

def dirtyA := "mpstthree::meshedchannels::MeshedChannels<mpstthree::binary::struct_trait::recv::Recv<checking_recursion::\
  Branches0AtoB, mpstthree::binary::struct_trait::end::End>, mpstthree::binary::struct_trait::end::End, mpstthree::role::\
  b::RoleB<mpstthree::role::end::RoleEnd>, mpstthree::name::a::NameA>"
def dirtyC := "mpstthree::meshedchannels::MeshedChannels<mpstthree::binary::struct_trait::end::End, mpstthree::binary::\
  struct_trait::recv::Recv<i32, mpstthree::binary::struct_trait::send::Send<i32, mpstthree::binary::struct_trait::recv::\
  Recv<checking_recursion::Branches0CtoB, mpstthree::binary::struct_trait::end::End>>>, mpstthree::role::b::RoleB<\
  mpstthree::role::b::RoleB<mpstthree::role::b::RoleB<mpstthree::role::end::RoleEnd>>>, mpstthree::name::c::NameC>"
def dirtyB := "mpstthree::meshedchannels::MeshedChannels<mpstthree::binary::struct_trait::send::Send<checking_recursion::\
  Branches0AtoB, mpstthree::binary::struct_trait::end::End>, mpstthree::binary::struct_trait::send::Send<i32, mpstthree::\
  binary::struct_trait::recv::Recv<i32, mpstthree::binary::struct_trait::send::Send<checking_recursion::Branches0CtoB, \
  mpstthree::binary::struct_trait::end::End>>>, mpstthree::role::c::RoleC<mpstthree::role::c::RoleC<mpstthree::role::\
  broadcast::RoleBroadcast>>, mpstthree::name::b::NameB>"

-- 885-955
#guard match cleanSessions [dirtyA.toList, dirtyC.toList, dirtyB.toList] with
  | some (m, roles) =>
    (look m "RoleC".toList).map strs == some ["End", "Recv<i32,Send<i32,Recv<Branches0CtoB,End>>>",
      "RoleB<RoleB<RoleB<RoleEnd>>>"] &&
    (look m "RoleA".toList).map strs == some ["Recv<Branches0AtoB,End>", "End", "RoleB<RoleEnd>"] &&
    (look m "RoleB".toList).map strs == some ["Send<Branches0AtoB,End>", "Send<i32,Recv<i32,Send<Branches0CtoB,End>>>",
      "RoleC<RoleC<RoleBroadcast>>"] && strs roles == ["RoleA", "RoleB", "RoleC"]
  | none => false

-- 957-985
#guard (cleanSessions ["mpstthree::meshedchannels::MeshedChannels<mpstthree::binary::struct_trait::recv::Recv<\
  checking_recursion::Branches0AtoB, mpstthree::binary::struct_trait::end::End>, mpstthree::binary::struct_trait::end::\
  End, mpstthree::role::b::RoleB<mpstthree::role::end::RoleEnd>, mpstthree::role::a::RoleA<mpstthree::role::end::\
  RoleEnd>>".toList, "mpstthree::meshedchannels::MeshedChannels<mpstthree::binary::struct_trait::end::End, mpstthree::\
  binary::struct_trait::recv::Recv<i32, mpstthree::binary::struct_trait::send::Send<i32, mpstthree::binary::\
  struct_trait::recv::Recv<checking_recursion::Branches0CtoB, mpstthree::binary::struct_trait::end::End>>>, mpstthree::\
  role::b::RoleB<mpstthree::role::b::RoleB<mpstthree::role::b::RoleB<mpstthree::role::end::RoleEnd>>>, mpstthree::role::\
  c::RoleC<mpstthree::role::end::RoleEnd>>".toList]).isNone

-- 987-1001
#guard strs (getBlocks "MeshedChannels<Send<Branches0AtoB, End>, Send<i32, Recv<i32, Send<Branches0CtoB, End>>>, RoleC<\
  RoleC<RoleBroadcast>>, RoleB<RoleEnd>>".toList) ==
  ["Send<Branches0AtoB,End>", "Send<i32,Recv<i32,Send<Branches0CtoB,End>>>", "RoleC<RoleC<RoleBroadcast>>",
    "RoleB<RoleEnd>"]

-- 1003-1034
#guard strs (getHead "End".toList) == ["End"]
#guard strs (getHead "RoleEnd".toList) == ["RoleEnd"]
#guard strs (getHead "Recv<i32, Send<i32, Recv<Branches0CtoB, End>>>".toList) ==
  ["Recv", "i32", "Send<i32,Recv<Branches0CtoB,End>>"]

-- 1036-1043
#guard (extractIndex [0, 1, 4, 5] 3).map String.ofList == some "0.1.4.5"
#guard (extractIndex [0, 1, 4, 5] 2).map String.ofList == some "0.1.4"
#guard (extractIndex [0, 1, 4, 5] 0).map String.ofList == some "0"

-- 1045-1061
#guard (buildDual "Recv<i32, Send<Branches0CtoB, End>>".toList).map String.ofList == some "Send<i32,Recv<Branches0CtoB,End>>"
#guard (buildDual "Coco<i32, Banana<Branches0CtoB, End>>".toList).isNone

/-- `get_graph_session(..)` panics. -/
def panics (role : String) (full roles : List String) (receivers : List (Str × List (Str × List Str)) := [])
    (branching : List (Str × List Str) := []) (group : List (Str × Int) := []) : Bool :=
  (getGraphSession 100 role.toList (full.map String.toList) (roles.map String.toList) (look receivers) (look branching)
    (look group) (group.map (·.1))).isNone

-- 1063-1225
#guard panics "RoleA" ["Recv<(), End>", "RoleEnd"] ["RoleA", "RoleB"]
#guard panics "RoleB" ["End", "RoleA<RoleEnd>"] ["RoleA", "RoleB"]
#guard panics "RoleA" ["End", "End", "RoleAtoAll<RoleEnd, RoleEnd>"] ["RoleA", "RoleB", "RoleC"]
#guard panics "RoleA" ["End", "Send<(), End>", "RoleAtoAll<RoleEnd, RoleEnd>"] ["RoleA", "RoleB", "RoleC"]
#guard panics "RoleA" ["Recv<(), End>", "Recv<(), End>", "RoleAlltoB<RoleEnd, RoleEnd>"] ["RoleA", "RoleB", "RoleC"]

def endBranch : List Str := ["End".toList, "End".toList, "RoleEnd".toList]
def oldReceivers : List (Str × List (Str × List Str)) :=
  [("Branching0AtoB".toList, [("End".toList, endBranch)]), ("Branching0AtoC".toList, [("End".toList, endBranch)])]
def oldBranching : List (Str × List Str) :=
  [("Branching0AtoB::End".toList, endBranch), ("Branching0AtoC::End".toList, endBranch)]
def oldGroup : List (Str × Int) := [("Branching0AtoB::End".toList, 0), ("Branching0AtoC::End".toList, 0)]

-- 1227-1418
#guard panics "RoleA" ["Send<Branching0AtoB, End>", "Send<Branching0AtoC, End>", "RoleBroadcast"]
  ["RoleA", "RoleB", "RoleC"] oldReceivers oldBranching oldGroup
#guard panics "RoleA" ["Recv<Branching0AtoB, End>", "End", "RoleB<RoleEnd>"]
  ["RoleA", "RoleB", "RoleC"] oldReceivers oldBranching oldGroup
#guard panics "RoleA" ["Send<Branching0AtoB, End>", "Send<Branching0AtoC, End>", "RoleBroadcast"]
  ["RoleA", "RoleB", "RoleC"] [] oldBranching oldGroup

end Verif.CheckTest
