import Verif.Check.Checker
/-! Written by tools/recorded.py.  Tests, not proofs: the graphs which the tests of the repository expect of the checker. -/
namespace Verif.CheckTest

-- /repo/tests/checking_mod/basics/checking_choice.rs, file name given: "checking_choice"
#guard sameGraphs "checking_choice"
    ["mpstthree::meshedchannels::MeshedChannels<mpstthree::binary::struct_trait::recv::Recv<either::Either<mpstthree::meshedchannels::MeshedChannels<mpstthree::binary::struct_trait::end::End, mpstthree::binary::struct_trait::recv::Recv<i32, mpstthree::binary::struct_trait::send::Send<i32, mpstthree::binary::struct_trait::end::End>>, mpstthree::role::c::RoleC<mpstthree::role::c::RoleC<mpstthree::role::end::RoleEnd>>, mpstthree::name::a::NameA>, mpstthree::meshedchannels::MeshedChannels<mpstthree::binary::struct_trait::end::End, mpstthree::binary::struct_trait::end::End, mpstthree::role::end::RoleEnd, mpstthree::name::a::NameA>>, mpstthree::binary::struct_trait::end::End>, mpstthree::binary::struct_trait::end::End, mpstthree::role::alltob::RoleAlltoB<mpstthree::role::end::RoleEnd, mpstthree::role::end::RoleEnd>, mpstthree::name::a::NameA>",
    "mpstthree::meshedchannels::MeshedChannels<mpstthree::binary::struct_trait::end::End, mpstthree::binary::struct_trait::recv::Recv<i32, mpstthree::binary::struct_trait::send::Send<i32, mpstthree::binary::struct_trait::recv::Recv<either::Either<mpstthree::meshedchannels::MeshedChannels<mpstthree::binary::struct_trait::send::Send<i32, mpstthree::binary::struct_trait::recv::Recv<i32, mpstthree::binary::struct_trait::end::End>>, mpstthree::binary::struct_trait::recv::Recv<i32, mpstthree::binary::struct_trait::send::Send<i32, mpstthree::binary::struct_trait::end::End>>, mpstthree::role::b::RoleB<mpstthree::role::a::RoleA<mpstthree::role::a::RoleA<mpstthree::role::b::RoleB<mpstthree::role::end::RoleEnd>>>>, mpstthree::name::c::NameC>, mpstthree::meshedchannels::MeshedChannels<mpstthree::binary::struct_trait::end::End, mpstthree::binary::struct_trait::end::End, mpstthree::role::end::RoleEnd, mpstthree::name::c::NameC>>, mpstthree::binary::struct_trait::end::End>>>, mpstthree::role::b::RoleB<mpstthree::role::b::RoleB<mpstthree::role::alltob::RoleAlltoB<mpstthree::role::end::RoleEnd, mpstthree::role::end::RoleEnd>>>, mpstthree::name::c::NameC>",
    "mpstthree::meshedchannels::MeshedChannels<mpstthree::binary::struct_trait::send::Send<either::Either<mpstthree::meshedchannels::MeshedChannels<mpstthree::binary::struct_trait::end::End, mpstthree::binary::struct_trait::recv::Recv<i32, mpstthree::binary::struct_trait::send::Send<i32, mpstthree::binary::struct_trait::end::End>>, mpstthree::role::c::RoleC<mpstthree::role::c::RoleC<mpstthree::role::end::RoleEnd>>, mpstthree::name::a::NameA>, mpstthree::meshedchannels::MeshedChannels<mpstthree::binary::struct_trait::end::End, mpstthree::binary::struct_trait::end::End, mpstthree::role::end::RoleEnd, mpstthree::name::a::NameA>>, mpstthree::binary::struct_trait::end::End>, mpstthree::binary::struct_trait::send::Send<i32, mpstthree::binary::struct_trait::recv::Recv<i32, mpstthree::binary::struct_trait::send::Send<either::Either<mpstthree::meshedchannels::MeshedChannels<mpstthree::binary::struct_trait::send::Send<i32, mpstthree::binary::struct_trait::recv::Recv<i32, mpstthree::binary::struct_trait::end::End>>, mpstthree::binary::struct_trait::recv::Recv<i32, mpstthree::binary::struct_trait::send::Send<i32, mpstthree::binary::struct_trait::end::End>>, mpstthree::role::b::RoleB<mpstthree::role::a::RoleA<mpstthree::role::a::RoleA<mpstthree::role::b::RoleB<mpstthree::role::end::RoleEnd>>>>, mpstthree::name::c::NameC>, mpstthree::meshedchannels::MeshedChannels<mpstthree::binary::struct_trait::end::End, mpstthree::binary::struct_trait::end::End, mpstthree::role::end::RoleEnd, mpstthree::name::c::NameC>>, mpstthree::binary::struct_trait::end::End>>>, mpstthree::role::c::RoleC<mpstthree::role::c::RoleC<mpstthree::role::btoall::RoleBtoAll<mpstthree::role::c::RoleC<mpstthree::role::c::RoleC<mpstthree::role::end::RoleEnd>>, mpstthree::role::end::RoleEnd>>>, mpstthree::name::b::NameB>"]
    []
    []
    [("RoleA", ["digraph {",
      "    0 [ label = \"\\\"0\\\"\" ]",
      "    1 [ label = \"\\\"0.1\\\"\" ]",
      "    2 [ label = \"\\\"0.2\\\"\" ]",
      "    3 [ label = \"\\\"0.3\\\"\" ]",
      "    4 [ label = \"\\\"0.1\\\"\" ]",
      "    0 -> 1 [ label = \"\\\"RoleA?RoleC: i32\\\"\" ]",
      "    1 -> 2 [ label = \"\\\"RoleA!RoleC: i32\\\"\" ]",
      "    2 -> 3 [ label = \"\\\"0\\\"\" ]",
      "    0 -> 4 [ label = \"\\\"0\\\"\" ]",
      "}",
      ""]),
    ("RoleB", ["digraph {",
      "    0 [ label = \"\\\"0\\\"\" ]",
      "    1 [ label = \"\\\"1\\\"\" ]",
      "    2 [ label = \"\\\"2\\\"\" ]",
      "    3 [ label = \"\\\"2.1\\\"\" ]",
      "    4 [ label = \"\\\"2.2\\\"\" ]",
      "    5 [ label = \"\\\"2.3\\\"\" ]",
      "    6 [ label = \"\\\"2.1\\\"\" ]",
      "    0 -> 1 [ label = \"\\\"RoleB!RoleC: i32\\\"\" ]",
      "    1 -> 2 [ label = \"\\\"RoleB?RoleC: i32\\\"\" ]",
      "    2 -> 3 [ label = \"\\\"RoleB!RoleC: i32\\\"\" ]",
      "    3 -> 4 [ label = \"\\\"RoleB?RoleC: i32\\\"\" ]",
      "    4 -> 5 [ label = \"\\\"0\\\"\" ]",
      "    2 -> 6 [ label = \"\\\"0\\\"\" ]",
      "}",
      ""]),
    ("RoleC", ["digraph {",
      "    0 [ label = \"\\\"0\\\"\" ]",
      "    1 [ label = \"\\\"1\\\"\" ]",
      "    2 [ label = \"\\\"2\\\"\" ]",
      "    3 [ label = \"\\\"2.1\\\"\" ]",
      "    4 [ label = \"\\\"2.2\\\"\" ]",
      "    5 [ label = \"\\\"2.3\\\"\" ]",
      "    6 [ label = \"\\\"2.4\\\"\" ]",
      "    7 [ label = \"\\\"2.5\\\"\" ]",
      "    8 [ label = \"\\\"2.1\\\"\" ]",
      "    0 -> 1 [ label = \"\\\"RoleC?RoleB: i32\\\"\" ]",
      "    1 -> 2 [ label = \"\\\"RoleC!RoleB: i32\\\"\" ]",
      "    2 -> 3 [ label = \"\\\"RoleC?RoleB: i32\\\"\" ]",
      "    3 -> 4 [ label = \"\\\"RoleC!RoleA: i32\\\"\" ]",
      "    4 -> 5 [ label = \"\\\"RoleC?RoleA: i32\\\"\" ]",
      "    5 -> 6 [ label = \"\\\"RoleC!RoleB: i32\\\"\" ]",
      "    6 -> 7 [ label = \"\\\"0\\\"\" ]",
      "    2 -> 8 [ label = \"\\\"0\\\"\" ]",
      "}",
      ""])]

-- /repo/tests/checking_mod/basics/checking_recursion.rs, file name given: "checking_recursion"
#guard sameGraphs "checking_recursion"
    ["mpstthree::meshedchannels::MeshedChannels<mpstthree::binary::struct_trait::recv::Recv<checking::checking_recursion::Branches0AtoB, mpstthree::binary::struct_trait::end::End>, mpstthree::binary::struct_trait::end::End, mpstthree::role::b::RoleB<mpstthree::role::end::RoleEnd>, mpstthree::name::a::NameA>",
    "mpstthree::meshedchannels::MeshedChannels<mpstthree::binary::struct_trait::end::End, mpstthree::binary::struct_trait::recv::Recv<i32, mpstthree::binary::struct_trait::send::Send<i32, mpstthree::binary::struct_trait::recv::Recv<checking::checking_recursion::Branches0CtoB, mpstthree::binary::struct_trait::end::End>>>, mpstthree::role::b::RoleB<mpstthree::role::b::RoleB<mpstthree::role::b::RoleB<mpstthree::role::end::RoleEnd>>>, mpstthree::name::c::NameC>",
    "mpstthree::meshedchannels::MeshedChannels<mpstthree::binary::struct_trait::send::Send<checking::checking_recursion::Branches0AtoB, mpstthree::binary::struct_trait::end::End>, mpstthree::binary::struct_trait::send::Send<i32, mpstthree::binary::struct_trait::recv::Recv<i32, mpstthree::binary::struct_trait::send::Send<checking::checking_recursion::Branches0CtoB, mpstthree::binary::struct_trait::end::End>>>, mpstthree::role::c::RoleC<mpstthree::role::c::RoleC<mpstthree::role::broadcast::RoleBroadcast>>, mpstthree::name::b::NameB>"]
    [("mpstthree::meshedchannels::MeshedChannels<mpstthree::binary::struct_trait::send::Send<checking::checking_recursion::Branches0AtoB, mpstthree::binary::struct_trait::end::End>, mpstthree::binary::struct_trait::send::Send<i32, mpstthree::binary::struct_trait::recv::Recv<i32, mpstthree::binary::struct_trait::send::Send<checking::checking_recursion::Branches0CtoB, mpstthree::binary::struct_trait::end::End>>>, mpstthree::role::c::RoleC<mpstthree::role::c::RoleC<mpstthree::role::broadcast::RoleBroadcast>>, mpstthree::name::b::NameB>", [("Branches0AtoB", "Video"), ("Branches0CtoB", "Video")]),
    ("mpstthree::meshedchannels::MeshedChannels<mpstthree::binary::struct_trait::end::End, mpstthree::binary::struct_trait::end::End, mpstthree::role::end::RoleEnd, mpstthree::name::b::NameB>", [("Branches0AtoB", "End"), ("Branches0CtoB", "End")])]
    [("Branches0CtoB", [("End", "mpstthree::meshedchannels::MeshedChannels<mpstthree::binary::struct_trait::end::End, mpstthree::binary::struct_trait::end::End, mpstthree::role::end::RoleEnd, mpstthree::name::c::NameC>"), ("Video", "mpstthree::meshedchannels::MeshedChannels<mpstthree::binary::struct_trait::send::Send<i32, mpstthree::binary::struct_trait::recv::Recv<i32, mpstthree::binary::struct_trait::end::End>>, mpstthree::binary::struct_trait::recv::Recv<i32, mpstthree::binary::struct_trait::send::Send<i32, mpstthree::binary::struct_trait::recv::Recv<checking::checking_recursion::Branches0CtoB, mpstthree::binary::struct_trait::end::End>>>, mpstthree::role::b::RoleB<mpstthree::role::a::RoleA<mpstthree::role::a::RoleA<mpstthree::role::b::RoleB<mpstthree::role::b::RoleB<mpstthree::role::end::RoleEnd>>>>>, mpstthree::name::c::NameC>")]),
    ("Branches0AtoB", [("End", "mpstthree::meshedchannels::MeshedChannels<mpstthree::binary::struct_trait::end::End, mpstthree::binary::struct_trait::end::End, mpstthree::role::end::RoleEnd, mpstthree::name::a::NameA>"), ("Video", "mpstthree::meshedchannels::MeshedChannels<mpstthree::binary::struct_trait::recv::Recv<checking::checking_recursion::Branches0AtoB, mpstthree::binary::struct_trait::end::End>, mpstthree::binary::struct_trait::recv::Recv<i32, mpstthree::binary::struct_trait::send::Send<i32, mpstthree::binary::struct_trait::end::End>>, mpstthree::role::c::RoleC<mpstthree::role::c::RoleC<mpstthree::role::b::RoleB<mpstthree::role::end::RoleEnd>>>, mpstthree::name::a::NameA>")])]
    [("RoleA", ["digraph {",
      "    0 [ label = \"\\\"0\\\"\" ]",
      "    1 [ label = \"\\\"0.1\\\"\" ]",
      "    2 [ label = \"\\\"0.1\\\"\" ]",
      "    3 [ label = \"\\\"0.2\\\"\" ]",
      "    0 -> 1 [ label = \"\\\"0\\\"\" ]",
      "    0 -> 2 [ label = \"\\\"RoleA?RoleC: i32\\\"\" ]",
      "    2 -> 3 [ label = \"\\\"RoleA!RoleC: i32\\\"\" ]",
      "    3 -> 0 [ label = \"\\\"µ\\\"\" ]",
      "}",
      ""]),
    ("RoleB", ["digraph {",
      "    0 [ label = \"\\\"0\\\"\" ]",
      "    1 [ label = \"\\\"1\\\"\" ]",
      "    2 [ label = \"\\\"2\\\"\" ]",
      "    3 [ label = \"\\\"2.1\\\"\" ]",
      "    4 [ label = \"\\\"2.1\\\"\" ]",
      "    5 [ label = \"\\\"2.2\\\"\" ]",
      "    0 -> 1 [ label = \"\\\"RoleB!RoleC: i32\\\"\" ]",
      "    1 -> 2 [ label = \"\\\"RoleB?RoleC: i32\\\"\" ]",
      "    2 -> 3 [ label = \"\\\"0\\\"\" ]",
      "    2 -> 4 [ label = \"\\\"RoleB!RoleC: i32\\\"\" ]",
      "    4 -> 5 [ label = \"\\\"RoleB?RoleC: i32\\\"\" ]",
      "    5 -> 2 [ label = \"\\\"µ\\\"\" ]",
      "}",
      ""]),
    ("RoleC", ["digraph {",
      "    0 [ label = \"\\\"0\\\"\" ]",
      "    1 [ label = \"\\\"1\\\"\" ]",
      "    2 [ label = \"\\\"2\\\"\" ]",
      "    3 [ label = \"\\\"2.1\\\"\" ]",
      "    4 [ label = \"\\\"2.1\\\"\" ]",
      "    5 [ label = \"\\\"2.2\\\"\" ]",
      "    6 [ label = \"\\\"2.3\\\"\" ]",
      "    7 [ label = \"\\\"2.4\\\"\" ]",
      "    0 -> 1 [ label = \"\\\"RoleC?RoleB: i32\\\"\" ]",
      "    1 -> 2 [ label = \"\\\"RoleC!RoleB: i32\\\"\" ]",
      "    2 -> 3 [ label = \"\\\"0\\\"\" ]",
      "    2 -> 4 [ label = \"\\\"RoleC?RoleB: i32\\\"\" ]",
      "    4 -> 5 [ label = \"\\\"RoleC!RoleA: i32\\\"\" ]",
      "    5 -> 6 [ label = \"\\\"RoleC?RoleA: i32\\\"\" ]",
      "    6 -> 7 [ label = \"\\\"RoleC!RoleB: i32\\\"\" ]",
      "    7 -> 2 [ label = \"\\\"µ\\\"\" ]",
      "}",
      ""])]

-- /repo/tests/checking_mod/basics/checking_simple.rs, file name given: "checking_simple"
#guard sameGraphs "checking_simple"
    ["mpstthree::meshedchannels::MeshedChannels<mpstthree::binary::struct_trait::send::Send<i32, mpstthree::binary::struct_trait::end::End>, mpstthree::binary::struct_trait::recv::Recv<i32, mpstthree::binary::struct_trait::end::End>, mpstthree::role::b::RoleB<mpstthree::role::c::RoleC<mpstthree::role::end::RoleEnd>>, mpstthree::name::a::NameA>",
    "mpstthree::meshedchannels::MeshedChannels<mpstthree::binary::struct_trait::send::Send<i32, mpstthree::binary::struct_trait::end::End>, mpstthree::binary::struct_trait::recv::Recv<i32, mpstthree::binary::struct_trait::end::End>, mpstthree::role::a::RoleA<mpstthree::role::b::RoleB<mpstthree::role::end::RoleEnd>>, mpstthree::name::c::NameC>",
    "mpstthree::meshedchannels::MeshedChannels<mpstthree::binary::struct_trait::recv::Recv<i32, mpstthree::binary::struct_trait::end::End>, mpstthree::binary::struct_trait::send::Send<i32, mpstthree::binary::struct_trait::end::End>, mpstthree::role::a::RoleA<mpstthree::role::c::RoleC<mpstthree::role::end::RoleEnd>>, mpstthree::name::b::NameB>"]
    []
    []
    [("RoleA", ["digraph {",
      "    0 [ label = \"\\\"0\\\"\" ]",
      "    1 [ label = \"\\\"1\\\"\" ]",
      "    2 [ label = \"\\\"2\\\"\" ]",
      "    3 [ label = \"\\\"3\\\"\" ]",
      "    0 -> 1 [ label = \"\\\"RoleA!RoleB: i32\\\"\" ]",
      "    1 -> 2 [ label = \"\\\"RoleA?RoleC: i32\\\"\" ]",
      "    2 -> 3 [ label = \"\\\"0\\\"\" ]",
      "}",
      ""]),
    ("RoleB", ["digraph {",
      "    0 [ label = \"\\\"0\\\"\" ]",
      "    1 [ label = \"\\\"1\\\"\" ]",
      "    2 [ label = \"\\\"2\\\"\" ]",
      "    3 [ label = \"\\\"3\\\"\" ]",
      "    0 -> 1 [ label = \"\\\"RoleB?RoleA: i32\\\"\" ]",
      "    1 -> 2 [ label = \"\\\"RoleB!RoleC: i32\\\"\" ]",
      "    2 -> 3 [ label = \"\\\"0\\\"\" ]",
      "}",
      ""]),
    ("RoleC", ["digraph {",
      "    0 [ label = \"\\\"0\\\"\" ]",
      "    1 [ label = \"\\\"1\\\"\" ]",
      "    2 [ label = \"\\\"2\\\"\" ]",
      "    3 [ label = \"\\\"3\\\"\" ]",
      "    0 -> 1 [ label = \"\\\"RoleC!RoleA: i32\\\"\" ]",
      "    1 -> 2 [ label = \"\\\"RoleC?RoleB: i32\\\"\" ]",
      "    2 -> 3 [ label = \"\\\"0\\\"\" ]",
      "}",
      ""])]

-- /repo/tests/checking_mod/complex/alternating_bit.rs, file name given: "alternating_bit"
#guard sameGraphs "alternating_bit"
    ["checking::alternating_bit::MeshedChannels<mpstthree::binary::struct_trait::send::Send<checking::alternating_bit::Branches0BfromA, mpstthree::binary::struct_trait::end::End>, mpstthree::role::broadcast::RoleBroadcast, checking::alternating_bit::NameA>",
    "checking::alternating_bit::MeshedChannels<mpstthree::binary::struct_trait::recv::Recv<checking::alternating_bit::Branches0BfromA, mpstthree::binary::struct_trait::end::End>, checking::alternating_bit::RoleA<mpstthree::role::end::RoleEnd>, checking::alternating_bit::NameB>"]
    [("checking::alternating_bit::MeshedChannels<mpstthree::binary::struct_trait::end::End, mpstthree::role::end::RoleEnd, checking::alternating_bit::NameA>", [("Branches0BfromA", "End")]),
    ("checking::alternating_bit::MeshedChannels<mpstthree::binary::struct_trait::send::Send<checking::alternating_bit::D0, mpstthree::binary::struct_trait::recv::Recv<checking::alternating_bit::Branches1AfromB, mpstthree::binary::struct_trait::end::End>>, checking::alternating_bit::RoleB<checking::alternating_bit::RoleB<mpstthree::role::end::RoleEnd>>, checking::alternating_bit::NameA>", [("Branches0BfromA", "Start")]),
    ("checking::alternating_bit::MeshedChannels<mpstthree::binary::struct_trait::end::End, mpstthree::role::end::RoleEnd, checking::alternating_bit::NameA>", [("Branches0BfromA", "Stop")]),
    ("checking::alternating_bit::MeshedChannels<mpstthree::binary::struct_trait::end::End, mpstthree::role::end::RoleEnd, checking::alternating_bit::NameB>", [("Branches1AfromB", "End")]),
    ("checking::alternating_bit::MeshedChannels<mpstthree::binary::struct_trait::recv::Recv<checking::alternating_bit::D0, mpstthree::binary::struct_trait::send::Send<checking::alternating_bit::A0, mpstthree::binary::struct_trait::send::Send<checking::alternating_bit::Branches1AfromB, mpstthree::binary::struct_trait::end::End>>>, checking::alternating_bit::RoleA<checking::alternating_bit::RoleA<mpstthree::role::broadcast::RoleBroadcast>>, checking::alternating_bit::NameB>", [("Branches1AfromB", "Looping")]),
    ("checking::alternating_bit::MeshedChannels<mpstthree::binary::struct_trait::recv::Recv<checking::alternating_bit::D1, mpstthree::binary::struct_trait::send::Send<checking::alternating_bit::A1, mpstthree::binary::struct_trait::recv::Recv<checking::alternating_bit::Branches0BfromA, mpstthree::binary::struct_trait::end::End>>>, checking::alternating_bit::RoleA<checking::alternating_bit::RoleA<checking::alternating_bit::RoleA<mpstthree::role::end::RoleEnd>>>, checking::alternating_bit::NameB>", [("Branches1AfromB", "Extend")]),
    ("checking::alternating_bit::MeshedChannels<mpstthree::binary::struct_trait::end::End, mpstthree::role::end::RoleEnd, checking::alternating_bit::NameB>", [("Branches2AfromB", "End")]),
    ("checking::alternating_bit::MeshedChannels<mpstthree::binary::struct_trait::end::End, mpstthree::role::end::RoleEnd, checking::alternating_bit::NameB>", [("Branches2AfromB", "Looping")]),
    ("checking::alternating_bit::MeshedChannels<mpstthree::binary::struct_trait::end::End, mpstthree::role::end::RoleEnd, checking::alternating_bit::NameB>", [("Branches2AfromB", "Extend")])]
    [("Branches1AfromB", [("End", "checking::alternating_bit::MeshedChannels<mpstthree::binary::struct_trait::end::End, mpstthree::role::end::RoleEnd, checking::alternating_bit::NameA>"), ("Looping", "checking::alternating_bit::MeshedChannels<mpstthree::binary::struct_trait::recv::Recv<checking::alternating_bit::A1, mpstthree::binary::struct_trait::send::Send<checking::alternating_bit::D0, mpstthree::binary::struct_trait::recv::Recv<checking::alternating_bit::Branches1AfromB, mpstthree::binary::struct_trait::end::End>>>, checking::alternating_bit::RoleB<checking::alternating_bit::RoleB<checking::alternating_bit::RoleB<mpstthree::role::end::RoleEnd>>>, checking::alternating_bit::NameA>"), ("Extend", "checking::alternating_bit::MeshedChannels<mpstthree::binary::struct_trait::recv::Recv<checking::alternating_bit::A0, mpstthree::binary::struct_trait::send::Send<checking::alternating_bit::D1, mpstthree::binary::struct_trait::recv::Recv<checking::alternating_bit::Branches2AfromB, mpstthree::binary::struct_trait::end::End>>>, checking::alternating_bit::RoleB<checking::alternating_bit::RoleB<checking::alternating_bit::RoleB<mpstthree::role::end::RoleEnd>>>, checking::alternating_bit::NameA>")]),
    ("Branches2AfromB", [("End", "checking::alternating_bit::MeshedChannels<mpstthree::binary::struct_trait::end::End, mpstthree::role::end::RoleEnd, checking::alternating_bit::NameA>"), ("Looping", "checking::alternating_bit::MeshedChannels<mpstthree::binary::struct_trait::recv::Recv<checking::alternating_bit::A0, mpstthree::binary::struct_trait::send::Send<checking::alternating_bit::D1, mpstthree::binary::struct_trait::recv::Recv<checking::alternating_bit::Branches2AfromB, mpstthree::binary::struct_trait::end::End>>>, checking::alternating_bit::RoleB<checking::alternating_bit::RoleB<checking::alternating_bit::RoleB<mpstthree::role::end::RoleEnd>>>, checking::alternating_bit::NameA>"), ("Extend", "checking::alternating_bit::MeshedChannels<mpstthree::binary::struct_trait::recv::Recv<checking::alternating_bit::A1, mpstthree::binary::struct_trait::send::Send<checking::alternating_bit::Branches0BfromA, mpstthree::binary::struct_trait::end::End>>, checking::alternating_bit::RoleB<mpstthree::role::broadcast::RoleBroadcast>, checking::alternating_bit::NameA>")]),
    ("Branches0BfromA", [("End", "checking::alternating_bit::MeshedChannels<mpstthree::binary::struct_trait::end::End, mpstthree::role::end::RoleEnd, checking::alternating_bit::NameB>"), ("Start", "checking::alternating_bit::MeshedChannels<mpstthree::binary::struct_trait::recv::Recv<checking::alternating_bit::D0, mpstthree::binary::struct_trait::send::Send<checking::alternating_bit::A0, mpstthree::binary::struct_trait::send::Send<checking::alternating_bit::Branches1AfromB, mpstthree::binary::struct_trait::end::End>>>, checking::alternating_bit::RoleA<checking::alternating_bit::RoleA<mpstthree::role::broadcast::RoleBroadcast>>, checking::alternating_bit::NameB>"), ("Stop", "checking::alternating_bit::MeshedChannels<mpstthree::binary::struct_trait::recv::Recv<checking::alternating_bit::D1, mpstthree::binary::struct_trait::end::End>, checking::alternating_bit::RoleA<mpstthree::role::end::RoleEnd>, checking::alternating_bit::NameB>")])]
    [("RoleA", ["digraph {",
      "    0 [ label = \"\\\"0\\\"\" ]",
      "    1 [ label = \"\\\"0.1\\\"\" ]",
      "    2 [ label = \"\\\"0.1\\\"\" ]",
      "    3 [ label = \"\\\"0.1.1\\\"\" ]",
      "    4 [ label = \"\\\"0.1.1\\\"\" ]",
      "    5 [ label = \"\\\"0.1.2\\\"\" ]",
      "    6 [ label = \"\\\"0.1.2.1\\\"\" ]",
      "    7 [ label = \"\\\"0.1.2.1\\\"\" ]",
      "    8 [ label = \"\\\"0.1.2.1\\\"\" ]",
      "    9 [ label = \"\\\"0.1.2.2\\\"\" ]",
      "    10 [ label = \"\\\"0.1.1\\\"\" ]",
      "    11 [ label = \"\\\"0.1.2\\\"\" ]",
      "    12 [ label = \"\\\"0.1\\\"\" ]",
      "    0 -> 1 [ label = \"\\\"0\\\"\" ]",
      "    0 -> 2 [ label = \"\\\"RoleA!RoleB: D0\\\"\" ]",
      "    2 -> 3 [ label = \"\\\"0\\\"\" ]",
      "    2 -> 4 [ label = \"\\\"RoleA?RoleB: A0\\\"\" ]",
      "    4 -> 5 [ label = \"\\\"RoleA!RoleB: D1\\\"\" ]",
      "    5 -> 6 [ label = \"\\\"0\\\"\" ]",
      "    5 -> 7 [ label = \"\\\"RoleA?RoleB: A1\\\"\" ]",
      "    7 -> 0 [ label = \"\\\"µ\\\"\" ]",
      "    5 -> 8 [ label = \"\\\"RoleA?RoleB: A0\\\"\" ]",
      "    8 -> 9 [ label = \"\\\"RoleA!RoleB: D1\\\"\" ]",
      "    9 -> 5 [ label = \"\\\"µ\\\"\" ]",
      "    2 -> 10 [ label = \"\\\"RoleA?RoleB: A1\\\"\" ]",
      "    10 -> 11 [ label = \"\\\"RoleA!RoleB: D0\\\"\" ]",
      "    11 -> 2 [ label = \"\\\"µ\\\"\" ]",
      "    0 -> 12 [ label = \"\\\"0\\\"\" ]",
      "}",
      ""]),
    ("RoleB", ["digraph {",
      "    0 [ label = \"\\\"0\\\"\" ]",
      "    1 [ label = \"\\\"0.1\\\"\" ]",
      "    2 [ label = \"\\\"0.1\\\"\" ]",
      "    3 [ label = \"\\\"0.2\\\"\" ]",
      "    4 [ label = \"\\\"0.2.1\\\"\" ]",
      "    5 [ label = \"\\\"0.2.1\\\"\" ]",
      "    6 [ label = \"\\\"0.2.2\\\"\" ]",
      "    7 [ label = \"\\\"0.2.1\\\"\" ]",
      "    8 [ label = \"\\\"0.2.2\\\"\" ]",
      "    9 [ label = \"\\\"0.1\\\"\" ]",
      "    10 [ label = \"\\\"0.2\\\"\" ]",
      "    0 -> 1 [ label = \"\\\"0\\\"\" ]",
      "    0 -> 2 [ label = \"\\\"RoleB?RoleA: D0\\\"\" ]",
      "    2 -> 3 [ label = \"\\\"RoleB!RoleA: A0\\\"\" ]",
      "    3 -> 4 [ label = \"\\\"0\\\"\" ]",
      "    3 -> 5 [ label = \"\\\"RoleB?RoleA: D1\\\"\" ]",
      "    5 -> 6 [ label = \"\\\"RoleB!RoleA: A1\\\"\" ]",
      "    6 -> 0 [ label = \"\\\"µ\\\"\" ]",
      "    3 -> 7 [ label = \"\\\"RoleB?RoleA: D0\\\"\" ]",
      "    7 -> 8 [ label = \"\\\"RoleB!RoleA: A0\\\"\" ]",
      "    8 -> 3 [ label = \"\\\"µ\\\"\" ]",
      "    0 -> 9 [ label = \"\\\"RoleB?RoleA: D1\\\"\" ]",
      "    9 -> 10 [ label = \"\\\"0\\\"\" ]",
      "}",
      ""])]

-- /repo/tests/checking_mod/complex/async_paper_ext_rev_sync.rs, file name given: "async_paper_ext_rev_sync"
#guard sameGraphs "async_paper_ext_rev_sync"
    ["checking::async_paper_ext_rev_sync::MeshedChannels<mpstthree::binary::struct_trait::send::Send<checking::async_paper_ext_rev_sync::Branches0MfromC, mpstthree::binary::struct_trait::end::End>, mpstthree::binary::struct_trait::send::Send<checking::async_paper_ext_rev_sync::Branches0SfromC, mpstthree::binary::struct_trait::end::End>, mpstthree::role::broadcast::RoleBroadcast, checking::async_paper_ext_rev_sync::NameC>",
    "checking::async_paper_ext_rev_sync::MeshedChannels<mpstthree::binary::struct_trait::recv::Recv<checking::async_paper_ext_rev_sync::Branches0SfromC, mpstthree::binary::struct_trait::end::End>, mpstthree::binary::struct_trait::end::End, checking::async_paper_ext_rev_sync::RoleC<mpstthree::role::end::RoleEnd>, checking::async_paper_ext_rev_sync::NameS>",
    "checking::async_paper_ext_rev_sync::MeshedChannels<mpstthree::binary::struct_trait::recv::Recv<checking::async_paper_ext_rev_sync::Branches0MfromC, mpstthree::binary::struct_trait::end::End>, mpstthree::binary::struct_trait::end::End, checking::async_paper_ext_rev_sync::RoleC<mpstthree::role::end::RoleEnd>, checking::async_paper_ext_rev_sync::NameM>"]
    [("checking::async_paper_ext_rev_sync::MeshedChannels<mpstthree::binary::struct_trait::end::End, mpstthree::binary::struct_trait::end::End, mpstthree::role::end::RoleEnd, checking::async_paper_ext_rev_sync::NameC>", [("Branches0MfromC", "End"), ("Branches0SfromC", "End")]),
    ("checking::async_paper_ext_rev_sync::MeshedChannels<mpstthree::binary::struct_trait::end::End, mpstthree::binary::struct_trait::send::Send<checking::async_paper_ext_rev_sync::Req, mpstthree::binary::struct_trait::send::Send<checking::async_paper_ext_rev_sync::Data, mpstthree::binary::struct_trait::recv::Recv<checking::async_paper_ext_rev_sync::Branches1CfromS, mpstthree::binary::struct_trait::end::End>>>, checking::async_paper_ext_rev_sync::RoleS<checking::async_paper_ext_rev_sync::RoleS<checking::async_paper_ext_rev_sync::RoleS<mpstthree::role::end::RoleEnd>>>, checking::async_paper_ext_rev_sync::NameC>", [("Branches0MfromC", "Looping"), ("Branches0SfromC", "Looping")]),
    ("checking::async_paper_ext_rev_sync::MeshedChannels<mpstthree::binary::struct_trait::send::Send<checking::async_paper_ext_rev_sync::Okay, mpstthree::binary::struct_trait::recv::Recv<checking::async_paper_ext_rev_sync::Data, mpstthree::binary::struct_trait::end::End>>, mpstthree::binary::struct_trait::recv::Recv<checking::async_paper_ext_rev_sync::Log, mpstthree::binary::struct_trait::end::End>, checking::async_paper_ext_rev_sync::RoleC<checking::async_paper_ext_rev_sync::RoleC<checking::async_paper_ext_rev_sync::RoleM<mpstthree::role::end::RoleEnd>>>, checking::async_paper_ext_rev_sync::NameS>", [("Branches1CfromS", "Okay"), ("Branches1MfromS", "Okay")]),
    ("checking::async_paper_ext_rev_sync::MeshedChannels<mpstthree::binary::struct_trait::send::Send<checking::async_paper_ext_rev_sync::Ko, mpstthree::binary::struct_trait::recv::Recv<checking::async_paper_ext_rev_sync::Data, mpstthree::binary::struct_trait::recv::Recv<checking::async_paper_ext_rev_sync::Branches0SfromC, mpstthree::binary::struct_trait::end::End>>>, mpstthree::binary::struct_trait::end::End, checking::async_paper_ext_rev_sync::RoleC<checking::async_paper_ext_rev_sync::RoleC<checking::async_paper_ext_rev_sync::RoleC<mpstthree::role::end::RoleEnd>>>, checking::async_paper_ext_rev_sync::NameS>", [("Branches1CfromS", "Ko"), ("Branches1MfromS", "Ko")]),
    ("checking::async_paper_ext_rev_sync::MeshedChannels<mpstthree::binary::struct_trait::end::End, mpstthree::binary::struct_trait::end::End, mpstthree::role::end::RoleEnd, checking::async_paper_ext_rev_sync::NameS>", [("Branches1CfromS", "Error"), ("Branches1MfromS", "Error")])]
    [("Branches1CfromS", [("Okay", "checking::async_paper_ext_rev_sync::MeshedChannels<mpstthree::binary::struct_trait::end::End, mpstthree::binary::struct_trait::recv::Recv<checking::async_paper_ext_rev_sync::Okay, mpstthree::binary::struct_trait::end::End>, checking::async_paper_ext_rev_sync::RoleS<mpstthree::role::end::RoleEnd>, checking::async_paper_ext_rev_sync::NameC>"), ("Error", "checking::async_paper_ext_rev_sync::MeshedChannels<mpstthree::binary::struct_trait::end::End, mpstthree::binary::struct_trait::recv::Recv<checking::async_paper_ext_rev_sync::Error, mpstthree::binary::struct_trait::end::End>, checking::async_paper_ext_rev_sync::RoleS<mpstthree::role::end::RoleEnd>, checking::async_paper_ext_rev_sync::NameC>"), ("Ko", "checking::async_paper_ext_rev_sync::MeshedChannels<mpstthree::binary::struct_trait::send::Send<checking::async_paper_ext_rev_sync::Branches0MfromC, mpstthree::binary::struct_trait::end::End>, mpstthree::binary::struct_trait::recv::Recv<checking::async_paper_ext_rev_sync::Ko, mpstthree::binary::struct_trait::send::Send<checking::async_paper_ext_rev_sync::Branches0SfromC, mpstthree::binary::struct_trait::end::End>>, checking::async_paper_ext_rev_sync::RoleS<mpstthree::role::broadcast::RoleBroadcast>, checking::async_paper_ext_rev_sync::NameC>")]),
    ("Branches0MfromC", [("End", "checking::async_paper_ext_rev_sync::MeshedChannels<mpstthree::binary::struct_trait::end::End, mpstthree::binary::struct_trait::end::End, mpstthree::role::end::RoleEnd, checking::async_paper_ext_rev_sync::NameM>"), ("Looping", "checking::async_paper_ext_rev_sync::MeshedChannels<mpstthree::binary::struct_trait::end::End, mpstthree::binary::struct_trait::recv::Recv<checking::async_paper_ext_rev_sync::Branches1MfromS, mpstthree::binary::struct_trait::end::End>, checking::async_paper_ext_rev_sync::RoleS<mpstthree::role::end::RoleEnd>, checking::async_paper_ext_rev_sync::NameM>")]),
    ("Branches1MfromS", [("Okay", "checking::async_paper_ext_rev_sync::MeshedChannels<mpstthree::binary::struct_trait::end::End, mpstthree::binary::struct_trait::end::End, mpstthree::role::end::RoleEnd, checking::async_paper_ext_rev_sync::NameM>"), ("Error", "checking::async_paper_ext_rev_sync::MeshedChannels<mpstthree::binary::struct_trait::end::End, mpstthree::binary::struct_trait::send::Send<checking::async_paper_ext_rev_sync::Log, mpstthree::binary::struct_trait::end::End>, checking::async_paper_ext_rev_sync::RoleS<mpstthree::role::end::RoleEnd>, checking::async_paper_ext_rev_sync::NameM>"), ("Ko", "checking::async_paper_ext_rev_sync::MeshedChannels<mpstthree::binary::struct_trait::recv::Recv<checking::async_paper_ext_rev_sync::Branches0MfromC, mpstthree::binary::struct_trait::end::End>, mpstthree::binary::struct_trait::end::End, checking::async_paper_ext_rev_sync::RoleC<mpstthree::role::end::RoleEnd>, checking::async_paper_ext_rev_sync::NameM>")]),
    ("Branches0SfromC", [("End", "checking::async_paper_ext_rev_sync::MeshedChannels<mpstthree::binary::struct_trait::end::End, mpstthree::binary::struct_trait::end::End, mpstthree::role::end::RoleEnd, checking::async_paper_ext_rev_sync::NameS>"), ("Looping", "checking::async_paper_ext_rev_sync::MeshedChannels<mpstthree::binary::struct_trait::recv::Recv<checking::async_paper_ext_rev_sync::Req, mpstthree::binary::struct_trait::send::Send<checking::async_paper_ext_rev_sync::Branches1CfromS, mpstthree::binary::struct_trait::end::End>>, mpstthree::binary::struct_trait::send::Send<checking::async_paper_ext_rev_sync::Branches1MfromS, mpstthree::binary::struct_trait::end::End>, checking::async_paper_ext_rev_sync::RoleC<mpstthree::role::broadcast::RoleBroadcast>, checking::async_paper_ext_rev_sync::NameS>")])]
    [("RoleS", ["digraph {",
      "    0 [ label = \"\\\"0\\\"\" ]",
      "    1 [ label = \"\\\"0.1\\\"\" ]",
      "    2 [ label = \"\\\"0.1\\\"\" ]",
      "    3 [ label = \"\\\"0.1.1\\\"\" ]",
      "    4 [ label = \"\\\"0.1.1\\\"\" ]",
      "    5 [ label = \"\\\"0.1.2\\\"\" ]",
      "    6 [ label = \"\\\"0.1.1\\\"\" ]",
      "    7 [ label = \"\\\"0.1.2\\\"\" ]",
      "    8 [ label = \"\\\"0.1.3\\\"\" ]",
      "    9 [ label = \"\\\"0.1.4\\\"\" ]",
      "    0 -> 1 [ label = \"\\\"0\\\"\" ]",
      "    0 -> 2 [ label = \"\\\"RoleS?RoleC: Req\\\"\" ]",
      "    2 -> 3 [ label = \"\\\"0\\\"\" ]",
      "    2 -> 4 [ label = \"\\\"RoleS!RoleC: Ko\\\"\" ]",
      "    4 -> 5 [ label = \"\\\"RoleS?RoleC: Data\\\"\" ]",
      "    5 -> 0 [ label = \"\\\"µ\\\"\" ]",
      "    2 -> 6 [ label = \"\\\"RoleS!RoleC: Okay\\\"\" ]",
      "    6 -> 7 [ label = \"\\\"RoleS?RoleC: Data\\\"\" ]",
      "    7 -> 8 [ label = \"\\\"RoleS?RoleM: Log\\\"\" ]",
      "    8 -> 9 [ label = \"\\\"0\\\"\" ]",
      "}",
      ""]),
    ("RoleM", ["digraph {",
      "    0 [ label = \"\\\"0\\\"\" ]",
      "    1 [ label = \"\\\"0.1\\\"\" ]",
      "    2 [ label = \"\\\"0.0.1\\\"\" ]",
      "    3 [ label = \"\\\"0.0.2\\\"\" ]",
      "    4 [ label = \"\\\"0.0.1\\\"\" ]",
      "    0 -> 1 [ label = \"\\\"0\\\"\" ]",
      "    0 -> 2 [ label = \"\\\"RoleM!RoleS: Log\\\"\" ]",
      "    2 -> 3 [ label = \"\\\"0\\\"\" ]",
      "    0 -> 4 [ label = \"\\\"0\\\"\" ]",
      "}",
      ""]),
    ("RoleC", ["digraph {",
      "    0 [ label = \"\\\"0\\\"\" ]",
      "    1 [ label = \"\\\"0.1\\\"\" ]",
      "    2 [ label = \"\\\"0.1\\\"\" ]",
      "    3 [ label = \"\\\"0.2\\\"\" ]",
      "    4 [ label = \"\\\"0.2.1\\\"\" ]",
      "    5 [ label = \"\\\"0.2.2\\\"\" ]",
      "    6 [ label = \"\\\"0.2.1\\\"\" ]",
      "    7 [ label = \"\\\"0.2.1\\\"\" ]",
      "    8 [ label = \"\\\"0.2.2\\\"\" ]",
      "    0 -> 1 [ label = \"\\\"0\\\"\" ]",
      "    0 -> 2 [ label = \"\\\"RoleC!RoleS: Req\\\"\" ]",
      "    2 -> 3 [ label = \"\\\"RoleC!RoleS: Data\\\"\" ]",
      "    3 -> 4 [ label = \"\\\"RoleC?RoleS: Error\\\"\" ]",
      "    4 -> 5 [ label = \"\\\"0\\\"\" ]",
      "    3 -> 6 [ label = \"\\\"RoleC?RoleS: Ko\\\"\" ]",
      "    6 -> 0 [ label = \"\\\"µ\\\"\" ]",
      "    3 -> 7 [ label = \"\\\"RoleC?RoleS: Okay\\\"\" ]",
      "    7 -> 8 [ label = \"\\\"0\\\"\" ]",
      "}",
      ""])]

-- /repo/tests/checking_mod/complex/bargain.rs, file name given: "bargain"
#guard sameGraphs "bargain"
    ["checking::bargain::MeshedChannels<mpstthree::binary::struct_trait::send::Send<checking::bargain::Branches0BfromA, mpstthree::binary::struct_trait::end::End>, mpstthree::binary::struct_trait::send::Send<checking::bargain::Branches0CfromA, mpstthree::binary::struct_trait::end::End>, mpstthree::role::broadcast::RoleBroadcast, checking::bargain::NameA>",
    "checking::bargain::MeshedChannels<mpstthree::binary::struct_trait::recv::Recv<checking::bargain::Branches0BfromA, mpstthree::binary::struct_trait::end::End>, mpstthree::binary::struct_trait::end::End, checking::bargain::RoleA<mpstthree::role::end::RoleEnd>, checking::bargain::NameB>",
    "checking::bargain::MeshedChannels<mpstthree::binary::struct_trait::recv::Recv<checking::bargain::Branches0CfromA, mpstthree::binary::struct_trait::end::End>, mpstthree::binary::struct_trait::end::End, checking::bargain::RoleA<mpstthree::role::end::RoleEnd>, checking::bargain::NameC>"]
    [("checking::bargain::MeshedChannels<mpstthree::binary::struct_trait::send::Send<checking::bargain::Happy, mpstthree::binary::struct_trait::end::End>, mpstthree::binary::struct_trait::send::Send<checking::bargain::Info, mpstthree::binary::struct_trait::end::End>, checking::bargain::RoleB<checking::bargain::RoleC<mpstthree::role::end::RoleEnd>>, checking::bargain::NameA>", [("Branches0BfromA", "Happy"), ("Branches0CfromA", "Happy")]),
    ("checking::bargain::MeshedChannels<mpstthree::binary::struct_trait::send::Send<checking::bargain::Haggle, mpstthree::binary::struct_trait::recv::Recv<checking::bargain::Price, mpstthree::binary::struct_trait::send::Send<checking::bargain::Branches0BfromA, mpstthree::binary::struct_trait::end::End>>>, mpstthree::binary::struct_trait::send::Send<checking::bargain::Branches0CfromA, mpstthree::binary::struct_trait::end::End>, checking::bargain::RoleB<checking::bargain::RoleB<mpstthree::role::broadcast::RoleBroadcast>>, checking::bargain::NameA>", [("Branches0BfromA", "Haggle"), ("Branches0CfromA", "Haggle")]),
    ("checking::bargain::MeshedChannels<mpstthree::binary::struct_trait::end::End, mpstthree::binary::struct_trait::end::End, mpstthree::role::end::RoleEnd, checking::bargain::NameA>", [("Branches0BfromA", "End"), ("Branches0CfromA", "End")])]
    [("Branches0BfromA", [("End", "checking::bargain::MeshedChannels<mpstthree::binary::struct_trait::end::End, mpstthree::binary::struct_trait::end::End, mpstthree::role::end::RoleEnd, checking::bargain::NameB>"), ("Haggle", "checking::bargain::MeshedChannels<mpstthree::binary::struct_trait::recv::Recv<checking::bargain::Haggle, mpstthree::binary::struct_trait::send::Send<checking::bargain::Price, mpstthree::binary::struct_trait::recv::Recv<checking::bargain::Branches0BfromA, mpstthree::binary::struct_trait::end::End>>>, mpstthree::binary::struct_trait::end::End, checking::bargain::RoleA<checking::bargain::RoleA<checking::bargain::RoleA<mpstthree::role::end::RoleEnd>>>, checking::bargain::NameB>"), ("Happy", "checking::bargain::MeshedChannels<mpstthree::binary::struct_trait::recv::Recv<checking::bargain::Happy, mpstthree::binary::struct_trait::end::End>, mpstthree::binary::struct_trait::end::End, checking::bargain::RoleA<mpstthree::role::end::RoleEnd>, checking::bargain::NameB>")]),
    ("Branches0CfromA", [("End", "checking::bargain::MeshedChannels<mpstthree::binary::struct_trait::end::End, mpstthree::binary::struct_trait::end::End, mpstthree::role::end::RoleEnd, checking::bargain::NameC>"), ("Haggle", "checking::bargain::MeshedChannels<mpstthree::binary::struct_trait::recv::Recv<checking::bargain::Branches0CfromA, mpstthree::binary::struct_trait::end::End>, mpstthree::binary::struct_trait::end::End, checking::bargain::RoleA<mpstthree::role::end::RoleEnd>, checking::bargain::NameC>"), ("Happy", "checking::bargain::MeshedChannels<mpstthree::binary::struct_trait::recv::Recv<checking::bargain::Info, mpstthree::binary::struct_trait::end::End>, mpstthree::binary::struct_trait::end::End, checking::bargain::RoleA<mpstthree::role::end::RoleEnd>, checking::bargain::NameC>")])]
    [("RoleA", ["digraph {",
      "    0 [ label = \"\\\"0\\\"\" ]",
      "    1 [ label = \"\\\"0.1\\\"\" ]",
      "    2 [ label = \"\\\"0.1\\\"\" ]",
      "    3 [ label = \"\\\"0.2\\\"\" ]",
      "    4 [ label = \"\\\"0.1\\\"\" ]",
      "    5 [ label = \"\\\"0.2\\\"\" ]",
      "    6 [ label = \"\\\"0.3\\\"\" ]",
      "    0 -> 1 [ label = \"\\\"0\\\"\" ]",
      "    0 -> 2 [ label = \"\\\"RoleA!RoleB: Haggle\\\"\" ]",
      "    2 -> 3 [ label = \"\\\"RoleA?RoleB: Price\\\"\" ]",
      "    3 -> 0 [ label = \"\\\"µ\\\"\" ]",
      "    0 -> 4 [ label = \"\\\"RoleA!RoleB: Happy\\\"\" ]",
      "    4 -> 5 [ label = \"\\\"RoleA!RoleC: Info\\\"\" ]",
      "    5 -> 6 [ label = \"\\\"0\\\"\" ]",
      "}",
      ""]),
    ("RoleB", ["digraph {",
      "    0 [ label = \"\\\"0\\\"\" ]",
      "    1 [ label = \"\\\"0.1\\\"\" ]",
      "    2 [ label = \"\\\"0.1\\\"\" ]",
      "    3 [ label = \"\\\"0.2\\\"\" ]",
      "    4 [ label = \"\\\"0.1\\\"\" ]",
      "    5 [ label = \"\\\"0.2\\\"\" ]",
      "    0 -> 1 [ label = \"\\\"0\\\"\" ]",
      "    0 -> 2 [ label = \"\\\"RoleB?RoleA: Haggle\\\"\" ]",
      "    2 -> 3 [ label = \"\\\"RoleB!RoleA: Price\\\"\" ]",
      "    3 -> 0 [ label = \"\\\"µ\\\"\" ]",
      "    0 -> 4 [ label = \"\\\"RoleB?RoleA: Happy\\\"\" ]",
      "    4 -> 5 [ label = \"\\\"0\\\"\" ]",
      "}",
      ""]),
    ("RoleC", ["digraph {",
      "    0 [ label = \"\\\"0\\\"\" ]",
      "    1 [ label = \"\\\"0.1\\\"\" ]",
      "    2 [ label = \"\\\"0.1\\\"\" ]",
      "    3 [ label = \"\\\"0.2\\\"\" ]",
      "    0 -> 1 [ label = \"\\\"0\\\"\" ]",
      "    0 -> 2 [ label = \"\\\"RoleC?RoleA: Info\\\"\" ]",
      "    2 -> 3 [ label = \"\\\"0\\\"\" ]",
      "}",
      ""])]

-- /repo/tests/checking_mod/complex/cloud_system.rs, file name given: "cloud_system"
#guard sameGraphs "cloud_system"
    ["checking::cloud_system::MeshedChannels<mpstthree::binary::struct_trait::send::Send<checking::cloud_system::Branches0BfromA, mpstthree::binary::struct_trait::end::End>, mpstthree::binary::struct_trait::send::Send<checking::cloud_system::Branches0CfromA, mpstthree::binary::struct_trait::end::End>, mpstthree::binary::struct_trait::send::Send<checking::cloud_system::Branches0DfromA, mpstthree::binary::struct_trait::end::End>, mpstthree::role::broadcast::RoleBroadcast, checking::cloud_system::NameA>",
    "checking::cloud_system::MeshedChannels<mpstthree::binary::struct_trait::recv::Recv<checking::cloud_system::Branches0BfromA, mpstthree::binary::struct_trait::end::End>, mpstthree::binary::struct_trait::end::End, mpstthree::binary::struct_trait::end::End, checking::cloud_system::RoleA<mpstthree::role::end::RoleEnd>, checking::cloud_system::NameB>",
    "checking::cloud_system::MeshedChannels<mpstthree::binary::struct_trait::recv::Recv<checking::cloud_system::Branches0CfromA, mpstthree::binary::struct_trait::end::End>, mpstthree::binary::struct_trait::end::End, mpstthree::binary::struct_trait::end::End, checking::cloud_system::RoleA<mpstthree::role::end::RoleEnd>, checking::cloud_system::NameC>",
    "checking::cloud_system::MeshedChannels<mpstthree::binary::struct_trait::recv::Recv<checking::cloud_system::Branches0DfromA, mpstthree::binary::struct_trait::end::End>, mpstthree::binary::struct_trait::end::End, mpstthree::binary::struct_trait::end::End, checking::cloud_system::RoleA<mpstthree::role::end::RoleEnd>, checking::cloud_system::NameD>"]
    [("checking::cloud_system::MeshedChannels<mpstthree::binary::struct_trait::end::End, mpstthree::binary::struct_trait::end::End, mpstthree::binary::struct_trait::end::End, mpstthree::role::end::RoleEnd, checking::cloud_system::NameA>", [("Branches0BfromA", "End"), ("Branches0CfromA", "End"), ("Branches0DfromA", "End")]),
    ("checking::cloud_system::MeshedChannels<mpstthree::binary::struct_trait::send::Send<checking::cloud_system::Branches1BfromA, mpstthree::binary::struct_trait::end::End>, mpstthree::binary::struct_trait::send::Send<checking::cloud_system::Connect, mpstthree::binary::struct_trait::recv::Recv<checking::cloud_system::SyncAccess, mpstthree::binary::struct_trait::send::Send<checking::cloud_system::Branches1CfromA, mpstthree::binary::struct_trait::end::End>>>, mpstthree::binary::struct_trait::send::Send<checking::cloud_system::Branches1DfromA, mpstthree::binary::struct_trait::end::End>, checking::cloud_system::RoleC<checking::cloud_system::RoleC<mpstthree::role::broadcast::RoleBroadcast>>, checking::cloud_system::NameA>", [("Branches0BfromA", "Connect"), ("Branches0CfromA", "Connect"), ("Branches0DfromA", "Connect")]),
    ("checking::cloud_system::MeshedChannels<mpstthree::binary::struct_trait::send::Send<checking::cloud_system::Access, mpstthree::binary::struct_trait::send::Send<checking::cloud_system::Branches1BfromA, mpstthree::binary::struct_trait::end::End>>, mpstthree::binary::struct_trait::send::Send<checking::cloud_system::Branches1CfromA, mpstthree::binary::struct_trait::end::End>, mpstthree::binary::struct_trait::send::Send<checking::cloud_system::Branches1DfromA, mpstthree::binary::struct_trait::end::End>, checking::cloud_system::RoleB<mpstthree::role::broadcast::RoleBroadcast>, checking::cloud_system::NameA>", [("Branches1BfromA", "Looping"), ("Branches1CfromA", "Looping"), ("Branches1DfromA", "Looping")]),
    ("checking::cloud_system::MeshedChannels<mpstthree::binary::struct_trait::send::Send<checking::cloud_system::SyncLogout, mpstthree::binary::struct_trait::recv::Recv<checking::cloud_system::SyncLog, mpstthree::binary::struct_trait::send::Send<checking::cloud_system::Branches0BfromA, mpstthree::binary::struct_trait::end::End>>>, mpstthree::binary::struct_trait::send::Send<checking::cloud_system::Logout, mpstthree::binary::struct_trait::send::Send<checking::cloud_system::Branches0CfromA, mpstthree::binary::struct_trait::end::End>>, mpstthree::binary::struct_trait::send::Send<checking::cloud_system::Branches0DfromA, mpstthree::binary::struct_trait::end::End>, checking::cloud_system::RoleC<checking::cloud_system::RoleB<checking::cloud_system::RoleB<mpstthree::role::broadcast::RoleBroadcast>>>, checking::cloud_system::NameA>", [("Branches1BfromA", "Logging"), ("Branches1CfromA", "Logging"), ("Branches1DfromA", "Logging")])]
    [("Branches0BfromA", [("End", "checking::cloud_system::MeshedChannels<mpstthree::binary::struct_trait::end::End, mpstthree::binary::struct_trait::end::End, mpstthree::binary::struct_trait::end::End, mpstthree::role::end::RoleEnd, checking::cloud_system::NameB>"), ("Connect", "checking::cloud_system::MeshedChannels<mpstthree::binary::struct_trait::recv::Recv<checking::cloud_system::Branches1BfromA, mpstthree::binary::struct_trait::end::End>, mpstthree::binary::struct_trait::recv::Recv<checking::cloud_system::Setup, mpstthree::binary::struct_trait::end::End>, mpstthree::binary::struct_trait::end::End, checking::cloud_system::RoleC<checking::cloud_system::RoleA<mpstthree::role::end::RoleEnd>>, checking::cloud_system::NameB>")]),
    ("Branches1BfromA", [("Looping", "checking::cloud_system::MeshedChannels<mpstthree::binary::struct_trait::recv::Recv<checking::cloud_system::Access, mpstthree::binary::struct_trait::recv::Recv<checking::cloud_system::Branches1BfromA, mpstthree::binary::struct_trait::end::End>>, mpstthree::binary::struct_trait::end::End, mpstthree::binary::struct_trait::end::End, checking::cloud_system::RoleA<checking::cloud_system::RoleA<mpstthree::role::end::RoleEnd>>, checking::cloud_system::NameB>"), ("Logging", "checking::cloud_system::MeshedChannels<mpstthree::binary::struct_trait::recv::Recv<checking::cloud_system::SyncLogout, mpstthree::binary::struct_trait::send::Send<checking::cloud_system::SyncLog, mpstthree::binary::struct_trait::recv::Recv<checking::cloud_system::Branches0BfromA, mpstthree::binary::struct_trait::end::End>>>, mpstthree::binary::struct_trait::end::End, mpstthree::binary::struct_trait::send::Send<checking::cloud_system::Log, mpstthree::binary::struct_trait::end::End>, checking::cloud_system::RoleA<checking::cloud_system::RoleD<checking::cloud_system::RoleA<checking::cloud_system::RoleA<mpstthree::role::end::RoleEnd>>>>, checking::cloud_system::NameB>")]),
    ("Branches0CfromA", [("End", "checking::cloud_system::MeshedChannels<mpstthree::binary::struct_trait::end::End, mpstthree::binary::struct_trait::end::End, mpstthree::binary::struct_trait::end::End, mpstthree::role::end::RoleEnd, checking::cloud_system::NameC>"), ("Connect", "checking::cloud_system::MeshedChannels<mpstthree::binary::struct_trait::recv::Recv<checking::cloud_system::Connect, mpstthree::binary::struct_trait::recv::Recv<checking::cloud_system::Branches1CfromA, mpstthree::binary::struct_trait::end::End>>, mpstthree::binary::struct_trait::end::End, mpstthree::binary::struct_trait::end::End, checking::cloud_system::RoleA<checking::cloud_system::RoleA<mpstthree::role::end::RoleEnd>>, checking::cloud_system::NameC>")]),
    ("Branches1CfromA", [("Looping", "checking::cloud_system::MeshedChannels<mpstthree::binary::struct_trait::recv::Recv<checking::cloud_system::Branches1CfromA, mpstthree::binary::struct_trait::end::End>, mpstthree::binary::struct_trait::end::End, mpstthree::binary::struct_trait::end::End, checking::cloud_system::RoleA<mpstthree::role::end::RoleEnd>, checking::cloud_system::NameC>"), ("Logging", "checking::cloud_system::MeshedChannels<mpstthree::binary::struct_trait::send::Send<checking::cloud_system::SyncAccess, mpstthree::binary::struct_trait::recv::Recv<checking::cloud_system::Logout, mpstthree::binary::struct_trait::recv::Recv<checking::cloud_system::Branches0CfromA, mpstthree::binary::struct_trait::end::End>>>, mpstthree::binary::struct_trait::send::Send<checking::cloud_system::Setup, mpstthree::binary::struct_trait::end::End>, mpstthree::binary::struct_trait::end::End, checking::cloud_system::RoleB<checking::cloud_system::RoleA<checking::cloud_system::RoleA<checking::cloud_system::RoleA<mpstthree::role::end::RoleEnd>>>>, checking::cloud_system::NameC>")]),
    ("Branches0DfromA", [("End", "checking::cloud_system::MeshedChannels<mpstthree::binary::struct_trait::end::End, mpstthree::binary::struct_trait::end::End, mpstthree::binary::struct_trait::end::End, mpstthree::role::end::RoleEnd, checking::cloud_system::NameD>"), ("Connect", "checking::cloud_system::MeshedChannels<mpstthree::binary::struct_trait::recv::Recv<checking::cloud_system::Branches1DfromA, mpstthree::binary::struct_trait::end::End>, mpstthree::binary::struct_trait::end::End, mpstthree::binary::struct_trait::end::End, checking::cloud_system::RoleA<mpstthree::role::end::RoleEnd>, checking::cloud_system::NameD>")]),
    ("Branches1DfromA", [("Looping", "checking::cloud_system::MeshedChannels<mpstthree::binary::struct_trait::recv::Recv<checking::cloud_system::Branches1CfromA, mpstthree::binary::struct_trait::end::End>, mpstthree::binary::struct_trait::end::End, mpstthree::binary::struct_trait::end::End, checking::cloud_system::RoleA<mpstthree::role::end::RoleEnd>, checking::cloud_system::NameD>"), ("Logging", "checking::cloud_system::MeshedChannels<mpstthree::binary::struct_trait::recv::Recv<checking::cloud_system::Branches0DfromA, mpstthree::binary::struct_trait::end::End>, mpstthree::binary::struct_trait::recv::Recv<checking::cloud_system::Log, mpstthree::binary::struct_trait::end::End>, mpstthree::binary::struct_trait::end::End, checking::cloud_system::RoleB<checking::cloud_system::RoleA<mpstthree::role::end::RoleEnd>>, checking::cloud_system::NameD>")])]
    [("RoleA", ["digraph {",
      "    0 [ label = \"\\\"0\\\"\" ]",
      "    1 [ label = \"\\\"0.1\\\"\" ]",
      "    2 [ label = \"\\\"0.2\\\"\" ]",
      "    3 [ label = \"\\\"0.2.1\\\"\" ]",
      "    4 [ label = \"\\\"0.2.2\\\"\" ]",
      "    5 [ label = \"\\\"0.2.3\\\"\" ]",
      "    6 [ label = \"\\\"0.2.1\\\"\" ]",
      "    7 [ label = \"\\\"0.1\\\"\" ]",
      "    0 -> 1 [ label = \"\\\"RoleA!RoleC: Connect\\\"\" ]",
      "    1 -> 2 [ label = \"\\\"RoleA?RoleC: SyncAccess\\\"\" ]",
      "    2 -> 3 [ label = \"\\\"RoleA!RoleC: Logout\\\"\" ]",
      "    3 -> 4 [ label = \"\\\"RoleA!RoleB: SyncLogout\\\"\" ]",
      "    4 -> 5 [ label = \"\\\"RoleA?RoleB: SyncLog\\\"\" ]",
      "    5 -> 0 [ label = \"\\\"µ\\\"\" ]",
      "    2 -> 6 [ label = \"\\\"RoleA!RoleB: Access\\\"\" ]",
      "    6 -> 2 [ label = \"\\\"µ\\\"\" ]",
      "    0 -> 7 [ label = \"\\\"0\\\"\" ]",
      "}",
      ""]),
    ("RoleB", ["digraph {",
      "    0 [ label = \"\\\"0\\\"\" ]",
      "    1 [ label = \"\\\"0.1\\\"\" ]",
      "    2 [ label = \"\\\"0.1.1\\\"\" ]",
      "    3 [ label = \"\\\"0.1.2\\\"\" ]",
      "    4 [ label = \"\\\"0.1.3\\\"\" ]",
      "    5 [ label = \"\\\"0.1.1\\\"\" ]",
      "    6 [ label = \"\\\"0.1\\\"\" ]",
      "    0 -> 1 [ label = \"\\\"RoleB?RoleC: Setup\\\"\" ]",
      "    1 -> 2 [ label = \"\\\"RoleB?RoleA: SyncLogout\\\"\" ]",
      "    2 -> 3 [ label = \"\\\"RoleB!RoleD: Log\\\"\" ]",
      "    3 -> 4 [ label = \"\\\"RoleB!RoleA: SyncLog\\\"\" ]",
      "    4 -> 0 [ label = \"\\\"µ\\\"\" ]",
      "    1 -> 5 [ label = \"\\\"RoleB?RoleA: Access\\\"\" ]",
      "    5 -> 1 [ label = \"\\\"µ\\\"\" ]",
      "    0 -> 6 [ label = \"\\\"0\\\"\" ]",
      "}",
      ""]),
    ("RoleC", ["digraph {",
      "    0 [ label = \"\\\"0\\\"\" ]",
      "    1 [ label = \"\\\"0.1\\\"\" ]",
      "    2 [ label = \"\\\"0.1.1\\\"\" ]",
      "    3 [ label = \"\\\"0.1.2\\\"\" ]",
      "    4 [ label = \"\\\"0.1.3\\\"\" ]",
      "    5 [ label = \"\\\"0.1\\\"\" ]",
      "    0 -> 1 [ label = \"\\\"RoleC?RoleA: Connect\\\"\" ]",
      "    1 -> 2 [ label = \"\\\"RoleC!RoleB: Setup\\\"\" ]",
      "    2 -> 3 [ label = \"\\\"RoleC!RoleA: SyncAccess\\\"\" ]",
      "    3 -> 4 [ label = \"\\\"RoleC?RoleA: Logout\\\"\" ]",
      "    4 -> 0 [ label = \"\\\"µ\\\"\" ]",
      "    0 -> 5 [ label = \"\\\"0\\\"\" ]",
      "}",
      ""]),
    ("RoleD", ["digraph {",
      "    0 [ label = \"\\\"0\\\"\" ]",
      "    1 [ label = \"\\\"0.0.1\\\"\" ]",
      "    2 [ label = \"\\\"0.1\\\"\" ]",
      "    0 -> 1 [ label = \"\\\"RoleD?RoleB: Log\\\"\" ]",
      "    1 -> 0 [ label = \"\\\"µ\\\"\" ]",
      "    0 -> 2 [ label = \"\\\"0\\\"\" ]",
      "}",
      ""])]

-- /repo/tests/checking_mod/complex/commit_protocol.rs, file name given: "commit_protocol"
#guard sameGraphs "commit_protocol"
    ["checking::commit_protocol::MeshedChannels<mpstthree::binary::struct_trait::send::Send<checking::commit_protocol::Branches0BfromA, mpstthree::binary::struct_trait::end::End>, mpstthree::binary::struct_trait::send::Send<checking::commit_protocol::Branches0CfromA, mpstthree::binary::struct_trait::end::End>, mpstthree::binary::struct_trait::send::Send<checking::commit_protocol::Branches0DfromA, mpstthree::binary::struct_trait::end::End>, mpstthree::role::broadcast::RoleBroadcast, checking::commit_protocol::NameA>",
    "checking::commit_protocol::MeshedChannels<mpstthree::binary::struct_trait::recv::Recv<checking::commit_protocol::Branches0BfromA, mpstthree::binary::struct_trait::end::End>, mpstthree::binary::struct_trait::end::End, mpstthree::binary::struct_trait::end::End, checking::commit_protocol::RoleA<mpstthree::role::end::RoleEnd>, checking::commit_protocol::NameB>",
    "checking::commit_protocol::MeshedChannels<mpstthree::binary::struct_trait::recv::Recv<checking::commit_protocol::Branches0CfromA, mpstthree::binary::struct_trait::end::End>, mpstthree::binary::struct_trait::end::End, mpstthree::binary::struct_trait::end::End, checking::commit_protocol::RoleA<mpstthree::role::end::RoleEnd>, checking::commit_protocol::NameC>",
    "checking::commit_protocol::MeshedChannels<mpstthree::binary::struct_trait::recv::Recv<checking::commit_protocol::Branches0DfromA, mpstthree::binary::struct_trait::end::End>, mpstthree::binary::struct_trait::end::End, mpstthree::binary::struct_trait::end::End, checking::commit_protocol::RoleA<mpstthree::role::end::RoleEnd>, checking::commit_protocol::NameD>"]
    [("checking::commit_protocol::MeshedChannels<mpstthree::binary::struct_trait::recv::Recv<checking::commit_protocol::Update, mpstthree::binary::struct_trait::send::Send<checking::commit_protocol::Branches1BfromA, mpstthree::binary::struct_trait::end::End>>, mpstthree::binary::struct_trait::send::Send<checking::commit_protocol::Update, mpstthree::binary::struct_trait::send::Send<checking::commit_protocol::Branches1CfromA, mpstthree::binary::struct_trait::end::End>>, mpstthree::binary::struct_trait::send::Send<checking::commit_protocol::Update, mpstthree::binary::struct_trait::send::Send<checking::commit_protocol::Branches1DfromA, mpstthree::binary::struct_trait::end::End>>, checking::commit_protocol::RoleB<checking::commit_protocol::RoleC<checking::commit_protocol::RoleD<mpstthree::role::broadcast::RoleBroadcast>>>, checking::commit_protocol::NameA>", [("Branches0BfromA", "CommitForward"), ("Branches0CfromA", "CommitForward"), ("Branches0DfromA", "CommitForward")]),
    ("checking::commit_protocol::MeshedChannels<mpstthree::binary::struct_trait::send::Send<checking::commit_protocol::Okay, mpstthree::binary::struct_trait::send::Send<checking::commit_protocol::Branches0BfromA, mpstthree::binary::struct_trait::end::End>>, mpstthree::binary::struct_trait::recv::Recv<checking::commit_protocol::Okay, mpstthree::binary::struct_trait::send::Send<checking::commit_protocol::Branches0CfromA, mpstthree::binary::struct_trait::end::End>>, mpstthree::binary::struct_trait::recv::Recv<checking::commit_protocol::Okay, mpstthree::binary::struct_trait::send::Send<checking::commit_protocol::Branches0DfromA, mpstthree::binary::struct_trait::end::End>>, checking::commit_protocol::RoleD<checking::commit_protocol::RoleC<checking::commit_protocol::RoleB<mpstthree::role::broadcast::RoleBroadcast>>>, checking::commit_protocol::NameA>", [("Branches1BfromA", "CommitBackward"), ("Branches1CfromA", "CommitBackward"), ("Branches1DfromA", "CommitBackward")]),
    ("checking::commit_protocol::MeshedChannels<mpstthree::binary::struct_trait::end::End, mpstthree::binary::struct_trait::end::End, mpstthree::binary::struct_trait::end::End, mpstthree::role::end::RoleEnd, checking::commit_protocol::NameA>", [("Branches0BfromA", "End"), ("Branches0CfromA", "End"), ("Branches0DfromA", "End")])]
    [("Branches0BfromA", [("End", "checking::commit_protocol::MeshedChannels<mpstthree::binary::struct_trait::end::End, mpstthree::binary::struct_trait::end::End, mpstthree::binary::struct_trait::end::End, mpstthree::role::end::RoleEnd, checking::commit_protocol::NameB>"), ("CommitForward", "checking::commit_protocol::MeshedChannels<mpstthree::binary::struct_trait::send::Send<checking::commit_protocol::Update, mpstthree::binary::struct_trait::recv::Recv<checking::commit_protocol::Branches1BfromA, mpstthree::binary::struct_trait::end::End>>, mpstthree::binary::struct_trait::end::End, mpstthree::binary::struct_trait::end::End, checking::commit_protocol::RoleA<checking::commit_protocol::RoleA<mpstthree::role::end::RoleEnd>>, checking::commit_protocol::NameB>")]),
    ("Branches1BfromA", [("CommitBackward", "checking::commit_protocol::MeshedChannels<mpstthree::binary::struct_trait::recv::Recv<checking::commit_protocol::Okay, mpstthree::binary::struct_trait::recv::Recv<checking::commit_protocol::Branches0BfromA, mpstthree::binary::struct_trait::end::End>>, mpstthree::binary::struct_trait::end::End, mpstthree::binary::struct_trait::end::End, checking::commit_protocol::RoleA<checking::commit_protocol::RoleA<mpstthree::role::end::RoleEnd>>, checking::commit_protocol::NameB>")]),
    ("Branches0CfromA", [("End", "checking::commit_protocol::MeshedChannels<mpstthree::binary::struct_trait::end::End, mpstthree::binary::struct_trait::end::End, mpstthree::binary::struct_trait::end::End, mpstthree::role::end::RoleEnd, checking::commit_protocol::NameC>"), ("CommitForward", "checking::commit_protocol::MeshedChannels<mpstthree::binary::struct_trait::recv::Recv<checking::commit_protocol::Update, mpstthree::binary::struct_trait::recv::Recv<checking::commit_protocol::Branches1CfromA, mpstthree::binary::struct_trait::end::End>>, mpstthree::binary::struct_trait::end::End, mpstthree::binary::struct_trait::end::End, checking::commit_protocol::RoleA<checking::commit_protocol::RoleA<mpstthree::role::end::RoleEnd>>, checking::commit_protocol::NameC>")]),
    ("Branches1CfromA", [("CommitBackward", "checking::commit_protocol::MeshedChannels<mpstthree::binary::struct_trait::send::Send<checking::commit_protocol::Okay, mpstthree::binary::struct_trait::recv::Recv<checking::commit_protocol::Branches0CfromA, mpstthree::binary::struct_trait::end::End>>, mpstthree::binary::struct_trait::end::End, mpstthree::binary::struct_trait::end::End, checking::commit_protocol::RoleA<checking::commit_protocol::RoleA<mpstthree::role::end::RoleEnd>>, checking::commit_protocol::NameC>")]),
    ("Branches0DfromA", [("End", "checking::commit_protocol::MeshedChannels<mpstthree::binary::struct_trait::end::End, mpstthree::binary::struct_trait::end::End, mpstthree::binary::struct_trait::end::End, mpstthree::role::end::RoleEnd, checking::commit_protocol::NameD>"), ("CommitForward", "checking::commit_protocol::MeshedChannels<mpstthree::binary::struct_trait::recv::Recv<checking::commit_protocol::Update, mpstthree::binary::struct_trait::recv::Recv<checking::commit_protocol::Branches1DfromA, mpstthree::binary::struct_trait::end::End>>, mpstthree::binary::struct_trait::end::End, mpstthree::binary::struct_trait::end::End, checking::commit_protocol::RoleA<checking::commit_protocol::RoleA<mpstthree::role::end::RoleEnd>>, checking::commit_protocol::NameD>")]),
    ("Branches1DfromA", [("CommitBackward", "checking::commit_protocol::MeshedChannels<mpstthree::binary::struct_trait::send::Send<checking::commit_protocol::Okay, mpstthree::binary::struct_trait::recv::Recv<checking::commit_protocol::Branches0DfromA, mpstthree::binary::struct_trait::end::End>>, mpstthree::binary::struct_trait::end::End, mpstthree::binary::struct_trait::end::End, checking::commit_protocol::RoleA<checking::commit_protocol::RoleA<mpstthree::role::end::RoleEnd>>, checking::commit_protocol::NameD>")])]
    [("RoleA", ["digraph {",
      "    0 [ label = \"\\\"0\\\"\" ]",
      "    1 [ label = \"\\\"0.1\\\"\" ]",
      "    2 [ label = \"\\\"0.2\\\"\" ]",
      "    3 [ label = \"\\\"0.3\\\"\" ]",
      "    4 [ label = \"\\\"0.3.1\\\"\" ]",
      "    5 [ label = \"\\\"0.3.2\\\"\" ]",
      "    6 [ label = \"\\\"0.3.3\\\"\" ]",
      "    7 [ label = \"\\\"0.1\\\"\" ]",
      "    0 -> 1 [ label = \"\\\"RoleA?RoleB: Update\\\"\" ]",
      "    1 -> 2 [ label = \"\\\"RoleA!RoleC: Update\\\"\" ]",
      "    2 -> 3 [ label = \"\\\"RoleA!RoleD: Update\\\"\" ]",
      "    3 -> 4 [ label = \"\\\"RoleA?RoleD: Okay\\\"\" ]",
      "    4 -> 5 [ label = \"\\\"RoleA?RoleC: Okay\\\"\" ]",
      "    5 -> 6 [ label = \"\\\"RoleA!RoleB: Okay\\\"\" ]",
      "    6 -> 0 [ label = \"\\\"µ\\\"\" ]",
      "    0 -> 7 [ label = \"\\\"0\\\"\" ]",
      "}",
      ""]),
    ("RoleB", ["digraph {",
      "    0 [ label = \"\\\"0\\\"\" ]",
      "    1 [ label = \"\\\"0.1\\\"\" ]",
      "    2 [ label = \"\\\"0.1.1\\\"\" ]",
      "    3 [ label = \"\\\"0.1\\\"\" ]",
      "    0 -> 1 [ label = \"\\\"RoleB!RoleA: Update\\\"\" ]",
      "    1 -> 2 [ label = \"\\\"RoleB?RoleA: Okay\\\"\" ]",
      "    2 -> 0 [ label = \"\\\"µ\\\"\" ]",
      "    0 -> 3 [ label = \"\\\"0\\\"\" ]",
      "}",
      ""]),
    ("RoleC", ["digraph {",
      "    0 [ label = \"\\\"0\\\"\" ]",
      "    1 [ label = \"\\\"0.1\\\"\" ]",
      "    2 [ label = \"\\\"0.1.1\\\"\" ]",
      "    3 [ label = \"\\\"0.1\\\"\" ]",
      "    0 -> 1 [ label = \"\\\"RoleC?RoleA: Update\\\"\" ]",
      "    1 -> 2 [ label = \"\\\"RoleC!RoleA: Okay\\\"\" ]",
      "    2 -> 0 [ label = \"\\\"µ\\\"\" ]",
      "    0 -> 3 [ label = \"\\\"0\\\"\" ]",
      "}",
      ""]),
    ("RoleD", ["digraph {",
      "    0 [ label = \"\\\"0\\\"\" ]",
      "    1 [ label = \"\\\"0.1\\\"\" ]",
      "    2 [ label = \"\\\"0.1.1\\\"\" ]",
      "    3 [ label = \"\\\"0.1\\\"\" ]",
      "    0 -> 1 [ label = \"\\\"RoleD?RoleA: Update\\\"\" ]",
      "    1 -> 2 [ label = \"\\\"RoleD!RoleA: Okay\\\"\" ]",
      "    2 -> 0 [ label = \"\\\"µ\\\"\" ]",
      "    0 -> 3 [ label = \"\\\"0\\\"\" ]",
      "}",
      ""])]

-- /repo/tests/checking_mod/complex/four_players_game_sync.rs, file name given: "four_players_game_sync"
#guard sameGraphs "four_players_game_sync"
    ["checking::four_players_game_sync::MeshedChannels<mpstthree::binary::struct_trait::send::Send<checking::four_players_game_sync::Branches0BfromA, mpstthree::binary::struct_trait::end::End>, mpstthree::binary::struct_trait::send::Send<checking::four_players_game_sync::Branches0CfromA, mpstthree::binary::struct_trait::end::End>, mpstthree::binary::struct_trait::send::Send<checking::four_players_game_sync::Branches0DfromA, mpstthree::binary::struct_trait::end::End>, mpstthree::role::broadcast::RoleBroadcast, checking::four_players_game_sync::NameA>",
    "checking::four_players_game_sync::MeshedChannels<mpstthree::binary::struct_trait::recv::Recv<checking::four_players_game_sync::Branches0BfromA, mpstthree::binary::struct_trait::end::End>, mpstthree::binary::struct_trait::end::End, mpstthree::binary::struct_trait::end::End, checking::four_players_game_sync::RoleA<mpstthree::role::end::RoleEnd>, checking::four_players_game_sync::NameB>",
    "checking::four_players_game_sync::MeshedChannels<mpstthree::binary::struct_trait::recv::Recv<checking::four_players_game_sync::Branches0CfromA, mpstthree::binary::struct_trait::end::End>, mpstthree::binary::struct_trait::end::End, mpstthree::binary::struct_trait::end::End, checking::four_players_game_sync::RoleA<mpstthree::role::end::RoleEnd>, checking::four_players_game_sync::NameC>",
    "checking::four_players_game_sync::MeshedChannels<mpstthree::binary::struct_trait::recv::Recv<checking::four_players_game_sync::Branches0DfromA, mpstthree::binary::struct_trait::end::End>, mpstthree::binary::struct_trait::end::End, mpstthree::binary::struct_trait::end::End, checking::four_players_game_sync::RoleA<mpstthree::role::end::RoleEnd>, checking::four_players_game_sync::NameD>"]
    [("checking::four_players_game_sync::MeshedChannels<mpstthree::binary::struct_trait::recv::Recv<i32, mpstthree::binary::struct_trait::send::Send<checking::four_players_game_sync::Branches0BfromA, mpstthree::binary::struct_trait::end::End>>, mpstthree::binary::struct_trait::send::Send<i32, mpstthree::binary::struct_trait::recv::Recv<i32, mpstthree::binary::struct_trait::send::Send<checking::four_players_game_sync::Branches0CfromA, mpstthree::binary::struct_trait::end::End>>>, mpstthree::binary::struct_trait::send::Send<i32, mpstthree::binary::struct_trait::send::Send<checking::four_players_game_sync::Branches0DfromA, mpstthree::binary::struct_trait::end::End>>, checking::four_players_game_sync::RoleC<checking::four_players_game_sync::RoleB<checking::four_players_game_sync::RoleC<checking::four_players_game_sync::RoleD<mpstthree::role::broadcast::RoleBroadcast>>>>, checking::four_players_game_sync::NameA>", [("Branches0BfromA", "Win"), ("Branches0CfromA", "Win"), ("Branches0DfromA", "Win")]),
    ("checking::four_players_game_sync::MeshedChannels<mpstthree::binary::struct_trait::recv::Recv<i32, mpstthree::binary::struct_trait::send::Send<checking::four_players_game_sync::Branches0BfromA, mpstthree::binary::struct_trait::end::End>>, mpstthree::binary::struct_trait::send::Send<i32, mpstthree::binary::struct_trait::recv::Recv<i32, mpstthree::binary::struct_trait::send::Send<checking::four_players_game_sync::Branches0CfromA, mpstthree::binary::struct_trait::end::End>>>, mpstthree::binary::struct_trait::send::Send<i32, mpstthree::binary::struct_trait::send::Send<checking::four_players_game_sync::Branches0DfromA, mpstthree::binary::struct_trait::end::End>>, checking::four_players_game_sync::RoleC<checking::four_players_game_sync::RoleB<checking::four_players_game_sync::RoleC<checking::four_players_game_sync::RoleD<mpstthree::role::broadcast::RoleBroadcast>>>>, checking::four_players_game_sync::NameA>", [("Branches0BfromA", "Lose"), ("Branches0CfromA", "Lose"), ("Branches0DfromA", "Lose")]),
    ("checking::four_players_game_sync::MeshedChannels<mpstthree::binary::struct_trait::end::End, mpstthree::binary::struct_trait::end::End, mpstthree::binary::struct_trait::end::End, mpstthree::role::end::RoleEnd, checking::four_players_game_sync::NameA>", [("Branches0BfromA", "End"), ("Branches0CfromA", "End"), ("Branches0DfromA", "End")])]
    [("Branches0BfromA", [("End", "checking::four_players_game_sync::MeshedChannels<mpstthree::binary::struct_trait::end::End, mpstthree::binary::struct_trait::end::End, mpstthree::binary::struct_trait::end::End, mpstthree::role::end::RoleEnd, checking::four_players_game_sync::NameB>"), ("Win", "checking::four_players_game_sync::MeshedChannels<mpstthree::binary::struct_trait::send::Send<i32, mpstthree::binary::struct_trait::recv::Recv<checking::four_players_game_sync::Branches0BfromA, mpstthree::binary::struct_trait::end::End>>, mpstthree::binary::struct_trait::recv::Recv<i32, mpstthree::binary::struct_trait::end::End>, mpstthree::binary::struct_trait::end::End, checking::four_players_game_sync::RoleC<checking::four_players_game_sync::RoleA<checking::four_players_game_sync::RoleA<mpstthree::role::end::RoleEnd>>>, checking::four_players_game_sync::NameB>"), ("Lose", "checking::four_players_game_sync::MeshedChannels<mpstthree::binary::struct_trait::send::Send<i32, mpstthree::binary::struct_trait::recv::Recv<checking::four_players_game_sync::Branches0BfromA, mpstthree::binary::struct_trait::end::End>>, mpstthree::binary::struct_trait::recv::Recv<i32, mpstthree::binary::struct_trait::end::End>, mpstthree::binary::struct_trait::end::End, checking::four_players_game_sync::RoleC<checking::four_players_game_sync::RoleA<checking::four_players_game_sync::RoleA<mpstthree::role::end::RoleEnd>>>, checking::four_players_game_sync::NameB>")]),
    ("Branches0CfromA", [("End", "checking::four_players_game_sync::MeshedChannels<mpstthree::binary::struct_trait::end::End, mpstthree::binary::struct_trait::end::End, mpstthree::binary::struct_trait::end::End, mpstthree::role::end::RoleEnd, checking::four_players_game_sync::NameC>"), ("Win", "checking::four_players_game_sync::MeshedChannels<mpstthree::binary::struct_trait::recv::Recv<i32, mpstthree::binary::struct_trait::send::Send<i32, mpstthree::binary::struct_trait::recv::Recv<checking::four_players_game_sync::Branches0CfromA, mpstthree::binary::struct_trait::end::End>>>, mpstthree::binary::struct_trait::send::Send<i32, mpstthree::binary::struct_trait::end::End>, mpstthree::binary::struct_trait::send::Send<i32, mpstthree::binary::struct_trait::end::End>, checking::four_players_game_sync::RoleA<checking::four_players_game_sync::RoleB<checking::four_players_game_sync::RoleD<checking::four_players_game_sync::RoleA<checking::four_players_game_sync::RoleA<mpstthree::role::end::RoleEnd>>>>>, checking::four_players_game_sync::NameC>"), ("Lose", "checking::four_players_game_sync::MeshedChannels<mpstthree::binary::struct_trait::recv::Recv<i32, mpstthree::binary::struct_trait::send::Send<i32, mpstthree::binary::struct_trait::recv::Recv<checking::four_players_game_sync::Branches0CfromA, mpstthree::binary::struct_trait::end::End>>>, mpstthree::binary::struct_trait::send::Send<i32, mpstthree::binary::struct_trait::end::End>, mpstthree::binary::struct_trait::send::Send<i32, mpstthree::binary::struct_trait::end::End>, checking::four_players_game_sync::RoleA<checking::four_players_game_sync::RoleB<checking::four_players_game_sync::RoleD<checking::four_players_game_sync::RoleA<checking::four_players_game_sync::RoleA<mpstthree::role::end::RoleEnd>>>>>, checking::four_players_game_sync::NameC>")]),
    ("Branches0DfromA", [("End", "checking::four_players_game_sync::MeshedChannels<mpstthree::binary::struct_trait::end::End, mpstthree::binary::struct_trait::end::End, mpstthree::binary::struct_trait::end::End, mpstthree::role::end::RoleEnd, checking::four_players_game_sync::NameD>"), ("Win", "checking::four_players_game_sync::MeshedChannels<mpstthree::binary::struct_trait::recv::Recv<i32, mpstthree::binary::struct_trait::recv::Recv<checking::four_players_game_sync::Branches0DfromA, mpstthree::binary::struct_trait::end::End>>, mpstthree::binary::struct_trait::end::End, mpstthree::binary::struct_trait::recv::Recv<i32, mpstthree::binary::struct_trait::end::End>, checking::four_players_game_sync::RoleA<checking::four_players_game_sync::RoleC<checking::four_players_game_sync::RoleA<mpstthree::role::end::RoleEnd>>>, checking::four_players_game_sync::NameD>"), ("Lose", "checking::four_players_game_sync::MeshedChannels<mpstthree::binary::struct_trait::recv::Recv<i32, mpstthree::binary::struct_trait::recv::Recv<checking::four_players_game_sync::Branches0DfromA, mpstthree::binary::struct_trait::end::End>>, mpstthree::binary::struct_trait::end::End, mpstthree::binary::struct_trait::recv::Recv<i32, mpstthree::binary::struct_trait::end::End>, checking::four_players_game_sync::RoleA<checking::four_players_game_sync::RoleC<checking::four_players_game_sync::RoleA<mpstthree::role::end::RoleEnd>>>, checking::four_players_game_sync::NameD>")])]
    [("RoleA", ["digraph {",
      "    0 [ label = \"\\\"0\\\"\" ]",
      "    1 [ label = \"\\\"0.1\\\"\" ]",
      "    2 [ label = \"\\\"0.1\\\"\" ]",
      "    3 [ label = \"\\\"0.2\\\"\" ]",
      "    4 [ label = \"\\\"0.3\\\"\" ]",
      "    5 [ label = \"\\\"0.4\\\"\" ]",
      "    6 [ label = \"\\\"0.1\\\"\" ]",
      "    7 [ label = \"\\\"0.2\\\"\" ]",
      "    8 [ label = \"\\\"0.3\\\"\" ]",
      "    9 [ label = \"\\\"0.4\\\"\" ]",
      "    0 -> 1 [ label = \"\\\"0\\\"\" ]",
      "    0 -> 2 [ label = \"\\\"RoleA!RoleC: i32\\\"\" ]",
      "    2 -> 3 [ label = \"\\\"RoleA?RoleB: i32\\\"\" ]",
      "    3 -> 4 [ label = \"\\\"RoleA?RoleC: i32\\\"\" ]",
      "    4 -> 5 [ label = \"\\\"RoleA!RoleD: i32\\\"\" ]",
      "    5 -> 0 [ label = \"\\\"µ\\\"\" ]",
      "    0 -> 6 [ label = \"\\\"RoleA!RoleC: i32\\\"\" ]",
      "    6 -> 7 [ label = \"\\\"RoleA?RoleB: i32\\\"\" ]",
      "    7 -> 8 [ label = \"\\\"RoleA?RoleC: i32\\\"\" ]",
      "    8 -> 9 [ label = \"\\\"RoleA!RoleD: i32\\\"\" ]",
      "    9 -> 0 [ label = \"\\\"µ\\\"\" ]",
      "}",
      ""]),
    ("RoleB", ["digraph {",
      "    0 [ label = \"\\\"0\\\"\" ]",
      "    1 [ label = \"\\\"0.1\\\"\" ]",
      "    2 [ label = \"\\\"0.1\\\"\" ]",
      "    3 [ label = \"\\\"0.2\\\"\" ]",
      "    4 [ label = \"\\\"0.1\\\"\" ]",
      "    5 [ label = \"\\\"0.2\\\"\" ]",
      "    0 -> 1 [ label = \"\\\"0\\\"\" ]",
      "    0 -> 2 [ label = \"\\\"RoleB?RoleC: i32\\\"\" ]",
      "    2 -> 3 [ label = \"\\\"RoleB!RoleA: i32\\\"\" ]",
      "    3 -> 0 [ label = \"\\\"µ\\\"\" ]",
      "    0 -> 4 [ label = \"\\\"RoleB?RoleC: i32\\\"\" ]",
      "    4 -> 5 [ label = \"\\\"RoleB!RoleA: i32\\\"\" ]",
      "    5 -> 0 [ label = \"\\\"µ\\\"\" ]",
      "}",
      ""]),
    ("RoleC", ["digraph {",
      "    0 [ label = \"\\\"0\\\"\" ]",
      "    1 [ label = \"\\\"0.1\\\"\" ]",
      "    2 [ label = \"\\\"0.1\\\"\" ]",
      "    3 [ label = \"\\\"0.2\\\"\" ]",
      "    4 [ label = \"\\\"0.3\\\"\" ]",
      "    5 [ label = \"\\\"0.4\\\"\" ]",
      "    6 [ label = \"\\\"0.1\\\"\" ]",
      "    7 [ label = \"\\\"0.2\\\"\" ]",
      "    8 [ label = \"\\\"0.3\\\"\" ]",
      "    9 [ label = \"\\\"0.4\\\"\" ]",
      "    0 -> 1 [ label = \"\\\"0\\\"\" ]",
      "    0 -> 2 [ label = \"\\\"RoleC?RoleA: i32\\\"\" ]",
      "    2 -> 3 [ label = \"\\\"RoleC!RoleB: i32\\\"\" ]",
      "    3 -> 4 [ label = \"\\\"RoleC!RoleD: i32\\\"\" ]",
      "    4 -> 5 [ label = \"\\\"RoleC!RoleA: i32\\\"\" ]",
      "    5 -> 0 [ label = \"\\\"µ\\\"\" ]",
      "    0 -> 6 [ label = \"\\\"RoleC?RoleA: i32\\\"\" ]",
      "    6 -> 7 [ label = \"\\\"RoleC!RoleB: i32\\\"\" ]",
      "    7 -> 8 [ label = \"\\\"RoleC!RoleD: i32\\\"\" ]",
      "    8 -> 9 [ label = \"\\\"RoleC!RoleA: i32\\\"\" ]",
      "    9 -> 0 [ label = \"\\\"µ\\\"\" ]",
      "}",
      ""]),
    ("RoleD", ["digraph {",
      "    0 [ label = \"\\\"0\\\"\" ]",
      "    1 [ label = \"\\\"0.1\\\"\" ]",
      "    2 [ label = \"\\\"0.1\\\"\" ]",
      "    3 [ label = \"\\\"0.2\\\"\" ]",
      "    4 [ label = \"\\\"0.1\\\"\" ]",
      "    5 [ label = \"\\\"0.2\\\"\" ]",
      "    0 -> 1 [ label = \"\\\"0\\\"\" ]",
      "    0 -> 2 [ label = \"\\\"RoleD?RoleA: i32\\\"\" ]",
      "    2 -> 3 [ label = \"\\\"RoleD?RoleC: i32\\\"\" ]",
      "    3 -> 0 [ label = \"\\\"µ\\\"\" ]",
      "    0 -> 4 [ label = \"\\\"RoleD?RoleA: i32\\\"\" ]",
      "    4 -> 5 [ label = \"\\\"RoleD?RoleC: i32\\\"\" ]",
      "    5 -> 0 [ label = \"\\\"µ\\\"\" ]",
      "}",
      ""])]

-- /repo/tests/checking_mod/complex/inf_snd_rcv.rs, file name given: "inf_snd_rcv"
#guard sameGraphs "inf_snd_rcv"
    ["checking::inf_snd_rcv::MeshedChannels<mpstthree::binary::struct_trait::recv::Recv<checking::inf_snd_rcv::Branches0AfromB, mpstthree::binary::struct_trait::end::End>, checking::inf_snd_rcv::RoleB<mpstthree::role::end::RoleEnd>, checking::inf_snd_rcv::NameA>",
    "checking::inf_snd_rcv::MeshedChannels<mpstthree::binary::struct_trait::send::Send<checking::inf_snd_rcv::Branches0AfromB, mpstthree::binary::struct_trait::end::End>, mpstthree::role::broadcast::RoleBroadcast, checking::inf_snd_rcv::NameB>"]
    [("checking::inf_snd_rcv::MeshedChannels<mpstthree::binary::struct_trait::end::End, mpstthree::role::end::RoleEnd, checking::inf_snd_rcv::NameB>", [("Branches0AfromB", "End")]),
    ("checking::inf_snd_rcv::MeshedChannels<mpstthree::binary::struct_trait::send::Send<i32, mpstthree::binary::struct_trait::send::Send<checking::inf_snd_rcv::Branches0AfromB, mpstthree::binary::struct_trait::end::End>>, checking::inf_snd_rcv::RoleA<mpstthree::role::broadcast::RoleBroadcast>, checking::inf_snd_rcv::NameB>", [("Branches0AfromB", "Looping")]),
    ("checking::inf_snd_rcv::MeshedChannels<mpstthree::binary::struct_trait::send::Send<checking::inf_snd_rcv::i64, mpstthree::binary::struct_trait::send::Send<checking::inf_snd_rcv::Branches1AfromB, mpstthree::binary::struct_trait::end::End>>, checking::inf_snd_rcv::RoleA<mpstthree::role::broadcast::RoleBroadcast>, checking::inf_snd_rcv::NameB>", [("Branches0AfromB", "Extend")]),
    ("checking::inf_snd_rcv::MeshedChannels<mpstthree::binary::struct_trait::end::End, mpstthree::role::end::RoleEnd, checking::inf_snd_rcv::NameB>", [("Branches1AfromB", "End")]),
    ("checking::inf_snd_rcv::MeshedChannels<mpstthree::binary::struct_trait::recv::Recv<i32, mpstthree::binary::struct_trait::send::Send<checking::inf_snd_rcv::Branches1AfromB, mpstthree::binary::struct_trait::end::End>>, checking::inf_snd_rcv::RoleA<mpstthree::role::broadcast::RoleBroadcast>, checking::inf_snd_rcv::NameB>", [("Branches1AfromB", "Looping")]),
    ("checking::inf_snd_rcv::MeshedChannels<mpstthree::binary::struct_trait::recv::Recv<checking::inf_snd_rcv::i64, mpstthree::binary::struct_trait::end::End>, checking::inf_snd_rcv::RoleA<mpstthree::role::end::RoleEnd>, checking::inf_snd_rcv::NameB>", [("Branches1AfromB", "Extend")])]
    [("Branches0AfromB", [("End", "checking::inf_snd_rcv::MeshedChannels<mpstthree::binary::struct_trait::end::End, mpstthree::role::end::RoleEnd, checking::inf_snd_rcv::NameA>"), ("Looping", "checking::inf_snd_rcv::MeshedChannels<mpstthree::binary::struct_trait::send::Send<i32, mpstthree::binary::struct_trait::recv::Recv<checking::inf_snd_rcv::Branches0AfromB, mpstthree::binary::struct_trait::end::End>>, checking::inf_snd_rcv::RoleB<checking::inf_snd_rcv::RoleB<mpstthree::role::end::RoleEnd>>, checking::inf_snd_rcv::NameA>"), ("Extend", "checking::inf_snd_rcv::MeshedChannels<mpstthree::binary::struct_trait::send::Send<checking::inf_snd_rcv::i64, mpstthree::binary::struct_trait::recv::Recv<checking::inf_snd_rcv::Branches1AfromB, mpstthree::binary::struct_trait::end::End>>, checking::inf_snd_rcv::RoleB<checking::inf_snd_rcv::RoleB<mpstthree::role::end::RoleEnd>>, checking::inf_snd_rcv::NameA>")]),
    ("Branches1AfromB", [("End", "checking::inf_snd_rcv::MeshedChannels<mpstthree::binary::struct_trait::end::End, mpstthree::role::end::RoleEnd, checking::inf_snd_rcv::NameA>"), ("Looping", "checking::inf_snd_rcv::MeshedChannels<mpstthree::binary::struct_trait::recv::Recv<i32, mpstthree::binary::struct_trait::recv::Recv<checking::inf_snd_rcv::Branches1AfromB, mpstthree::binary::struct_trait::end::End>>, checking::inf_snd_rcv::RoleB<checking::inf_snd_rcv::RoleB<mpstthree::role::end::RoleEnd>>, checking::inf_snd_rcv::NameA>"), ("Extend", "checking::inf_snd_rcv::MeshedChannels<mpstthree::binary::struct_trait::recv::Recv<checking::inf_snd_rcv::i64, mpstthree::binary::struct_trait::end::End>, checking::inf_snd_rcv::RoleB<mpstthree::role::end::RoleEnd>, checking::inf_snd_rcv::NameA>")])]
    [("RoleA", ["digraph {",
      "    0 [ label = \"\\\"0\\\"\" ]",
      "    1 [ label = \"\\\"0.1\\\"\" ]",
      "    2 [ label = \"\\\"0.1\\\"\" ]",
      "    3 [ label = \"\\\"0.1.1\\\"\" ]",
      "    4 [ label = \"\\\"0.1.1\\\"\" ]",
      "    5 [ label = \"\\\"0.1.2\\\"\" ]",
      "    6 [ label = \"\\\"0.1.1\\\"\" ]",
      "    7 [ label = \"\\\"0.1\\\"\" ]",
      "    0 -> 1 [ label = \"\\\"0\\\"\" ]",
      "    0 -> 2 [ label = \"\\\"RoleA!RoleB: i64\\\"\" ]",
      "    2 -> 3 [ label = \"\\\"0\\\"\" ]",
      "    2 -> 4 [ label = \"\\\"RoleA?RoleB: i64\\\"\" ]",
      "    4 -> 5 [ label = \"\\\"0\\\"\" ]",
      "    2 -> 6 [ label = \"\\\"RoleA?RoleB: i32\\\"\" ]",
      "    6 -> 2 [ label = \"\\\"µ\\\"\" ]",
      "    0 -> 7 [ label = \"\\\"RoleA!RoleB: i32\\\"\" ]",
      "    7 -> 0 [ label = \"\\\"µ\\\"\" ]",
      "}",
      ""]),
    ("RoleB", ["digraph {",
      "    0 [ label = \"\\\"0\\\"\" ]",
      "    1 [ label = \"\\\"0.1\\\"\" ]",
      "    2 [ label = \"\\\"0.1\\\"\" ]",
      "    3 [ label = \"\\\"0.1.1\\\"\" ]",
      "    4 [ label = \"\\\"0.1.1\\\"\" ]",
      "    5 [ label = \"\\\"0.1.2\\\"\" ]",
      "    6 [ label = \"\\\"0.1.1\\\"\" ]",
      "    7 [ label = \"\\\"0.1\\\"\" ]",
      "    0 -> 1 [ label = \"\\\"0\\\"\" ]",
      "    0 -> 2 [ label = \"\\\"RoleB!RoleA: i64\\\"\" ]",
      "    2 -> 3 [ label = \"\\\"0\\\"\" ]",
      "    2 -> 4 [ label = \"\\\"RoleB?RoleA: i64\\\"\" ]",
      "    4 -> 5 [ label = \"\\\"0\\\"\" ]",
      "    2 -> 6 [ label = \"\\\"RoleB?RoleA: i32\\\"\" ]",
      "    6 -> 2 [ label = \"\\\"µ\\\"\" ]",
      "    0 -> 7 [ label = \"\\\"RoleB!RoleA: i32\\\"\" ]",
      "    7 -> 0 [ label = \"\\\"µ\\\"\" ]",
      "}",
      ""])]

-- /repo/tests/checking_mod/complex/two_peers_branchings_sync.rs, file name given: "two_peers_branchings_sync"
#guard sameGraphs "two_peers_branchings_sync"
    ["checking::two_peers_branchings_sync::MeshedChannels<mpstthree::binary::struct_trait::send::Send<checking::two_peers_branchings_sync::Branches0BfromA, mpstthree::binary::struct_trait::end::End>, mpstthree::role::broadcast::RoleBroadcast, checking::two_peers_branchings_sync::NameA>",
    "checking::two_peers_branchings_sync::MeshedChannels<mpstthree::binary::struct_trait::recv::Recv<checking::two_peers_branchings_sync::Branches0BfromA, mpstthree::binary::struct_trait::end::End>, checking::two_peers_branchings_sync::RoleA<mpstthree::role::end::RoleEnd>, checking::two_peers_branchings_sync::NameB>"]
    [("checking::two_peers_branchings_sync::MeshedChannels<mpstthree::binary::struct_trait::send::Send<checking::two_peers_branchings_sync::Branches2BfromA, mpstthree::binary::struct_trait::end::End>, mpstthree::role::broadcast::RoleBroadcast, checking::two_peers_branchings_sync::NameA>", [("Branches0BfromA", "A")]),
    ("checking::two_peers_branchings_sync::MeshedChannels<mpstthree::binary::struct_trait::send::Send<checking::two_peers_branchings_sync::Branches1BfromA, mpstthree::binary::struct_trait::end::End>, mpstthree::role::broadcast::RoleBroadcast, checking::two_peers_branchings_sync::NameA>", [("Branches0BfromA", "B")]),
    ("checking::two_peers_branchings_sync::MeshedChannels<mpstthree::binary::struct_trait::end::End, mpstthree::role::end::RoleEnd, checking::two_peers_branchings_sync::NameA>", [("Branches1BfromA", "C")]),
    ("checking::two_peers_branchings_sync::MeshedChannels<mpstthree::binary::struct_trait::recv::Recv<checking::two_peers_branchings_sync::Branches3AfromB, mpstthree::binary::struct_trait::end::End>, checking::two_peers_branchings_sync::RoleB<mpstthree::role::end::RoleEnd>, checking::two_peers_branchings_sync::NameA>", [("Branches1BfromA", "E")]),
    ("checking::two_peers_branchings_sync::MeshedChannels<mpstthree::binary::struct_trait::end::End, mpstthree::role::end::RoleEnd, checking::two_peers_branchings_sync::NameA>", [("Branches2BfromA", "F")]),
    ("checking::two_peers_branchings_sync::MeshedChannels<mpstthree::binary::struct_trait::end::End, mpstthree::role::end::RoleEnd, checking::two_peers_branchings_sync::NameA>", [("Branches2BfromA", "G")]),
    ("checking::two_peers_branchings_sync::MeshedChannels<mpstthree::binary::struct_trait::end::End, mpstthree::role::end::RoleEnd, checking::two_peers_branchings_sync::NameB>", [("Branches3AfromB", "B")]),
    ("checking::two_peers_branchings_sync::MeshedChannels<mpstthree::binary::struct_trait::end::End, mpstthree::role::end::RoleEnd, checking::two_peers_branchings_sync::NameB>", [("Branches3AfromB", "C")]),
    ("checking::two_peers_branchings_sync::MeshedChannels<mpstthree::binary::struct_trait::end::End, mpstthree::role::end::RoleEnd, checking::two_peers_branchings_sync::NameB>", [("Branches3AfromB", "D")]),
    ("checking::two_peers_branchings_sync::MeshedChannels<mpstthree::binary::struct_trait::end::End, mpstthree::role::end::RoleEnd, checking::two_peers_branchings_sync::NameB>", [("Branches3AfromB", "E")])]
    [("Branches3AfromB", [("B", "checking::two_peers_branchings_sync::MeshedChannels<mpstthree::binary::struct_trait::end::End, mpstthree::role::end::RoleEnd, checking::two_peers_branchings_sync::NameA>"), ("C", "checking::two_peers_branchings_sync::MeshedChannels<mpstthree::binary::struct_trait::end::End, mpstthree::role::end::RoleEnd, checking::two_peers_branchings_sync::NameA>"), ("D", "checking::two_peers_branchings_sync::MeshedChannels<mpstthree::binary::struct_trait::end::End, mpstthree::role::end::RoleEnd, checking::two_peers_branchings_sync::NameA>"), ("E", "checking::two_peers_branchings_sync::MeshedChannels<mpstthree::binary::struct_trait::end::End, mpstthree::role::end::RoleEnd, checking::two_peers_branchings_sync::NameA>")]),
    ("Branches0BfromA", [("A", "checking::two_peers_branchings_sync::MeshedChannels<mpstthree::binary::struct_trait::recv::Recv<checking::two_peers_branchings_sync::Branches2BfromA, mpstthree::binary::struct_trait::end::End>, checking::two_peers_branchings_sync::RoleA<mpstthree::role::end::RoleEnd>, checking::two_peers_branchings_sync::NameB>"), ("B", "checking::two_peers_branchings_sync::MeshedChannels<mpstthree::binary::struct_trait::recv::Recv<checking::two_peers_branchings_sync::Branches1BfromA, mpstthree::binary::struct_trait::end::End>, checking::two_peers_branchings_sync::RoleA<mpstthree::role::end::RoleEnd>, checking::two_peers_branchings_sync::NameB>")]),
    ("Branches1BfromA", [("C", "checking::two_peers_branchings_sync::MeshedChannels<mpstthree::binary::struct_trait::end::End, mpstthree::role::end::RoleEnd, checking::two_peers_branchings_sync::NameB>"), ("E", "checking::two_peers_branchings_sync::MeshedChannels<mpstthree::binary::struct_trait::send::Send<checking::two_peers_branchings_sync::Branches3AfromB, mpstthree::binary::struct_trait::end::End>, mpstthree::role::broadcast::RoleBroadcast, checking::two_peers_branchings_sync::NameB>")]),
    ("Branches2BfromA", [("F", "checking::two_peers_branchings_sync::MeshedChannels<mpstthree::binary::struct_trait::end::End, mpstthree::role::end::RoleEnd, checking::two_peers_branchings_sync::NameB>"), ("G", "checking::two_peers_branchings_sync::MeshedChannels<mpstthree::binary::struct_trait::end::End, mpstthree::role::end::RoleEnd, checking::two_peers_branchings_sync::NameB>")])]
    [("RoleA", ["digraph {",
      "    0 [ label = \"\\\"0\\\"\" ]",
      "    1 [ label = \"\\\"0.0.1\\\"\" ]",
      "    2 [ label = \"\\\"0.0.1\\\"\" ]",
      "    3 [ label = \"\\\"0.0.1\\\"\" ]",
      "    4 [ label = \"\\\"0.0.0.1\\\"\" ]",
      "    5 [ label = \"\\\"0.0.0.1\\\"\" ]",
      "    6 [ label = \"\\\"0.0.0.1\\\"\" ]",
      "    7 [ label = \"\\\"0.0.0.1\\\"\" ]",
      "    0 -> 1 [ label = \"\\\"0\\\"\" ]",
      "    0 -> 2 [ label = \"\\\"0\\\"\" ]",
      "    0 -> 3 [ label = \"\\\"0\\\"\" ]",
      "    0 -> 4 [ label = \"\\\"0\\\"\" ]",
      "    0 -> 5 [ label = \"\\\"0\\\"\" ]",
      "    0 -> 6 [ label = \"\\\"0\\\"\" ]",
      "    0 -> 7 [ label = \"\\\"0\\\"\" ]",
      "}",
      ""]),
    ("RoleB", ["digraph {",
      "    0 [ label = \"\\\"0\\\"\" ]",
      "    1 [ label = \"\\\"0.0.1\\\"\" ]",
      "    2 [ label = \"\\\"0.0.1\\\"\" ]",
      "    3 [ label = \"\\\"0.0.1\\\"\" ]",
      "    4 [ label = \"\\\"0.0.0.1\\\"\" ]",
      "    5 [ label = \"\\\"0.0.0.1\\\"\" ]",
      "    6 [ label = \"\\\"0.0.0.1\\\"\" ]",
      "    7 [ label = \"\\\"0.0.0.1\\\"\" ]",
      "    0 -> 1 [ label = \"\\\"0\\\"\" ]",
      "    0 -> 2 [ label = \"\\\"0\\\"\" ]",
      "    0 -> 3 [ label = \"\\\"0\\\"\" ]",
      "    0 -> 4 [ label = \"\\\"0\\\"\" ]",
      "    0 -> 5 [ label = \"\\\"0\\\"\" ]",
      "    0 -> 6 [ label = \"\\\"0\\\"\" ]",
      "    0 -> 7 [ label = \"\\\"0\\\"\" ]",
      "}",
      ""])]

end Verif.CheckTest
