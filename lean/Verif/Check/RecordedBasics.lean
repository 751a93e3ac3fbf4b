import Verif.Check.Checker
/-! Written by tools/recorded.py.  Tests, not proofs: the graphs which the tests of the repository expect of the checker. -/
namespace Verif.CheckTest

-- /repo/tests/basics_mod/simple_basics/a_choose.rs, file name given: ""
#guard sameGraphs ""
    ["mpstthree::meshedchannels::MeshedChannels<mpstthree::binary::struct_trait::send::Send<either::Either<mpstthree::meshedchannels::MeshedChannels<mpstthree::binary::struct_trait::end::End, mpstthree::binary::struct_trait::recv::Recv<i32, mpstthree::binary::struct_trait::end::End>, mpstthree::role::c::RoleC<mpstthree::role::end::RoleEnd>, mpstthree::name::b::NameB>, mpstthree::meshedchannels::MeshedChannels<mpstthree::binary::struct_trait::end::End, mpstthree::binary::struct_trait::recv::Recv<i32, mpstthree::binary::struct_trait::end::End>, mpstthree::role::c::RoleC<mpstthree::role::end::RoleEnd>, mpstthree::name::b::NameB>>, mpstthree::binary::struct_trait::end::End>, mpstthree::binary::struct_trait::send::Send<either::Either<mpstthree::meshedchannels::MeshedChannels<mpstthree::binary::struct_trait::recv::Recv<i32, mpstthree::binary::struct_trait::end::End>, mpstthree::binary::struct_trait::send::Send<i32, mpstthree::binary::struct_trait::end::End>, mpstthree::role::a::RoleA<mpstthree::role::b::RoleB<mpstthree::role::end::RoleEnd>>, mpstthree::name::c::NameC>, mpstthree::meshedchannels::MeshedChannels<mpstthree::binary::struct_trait::recv::Recv<i32, mpstthree::binary::struct_trait::end::End>, mpstthree::binary::struct_trait::send::Send<i32, mpstthree::binary::struct_trait::end::End>, mpstthree::role::a::RoleA<mpstthree::role::b::RoleB<mpstthree::role::end::RoleEnd>>, mpstthree::name::c::NameC>>, mpstthree::binary::struct_trait::end::End>, mpstthree::role::atoall::RoleAtoAll<mpstthree::role::c::RoleC<mpstthree::role::end::RoleEnd>, mpstthree::role::c::RoleC<mpstthree::role::end::RoleEnd>>, mpstthree::name::a::NameA>",
    "mpstthree::meshedchannels::MeshedChannels<mpstthree::binary::struct_trait::recv::Recv<either::Either<mpstthree::meshedchannels::MeshedChannels<mpstthree::binary::struct_trait::recv::Recv<i32, mpstthree::binary::struct_trait::end::End>, mpstthree::binary::struct_trait::send::Send<i32, mpstthree::binary::struct_trait::end::End>, mpstthree::role::a::RoleA<mpstthree::role::b::RoleB<mpstthree::role::end::RoleEnd>>, mpstthree::name::c::NameC>, mpstthree::meshedchannels::MeshedChannels<mpstthree::binary::struct_trait::recv::Recv<i32, mpstthree::binary::struct_trait::end::End>, mpstthree::binary::struct_trait::send::Send<i32, mpstthree::binary::struct_trait::end::End>, mpstthree::role::a::RoleA<mpstthree::role::b::RoleB<mpstthree::role::end::RoleEnd>>, mpstthree::name::c::NameC>>, mpstthree::binary::struct_trait::end::End>, mpstthree::binary::struct_trait::end::End, mpstthree::role::alltoa::RoleAlltoA<mpstthree::role::end::RoleEnd, mpstthree::role::end::RoleEnd>, mpstthree::name::c::NameC>",
    "mpstthree::meshedchannels::MeshedChannels<mpstthree::binary::struct_trait::recv::Recv<either::Either<mpstthree::meshedchannels::MeshedChannels<mpstthree::binary::struct_trait::end::End, mpstthree::binary::struct_trait::recv::Recv<i32, mpstthree::binary::struct_trait::end::End>, mpstthree::role::c::RoleC<mpstthree::role::end::RoleEnd>, mpstthree::name::b::NameB>, mpstthree::meshedchannels::MeshedChannels<mpstthree::binary::struct_trait::end::End, mpstthree::binary::struct_trait::recv::Recv<i32, mpstthree::binary::struct_trait::end::End>, mpstthree::role::c::RoleC<mpstthree::role::end::RoleEnd>, mpstthree::name::b::NameB>>, mpstthree::binary::struct_trait::end::End>, mpstthree::binary::struct_trait::end::End, mpstthree::role::alltoa::RoleAlltoA<mpstthree::role::end::RoleEnd, mpstthree::role::end::RoleEnd>, mpstthree::name::b::NameB>"]
    []
    []
    [("RoleA", ["digraph {",
      "    0 [ label = \"\\\"0\\\"\" ]",
      "    1 [ label = \"\\\"0.1\\\"\" ]",
      "    2 [ label = \"\\\"0.2\\\"\" ]",
      "    3 [ label = \"\\\"0.1\\\"\" ]",
      "    4 [ label = \"\\\"0.2\\\"\" ]",
      "    0 -> 1 [ label = \"\\\"RoleA!RoleC: i32\\\"\" ]",
      "    1 -> 2 [ label = \"\\\"0\\\"\" ]",
      "    0 -> 3 [ label = \"\\\"RoleA!RoleC: i32\\\"\" ]",
      "    3 -> 4 [ label = \"\\\"0\\\"\" ]",
      "}",
      ""]),
    ("RoleB", ["digraph {",
      "    0 [ label = \"\\\"0\\\"\" ]",
      "    1 [ label = \"\\\"0.1\\\"\" ]",
      "    2 [ label = \"\\\"0.2\\\"\" ]",
      "    3 [ label = \"\\\"0.1\\\"\" ]",
      "    4 [ label = \"\\\"0.2\\\"\" ]",
      "    0 -> 1 [ label = \"\\\"RoleB?RoleC: i32\\\"\" ]",
      "    1 -> 2 [ label = \"\\\"0\\\"\" ]",
      "    0 -> 3 [ label = \"\\\"RoleB?RoleC: i32\\\"\" ]",
      "    3 -> 4 [ label = \"\\\"0\\\"\" ]",
      "}",
      ""]),
    ("RoleC", ["digraph {",
      "    0 [ label = \"\\\"0\\\"\" ]",
      "    1 [ label = \"\\\"0.1\\\"\" ]",
      "    2 [ label = \"\\\"0.2\\\"\" ]",
      "    3 [ label = \"\\\"0.3\\\"\" ]",
      "    4 [ label = \"\\\"0.1\\\"\" ]",
      "    5 [ label = \"\\\"0.2\\\"\" ]",
      "    6 [ label = \"\\\"0.3\\\"\" ]",
      "    0 -> 1 [ label = \"\\\"RoleC?RoleA: i32\\\"\" ]",
      "    1 -> 2 [ label = \"\\\"RoleC!RoleB: i32\\\"\" ]",
      "    2 -> 3 [ label = \"\\\"0\\\"\" ]",
      "    0 -> 4 [ label = \"\\\"RoleC?RoleA: i32\\\"\" ]",
      "    4 -> 5 [ label = \"\\\"RoleC!RoleB: i32\\\"\" ]",
      "    5 -> 6 [ label = \"\\\"0\\\"\" ]",
      "}",
      ""])]

-- /repo/tests/basics_mod/simple_basics/a_usecase.rs, file name given: ""
#guard sameGraphs ""
    ["mpstthree::meshedchannels::MeshedChannels<mpstthree::binary::struct_trait::send::Send<i32, mpstthree::binary::struct_trait::recv::Recv<i32, mpstthree::binary::struct_trait::send::Send<either::Either<mpstthree::meshedchannels::MeshedChannels<mpstthree::binary::struct_trait::recv::Recv<i32, mpstthree::binary::struct_trait::send::Send<i32, mpstthree::binary::struct_trait::end::End>>, mpstthree::binary::struct_trait::send::Send<i32, mpstthree::binary::struct_trait::recv::Recv<i32, mpstthree::binary::struct_trait::end::End>>, mpstthree::role::a::RoleA<mpstthree::role::c::RoleC<mpstthree::role::c::RoleC<mpstthree::role::a::RoleA<mpstthree::role::end::RoleEnd>>>>, mpstthree::name::b::NameB>, mpstthree::meshedchannels::MeshedChannels<mpstthree::binary::struct_trait::end::End, mpstthree::binary::struct_trait::end::End, mpstthree::role::end::RoleEnd, mpstthree::name::b::NameB>>, mpstthree::binary::struct_trait::end::End>>>, mpstthree::binary::struct_trait::send::Send<either::Either<mpstthree::meshedchannels::MeshedChannels<mpstthree::binary::struct_trait::end::End, mpstthree::binary::struct_trait::recv::Recv<i32, mpstthree::binary::struct_trait::send::Send<i32, mpstthree::binary::struct_trait::end::End>>, mpstthree::role::b::RoleB<mpstthree::role::b::RoleB<mpstthree::role::end::RoleEnd>>, mpstthree::name::c::NameC>, mpstthree::meshedchannels::MeshedChannels<mpstthree::binary::struct_trait::end::End, mpstthree::binary::struct_trait::end::End, mpstthree::role::end::RoleEnd, mpstthree::name::c::NameC>>, mpstthree::binary::struct_trait::end::End>, mpstthree::role::b::RoleB<mpstthree::role::b::RoleB<mpstthree::role::atoall::RoleAtoAll<mpstthree::role::b::RoleB<mpstthree::role::b::RoleB<mpstthree::role::end::RoleEnd>>, mpstthree::role::end::RoleEnd>>>, mpstthree::name::a::NameA>",
    "mpstthree::meshedchannels::MeshedChannels<mpstthree::binary::struct_trait::recv::Recv<i32, mpstthree::binary::struct_trait::send::Send<i32, mpstthree::binary::struct_trait::recv::Recv<either::Either<mpstthree::meshedchannels::MeshedChannels<mpstthree::binary::struct_trait::recv::Recv<i32, mpstthree::binary::struct_trait::send::Send<i32, mpstthree::binary::struct_trait::end::End>>, mpstthree::binary::struct_trait::send::Send<i32, mpstthree::binary::struct_trait::recv::Recv<i32, mpstthree::binary::struct_trait::end::End>>, mpstthree::role::a::RoleA<mpstthree::role::c::RoleC<mpstthree::role::c::RoleC<mpstthree::role::a::RoleA<mpstthree::role::end::RoleEnd>>>>, mpstthree::name::b::NameB>, mpstthree::meshedchannels::MeshedChannels<mpstthree::binary::struct_trait::end::End, mpstthree::binary::struct_trait::end::End, mpstthree::role::end::RoleEnd, mpstthree::name::b::NameB>>, mpstthree::binary::struct_trait::end::End>>>, mpstthree::binary::struct_trait::end::End, mpstthree::role::a::RoleA<mpstthree::role::a::RoleA<mpstthree::role::alltoa::RoleAlltoA<mpstthree::role::end::RoleEnd, mpstthree::role::end::RoleEnd>>>, mpstthree::name::b::NameB>",
    "mpstthree::meshedchannels::MeshedChannels<mpstthree::binary::struct_trait::recv::Recv<either::Either<mpstthree::meshedchannels::MeshedChannels<mpstthree::binary::struct_trait::end::End, mpstthree::binary::struct_trait::recv::Recv<i32, mpstthree::binary::struct_trait::send::Send<i32, mpstthree::binary::struct_trait::end::End>>, mpstthree::role::b::RoleB<mpstthree::role::b::RoleB<mpstthree::role::end::RoleEnd>>, mpstthree::name::c::NameC>, mpstthree::meshedchannels::MeshedChannels<mpstthree::binary::struct_trait::end::End, mpstthree::binary::struct_trait::end::End, mpstthree::role::end::RoleEnd, mpstthree::name::c::NameC>>, mpstthree::binary::struct_trait::end::End>, mpstthree::binary::struct_trait::end::End, mpstthree::role::alltoa::RoleAlltoA<mpstthree::role::end::RoleEnd, mpstthree::role::end::RoleEnd>, mpstthree::name::c::NameC>"]
    []
    []
    [("RoleA", ["digraph {",
      "    0 [ label = \"\\\"0\\\"\" ]",
      "    1 [ label = \"\\\"1\\\"\" ]",
      "    2 [ label = \"\\\"2\\\"\" ]",
      "    3 [ label = \"\\\"2.1\\\"\" ]",
      "    4 [ label = \"\\\"2.2\\\"\" ]",
      "    5 [ label = \"\\\"2.3\\\"\" ]",
      "    6 [ label = \"\\\"2.1\\\"\" ]",
      "    0 -> 1 [ label = \"\\\"RoleA!RoleB: i32\\\"\" ]",
      "    1 -> 2 [ label = \"\\\"RoleA?RoleB: i32\\\"\" ]",
      "    2 -> 3 [ label = \"\\\"RoleA!RoleB: i32\\\"\" ]",
      "    3 -> 4 [ label = \"\\\"RoleA?RoleB: i32\\\"\" ]",
      "    4 -> 5 [ label = \"\\\"0\\\"\" ]",
      "    2 -> 6 [ label = \"\\\"0\\\"\" ]",
      "}",
      ""]),
    ("RoleB", ["digraph {",
      "    0 [ label = \"\\\"0\\\"\" ]",
      "    1 [ label = \"\\\"1\\\"\" ]",
      "    2 [ label = \"\\\"2\\\"\" ]",
      "    3 [ label = \"\\\"2.1\\\"\" ]",
      "    4 [ label = \"\\\"2.2\\\"\" ]",
      "    5 [ label = \"\\\"2.3\\\"\" ]",
      "    6 [ label = \"\\\"2.4\\\"\" ]",
      "    7 [ label = \"\\\"2.5\\\"\" ]",
      "    8 [ label = \"\\\"2.1\\\"\" ]",
      "    0 -> 1 [ label = \"\\\"RoleB?RoleA: i32\\\"\" ]",
      "    1 -> 2 [ label = \"\\\"RoleB!RoleA: i32\\\"\" ]",
      "    2 -> 3 [ label = \"\\\"RoleB?RoleA: i32\\\"\" ]",
      "    3 -> 4 [ label = \"\\\"RoleB!RoleC: i32\\\"\" ]",
      "    4 -> 5 [ label = \"\\\"RoleB?RoleC: i32\\\"\" ]",
      "    5 -> 6 [ label = \"\\\"RoleB!RoleA: i32\\\"\" ]",
      "    6 -> 7 [ label = \"\\\"0\\\"\" ]",
      "    2 -> 8 [ label = \"\\\"0\\\"\" ]",
      "}",
      ""]),
    ("RoleC", ["digraph {",
      "    0 [ label = \"\\\"0\\\"\" ]",
      "    1 [ label = \"\\\"0.1\\\"\" ]",
      "    2 [ label = \"\\\"0.2\\\"\" ]",
      "    3 [ label = \"\\\"0.3\\\"\" ]",
      "    4 [ label = \"\\\"0.1\\\"\" ]",
      "    0 -> 1 [ label = \"\\\"RoleC?RoleB: i32\\\"\" ]",
      "    1 -> 2 [ label = \"\\\"RoleC!RoleB: i32\\\"\" ]",
      "    2 -> 3 [ label = \"\\\"0\\\"\" ]",
      "    0 -> 4 [ label = \"\\\"0\\\"\" ]",
      "}",
      ""])]

-- /repo/tests/basics_mod/simple_basics/a_usecase_recursive.rs, file name given: ""
#guard sameGraphs ""
    ["mpstthree::meshedchannels::MeshedChannels<mpstthree::binary::struct_trait::send::Send<i32, mpstthree::binary::struct_trait::recv::Recv<i32, mpstthree::binary::struct_trait::send::Send<checking::a_usecase_recursive::Branches0BtoA, mpstthree::binary::struct_trait::end::End>>>, mpstthree::binary::struct_trait::send::Send<checking::a_usecase_recursive::Branches0CtoA, mpstthree::binary::struct_trait::end::End>, mpstthree::role::b::RoleB<mpstthree::role::b::RoleB<mpstthree::role::broadcast::RoleBroadcast>>, mpstthree::name::a::NameA>",
    "mpstthree::meshedchannels::MeshedChannels<mpstthree::binary::struct_trait::recv::Recv<checking::a_usecase_recursive::Branches0CtoA, mpstthree::binary::struct_trait::end::End>, mpstthree::binary::struct_trait::end::End, mpstthree::role::a::RoleA<mpstthree::role::end::RoleEnd>, mpstthree::name::c::NameC>",
    "mpstthree::meshedchannels::MeshedChannels<mpstthree::binary::struct_trait::recv::Recv<i32, mpstthree::binary::struct_trait::send::Send<i32, mpstthree::binary::struct_trait::recv::Recv<checking::a_usecase_recursive::Branches0BtoA, mpstthree::binary::struct_trait::end::End>>>, mpstthree::binary::struct_trait::end::End, mpstthree::role::a::RoleA<mpstthree::role::a::RoleA<mpstthree::role::a::RoleA<mpstthree::role::end::RoleEnd>>>, mpstthree::name::b::NameB>"]
    [("mpstthree::meshedchannels::MeshedChannels<mpstthree::binary::struct_trait::send::Send<i32, mpstthree::binary::struct_trait::recv::Recv<i32, mpstthree::binary::struct_trait::send::Send<checking::a_usecase_recursive::Branches0BtoA, mpstthree::binary::struct_trait::end::End>>>, mpstthree::binary::struct_trait::send::Send<checking::a_usecase_recursive::Branches0CtoA, mpstthree::binary::struct_trait::end::End>, mpstthree::role::b::RoleB<mpstthree::role::b::RoleB<mpstthree::role::broadcast::RoleBroadcast>>, mpstthree::name::a::NameA>", [("Branches0BtoA", "Video"), ("Branches0CtoA", "Video")]),
    ("mpstthree::meshedchannels::MeshedChannels<mpstthree::binary::struct_trait::end::End, mpstthree::binary::struct_trait::end::End, mpstthree::role::end::RoleEnd, mpstthree::name::a::NameA>", [("Branches0BtoA", "End"), ("Branches0CtoA", "End")])]
    [("Branches0BtoA", [("End", "mpstthree::meshedchannels::MeshedChannels<mpstthree::binary::struct_trait::end::End, mpstthree::binary::struct_trait::end::End, mpstthree::role::end::RoleEnd, mpstthree::name::b::NameB>"), ("Video", "mpstthree::meshedchannels::MeshedChannels<mpstthree::binary::struct_trait::recv::Recv<i32, mpstthree::binary::struct_trait::send::Send<i32, mpstthree::binary::struct_trait::recv::Recv<checking::a_usecase_recursive::Branches0BtoA, mpstthree::binary::struct_trait::end::End>>>, mpstthree::binary::struct_trait::send::Send<i32, mpstthree::binary::struct_trait::recv::Recv<i32, mpstthree::binary::struct_trait::end::End>>, mpstthree::role::a::RoleA<mpstthree::role::c::RoleC<mpstthree::role::c::RoleC<mpstthree::role::a::RoleA<mpstthree::role::a::RoleA<mpstthree::role::end::RoleEnd>>>>>, mpstthree::name::b::NameB>")]),
    ("Branches0CtoA", [("End", "mpstthree::meshedchannels::MeshedChannels<mpstthree::binary::struct_trait::end::End, mpstthree::binary::struct_trait::end::End, mpstthree::role::end::RoleEnd, mpstthree::name::c::NameC>"), ("Video", "mpstthree::meshedchannels::MeshedChannels<mpstthree::binary::struct_trait::recv::Recv<checking::a_usecase_recursive::Branches0CtoA, mpstthree::binary::struct_trait::end::End>, mpstthree::binary::struct_trait::recv::Recv<i32, mpstthree::binary::struct_trait::send::Send<i32, mpstthree::binary::struct_trait::end::End>>, mpstthree::role::b::RoleB<mpstthree::role::b::RoleB<mpstthree::role::a::RoleA<mpstthree::role::end::RoleEnd>>>, mpstthree::name::c::NameC>")])]
    [("RoleA", ["digraph {",
      "    0 [ label = \"\\\"0\\\"\" ]",
      "    1 [ label = \"\\\"1\\\"\" ]",
      "    2 [ label = \"\\\"2\\\"\" ]",
      "    3 [ label = \"\\\"2.1\\\"\" ]",
      "    4 [ label = \"\\\"2.1\\\"\" ]",
      "    5 [ label = \"\\\"2.2\\\"\" ]",
      "    0 -> 1 [ label = \"\\\"RoleA!RoleB: i32\\\"\" ]",
      "    1 -> 2 [ label = \"\\\"RoleA?RoleB: i32\\\"\" ]",
      "    2 -> 3 [ label = \"\\\"0\\\"\" ]",
      "    2 -> 4 [ label = \"\\\"RoleA!RoleB: i32\\\"\" ]",
      "    4 -> 5 [ label = \"\\\"RoleA?RoleB: i32\\\"\" ]",
      "    5 -> 2 [ label = \"\\\"µ\\\"\" ]",
      "}",
      ""]),
    ("RoleB", ["digraph {",
      "    0 [ label = \"\\\"0\\\"\" ]",
      "    1 [ label = \"\\\"1\\\"\" ]",
      "    2 [ label = \"\\\"2\\\"\" ]",
      "    3 [ label = \"\\\"2.1\\\"\" ]",
      "    4 [ label = \"\\\"2.1\\\"\" ]",
      "    5 [ label = \"\\\"2.2\\\"\" ]",
      "    6 [ label = \"\\\"2.3\\\"\" ]",
      "    7 [ label = \"\\\"2.4\\\"\" ]",
      "    0 -> 1 [ label = \"\\\"RoleB?RoleA: i32\\\"\" ]",
      "    1 -> 2 [ label = \"\\\"RoleB!RoleA: i32\\\"\" ]",
      "    2 -> 3 [ label = \"\\\"0\\\"\" ]",
      "    2 -> 4 [ label = \"\\\"RoleB?RoleA: i32\\\"\" ]",
      "    4 -> 5 [ label = \"\\\"RoleB!RoleC: i32\\\"\" ]",
      "    5 -> 6 [ label = \"\\\"RoleB?RoleC: i32\\\"\" ]",
      "    6 -> 7 [ label = \"\\\"RoleB!RoleA: i32\\\"\" ]",
      "    7 -> 2 [ label = \"\\\"µ\\\"\" ]",
      "}",
      ""]),
    ("RoleC", ["digraph {",
      "    0 [ label = \"\\\"0\\\"\" ]",
      "    1 [ label = \"\\\"0.1\\\"\" ]",
      "    2 [ label = \"\\\"0.1\\\"\" ]",
      "    3 [ label = \"\\\"0.2\\\"\" ]",
      "    0 -> 1 [ label = \"\\\"0\\\"\" ]",
      "    0 -> 2 [ label = \"\\\"RoleC?RoleB: i32\\\"\" ]",
      "    2 -> 3 [ label = \"\\\"RoleC!RoleB: i32\\\"\" ]",
      "    3 -> 0 [ label = \"\\\"µ\\\"\" ]",
      "}",
      ""])]

-- /repo/tests/basics_mod/simple_basics/b_choose.rs, file name given: ""
#guard sameGraphs ""
    ["mpstthree::meshedchannels::MeshedChannels<mpstthree::binary::struct_trait::send::Send<either::Either<mpstthree::meshedchannels::MeshedChannels<mpstthree::binary::struct_trait::recv::Recv<i32, mpstthree::binary::struct_trait::end::End>, mpstthree::binary::struct_trait::send::Send<i32, mpstthree::binary::struct_trait::end::End>, mpstthree::role::b::RoleB<mpstthree::role::c::RoleC<mpstthree::role::end::RoleEnd>>, mpstthree::name::a::NameA>, mpstthree::meshedchannels::MeshedChannels<mpstthree::binary::struct_trait::recv::Recv<i32, mpstthree::binary::struct_trait::end::End>, mpstthree::binary::struct_trait::send::Send<i32, mpstthree::binary::struct_trait::end::End>, mpstthree::role::b::RoleB<mpstthree::role::c::RoleC<mpstthree::role::end::RoleEnd>>, mpstthree::name::a::NameA>>, mpstthree::binary::struct_trait::end::End>, mpstthree::binary::struct_trait::send::Send<either::Either<mpstthree::meshedchannels::MeshedChannels<mpstthree::binary::struct_trait::recv::Recv<i32, mpstthree::binary::struct_trait::end::End>, mpstthree::binary::struct_trait::end::End, mpstthree::role::a::RoleA<mpstthree::role::end::RoleEnd>, mpstthree::name::c::NameC>, mpstthree::meshedchannels::MeshedChannels<mpstthree::binary::struct_trait::recv::Recv<i32, mpstthree::binary::struct_trait::end::End>, mpstthree::binary::struct_trait::end::End, mpstthree::role::a::RoleA<mpstthree::role::end::RoleEnd>, mpstthree::name::c::NameC>>, mpstthree::binary::struct_trait::end::End>, mpstthree::role::btoall::RoleBtoAll<mpstthree::role::a::RoleA<mpstthree::role::end::RoleEnd>, mpstthree::role::a::RoleA<mpstthree::role::end::RoleEnd>>, mpstthree::name::b::NameB>",
    "mpstthree::meshedchannels::MeshedChannels<mpstthree::binary::struct_trait::end::End, mpstthree::binary::struct_trait::recv::Recv<either::Either<mpstthree::meshedchannels::MeshedChannels<mpstthree::binary::struct_trait::recv::Recv<i32, mpstthree::binary::struct_trait::end::End>, mpstthree::binary::struct_trait::end::End, mpstthree::role::a::RoleA<mpstthree::role::end::RoleEnd>, mpstthree::name::c::NameC>, mpstthree::meshedchannels::MeshedChannels<mpstthree::binary::struct_trait::recv::Recv<i32, mpstthree::binary::struct_trait::end::End>, mpstthree::binary::struct_trait::end::End, mpstthree::role::a::RoleA<mpstthree::role::end::RoleEnd>, mpstthree::name::c::NameC>>, mpstthree::binary::struct_trait::end::End>, mpstthree::role::alltob::RoleAlltoB<mpstthree::role::end::RoleEnd, mpstthree::role::end::RoleEnd>, mpstthree::name::c::NameC>",
    "mpstthree::meshedchannels::MeshedChannels<mpstthree::binary::struct_trait::recv::Recv<either::Either<mpstthree::meshedchannels::MeshedChannels<mpstthree::binary::struct_trait::recv::Recv<i32, mpstthree::binary::struct_trait::end::End>, mpstthree::binary::struct_trait::send::Send<i32, mpstthree::binary::struct_trait::end::End>, mpstthree::role::b::RoleB<mpstthree::role::c::RoleC<mpstthree::role::end::RoleEnd>>, mpstthree::name::a::NameA>, mpstthree::meshedchannels::MeshedChannels<mpstthree::binary::struct_trait::recv::Recv<i32, mpstthree::binary::struct_trait::end::End>, mpstthree::binary::struct_trait::send::Send<i32, mpstthree::binary::struct_trait::end::End>, mpstthree::role::b::RoleB<mpstthree::role::c::RoleC<mpstthree::role::end::RoleEnd>>, mpstthree::name::a::NameA>>, mpstthree::binary::struct_trait::end::End>, mpstthree::binary::struct_trait::end::End, mpstthree::role::alltob::RoleAlltoB<mpstthree::role::end::RoleEnd, mpstthree::role::end::RoleEnd>, mpstthree::name::a::NameA>"]
    []
    []
    [("RoleA", ["digraph {",
      "    0 [ label = \"\\\"0\\\"\" ]",
      "    1 [ label = \"\\\"0.1\\\"\" ]",
      "    2 [ label = \"\\\"0.2\\\"\" ]",
      "    3 [ label = \"\\\"0.3\\\"\" ]",
      "    4 [ label = \"\\\"0.1\\\"\" ]",
      "    5 [ label = \"\\\"0.2\\\"\" ]",
      "    6 [ label = \"\\\"0.3\\\"\" ]",
      "    0 -> 1 [ label = \"\\\"RoleA?RoleB: i32\\\"\" ]",
      "    1 -> 2 [ label = \"\\\"RoleA!RoleC: i32\\\"\" ]",
      "    2 -> 3 [ label = \"\\\"0\\\"\" ]",
      "    0 -> 4 [ label = \"\\\"RoleA?RoleB: i32\\\"\" ]",
      "    4 -> 5 [ label = \"\\\"RoleA!RoleC: i32\\\"\" ]",
      "    5 -> 6 [ label = \"\\\"0\\\"\" ]",
      "}",
      ""]),
    ("RoleB", ["digraph {",
      "    0 [ label = \"\\\"0\\\"\" ]",
      "    1 [ label = \"\\\"0.1\\\"\" ]",
      "    2 [ label = \"\\\"0.2\\\"\" ]",
      "    3 [ label = \"\\\"0.1\\\"\" ]",
      "    4 [ label = \"\\\"0.2\\\"\" ]",
      "    0 -> 1 [ label = \"\\\"RoleB!RoleA: i32\\\"\" ]",
      "    1 -> 2 [ label = \"\\\"0\\\"\" ]",
      "    0 -> 3 [ label = \"\\\"RoleB!RoleA: i32\\\"\" ]",
      "    3 -> 4 [ label = \"\\\"0\\\"\" ]",
      "}",
      ""]),
    ("RoleC", ["digraph {",
      "    0 [ label = \"\\\"0\\\"\" ]",
      "    1 [ label = \"\\\"0.1\\\"\" ]",
      "    2 [ label = \"\\\"0.2\\\"\" ]",
      "    3 [ label = \"\\\"0.1\\\"\" ]",
      "    4 [ label = \"\\\"0.2\\\"\" ]",
      "    0 -> 1 [ label = \"\\\"RoleC?RoleA: i32\\\"\" ]",
      "    1 -> 2 [ label = \"\\\"0\\\"\" ]",
      "    0 -> 3 [ label = \"\\\"RoleC?RoleA: i32\\\"\" ]",
      "    3 -> 4 [ label = \"\\\"0\\\"\" ]",
      "}",
      ""])]

-- /repo/tests/basics_mod/simple_basics/b_usecase.rs, file name given: ""
#guard sameGraphs ""
    ["mpstthree::meshedchannels::MeshedChannels<mpstthree::binary::struct_trait::recv::Recv<either::Either<mpstthree::meshedchannels::MeshedChannels<mpstthree::binary::struct_trait::end::End, mpstthree::binary::struct_trait::recv::Recv<i32, mpstthree::binary::struct_trait::send::Send<i32, mpstthree::binary::struct_trait::end::End>>, mpstthree::role::c::RoleC<mpstthree::role::c::RoleC<mpstthree::role::end::RoleEnd>>, mpstthree::name::a::NameA>, mpstthree::meshedchannels::MeshedChannels<mpstthree::binary::struct_trait::end::End, mpstthree::binary::struct_trait::end::End, mpstthree::role::end::RoleEnd, mpstthree::name::a::NameA>>, mpstthree::binary::struct_trait::end::End>, mpstthree::binary::struct_trait::end::End, mpstthree::role::alltob::RoleAlltoB<mpstthree::role::end::RoleEnd, mpstthree::role::end::RoleEnd>, mpstthree::name::a::NameA>",
    "mpstthree::meshedchannels::MeshedChannels<mpstthree::binary::struct_trait::send::Send<either::Either<mpstthree::meshedchannels::MeshedChannels<mpstthree::binary::struct_trait::end::End, mpstthree::binary::struct_trait::recv::Recv<i32, mpstthree::binary::struct_trait::send::Send<i32, mpstthree::binary::struct_trait::end::End>>, mpstthree::role::c::RoleC<mpstthree::role::c::RoleC<mpstthree::role::end::RoleEnd>>, mpstthree::name::a::NameA>, mpstthree::meshedchannels::MeshedChannels<mpstthree::binary::struct_trait::end::End, mpstthree::binary::struct_trait::end::End, mpstthree::role::end::RoleEnd, mpstthree::name::a::NameA>>, mpstthree::binary::struct_trait::end::End>, mpstthree::binary::struct_trait::send::Send<i32, mpstthree::binary::struct_trait::recv::Recv<i32, mpstthree::binary::struct_trait::send::Send<either::Either<mpstthree::meshedchannels::MeshedChannels<mpstthree::binary::struct_trait::send::Send<i32, mpstthree::binary::struct_trait::recv::Recv<i32, mpstthree::binary::struct_trait::end::End>>, mpstthree::binary::struct_trait::recv::Recv<i32, mpstthree::binary::struct_trait::send::Send<i32, mpstthree::binary::struct_trait::end::End>>, mpstthree::role::b::RoleB<mpstthree::role::a::RoleA<mpstthree::role::a::RoleA<mpstthree::role::b::RoleB<mpstthree::role::end::RoleEnd>>>>, mpstthree::name::c::NameC>, mpstthree::meshedchannels::MeshedChannels<mpstthree::binary::struct_trait::end::End, mpstthree::binary::struct_trait::end::End, mpstthree::role::end::RoleEnd, mpstthree::name::c::NameC>>, mpstthree::binary::struct_trait::end::End>>>, mpstthree::role::c::RoleC<mpstthree::role::c::RoleC<mpstthree::role::btoall::RoleBtoAll<mpstthree::role::c::RoleC<mpstthree::role::c::RoleC<mpstthree::role::end::RoleEnd>>, mpstthree::role::end::RoleEnd>>>, mpstthree::name::b::NameB>",
    "mpstthree::meshedchannels::MeshedChannels<mpstthree::binary::struct_trait::end::End, mpstthree::binary::struct_trait::recv::Recv<i32, mpstthree::binary::struct_trait::send::Send<i32, mpstthree::binary::struct_trait::recv::Recv<either::Either<mpstthree::meshedchannels::MeshedChannels<mpstthree::binary::struct_trait::send::Send<i32, mpstthree::binary::struct_trait::recv::Recv<i32, mpstthree::binary::struct_trait::end::End>>, mpstthree::binary::struct_trait::recv::Recv<i32, mpstthree::binary::struct_trait::send::Send<i32, mpstthree::binary::struct_trait::end::End>>, mpstthree::role::b::RoleB<mpstthree::role::a::RoleA<mpstthree::role::a::RoleA<mpstthree::role::b::RoleB<mpstthree::role::end::RoleEnd>>>>, mpstthree::name::c::NameC>, mpstthree::meshedchannels::MeshedChannels<mpstthree::binary::struct_trait::end::End, mpstthree::binary::struct_trait::end::End, mpstthree::role::end::RoleEnd, mpstthree::name::c::NameC>>, mpstthree::binary::struct_trait::end::End>>>, mpstthree::role::b::RoleB<mpstthree::role::b::RoleB<mpstthree::role::alltob::RoleAlltoB<mpstthree::role::end::RoleEnd, mpstthree::role::end::RoleEnd>>>, mpstthree::name::c::NameC>"]
    []
    []
    [("RoleA", ["digraph {",
      "    0 [ label = \"\\\"0\\\"\" ]",
      "    1 [ label = \"\\\"0.1\\\"\" ]",
      "    2 [ label = \"\\\"0.2\\\"\" ]",
      "    3 [ label = \"\\\"0.3\\\"\" ]",
      "    4 [ label = \"\\\"0.1\\\"\" ]",
      "    0 -> 1 [ label = \"\\\"RoleA?RoleC: i32\\\"\" ]",
      "    1 -> 2 [ label = \"\\\"RoleA!RoleC: i32\\\"\" ]",
      "    2 -> 3 [ label = \"\\\"0\\\"\" ]",
      "    0 -> 4 [ label = \"\\\"0\\\"\" ]",
      "}",
      ""]),
    ("RoleB", ["digraph {",
      "    0 [ label = \"\\\"0\\\"\" ]",
      "    1 [ label = \"\\\"1\\\"\" ]",
      "    2 [ label = \"\\\"2\\\"\" ]",
      "    3 [ label = \"\\\"2.1\\\"\" ]",
      "    4 [ label = \"\\\"2.2\\\"\" ]",
      "    5 [ label = \"\\\"2.3\\\"\" ]",
      "    6 [ label = \"\\\"2.1\\\"\" ]",
      "    0 -> 1 [ label = \"\\\"RoleB!RoleC: i32\\\"\" ]",
      "    1 -> 2 [ label = \"\\\"RoleB?RoleC: i32\\\"\" ]",
      "    2 -> 3 [ label = \"\\\"RoleB!RoleC: i32\\\"\" ]",
      "    3 -> 4 [ label = \"\\\"RoleB?RoleC: i32\\\"\" ]",
      "    4 -> 5 [ label = \"\\\"0\\\"\" ]",
      "    2 -> 6 [ label = \"\\\"0\\\"\" ]",
      "}",
      ""]),
    ("RoleC", ["digraph {",
      "    0 [ label = \"\\\"0\\\"\" ]",
      "    1 [ label = \"\\\"1\\\"\" ]",
      "    2 [ label = \"\\\"2\\\"\" ]",
      "    3 [ label = \"\\\"2.1\\\"\" ]",
      "    4 [ label = \"\\\"2.2\\\"\" ]",
      "    5 [ label = \"\\\"2.3\\\"\" ]",
      "    6 [ label = \"\\\"2.4\\\"\" ]",
      "    7 [ label = \"\\\"2.5\\\"\" ]",
      "    8 [ label = \"\\\"2.1\\\"\" ]",
      "    0 -> 1 [ label = \"\\\"RoleC?RoleB: i32\\\"\" ]",
      "    1 -> 2 [ label = \"\\\"RoleC!RoleB: i32\\\"\" ]",
      "    2 -> 3 [ label = \"\\\"RoleC?RoleB: i32\\\"\" ]",
      "    3 -> 4 [ label = \"\\\"RoleC!RoleA: i32\\\"\" ]",
      "    4 -> 5 [ label = \"\\\"RoleC?RoleA: i32\\\"\" ]",
      "    5 -> 6 [ label = \"\\\"RoleC!RoleB: i32\\\"\" ]",
      "    6 -> 7 [ label = \"\\\"0\\\"\" ]",
      "    2 -> 8 [ label = \"\\\"0\\\"\" ]",
      "}",
      ""])]

-- /repo/tests/basics_mod/simple_basics/b_usecase_recursive.rs, file name given: ""
#guard sameGraphs ""
    ["mpstthree::meshedchannels::MeshedChannels<mpstthree::binary::struct_trait::recv::Recv<checking::b_usecase_recursive::Branches0AtoB, mpstthree::binary::struct_trait::end::End>, mpstthree::binary::struct_trait::end::End, mpstthree::role::b::RoleB<mpstthree::role::end::RoleEnd>, mpstthree::name::a::NameA>",
    "mpstthree::meshedchannels::MeshedChannels<mpstthree::binary::struct_trait::end::End, mpstthree::binary::struct_trait::recv::Recv<i32, mpstthree::binary::struct_trait::send::Send<i32, mpstthree::binary::struct_trait::recv::Recv<checking::b_usecase_recursive::Branches0CtoB, mpstthree::binary::struct_trait::end::End>>>, mpstthree::role::b::RoleB<mpstthree::role::b::RoleB<mpstthree::role::b::RoleB<mpstthree::role::end::RoleEnd>>>, mpstthree::name::c::NameC>",
    "mpstthree::meshedchannels::MeshedChannels<mpstthree::binary::struct_trait::send::Send<checking::b_usecase_recursive::Branches0AtoB, mpstthree::binary::struct_trait::end::End>, mpstthree::binary::struct_trait::send::Send<i32, mpstthree::binary::struct_trait::recv::Recv<i32, mpstthree::binary::struct_trait::send::Send<checking::b_usecase_recursive::Branches0CtoB, mpstthree::binary::struct_trait::end::End>>>, mpstthree::role::c::RoleC<mpstthree::role::c::RoleC<mpstthree::role::broadcast::RoleBroadcast>>, mpstthree::name::b::NameB>"]
    [("mpstthree::meshedchannels::MeshedChannels<mpstthree::binary::struct_trait::send::Send<checking::b_usecase_recursive::Branches0AtoB, mpstthree::binary::struct_trait::end::End>, mpstthree::binary::struct_trait::send::Send<i32, mpstthree::binary::struct_trait::recv::Recv<i32, mpstthree::binary::struct_trait::send::Send<checking::b_usecase_recursive::Branches0CtoB, mpstthree::binary::struct_trait::end::End>>>, mpstthree::role::c::RoleC<mpstthree::role::c::RoleC<mpstthree::role::broadcast::RoleBroadcast>>, mpstthree::name::b::NameB>", [("Branches0CtoB", "Video"), ("Branches0AtoB", "Video")]),
    ("mpstthree::meshedchannels::MeshedChannels<mpstthree::binary::struct_trait::end::End, mpstthree::binary::struct_trait::end::End, mpstthree::role::end::RoleEnd, mpstthree::name::b::NameB>", [("Branches0CtoB", "End"), ("Branches0AtoB", "End")])]
    [("Branches0CtoB", [("End", "mpstthree::meshedchannels::MeshedChannels<mpstthree::binary::struct_trait::end::End, mpstthree::binary::struct_trait::end::End, mpstthree::role::end::RoleEnd, mpstthree::name::c::NameC>"), ("Video", "mpstthree::meshedchannels::MeshedChannels<mpstthree::binary::struct_trait::send::Send<i32, mpstthree::binary::struct_trait::recv::Recv<i32, mpstthree::binary::struct_trait::end::End>>, mpstthree::binary::struct_trait::recv::Recv<i32, mpstthree::binary::struct_trait::send::Send<i32, mpstthree::binary::struct_trait::recv::Recv<checking::b_usecase_recursive::Branches0CtoB, mpstthree::binary::struct_trait::end::End>>>, mpstthree::role::b::RoleB<mpstthree::role::a::RoleA<mpstthree::role::a::RoleA<mpstthree::role::b::RoleB<mpstthree::role::b::RoleB<mpstthree::role::end::RoleEnd>>>>>, mpstthree::name::c::NameC>")]),
    ("Branches0AtoB", [("End", "mpstthree::meshedchannels::MeshedChannels<mpstthree::binary::struct_trait::end::End, mpstthree::binary::struct_trait::end::End, mpstthree::role::end::RoleEnd, mpstthree::name::a::NameA>"), ("Video", "mpstthree::meshedchannels::MeshedChannels<mpstthree::binary::struct_trait::recv::Recv<checking::b_usecase_recursive::Branches0AtoB, mpstthree::binary::struct_trait::end::End>, mpstthree::binary::struct_trait::recv::Recv<i32, mpstthree::binary::struct_trait::send::Send<i32, mpstthree::binary::struct_trait::end::End>>, mpstthree::role::c::RoleC<mpstthree::role::c::RoleC<mpstthree::role::b::RoleB<mpstthree::role::end::RoleEnd>>>, mpstthree::name::a::NameA>")])]
    [("RoleA", ["digraph {",
      "    0 [ label = \"\\\"0\\\"\" ]",
      "    1 [ label = \"\\\"0.1\\\"\" ]",
      "    2 [ label = \"\\\"0.1\\\"\" ]",
      "    3 [ label = \"\\\"0.2\\\"\" ]",
      "    0 -> 1 [ label = \"\\\"0\\\"\" ]",
      "    0 -> 2 [ label = \"\\\"RoleA?RoleC: i32\\\"\" ]",
      "    2 -> 3 [ label = \"\\\"RoleA!RoleC: i32\\\"\" ]",
      "    3 -> 0 [ label = \"\\\"µ\\\"\" ]",
      "}",
      ""]),
    ("RoleB", ["digraph {",
      "    0 [ label = \"\\\"0\\\"\" ]",
      "    1 [ label = \"\\\"1\\\"\" ]",
      "    2 [ label = \"\\\"2\\\"\" ]",
      "    3 [ label = \"\\\"2.1\\\"\" ]",
      "    4 [ label = \"\\\"2.1\\\"\" ]",
      "    5 [ label = \"\\\"2.2\\\"\" ]",
      "    0 -> 1 [ label = \"\\\"RoleB!RoleC: i32\\\"\" ]",
      "    1 -> 2 [ label = \"\\\"RoleB?RoleC: i32\\\"\" ]",
      "    2 -> 3 [ label = \"\\\"0\\\"\" ]",
      "    2 -> 4 [ label = \"\\\"RoleB!RoleC: i32\\\"\" ]",
      "    4 -> 5 [ label = \"\\\"RoleB?RoleC: i32\\\"\" ]",
      "    5 -> 2 [ label = \"\\\"µ\\\"\" ]",
      "}",
      ""]),
    ("RoleC", ["digraph {",
      "    0 [ label = \"\\\"0\\\"\" ]",
      "    1 [ label = \"\\\"1\\\"\" ]",
      "    2 [ label = \"\\\"2\\\"\" ]",
      "    3 [ label = \"\\\"2.1\\\"\" ]",
      "    4 [ label = \"\\\"2.1\\\"\" ]",
      "    5 [ label = \"\\\"2.2\\\"\" ]",
      "    6 [ label = \"\\\"2.3\\\"\" ]",
      "    7 [ label = \"\\\"2.4\\\"\" ]",
      "    0 -> 1 [ label = \"\\\"RoleC?RoleB: i32\\\"\" ]",
      "    1 -> 2 [ label = \"\\\"RoleC!RoleB: i32\\\"\" ]",
      "    2 -> 3 [ label = \"\\\"0\\\"\" ]",
      "    2 -> 4 [ label = \"\\\"RoleC?RoleB: i32\\\"\" ]",
      "    4 -> 5 [ label = \"\\\"RoleC!RoleA: i32\\\"\" ]",
      "    5 -> 6 [ label = \"\\\"RoleC?RoleA: i32\\\"\" ]",
      "    6 -> 7 [ label = \"\\\"RoleC!RoleB: i32\\\"\" ]",
      "    7 -> 2 [ label = \"\\\"µ\\\"\" ]",
      "}",
      ""])]

-- /repo/tests/basics_mod/simple_basics/c_choose.rs, file name given: ""
#guard sameGraphs ""
    ["mpstthree::meshedchannels::MeshedChannels<mpstthree::binary::struct_trait::end::End, mpstthree::binary::struct_trait::recv::Recv<either::Either<mpstthree::meshedchannels::MeshedChannels<mpstthree::binary::struct_trait::recv::Recv<i32, mpstthree::binary::struct_trait::end::End>, mpstthree::binary::struct_trait::end::End, mpstthree::role::b::RoleB<mpstthree::role::end::RoleEnd>, mpstthree::name::a::NameA>, mpstthree::meshedchannels::MeshedChannels<mpstthree::binary::struct_trait::recv::Recv<i32, mpstthree::binary::struct_trait::end::End>, mpstthree::binary::struct_trait::end::End, mpstthree::role::b::RoleB<mpstthree::role::end::RoleEnd>, mpstthree::name::a::NameA>>, mpstthree::binary::struct_trait::end::End>, mpstthree::role::alltoc::RoleAlltoC<mpstthree::role::end::RoleEnd, mpstthree::role::end::RoleEnd>, mpstthree::name::a::NameA>",
    "mpstthree::meshedchannels::MeshedChannels<mpstthree::binary::struct_trait::send::Send<either::Either<mpstthree::meshedchannels::MeshedChannels<mpstthree::binary::struct_trait::recv::Recv<i32, mpstthree::binary::struct_trait::end::End>, mpstthree::binary::struct_trait::end::End, mpstthree::role::b::RoleB<mpstthree::role::end::RoleEnd>, mpstthree::name::a::NameA>, mpstthree::meshedchannels::MeshedChannels<mpstthree::binary::struct_trait::recv::Recv<i32, mpstthree::binary::struct_trait::end::End>, mpstthree::binary::struct_trait::end::End, mpstthree::role::b::RoleB<mpstthree::role::end::RoleEnd>, mpstthree::name::a::NameA>>, mpstthree::binary::struct_trait::end::End>, mpstthree::binary::struct_trait::send::Send<either::Either<mpstthree::meshedchannels::MeshedChannels<mpstthree::binary::struct_trait::send::Send<i32, mpstthree::binary::struct_trait::end::End>, mpstthree::binary::struct_trait::recv::Recv<i32, mpstthree::binary::struct_trait::end::End>, mpstthree::role::c::RoleC<mpstthree::role::a::RoleA<mpstthree::role::end::RoleEnd>>, mpstthree::name::b::NameB>, mpstthree::meshedchannels::MeshedChannels<mpstthree::binary::struct_trait::send::Send<i32, mpstthree::binary::struct_trait::end::End>, mpstthree::binary::struct_trait::recv::Recv<i32, mpstthree::binary::struct_trait::end::End>, mpstthree::role::c::RoleC<mpstthree::role::a::RoleA<mpstthree::role::end::RoleEnd>>, mpstthree::name::b::NameB>>, mpstthree::binary::struct_trait::end::End>, mpstthree::role::ctoall::RoleCtoAll<mpstthree::role::b::RoleB<mpstthree::role::end::RoleEnd>, mpstthree::role::b::RoleB<mpstthree::role::end::RoleEnd>>, mpstthree::name::c::NameC>",
    "mpstthree::meshedchannels::MeshedChannels<mpstthree::binary::struct_trait::end::End, mpstthree::binary::struct_trait::recv::Recv<either::Either<mpstthree::meshedchannels::MeshedChannels<mpstthree::binary::struct_trait::send::Send<i32, mpstthree::binary::struct_trait::end::End>, mpstthree::binary::struct_trait::recv::Recv<i32, mpstthree::binary::struct_trait::end::End>, mpstthree::role::c::RoleC<mpstthree::role::a::RoleA<mpstthree::role::end::RoleEnd>>, mpstthree::name::b::NameB>, mpstthree::meshedchannels::MeshedChannels<mpstthree::binary::struct_trait::send::Send<i32, mpstthree::binary::struct_trait::end::End>, mpstthree::binary::struct_trait::recv::Recv<i32, mpstthree::binary::struct_trait::end::End>, mpstthree::role::c::RoleC<mpstthree::role::a::RoleA<mpstthree::role::end::RoleEnd>>, mpstthree::name::b::NameB>>, mpstthree::binary::struct_trait::end::End>, mpstthree::role::alltoc::RoleAlltoC<mpstthree::role::end::RoleEnd, mpstthree::role::end::RoleEnd>, mpstthree::name::b::NameB>"]
    []
    []
    [("RoleA", ["digraph {",
      "    0 [ label = \"\\\"0\\\"\" ]",
      "    1 [ label = \"\\\"0.1\\\"\" ]",
      "    2 [ label = \"\\\"0.2\\\"\" ]",
      "    3 [ label = \"\\\"0.1\\\"\" ]",
      "    4 [ label = \"\\\"0.2\\\"\" ]",
      "    0 -> 1 [ label = \"\\\"RoleA?RoleB: i32\\\"\" ]",
      "    1 -> 2 [ label = \"\\\"0\\\"\" ]",
      "    0 -> 3 [ label = \"\\\"RoleA?RoleB: i32\\\"\" ]",
      "    3 -> 4 [ label = \"\\\"0\\\"\" ]",
      "}",
      ""]),
    ("RoleB", ["digraph {",
      "    0 [ label = \"\\\"0\\\"\" ]",
      "    1 [ label = \"\\\"0.1\\\"\" ]",
      "    2 [ label = \"\\\"0.2\\\"\" ]",
      "    3 [ label = \"\\\"0.3\\\"\" ]",
      "    4 [ label = \"\\\"0.1\\\"\" ]",
      "    5 [ label = \"\\\"0.2\\\"\" ]",
      "    6 [ label = \"\\\"0.3\\\"\" ]",
      "    0 -> 1 [ label = \"\\\"RoleB?RoleC: i32\\\"\" ]",
      "    1 -> 2 [ label = \"\\\"RoleB!RoleA: i32\\\"\" ]",
      "    2 -> 3 [ label = \"\\\"0\\\"\" ]",
      "    0 -> 4 [ label = \"\\\"RoleB?RoleC: i32\\\"\" ]",
      "    4 -> 5 [ label = \"\\\"RoleB!RoleA: i32\\\"\" ]",
      "    5 -> 6 [ label = \"\\\"0\\\"\" ]",
      "}",
      ""]),
    ("RoleC", ["digraph {",
      "    0 [ label = \"\\\"0\\\"\" ]",
      "    1 [ label = \"\\\"0.1\\\"\" ]",
      "    2 [ label = \"\\\"0.2\\\"\" ]",
      "    3 [ label = \"\\\"0.1\\\"\" ]",
      "    4 [ label = \"\\\"0.2\\\"\" ]",
      "    0 -> 1 [ label = \"\\\"RoleC!RoleB: i32\\\"\" ]",
      "    1 -> 2 [ label = \"\\\"0\\\"\" ]",
      "    0 -> 3 [ label = \"\\\"RoleC!RoleB: i32\\\"\" ]",
      "    3 -> 4 [ label = \"\\\"0\\\"\" ]",
      "}",
      ""])]

-- /repo/tests/basics_mod/simple_basics/c_usecase.rs, file name given: ""
#guard sameGraphs ""
    ["mpstthree::meshedchannels::MeshedChannels<mpstthree::binary::struct_trait::end::End, mpstthree::binary::struct_trait::recv::Recv<either::Either<mpstthree::meshedchannels::MeshedChannels<mpstthree::binary::struct_trait::recv::Recv<i32, mpstthree::binary::struct_trait::send::Send<i32, mpstthree::binary::struct_trait::end::End>>, mpstthree::binary::struct_trait::end::End, mpstthree::role::a::RoleA<mpstthree::role::a::RoleA<mpstthree::role::end::RoleEnd>>, mpstthree::name::b::NameB>, mpstthree::meshedchannels::MeshedChannels<mpstthree::binary::struct_trait::end::End, mpstthree::binary::struct_trait::end::End, mpstthree::role::end::RoleEnd, mpstthree::name::b::NameB>>, mpstthree::binary::struct_trait::end::End>, mpstthree::role::alltoc::RoleAlltoC<mpstthree::role::end::RoleEnd, mpstthree::role::end::RoleEnd>, mpstthree::name::b::NameB>",
    "mpstthree::meshedchannels::MeshedChannels<mpstthree::binary::struct_trait::end::End, mpstthree::binary::struct_trait::recv::Recv<i32, mpstthree::binary::struct_trait::send::Send<i32, mpstthree::binary::struct_trait::recv::Recv<either::Either<mpstthree::meshedchannels::MeshedChannels<mpstthree::binary::struct_trait::send::Send<i32, mpstthree::binary::struct_trait::recv::Recv<i32, mpstthree::binary::struct_trait::end::End>>, mpstthree::binary::struct_trait::recv::Recv<i32, mpstthree::binary::struct_trait::send::Send<i32, mpstthree::binary::struct_trait::end::End>>, mpstthree::role::c::RoleC<mpstthree::role::b::RoleB<mpstthree::role::b::RoleB<mpstthree::role::c::RoleC<mpstthree::role::end::RoleEnd>>>>, mpstthree::name::a::NameA>, mpstthree::meshedchannels::MeshedChannels<mpstthree::binary::struct_trait::end::End, mpstthree::binary::struct_trait::end::End, mpstthree::role::end::RoleEnd, mpstthree::name::a::NameA>>, mpstthree::binary::struct_trait::end::End>>>, mpstthree::role::c::RoleC<mpstthree::role::c::RoleC<mpstthree::role::alltoc::RoleAlltoC<mpstthree::role::end::RoleEnd, mpstthree::role::end::RoleEnd>>>, mpstthree::name::a::NameA>",
    "mpstthree::meshedchannels::MeshedChannels<mpstthree::binary::struct_trait::send::Send<i32, mpstthree::binary::struct_trait::recv::Recv<i32, mpstthree::binary::struct_trait::send::Send<either::Either<mpstthree::meshedchannels::MeshedChannels<mpstthree::binary::struct_trait::send::Send<i32, mpstthree::binary::struct_trait::recv::Recv<i32, mpstthree::binary::struct_trait::end::End>>, mpstthree::binary::struct_trait::recv::Recv<i32, mpstthree::binary::struct_trait::send::Send<i32, mpstthree::binary::struct_trait::end::End>>, mpstthree::role::c::RoleC<mpstthree::role::b::RoleB<mpstthree::role::b::RoleB<mpstthree::role::c::RoleC<mpstthree::role::end::RoleEnd>>>>, mpstthree::name::a::NameA>, mpstthree::meshedchannels::MeshedChannels<mpstthree::binary::struct_trait::end::End, mpstthree::binary::struct_trait::end::End, mpstthree::role::end::RoleEnd, mpstthree::name::a::NameA>>, mpstthree::binary::struct_trait::end::End>>>, mpstthree::binary::struct_trait::send::Send<either::Either<mpstthree::meshedchannels::MeshedChannels<mpstthree::binary::struct_trait::recv::Recv<i32, mpstthree::binary::struct_trait::send::Send<i32, mpstthree::binary::struct_trait::end::End>>, mpstthree::binary::struct_trait::end::End, mpstthree::role::a::RoleA<mpstthree::role::a::RoleA<mpstthree::role::end::RoleEnd>>, mpstthree::name::b::NameB>, mpstthree::meshedchannels::MeshedChannels<mpstthree::binary::struct_trait::end::End, mpstthree::binary::struct_trait::end::End, mpstthree::role::end::RoleEnd, mpstthree::name::b::NameB>>, mpstthree::binary::struct_trait::end::End>, mpstthree::role::a::RoleA<mpstthree::role::a::RoleA<mpstthree::role::ctoall::RoleCtoAll<mpstthree::role::a::RoleA<mpstthree::role::a::RoleA<mpstthree::role::end::RoleEnd>>, mpstthree::role::end::RoleEnd>>>, mpstthree::name::c::NameC>"]
    []
    []
    [("RoleA", ["digraph {",
      "    0 [ label = \"\\\"0\\\"\" ]",
      "    1 [ label = \"\\\"1\\\"\" ]",
      "    2 [ label = \"\\\"2\\\"\" ]",
      "    3 [ label = \"\\\"2.1\\\"\" ]",
      "    4 [ label = \"\\\"2.2\\\"\" ]",
      "    5 [ label = \"\\\"2.3\\\"\" ]",
      "    6 [ label = \"\\\"2.4\\\"\" ]",
      "    7 [ label = \"\\\"2.5\\\"\" ]",
      "    8 [ label = \"\\\"2.1\\\"\" ]",
      "    0 -> 1 [ label = \"\\\"RoleA?RoleC: i32\\\"\" ]",
      "    1 -> 2 [ label = \"\\\"RoleA!RoleC: i32\\\"\" ]",
      "    2 -> 3 [ label = \"\\\"RoleA?RoleC: i32\\\"\" ]",
      "    3 -> 4 [ label = \"\\\"RoleA!RoleB: i32\\\"\" ]",
      "    4 -> 5 [ label = \"\\\"RoleA?RoleB: i32\\\"\" ]",
      "    5 -> 6 [ label = \"\\\"RoleA!RoleC: i32\\\"\" ]",
      "    6 -> 7 [ label = \"\\\"0\\\"\" ]",
      "    2 -> 8 [ label = \"\\\"0\\\"\" ]",
      "}",
      ""]),
    ("RoleB", ["digraph {",
      "    0 [ label = \"\\\"0\\\"\" ]",
      "    1 [ label = \"\\\"0.1\\\"\" ]",
      "    2 [ label = \"\\\"0.2\\\"\" ]",
      "    3 [ label = \"\\\"0.3\\\"\" ]",
      "    4 [ label = \"\\\"0.1\\\"\" ]",
      "    0 -> 1 [ label = \"\\\"RoleB?RoleA: i32\\\"\" ]",
      "    1 -> 2 [ label = \"\\\"RoleB!RoleA: i32\\\"\" ]",
      "    2 -> 3 [ label = \"\\\"0\\\"\" ]",
      "    0 -> 4 [ label = \"\\\"0\\\"\" ]",
      "}",
      ""]),
    ("RoleC", ["digraph {",
      "    0 [ label = \"\\\"0\\\"\" ]",
      "    1 [ label = \"\\\"1\\\"\" ]",
      "    2 [ label = \"\\\"2\\\"\" ]",
      "    3 [ label = \"\\\"2.1\\\"\" ]",
      "    4 [ label = \"\\\"2.2\\\"\" ]",
      "    5 [ label = \"\\\"2.3\\\"\" ]",
      "    6 [ label = \"\\\"2.1\\\"\" ]",
      "    0 -> 1 [ label = \"\\\"RoleC!RoleA: i32\\\"\" ]",
      "    1 -> 2 [ label = \"\\\"RoleC?RoleA: i32\\\"\" ]",
      "    2 -> 3 [ label = \"\\\"RoleC!RoleA: i32\\\"\" ]",
      "    3 -> 4 [ label = \"\\\"RoleC?RoleA: i32\\\"\" ]",
      "    4 -> 5 [ label = \"\\\"0\\\"\" ]",
      "    2 -> 6 [ label = \"\\\"0\\\"\" ]",
      "}",
      ""])]

-- /repo/tests/basics_mod/simple_basics/c_usecase_recursive.rs, file name given: ""
#guard sameGraphs ""
    ["mpstthree::meshedchannels::MeshedChannels<mpstthree::binary::struct_trait::end::End, mpstthree::binary::struct_trait::recv::Recv<i32, mpstthree::binary::struct_trait::send::Send<i32, mpstthree::binary::struct_trait::recv::Recv<checking::c_usecase_recursive::Branches0AtoC, mpstthree::binary::struct_trait::end::End>>>, mpstthree::role::c::RoleC<mpstthree::role::c::RoleC<mpstthree::role::c::RoleC<mpstthree::role::end::RoleEnd>>>, mpstthree::name::a::NameA>",
    "mpstthree::meshedchannels::MeshedChannels<mpstthree::binary::struct_trait::send::Send<i32, mpstthree::binary::struct_trait::recv::Recv<i32, mpstthree::binary::struct_trait::send::Send<checking::c_usecase_recursive::Branches0AtoC, mpstthree::binary::struct_trait::end::End>>>, mpstthree::binary::struct_trait::send::Send<checking::c_usecase_recursive::Branches0BtoC, mpstthree::binary::struct_trait::end::End>, mpstthree::role::a::RoleA<mpstthree::role::a::RoleA<mpstthree::role::broadcast::RoleBroadcast>>, mpstthree::name::c::NameC>",
    "mpstthree::meshedchannels::MeshedChannels<mpstthree::binary::struct_trait::end::End, mpstthree::binary::struct_trait::recv::Recv<checking::c_usecase_recursive::Branches0BtoC, mpstthree::binary::struct_trait::end::End>, mpstthree::role::c::RoleC<mpstthree::role::end::RoleEnd>, mpstthree::name::b::NameB>"]
    [("mpstthree::meshedchannels::MeshedChannels<mpstthree::binary::struct_trait::send::Send<i32, mpstthree::binary::struct_trait::recv::Recv<i32, mpstthree::binary::struct_trait::send::Send<checking::c_usecase_recursive::Branches0AtoC, mpstthree::binary::struct_trait::end::End>>>, mpstthree::binary::struct_trait::send::Send<checking::c_usecase_recursive::Branches0BtoC, mpstthree::binary::struct_trait::end::End>, mpstthree::role::a::RoleA<mpstthree::role::a::RoleA<mpstthree::role::broadcast::RoleBroadcast>>, mpstthree::name::c::NameC>", [("Branches0AtoC", "Video"), ("Branches0BtoC", "Video")]),
    ("mpstthree::meshedchannels::MeshedChannels<mpstthree::binary::struct_trait::end::End, mpstthree::binary::struct_trait::end::End, mpstthree::role::end::RoleEnd, mpstthree::name::c::NameC>", [("Branches0AtoC", "End"), ("Branches0BtoC", "End")])]
    [("Branches0AtoC", [("End", "mpstthree::meshedchannels::MeshedChannels<mpstthree::binary::struct_trait::end::End, mpstthree::binary::struct_trait::end::End, mpstthree::role::end::RoleEnd, mpstthree::name::a::NameA>"), ("Video", "mpstthree::meshedchannels::MeshedChannels<mpstthree::binary::struct_trait::send::Send<i32, mpstthree::binary::struct_trait::recv::Recv<i32, mpstthree::binary::struct_trait::end::End>>, mpstthree::binary::struct_trait::recv::Recv<i32, mpstthree::binary::struct_trait::send::Send<i32, mpstthree::binary::struct_trait::recv::Recv<checking::c_usecase_recursive::Branches0AtoC, mpstthree::binary::struct_trait::end::End>>>, mpstthree::role::c::RoleC<mpstthree::role::b::RoleB<mpstthree::role::b::RoleB<mpstthree::role::c::RoleC<mpstthree::role::c::RoleC<mpstthree::role::end::RoleEnd>>>>>, mpstthree::name::a::NameA>")]),
    ("Branches0BtoC", [("End", "mpstthree::meshedchannels::MeshedChannels<mpstthree::binary::struct_trait::end::End, mpstthree::binary::struct_trait::end::End, mpstthree::role::end::RoleEnd, mpstthree::name::b::NameB>"), ("Video", "mpstthree::meshedchannels::MeshedChannels<mpstthree::binary::struct_trait::recv::Recv<i32, mpstthree::binary::struct_trait::send::Send<i32, mpstthree::binary::struct_trait::end::End>>, mpstthree::binary::struct_trait::recv::Recv<checking::c_usecase_recursive::Branches0BtoC, mpstthree::binary::struct_trait::end::End>, mpstthree::role::a::RoleA<mpstthree::role::a::RoleA<mpstthree::role::c::RoleC<mpstthree::role::end::RoleEnd>>>, mpstthree::name::b::NameB>")])]
    [("RoleA", ["digraph {",
      "    0 [ label = \"\\\"0\\\"\" ]",
      "    1 [ label = \"\\\"1\\\"\" ]",
      "    2 [ label = \"\\\"2\\\"\" ]",
      "    3 [ label = \"\\\"2.1\\\"\" ]",
      "    4 [ label = \"\\\"2.1\\\"\" ]",
      "    5 [ label = \"\\\"2.2\\\"\" ]",
      "    6 [ label = \"\\\"2.3\\\"\" ]",
      "    7 [ label = \"\\\"2.4\\\"\" ]",
      "    0 -> 1 [ label = \"\\\"RoleA?RoleC: i32\\\"\" ]",
      "    1 -> 2 [ label = \"\\\"RoleA!RoleC: i32\\\"\" ]",
      "    2 -> 3 [ label = \"\\\"0\\\"\" ]",
      "    2 -> 4 [ label = \"\\\"RoleA?RoleC: i32\\\"\" ]",
      "    4 -> 5 [ label = \"\\\"RoleA!RoleB: i32\\\"\" ]",
      "    5 -> 6 [ label = \"\\\"RoleA?RoleB: i32\\\"\" ]",
      "    6 -> 7 [ label = \"\\\"RoleA!RoleC: i32\\\"\" ]",
      "    7 -> 2 [ label = \"\\\"µ\\\"\" ]",
      "}",
      ""]),
    ("RoleB", ["digraph {",
      "    0 [ label = \"\\\"0\\\"\" ]",
      "    1 [ label = \"\\\"0.1\\\"\" ]",
      "    2 [ label = \"\\\"0.1\\\"\" ]",
      "    3 [ label = \"\\\"0.2\\\"\" ]",
      "    0 -> 1 [ label = \"\\\"0\\\"\" ]",
      "    0 -> 2 [ label = \"\\\"RoleB?RoleA: i32\\\"\" ]",
      "    2 -> 3 [ label = \"\\\"RoleB!RoleA: i32\\\"\" ]",
      "    3 -> 0 [ label = \"\\\"µ\\\"\" ]",
      "}",
      ""]),
    ("RoleC", ["digraph {",
      "    0 [ label = \"\\\"0\\\"\" ]",
      "    1 [ label = \"\\\"1\\\"\" ]",
      "    2 [ label = \"\\\"2\\\"\" ]",
      "    3 [ label = \"\\\"2.1\\\"\" ]",
      "    4 [ label = \"\\\"2.1\\\"\" ]",
      "    5 [ label = \"\\\"2.2\\\"\" ]",
      "    0 -> 1 [ label = \"\\\"RoleC!RoleA: i32\\\"\" ]",
      "    1 -> 2 [ label = \"\\\"RoleC?RoleA: i32\\\"\" ]",
      "    2 -> 3 [ label = \"\\\"0\\\"\" ]",
      "    2 -> 4 [ label = \"\\\"RoleC!RoleA: i32\\\"\" ]",
      "    4 -> 5 [ label = \"\\\"RoleC?RoleA: i32\\\"\" ]",
      "    5 -> 2 [ label = \"\\\"µ\\\"\" ]",
      "}",
      ""])]

-- /repo/tests/basics_mod/simple_basics/choose.rs, file name given: ""
#guard sameGraphs ""
    ["mpstthree::meshedchannels::MeshedChannels<mpstthree::binary::struct_trait::end::End, mpstthree::binary::struct_trait::recv::Recv<either::Either<mpstthree::meshedchannels::MeshedChannels<mpstthree::binary::struct_trait::end::End, mpstthree::binary::struct_trait::end::End, mpstthree::role::end::RoleEnd, mpstthree::name::c::NameC>, mpstthree::meshedchannels::MeshedChannels<mpstthree::binary::struct_trait::end::End, mpstthree::binary::struct_trait::end::End, mpstthree::role::end::RoleEnd, mpstthree::name::c::NameC>>, mpstthree::binary::struct_trait::end::End>, mpstthree::role::alltob::RoleAlltoB<mpstthree::role::end::RoleEnd, mpstthree::role::end::RoleEnd>, mpstthree::name::c::NameC>",
    "mpstthree::meshedchannels::MeshedChannels<mpstthree::binary::struct_trait::recv::Recv<either::Either<mpstthree::meshedchannels::MeshedChannels<mpstthree::binary::struct_trait::recv::Recv<i32, mpstthree::binary::struct_trait::end::End>, mpstthree::binary::struct_trait::end::End, mpstthree::role::b::RoleB<mpstthree::role::end::RoleEnd>, mpstthree::name::a::NameA>, mpstthree::meshedchannels::MeshedChannels<mpstthree::binary::struct_trait::recv::Recv<i32, mpstthree::binary::struct_trait::end::End>, mpstthree::binary::struct_trait::end::End, mpstthree::role::b::RoleB<mpstthree::role::end::RoleEnd>, mpstthree::name::a::NameA>>, mpstthree::binary::struct_trait::end::End>, mpstthree::binary::struct_trait::end::End, mpstthree::role::alltob::RoleAlltoB<mpstthree::role::end::RoleEnd, mpstthree::role::end::RoleEnd>, mpstthree::name::a::NameA>",
    "mpstthree::meshedchannels::MeshedChannels<mpstthree::binary::struct_trait::send::Send<either::Either<mpstthree::meshedchannels::MeshedChannels<mpstthree::binary::struct_trait::recv::Recv<i32, mpstthree::binary::struct_trait::end::End>, mpstthree::binary::struct_trait::end::End, mpstthree::role::b::RoleB<mpstthree::role::end::RoleEnd>, mpstthree::name::a::NameA>, mpstthree::meshedchannels::MeshedChannels<mpstthree::binary::struct_trait::recv::Recv<i32, mpstthree::binary::struct_trait::end::End>, mpstthree::binary::struct_trait::end::End, mpstthree::role::b::RoleB<mpstthree::role::end::RoleEnd>, mpstthree::name::a::NameA>>, mpstthree::binary::struct_trait::end::End>, mpstthree::binary::struct_trait::send::Send<either::Either<mpstthree::meshedchannels::MeshedChannels<mpstthree::binary::struct_trait::end::End, mpstthree::binary::struct_trait::end::End, mpstthree::role::end::RoleEnd, mpstthree::name::c::NameC>, mpstthree::meshedchannels::MeshedChannels<mpstthree::binary::struct_trait::end::End, mpstthree::binary::struct_trait::end::End, mpstthree::role::end::RoleEnd, mpstthree::name::c::NameC>>, mpstthree::binary::struct_trait::end::End>, mpstthree::role::btoall::RoleBtoAll<mpstthree::role::a::RoleA<mpstthree::role::end::RoleEnd>, mpstthree::role::a::RoleA<mpstthree::role::end::RoleEnd>>, mpstthree::name::b::NameB>"]
    []
    []
    [("RoleA", ["digraph {",
      "    0 [ label = \"\\\"0\\\"\" ]",
      "    1 [ label = \"\\\"0.1\\\"\" ]",
      "    2 [ label = \"\\\"0.2\\\"\" ]",
      "    3 [ label = \"\\\"0.1\\\"\" ]",
      "    4 [ label = \"\\\"0.2\\\"\" ]",
      "    0 -> 1 [ label = \"\\\"RoleA?RoleB: i32\\\"\" ]",
      "    1 -> 2 [ label = \"\\\"0\\\"\" ]",
      "    0 -> 3 [ label = \"\\\"RoleA?RoleB: i32\\\"\" ]",
      "    3 -> 4 [ label = \"\\\"0\\\"\" ]",
      "}",
      ""]),
    ("RoleB", ["digraph {",
      "    0 [ label = \"\\\"0\\\"\" ]",
      "    1 [ label = \"\\\"0.1\\\"\" ]",
      "    2 [ label = \"\\\"0.2\\\"\" ]",
      "    3 [ label = \"\\\"0.1\\\"\" ]",
      "    4 [ label = \"\\\"0.2\\\"\" ]",
      "    0 -> 1 [ label = \"\\\"RoleB!RoleA: i32\\\"\" ]",
      "    1 -> 2 [ label = \"\\\"0\\\"\" ]",
      "    0 -> 3 [ label = \"\\\"RoleB!RoleA: i32\\\"\" ]",
      "    3 -> 4 [ label = \"\\\"0\\\"\" ]",
      "}",
      ""]),
    ("RoleC", ["digraph {",
      "    0 [ label = \"\\\"0\\\"\" ]",
      "    1 [ label = \"\\\"0.1\\\"\" ]",
      "    2 [ label = \"\\\"0.1\\\"\" ]",
      "    0 -> 1 [ label = \"\\\"0\\\"\" ]",
      "    0 -> 2 [ label = \"\\\"0\\\"\" ]",
      "}",
      ""])]

-- /repo/tests/basics_mod/simple_basics/simple.rs, file name given: ""
#guard sameGraphs ""
    ["mpstthree::meshedchannels::MeshedChannels<mpstthree::binary::struct_trait::recv::Recv<i32, mpstthree::binary::struct_trait::end::End>, mpstthree::binary::struct_trait::send::Send<i32, mpstthree::binary::struct_trait::end::End>, mpstthree::role::a::RoleA<mpstthree::role::c::RoleC<mpstthree::role::end::RoleEnd>>, mpstthree::name::b::NameB>",
    "mpstthree::meshedchannels::MeshedChannels<mpstthree::binary::struct_trait::send::Send<i32, mpstthree::binary::struct_trait::end::End>, mpstthree::binary::struct_trait::recv::Recv<i32, mpstthree::binary::struct_trait::end::End>, mpstthree::role::a::RoleA<mpstthree::role::b::RoleB<mpstthree::role::end::RoleEnd>>, mpstthree::name::c::NameC>",
    "mpstthree::meshedchannels::MeshedChannels<mpstthree::binary::struct_trait::send::Send<i32, mpstthree::binary::struct_trait::end::End>, mpstthree::binary::struct_trait::recv::Recv<i32, mpstthree::binary::struct_trait::end::End>, mpstthree::role::b::RoleB<mpstthree::role::c::RoleC<mpstthree::role::end::RoleEnd>>, mpstthree::name::a::NameA>"]
    []
    []
    [("RoleA", ["digraph {",
      "    0 [ label = \"\\\"0\\\"\" ]",
      "    1 [ label = \"\\\"1\\\"\" ]",
      "    2 [ label = \"\\\"2\\\"\" ]",
      "    3 [ label = \"\\\"3\\\"\" ]",
      "    0 -> 1 [ label = \"\\\"RoleA!RoleB: i32\\\"\" ]",
      "    1 -> 2 [ label = \"\\\"RoleA?RoleC: i32\\\"\" ]",
      "    2 -> 3 [ label = \"\\\"0\\\"\" ]",
      "}",
      ""]),
    ("RoleB", ["digraph {",
      "    0 [ label = \"\\\"0\\\"\" ]",
      "    1 [ label = \"\\\"1\\\"\" ]",
      "    2 [ label = \"\\\"2\\\"\" ]",
      "    3 [ label = \"\\\"3\\\"\" ]",
      "    0 -> 1 [ label = \"\\\"RoleB?RoleA: i32\\\"\" ]",
      "    1 -> 2 [ label = \"\\\"RoleB!RoleC: i32\\\"\" ]",
      "    2 -> 3 [ label = \"\\\"0\\\"\" ]",
      "}",
      ""]),
    ("RoleC", ["digraph {",
      "    0 [ label = \"\\\"0\\\"\" ]",
      "    1 [ label = \"\\\"1\\\"\" ]",
      "    2 [ label = \"\\\"2\\\"\" ]",
      "    3 [ label = \"\\\"3\\\"\" ]",
      "    0 -> 1 [ label = \"\\\"RoleC!RoleA: i32\\\"\" ]",
      "    1 -> 2 [ label = \"\\\"RoleC?RoleB: i32\\\"\" ]",
      "    2 -> 3 [ label = \"\\\"0\\\"\" ]",
      "}",
      ""])]

end Verif.CheckTest
