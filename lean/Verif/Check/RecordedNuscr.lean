import Verif.Check.Nuscr
/-! Written by tools/recorded.py.  Tests, not proofs: the files generated from the protocols kept in the repository. -/
namespace Verif.NuscrTest

-- /repo/tests/nuscr_mod/correct/basic.nuscr, Basic.rs
#guard sameFile
    ["timed global protocol Basic(role A, role B, role C) {",
    "    Test1() from A to B within [0;2] using a and resetting ();",
    "    Test1() from B to C within [0;2] using a and resetting ();",
    "    Test1() from A to B within [0;2] using a and resetting ();",
    "    Test1() from A to B within [0;2] using a and resetting ();",
    "    Test5(payload) from A to B within [0;2] using a and resetting ();",
    "    Test2(integer) from A to B within [0;2] using a and resetting ();",
    "    Test3(stri) from A to B within [0;2] using a and resetting ();",
    "    Test4(payload) from A to B within [0;2] using a and resetting ();",
    "}"]
    ["struct Payload;",
    "struct Integer;",
    "struct Stri;",
    "struct Test1;",
    "struct Test2 { payload: Integer }",
    "struct Test4 { payload: Payload }",
    "struct Test5 { payload: Payload }",
    "struct Test3 { payload: Stri }",
    "type Message_0_v_0_FromBToC = SendTimed<Test1, 'a', 0, true, 2, true, ' ', Message_0_v_1_FromBToC>;",
    "type Message_0_v_1_FromBToC = End;",
    "type Message_0_v_0_FromBToA = RecvTimed<Test1, 'a', 0, true, 2, true, ' ', Message_0_v_1_FromBToA>;",
    "type Message_0_v_1_FromBToA = RecvTimed<Test1, 'a', 0, true, 2, true, ' ', Message_0_v_2_FromBToA>;",
    "type Message_0_v_2_FromBToA = RecvTimed<Test1, 'a', 0, true, 2, true, ' ', Message_0_v_3_FromBToA>;",
    "type Message_0_v_3_FromBToA = RecvTimed<Test5, 'a', 0, true, 2, true, ' ', Message_0_v_4_FromBToA>;",
    "type Message_0_v_4_FromBToA = RecvTimed<Test2, 'a', 0, true, 2, true, ' ', Message_0_v_5_FromBToA>;",
    "type Message_0_v_5_FromBToA = RecvTimed<Test3, 'a', 0, true, 2, true, ' ', Message_0_v_6_FromBToA>;",
    "type Message_0_v_6_FromBToA = RecvTimed<Test4, 'a', 0, true, 2, true, ' ', Message_0_v_7_FromBToA>;",
    "type Message_0_v_7_FromBToA = End;",
    "type Message_0_v_0_FromAToB = SendTimed<Test1, 'a', 0, true, 2, true, ' ', Message_0_v_1_FromAToB>;",
    "type Message_0_v_1_FromAToB = SendTimed<Test1, 'a', 0, true, 2, true, ' ', Message_0_v_2_FromAToB>;",
    "type Message_0_v_2_FromAToB = SendTimed<Test1, 'a', 0, true, 2, true, ' ', Message_0_v_3_FromAToB>;",
    "type Message_0_v_3_FromAToB = SendTimed<Test5, 'a', 0, true, 2, true, ' ', Message_0_v_4_FromAToB>;",
    "type Message_0_v_4_FromAToB = SendTimed<Test2, 'a', 0, true, 2, true, ' ', Message_0_v_5_FromAToB>;",
    "type Message_0_v_5_FromAToB = SendTimed<Test3, 'a', 0, true, 2, true, ' ', Message_0_v_6_FromAToB>;",
    "type Message_0_v_6_FromAToB = SendTimed<Test4, 'a', 0, true, 2, true, ' ', Message_0_v_7_FromAToB>;",
    "type Message_0_v_7_FromAToB = End;",
    "type Message_0_v_0_FromAToC = End;",
    "type Message_0_v_0_FromCToA = End;",
    "type Message_0_v_0_FromCToB = RecvTimed<Test1, 'a', 0, true, 2, true, ' ', Message_0_v_1_FromCToB>;",
    "type Message_0_v_1_FromCToB = End;",
    "type Ordering_0_v_0_ForA = RoleB<Ordering_0_v_1_ForA>;",
    "type Ordering_0_v_1_ForA = RoleB<Ordering_0_v_2_ForA>;",
    "type Ordering_0_v_2_ForA = RoleB<Ordering_0_v_3_ForA>;",
    "type Ordering_0_v_3_ForA = RoleB<Ordering_0_v_4_ForA>;",
    "type Ordering_0_v_4_ForA = RoleB<Ordering_0_v_5_ForA>;",
    "type Ordering_0_v_5_ForA = RoleB<Ordering_0_v_6_ForA>;",
    "type Ordering_0_v_6_ForA = RoleB<Ordering_0_v_7_ForA>;",
    "type Ordering_0_v_7_ForA = RoleEnd;",
    "type Ordering_0_v_0_ForB = RoleA<Ordering_0_v_1_ForB>;",
    "type Ordering_0_v_1_ForB = RoleC<Ordering_0_v_2_ForB>;",
    "type Ordering_0_v_2_ForB = RoleA<Ordering_0_v_3_ForB>;",
    "type Ordering_0_v_3_ForB = RoleA<Ordering_0_v_4_ForB>;",
    "type Ordering_0_v_4_ForB = RoleA<Ordering_0_v_5_ForB>;",
    "type Ordering_0_v_5_ForB = RoleA<Ordering_0_v_6_ForB>;",
    "type Ordering_0_v_6_ForB = RoleA<Ordering_0_v_7_ForB>;",
    "type Ordering_0_v_7_ForB = RoleA<Ordering_0_v_8_ForB>;",
    "type Ordering_0_v_8_ForB = RoleEnd;",
    "type Ordering_0_v_0_ForC = RoleB<Ordering_0_v_1_ForC>;",
    "type Ordering_0_v_1_ForC = RoleEnd;",
    "type Endpoint_0_ForA = MeshedChannels<Message_0_v_0_FromAToB, Message_0_v_0_FromAToC, Ordering_0_v_0_ForA, NameA>;",
    "type Endpoint_0_ForB = MeshedChannels<Message_0_v_0_FromBToA, Message_0_v_0_FromBToC, Ordering_0_v_0_ForB, NameB>;",
    "type Endpoint_0_ForC = MeshedChannels<Message_0_v_0_FromCToA, Message_0_v_0_FromCToB, Ordering_0_v_0_ForC, NameC>;",
    "fn endpoint_a_0_v_0(s: Endpoint_0_ForA, all_clocks: &mut HashMap<char, Instant>) -> Result<(), Box<dyn Error>> { all_clocks.insert('a', Instant::now());",
    "fn endpoint_b_0_v_0(s: Endpoint_0_ForB, all_clocks: &mut HashMap<char, Instant>) -> Result<(), Box<dyn Error>> { all_clocks.insert('a', Instant::now());",
    "fn endpoint_c_0_v_0(s: Endpoint_0_ForC, all_clocks: &mut HashMap<char, Instant>) -> Result<(), Box<dyn Error>> { all_clocks.insert('a', Instant::now());"]

-- /repo/tests/nuscr_mod/correct/choice.nuscr, Choice.rs
#guard sameFile
    ["timed global protocol Choice(role A, role B, role C) {",
    "    choice at A",
    "    {",
    "        Test1() from A to B within [0;1] using a and resetting ();",
    "        Test2(payload) from A to B within [0;1] using a and resetting ();",
    "        Test3() from A to B within [0;1] using a and resetting (a);",
    "        Test4(payload) from A to B within [0;1] using a and resetting (a);",
    "        Test5(payload) from A to C within [0;1] using a and resetting ();",
    "    } or {",
    "        Test5(payload) from A to B within [0;1] using a and resetting ();",
    "        Test6(payload) from A to B within [0;1] using a and resetting ();",
    "        Test7() from A to B within [0;1] using a and resetting (a);",
    "        Test8(payload) from A to B within [0;1] using a and resetting (a);",
    "        Test5(payload) from A to C within [0;1] using a and resetting ();",
    "    } or {",
    "        Test5(payload) from A to B within [0;1] using a and resetting ();",
    "        Test6(payload) from A to B within [0;1] using a and resetting ();",
    "        Test7() from A to B within [0;1] using a and resetting (a);",
    "        Test8(payload) from A to B within [0;1] using a and resetting (a);",
    "        Test5(payload) from A to C within [0;1] using a and resetting ();",
    "    }",
    "}"]
    ["struct Payload;",
    "struct Test7;",
    "struct Test5 { payload: Payload }",
    "struct Test8 { payload: Payload }",
    "struct Test6 { payload: Payload }",
    "struct Test4 { payload: Payload }",
    "struct Test1;",
    "struct Test2 { payload: Payload }",
    "struct Test3;",
    "type Message_0_v_0_FromCToB = End;",
    "type Message_0_v_0_FromCToA = RecvTimed<Choice_0_FromAToC, ' ', -2, false, -1, false, ' ', End>;",
    "type Message_0_v_0_FromAToC = SendTimed<Choice_0_FromAToC, ' ', -2, false, -1, false, ' ', End>;",
    "type Message_0_v_0_FromAToB = SendTimed<Choice_0_FromAToB, ' ', -2, false, -1, false, ' ', End>;",
    "type Message_0_v_0_FromBToA = RecvTimed<Choice_0_FromAToB, ' ', -2, false, -1, false, ' ', End>;",
    "type Message_0_v_0_FromBToC = End;",
    "type Message_0_2_v_0_FromCToA = RecvTimed<Test5, 'a', 0, true, 1, true, ' ', Message_0_2_v_1_FromCToA>;",
    "type Message_0_2_v_1_FromCToA = End;",
    "type Message_0_2_v_0_FromCToB = End;",
    "type Message_0_2_v_0_FromBToC = End;",
    "type Message_0_2_v_0_FromBToA = RecvTimed<Test5, 'a', 0, true, 1, true, ' ', Message_0_2_v_1_FromBToA>;",
    "type Message_0_2_v_1_FromBToA = RecvTimed<Test6, 'a', 0, true, 1, true, ' ', Message_0_2_v_2_FromBToA>;",
    "type Message_0_2_v_2_FromBToA = RecvTimed<Test7, 'a', 0, true, 1, true, 'a', Message_0_2_v_3_FromBToA>;",
    "type Message_0_2_v_3_FromBToA = RecvTimed<Test8, 'a', 0, true, 1, true, 'a', Message_0_2_v_4_FromBToA>;",
    "type Message_0_2_v_4_FromBToA = End;",
    "type Message_0_2_v_0_FromAToB = SendTimed<Test5, 'a', 0, true, 1, true, ' ', Message_0_2_v_1_FromAToB>;",
    "type Message_0_2_v_1_FromAToB = SendTimed<Test6, 'a', 0, true, 1, true, ' ', Message_0_2_v_2_FromAToB>;",
    "type Message_0_2_v_2_FromAToB = SendTimed<Test7, 'a', 0, true, 1, true, 'a', Message_0_2_v_3_FromAToB>;",
    "type Message_0_2_v_3_FromAToB = SendTimed<Test8, 'a', 0, true, 1, true, 'a', Message_0_2_v_4_FromAToB>;",
    "type Message_0_2_v_4_FromAToB = End;",
    "type Message_0_2_v_0_FromAToC = SendTimed<Test5, 'a', 0, true, 1, true, ' ', Message_0_2_v_1_FromAToC>;",
    "type Message_0_2_v_1_FromAToC = End;",
    "type Message_0_1_v_0_FromAToC = SendTimed<Test5, 'a', 0, true, 1, true, ' ', Message_0_1_v_1_FromAToC>;",
    "type Message_0_1_v_1_FromAToC = End;",
    "type Message_0_1_v_0_FromAToB = SendTimed<Test5, 'a', 0, true, 1, true, ' ', Message_0_1_v_1_FromAToB>;",
    "type Message_0_1_v_1_FromAToB = SendTimed<Test6, 'a', 0, true, 1, true, ' ', Message_0_1_v_2_FromAToB>;",
    "type Message_0_1_v_2_FromAToB = SendTimed<Test7, 'a', 0, true, 1, true, 'a', Message_0_1_v_3_FromAToB>;",
    "type Message_0_1_v_3_FromAToB = SendTimed<Test8, 'a', 0, true, 1, true, 'a', Message_0_1_v_4_FromAToB>;",
    "type Message_0_1_v_4_FromAToB = End;",
    "type Message_0_1_v_0_FromCToB = End;",
    "type Message_0_1_v_0_FromCToA = RecvTimed<Test5, 'a', 0, true, 1, true, ' ', Message_0_1_v_1_FromCToA>;",
    "type Message_0_1_v_1_FromCToA = End;",
    "type Message_0_1_v_0_FromBToC = End;",
    "type Message_0_1_v_0_FromBToA = RecvTimed<Test5, 'a', 0, true, 1, true, ' ', Message_0_1_v_1_FromBToA>;",
    "type Message_0_1_v_1_FromBToA = RecvTimed<Test6, 'a', 0, true, 1, true, ' ', Message_0_1_v_2_FromBToA>;",
    "type Message_0_1_v_2_FromBToA = RecvTimed<Test7, 'a', 0, true, 1, true, 'a', Message_0_1_v_3_FromBToA>;",
    "type Message_0_1_v_3_FromBToA = RecvTimed<Test8, 'a', 0, true, 1, true, 'a', Message_0_1_v_4_FromBToA>;",
    "type Message_0_1_v_4_FromBToA = End;",
    "type Message_0_0_v_0_FromBToA = RecvTimed<Test1, 'a', 0, true, 1, true, ' ', Message_0_0_v_1_FromBToA>;",
    "type Message_0_0_v_1_FromBToA = RecvTimed<Test2, 'a', 0, true, 1, true, ' ', Message_0_0_v_2_FromBToA>;",
    "type Message_0_0_v_2_FromBToA = RecvTimed<Test3, 'a', 0, true, 1, true, 'a', Message_0_0_v_3_FromBToA>;",
    "type Message_0_0_v_3_FromBToA = RecvTimed<Test4, 'a', 0, true, 1, true, 'a', Message_0_0_v_4_FromBToA>;",
    "type Message_0_0_v_4_FromBToA = End;",
    "type Message_0_0_v_0_FromBToC = End;",
    "type Message_0_0_v_0_FromAToB = SendTimed<Test1, 'a', 0, true, 1, true, ' ', Message_0_0_v_1_FromAToB>;",
    "type Message_0_0_v_1_FromAToB = SendTimed<Test2, 'a', 0, true, 1, true, ' ', Message_0_0_v_2_FromAToB>;",
    "type Message_0_0_v_2_FromAToB = SendTimed<Test3, 'a', 0, true, 1, true, 'a', Message_0_0_v_3_FromAToB>;",
    "type Message_0_0_v_3_FromAToB = SendTimed<Test4, 'a', 0, true, 1, true, 'a', Message_0_0_v_4_FromAToB>;",
    "type Message_0_0_v_4_FromAToB = End;",
    "type Message_0_0_v_0_FromAToC = SendTimed<Test5, 'a', 0, true, 1, true, ' ', Message_0_0_v_1_FromAToC>;",
    "type Message_0_0_v_1_FromAToC = End;",
    "type Message_0_0_v_0_FromCToA = RecvTimed<Test5, 'a', 0, true, 1, true, ' ', Message_0_0_v_1_FromCToA>;",
    "type Message_0_0_v_1_FromCToA = End;",
    "type Message_0_0_v_0_FromCToB = End;",
    "type Ordering_0_v_0_ForA = RoleBroadcast;",
    "type Ordering_0_v_0_ForB = RoleA<RoleEnd>;",
    "type Ordering_0_v_0_ForC = RoleA<RoleEnd>;",
    "type Ordering_0_2_v_0_ForA = RoleB<Ordering_0_2_v_1_ForA>;",
    "type Ordering_0_2_v_1_ForA = RoleB<Ordering_0_2_v_2_ForA>;",
    "type Ordering_0_2_v_2_ForA = RoleB<Ordering_0_2_v_3_ForA>;",
    "type Ordering_0_2_v_3_ForA = RoleB<Ordering_0_2_v_4_ForA>;",
    "type Ordering_0_2_v_4_ForA = RoleC<Ordering_0_2_v_5_ForA>;",
    "type Ordering_0_2_v_5_ForA = RoleEnd;",
    "type Ordering_0_2_v_0_ForB = RoleA<Ordering_0_2_v_1_ForB>;",
    "type Ordering_0_2_v_1_ForB = RoleA<Ordering_0_2_v_2_ForB>;",
    "type Ordering_0_2_v_2_ForB = RoleA<Ordering_0_2_v_3_ForB>;",
    "type Ordering_0_2_v_3_ForB = RoleA<Ordering_0_2_v_4_ForB>;",
    "type Ordering_0_2_v_4_ForB = RoleEnd;",
    "type Ordering_0_2_v_0_ForC = RoleA<Ordering_0_2_v_1_ForC>;",
    "type Ordering_0_2_v_1_ForC = RoleEnd;",
    "type Ordering_0_1_v_0_ForA = RoleB<Ordering_0_1_v_1_ForA>;",
    "type Ordering_0_1_v_1_ForA = RoleB<Ordering_0_1_v_2_ForA>;",
    "type Ordering_0_1_v_2_ForA = RoleB<Ordering_0_1_v_3_ForA>;",
    "type Ordering_0_1_v_3_ForA = RoleB<Ordering_0_1_v_4_ForA>;",
    "type Ordering_0_1_v_4_ForA = RoleC<Ordering_0_1_v_5_ForA>;",
    "type Ordering_0_1_v_5_ForA = RoleEnd;",
    "type Ordering_0_1_v_0_ForC = RoleA<Ordering_0_1_v_1_ForC>;",
    "type Ordering_0_1_v_1_ForC = RoleEnd;",
    "type Ordering_0_1_v_0_ForB = RoleA<Ordering_0_1_v_1_ForB>;",
    "type Ordering_0_1_v_1_ForB = RoleA<Ordering_0_1_v_2_ForB>;",
    "type Ordering_0_1_v_2_ForB = RoleA<Ordering_0_1_v_3_ForB>;",
    "type Ordering_0_1_v_3_ForB = RoleA<Ordering_0_1_v_4_ForB>;",
    "type Ordering_0_1_v_4_ForB = RoleEnd;",
    "type Ordering_0_0_v_0_ForC = RoleA<Ordering_0_0_v_1_ForC>;",
    "type Ordering_0_0_v_1_ForC = RoleEnd;",
    "type Ordering_0_0_v_0_ForA = RoleB<Ordering_0_0_v_1_ForA>;",
    "type Ordering_0_0_v_1_ForA = RoleB<Ordering_0_0_v_2_ForA>;",
    "type Ordering_0_0_v_2_ForA = RoleB<Ordering_0_0_v_3_ForA>;",
    "type Ordering_0_0_v_3_ForA = RoleB<Ordering_0_0_v_4_ForA>;",
    "type Ordering_0_0_v_4_ForA = RoleC<Ordering_0_0_v_5_ForA>;",
    "type Ordering_0_0_v_5_ForA = RoleEnd;",
    "type Ordering_0_0_v_0_ForB = RoleA<Ordering_0_0_v_1_ForB>;",
    "type Ordering_0_0_v_1_ForB = RoleA<Ordering_0_0_v_2_ForB>;",
    "type Ordering_0_0_v_2_ForB = RoleA<Ordering_0_0_v_3_ForB>;",
    "type Ordering_0_0_v_3_ForB = RoleA<Ordering_0_0_v_4_ForB>;",
    "type Ordering_0_0_v_4_ForB = RoleEnd;",
    "enum Choice_0_FromAToB {",
    "Branching0(Endpoint_0_0_ForB),",
    "Branching1(Endpoint_0_1_ForB),",
    "Branching2(Endpoint_0_2_ForB),",
    "enum Choice_0_FromAToC {",
    "Branching0(Endpoint_0_0_ForC),",
    "Branching1(Endpoint_0_1_ForC),",
    "Branching2(Endpoint_0_2_ForC),",
    "type Endpoint_0_ForA = MeshedChannels<Message_0_v_0_FromAToB, Message_0_v_0_FromAToC, Ordering_0_v_0_ForA, NameA>;",
    "type Endpoint_0_ForB = MeshedChannels<Message_0_v_0_FromBToA, Message_0_v_0_FromBToC, Ordering_0_v_0_ForB, NameB>;",
    "type Endpoint_0_ForC = MeshedChannels<Message_0_v_0_FromCToA, Message_0_v_0_FromCToB, Ordering_0_v_0_ForC, NameC>;",
    "type Endpoint_0_2_ForA = MeshedChannels<Message_0_2_v_0_FromAToB, Message_0_2_v_0_FromAToC, Ordering_0_2_v_0_ForA, NameA>;",
    "type Endpoint_0_2_ForB = MeshedChannels<Message_0_2_v_0_FromBToA, Message_0_2_v_0_FromBToC, Ordering_0_2_v_0_ForB, NameB>;",
    "type Endpoint_0_2_ForC = MeshedChannels<Message_0_2_v_0_FromCToA, Message_0_2_v_0_FromCToB, Ordering_0_2_v_0_ForC, NameC>;",
    "type Endpoint_0_1_ForA = MeshedChannels<Message_0_1_v_0_FromAToB, Message_0_1_v_0_FromAToC, Ordering_0_1_v_0_ForA, NameA>;",
    "type Endpoint_0_1_ForB = MeshedChannels<Message_0_1_v_0_FromBToA, Message_0_1_v_0_FromBToC, Ordering_0_1_v_0_ForB, NameB>;",
    "type Endpoint_0_1_ForC = MeshedChannels<Message_0_1_v_0_FromCToA, Message_0_1_v_0_FromCToB, Ordering_0_1_v_0_ForC, NameC>;",
    "type Endpoint_0_0_ForA = MeshedChannels<Message_0_0_v_0_FromAToB, Message_0_0_v_0_FromAToC, Ordering_0_0_v_0_ForA, NameA>;",
    "type Endpoint_0_0_ForB = MeshedChannels<Message_0_0_v_0_FromBToA, Message_0_0_v_0_FromBToC, Ordering_0_0_v_0_ForB, NameB>;",
    "type Endpoint_0_0_ForC = MeshedChannels<Message_0_0_v_0_FromCToA, Message_0_0_v_0_FromCToB, Ordering_0_0_v_0_ForC, NameC>;",
    "fn endpoint_a_0_v_0(s: Endpoint_0_ForA, all_clocks: &mut HashMap<char, Instant>) -> Result<(), Box<dyn Error>> { all_clocks.insert('a', Instant::now());",
    "fn endpoint_b_0_v_0(s: Endpoint_0_ForB, all_clocks: &mut HashMap<char, Instant>) -> Result<(), Box<dyn Error>> { all_clocks.insert('a', Instant::now());",
    "fn endpoint_c_0_v_0(s: Endpoint_0_ForC, all_clocks: &mut HashMap<char, Instant>) -> Result<(), Box<dyn Error>> { all_clocks.insert('a', Instant::now());",
    "fn endpoint_a_0_2_v_0(s: Endpoint_0_2_ForA, all_clocks: &mut HashMap<char, Instant>) -> Result<(), Box<dyn Error>> { all_clocks.insert('a', Instant::now());",
    "fn endpoint_a_0_2_v_1(s: Endpoint_0_2_ForA, all_clocks: &mut HashMap<char, Instant>) -> Result<(), Box<dyn Error>> { all_clocks.insert('a', Instant::now());",
    "fn endpoint_a_0_2_v_2(s: Endpoint_0_2_ForA, all_clocks: &mut HashMap<char, Instant>) -> Result<(), Box<dyn Error>> { all_clocks.insert('a', Instant::now());",
    "fn endpoint_b_0_2_v_0(s: Endpoint_0_2_ForB, all_clocks: &mut HashMap<char, Instant>) -> Result<(), Box<dyn Error>> { all_clocks.insert('a', Instant::now());",
    "fn endpoint_b_0_2_v_1(s: Endpoint_0_2_ForB, all_clocks: &mut HashMap<char, Instant>) -> Result<(), Box<dyn Error>> { all_clocks.insert('a', Instant::now());",
    "fn endpoint_b_0_2_v_2(s: Endpoint_0_2_ForB, all_clocks: &mut HashMap<char, Instant>) -> Result<(), Box<dyn Error>> { all_clocks.insert('a', Instant::now());",
    "fn endpoint_c_0_2_v_0(s: Endpoint_0_2_ForC, all_clocks: &mut HashMap<char, Instant>) -> Result<(), Box<dyn Error>> { all_clocks.insert('a', Instant::now());",
    "fn endpoint_c_0_2_v_1(s: Endpoint_0_2_ForC, all_clocks: &mut HashMap<char, Instant>) -> Result<(), Box<dyn Error>> { all_clocks.insert('a', Instant::now());",
    "fn endpoint_c_0_2_v_2(s: Endpoint_0_2_ForC, all_clocks: &mut HashMap<char, Instant>) -> Result<(), Box<dyn Error>> { all_clocks.insert('a', Instant::now());",
    "fn endpoint_a_0_1_v_0(s: Endpoint_0_1_ForA, all_clocks: &mut HashMap<char, Instant>) -> Result<(), Box<dyn Error>> { all_clocks.insert('a', Instant::now());",
    "fn endpoint_a_0_1_v_1(s: Endpoint_0_1_ForA, all_clocks: &mut HashMap<char, Instant>) -> Result<(), Box<dyn Error>> { all_clocks.insert('a', Instant::now());",
    "fn endpoint_b_0_1_v_0(s: Endpoint_0_1_ForB, all_clocks: &mut HashMap<char, Instant>) -> Result<(), Box<dyn Error>> { all_clocks.insert('a', Instant::now());",
    "fn endpoint_b_0_1_v_1(s: Endpoint_0_1_ForB, all_clocks: &mut HashMap<char, Instant>) -> Result<(), Box<dyn Error>> { all_clocks.insert('a', Instant::now());",
    "fn endpoint_c_0_1_v_0(s: Endpoint_0_1_ForC, all_clocks: &mut HashMap<char, Instant>) -> Result<(), Box<dyn Error>> { all_clocks.insert('a', Instant::now());",
    "fn endpoint_c_0_1_v_1(s: Endpoint_0_1_ForC, all_clocks: &mut HashMap<char, Instant>) -> Result<(), Box<dyn Error>> { all_clocks.insert('a', Instant::now());",
    "fn endpoint_a_0_0_v_0(s: Endpoint_0_0_ForA, all_clocks: &mut HashMap<char, Instant>) -> Result<(), Box<dyn Error>> { all_clocks.insert('a', Instant::now());",
    "fn endpoint_b_0_0_v_0(s: Endpoint_0_0_ForB, all_clocks: &mut HashMap<char, Instant>) -> Result<(), Box<dyn Error>> { all_clocks.insert('a', Instant::now());",
    "fn endpoint_c_0_0_v_0(s: Endpoint_0_0_ForC, all_clocks: &mut HashMap<char, Instant>) -> Result<(), Box<dyn Error>> { all_clocks.insert('a', Instant::now());"]

-- /repo/tests/nuscr_mod/correct/recursion.nuscr, Recursion.rs
#guard sameFile
    ["timed global protocol Recursion(role A, role B, role C) {",
    "    TestInit() from A to B within [0;1] using a and resetting ();",
    "    rec Loop {",
    "        Test0() from A to B within [0;1] using a and resetting ();",
    "        choice at A",
    "        {",
    "            Test1() from A to B within [0;1] using a and resetting ();",
    "            Test2(payload) from A to B within [0;1] using a and resetting ();",
    "            Test3() from A to B within [0;1] using a and resetting (a);",
    "            Test4(payload) from A to B within [0;1] using a and resetting (a);",
    "",
    "            continue Loop;",
    "        } or {",
    "            Test1() from A to B within [0;1] using a and resetting ();",
    "            Test2(payload) from A to B within [0;1] using a and resetting ();",
    "            Test3() from A to B within [0;1] using a and resetting (a);",
    "            Test4(payload) from A to B within [0;1] using a and resetting (a);",
    "        }",
    "    }",
    "}"]
    ["struct Payload;",
    "struct Test0;",
    "struct TestInit;",
    "struct Test2 { payload: Payload }",
    "struct Test3;",
    "struct Test1;",
    "struct Test4 { payload: Payload }",
    "type Message_0_v_0_FromAToC = SendTimed<Choice_0_FromAToC, ' ', -2, false, -1, false, ' ', End>;",
    "type Message_0_v_0_FromAToB = SendTimed<TestInit, 'a', 0, true, 1, true, ' ', Message_0_v_1_FromAToB>;",
    "type Message_0_v_1_FromAToB = SendTimed<Test0, 'a', 0, true, 1, true, ' ', Message_0_v_2_FromAToB>;",
    "type Message_0_v_2_FromAToB = SendTimed<Choice_0_FromAToB, ' ', -2, false, -1, false, ' ', End>;",
    "type Message_0_v_0_FromCToB = End;",
    "type Message_0_v_0_FromCToA = RecvTimed<Choice_0_FromAToC, ' ', -2, false, -1, false, ' ', End>;",
    "type Message_0_v_0_FromBToA = RecvTimed<TestInit, 'a', 0, true, 1, true, ' ', Message_0_v_1_FromBToA>;",
    "type Message_0_v_1_FromBToA = RecvTimed<Test0, 'a', 0, true, 1, true, ' ', Message_0_v_2_FromBToA>;",
    "type Message_0_v_2_FromBToA = RecvTimed<Choice_0_FromAToB, ' ', -2, false, -1, false, ' ', End>;",
    "type Message_0_v_0_FromBToC = End;",
    "type Message_0_1_v_0_FromAToB = SendTimed<Test1, 'a', 0, true, 1, true, ' ', Message_0_1_v_1_FromAToB>;",
    "type Message_0_1_v_1_FromAToB = SendTimed<Test2, 'a', 0, true, 1, true, ' ', Message_0_1_v_2_FromAToB>;",
    "type Message_0_1_v_2_FromAToB = SendTimed<Test3, 'a', 0, true, 1, true, 'a', Message_0_1_v_3_FromAToB>;",
    "type Message_0_1_v_3_FromAToB = SendTimed<Test4, 'a', 0, true, 1, true, 'a', Message_0_1_v_4_FromAToB>;",
    "type Message_0_1_v_4_FromAToB = End;",
    "type Message_0_1_v_0_FromAToC = End;",
    "type Message_0_1_v_0_FromBToA = RecvTimed<Test1, 'a', 0, true, 1, true, ' ', Message_0_1_v_1_FromBToA>;",
    "type Message_0_1_v_1_FromBToA = RecvTimed<Test2, 'a', 0, true, 1, true, ' ', Message_0_1_v_2_FromBToA>;",
    "type Message_0_1_v_2_FromBToA = RecvTimed<Test3, 'a', 0, true, 1, true, 'a', Message_0_1_v_3_FromBToA>;",
    "type Message_0_1_v_3_FromBToA = RecvTimed<Test4, 'a', 0, true, 1, true, 'a', Message_0_1_v_4_FromBToA>;",
    "type Message_0_1_v_4_FromBToA = End;",
    "type Message_0_1_v_0_FromBToC = End;",
    "type Message_0_1_v_0_FromCToB = End;",
    "type Message_0_1_v_0_FromCToA = End;",
    "type Message_0_0_v_0_FromCToA = RecvTimed<Choice_0_FromAToC, ' ', -2, false, -1, false, ' ', End>;",
    "type Message_0_0_v_0_FromCToB = End;",
    "type Message_0_0_v_0_FromAToB = SendTimed<Test1, 'a', 0, true, 1, true, ' ', Message_0_0_v_1_FromAToB>;",
    "type Message_0_0_v_1_FromAToB = SendTimed<Test2, 'a', 0, true, 1, true, ' ', Message_0_0_v_2_FromAToB>;",
    "type Message_0_0_v_2_FromAToB = SendTimed<Test3, 'a', 0, true, 1, true, 'a', Message_0_0_v_3_FromAToB>;",
    "type Message_0_0_v_3_FromAToB = SendTimed<Test4, 'a', 0, true, 1, true, 'a', Message_0_0_v_4_FromAToB>;",
    "type Message_0_0_v_4_FromAToB = SendTimed<Test0, 'a', 0, true, 1, true, ' ', Message_0_0_v_5_FromAToB>;",
    "type Message_0_0_v_5_FromAToB = SendTimed<Choice_0_FromAToB, ' ', -2, false, -1, false, ' ', End>;",
    "type Message_0_0_v_0_FromAToC = SendTimed<Choice_0_FromAToC, ' ', -2, false, -1, false, ' ', End>;",
    "type Message_0_0_v_0_FromBToC = End;",
    "type Message_0_0_v_0_FromBToA = RecvTimed<Test1, 'a', 0, true, 1, true, ' ', Message_0_0_v_1_FromBToA>;",
    "type Message_0_0_v_1_FromBToA = RecvTimed<Test2, 'a', 0, true, 1, true, ' ', Message_0_0_v_2_FromBToA>;",
    "type Message_0_0_v_2_FromBToA = RecvTimed<Test3, 'a', 0, true, 1, true, 'a', Message_0_0_v_3_FromBToA>;",
    "type Message_0_0_v_3_FromBToA = RecvTimed<Test4, 'a', 0, true, 1, true, 'a', Message_0_0_v_4_FromBToA>;",
    "type Message_0_0_v_4_FromBToA = RecvTimed<Test0, 'a', 0, true, 1, true, ' ', Message_0_0_v_5_FromBToA>;",
    "type Message_0_0_v_5_FromBToA = RecvTimed<Choice_0_FromAToB, ' ', -2, false, -1, false, ' ', End>;",
    "type Ordering_0_v_0_ForA = RoleB<Ordering_0_v_1_ForA>;",
    "type Ordering_0_v_1_ForA = RoleB<Ordering_0_v_2_ForA>;",
    "type Ordering_0_v_2_ForA = RoleBroadcast;",
    "type Ordering_0_v_0_ForB = RoleA<Ordering_0_v_1_ForB>;",
    "type Ordering_0_v_1_ForB = RoleA<Ordering_0_v_2_ForB>;",
    "type Ordering_0_v_2_ForB = RoleA<RoleEnd>;",
    "type Ordering_0_v_0_ForC = RoleA<RoleEnd>;",
    "type Ordering_0_1_v_0_ForC = RoleEnd;",
    "type Ordering_0_1_v_0_ForA = RoleB<Ordering_0_1_v_1_ForA>;",
    "type Ordering_0_1_v_1_ForA = RoleB<Ordering_0_1_v_2_ForA>;",
    "type Ordering_0_1_v_2_ForA = RoleB<Ordering_0_1_v_3_ForA>;",
    "type Ordering_0_1_v_3_ForA = RoleB<Ordering_0_1_v_4_ForA>;",
    "type Ordering_0_1_v_4_ForA = RoleEnd;",
    "type Ordering_0_1_v_0_ForB = RoleA<Ordering_0_1_v_1_ForB>;",
    "type Ordering_0_1_v_1_ForB = RoleA<Ordering_0_1_v_2_ForB>;",
    "type Ordering_0_1_v_2_ForB = RoleA<Ordering_0_1_v_3_ForB>;",
    "type Ordering_0_1_v_3_ForB = RoleA<Ordering_0_1_v_4_ForB>;",
    "type Ordering_0_1_v_4_ForB = RoleEnd;",
    "type Ordering_0_0_v_0_ForC = RoleA<RoleEnd>;",
    "type Ordering_0_0_v_0_ForA = RoleB<Ordering_0_0_v_1_ForA>;",
    "type Ordering_0_0_v_1_ForA = RoleB<Ordering_0_0_v_2_ForA>;",
    "type Ordering_0_0_v_2_ForA = RoleB<Ordering_0_0_v_3_ForA>;",
    "type Ordering_0_0_v_3_ForA = RoleB<Ordering_0_0_v_4_ForA>;",
    "type Ordering_0_0_v_4_ForA = RoleB<Ordering_0_0_v_5_ForA>;",
    "type Ordering_0_0_v_5_ForA = RoleBroadcast;",
    "type Ordering_0_0_v_0_ForB = RoleA<Ordering_0_0_v_1_ForB>;",
    "type Ordering_0_0_v_1_ForB = RoleA<Ordering_0_0_v_2_ForB>;",
    "type Ordering_0_0_v_2_ForB = RoleA<Ordering_0_0_v_3_ForB>;",
    "type Ordering_0_0_v_3_ForB = RoleA<Ordering_0_0_v_4_ForB>;",
    "type Ordering_0_0_v_4_ForB = RoleA<Ordering_0_0_v_5_ForB>;",
    "type Ordering_0_0_v_5_ForB = RoleA<RoleEnd>;",
    "enum Choice_0_FromAToB {",
    "Branching0(Endpoint_0_0_ForB),",
    "Branching1(Endpoint_0_1_ForB),",
    "enum Choice_0_FromAToC {",
    "Branching0(Endpoint_0_0_ForC),",
    "Branching1(Endpoint_0_1_ForC),",
    "type Endpoint_0_ForA = MeshedChannels<Message_0_v_0_FromAToB, Message_0_v_0_FromAToC, Ordering_0_v_0_ForA, NameA>;",
    "type Endpoint_0_ForB = MeshedChannels<Message_0_v_0_FromBToA, Message_0_v_0_FromBToC, Ordering_0_v_0_ForB, NameB>;",
    "type Endpoint_0_ForC = MeshedChannels<Message_0_v_0_FromCToA, Message_0_v_0_FromCToB, Ordering_0_v_0_ForC, NameC>;",
    "type Endpoint_0_1_ForA = MeshedChannels<Message_0_1_v_0_FromAToB, Message_0_1_v_0_FromAToC, Ordering_0_1_v_0_ForA, NameA>;",
    "type Endpoint_0_1_ForB = MeshedChannels<Message_0_1_v_0_FromBToA, Message_0_1_v_0_FromBToC, Ordering_0_1_v_0_ForB, NameB>;",
    "type Endpoint_0_1_ForC = MeshedChannels<Message_0_1_v_0_FromCToA, Message_0_1_v_0_FromCToB, Ordering_0_1_v_0_ForC, NameC>;",
    "type Endpoint_0_0_ForA = MeshedChannels<Message_0_0_v_0_FromAToB, Message_0_0_v_0_FromAToC, Ordering_0_0_v_0_ForA, NameA>;",
    "type Endpoint_0_0_ForB = MeshedChannels<Message_0_0_v_0_FromBToA, Message_0_0_v_0_FromBToC, Ordering_0_0_v_0_ForB, NameB>;",
    "type Endpoint_0_0_ForC = MeshedChannels<Message_0_0_v_0_FromCToA, Message_0_0_v_0_FromCToB, Ordering_0_0_v_0_ForC, NameC>;",
    "fn endpoint_a_0_v_0(s: Endpoint_0_ForA, all_clocks: &mut HashMap<char, Instant>) -> Result<(), Box<dyn Error>> { all_clocks.insert('a', Instant::now());",
    "fn endpoint_b_0_v_0(s: Endpoint_0_ForB, all_clocks: &mut HashMap<char, Instant>) -> Result<(), Box<dyn Error>> { all_clocks.insert('a', Instant::now());",
    "fn endpoint_c_0_v_0(s: Endpoint_0_ForC, all_clocks: &mut HashMap<char, Instant>) -> Result<(), Box<dyn Error>> {",
    "fn endpoint_a_0_1_v_0(s: Endpoint_0_1_ForA, all_clocks: &mut HashMap<char, Instant>) -> Result<(), Box<dyn Error>> { all_clocks.insert('a', Instant::now());",
    "fn endpoint_a_0_1_v_1(s: Endpoint_0_1_ForA, all_clocks: &mut HashMap<char, Instant>) -> Result<(), Box<dyn Error>> { all_clocks.insert('a', Instant::now());",
    "fn endpoint_b_0_1_v_0(s: Endpoint_0_1_ForB, all_clocks: &mut HashMap<char, Instant>) -> Result<(), Box<dyn Error>> { all_clocks.insert('a', Instant::now());",
    "fn endpoint_b_0_1_v_1(s: Endpoint_0_1_ForB, all_clocks: &mut HashMap<char, Instant>) -> Result<(), Box<dyn Error>> { all_clocks.insert('a', Instant::now());",
    "fn endpoint_c_0_1_v_0(s: Endpoint_0_1_ForC, all_clocks: &mut HashMap<char, Instant>) -> Result<(), Box<dyn Error>> {",
    "fn endpoint_c_0_1_v_1(s: Endpoint_0_1_ForC, all_clocks: &mut HashMap<char, Instant>) -> Result<(), Box<dyn Error>> {",
    "fn endpoint_a_0_0_v_0(s: Endpoint_0_0_ForA, all_clocks: &mut HashMap<char, Instant>) -> Result<(), Box<dyn Error>> { all_clocks.insert('a', Instant::now());",
    "fn endpoint_b_0_0_v_0(s: Endpoint_0_0_ForB, all_clocks: &mut HashMap<char, Instant>) -> Result<(), Box<dyn Error>> { all_clocks.insert('a', Instant::now());",
    "fn endpoint_c_0_0_v_0(s: Endpoint_0_0_ForC, all_clocks: &mut HashMap<char, Instant>) -> Result<(), Box<dyn Error>> {"]

-- /repo/tests/nuscr_mod/correct/nested_choice.nuscr: an error
#guard refused
    ["timed global protocol NestedChoice(role A, role B, role C) {",
    "    choice at A",
    "    {",
    "        choice at A",
    "        {",
    "            Test1() from A to B within [0;1] using a and resetting ();",
    "            Test2(payload) from A to B within [0;1] using a and resetting ();",
    "            Test3() from A to B within [0;1] using a and resetting (a);",
    "            Test4(payload) from A to B within [0;1] using a and resetting (a);",
    "        } or {",
    "            Test1() from A to B within [0;1] using a and resetting ();",
    "            Test2(payload) from A to B within [0;1] using a and resetting ();",
    "            Test3() from A to B within [0;1] using a and resetting (a);",
    "            Test4(payload) from A to B within [0;1] using a and resetting (a);",
    "        }",
    "    } or {",
    "        choice at A",
    "        {",
    "            choice at A",
    "            {",
    "                Test1() from A to B within [0;1] using a and resetting ();",
    "                Test2(payload) from A to B within [0;1] using a and resetting ();",
    "                Test3() from A to B within [0;1] using a and resetting (a);",
    "                Test4(payload) from A to B within [0;1] using a and resetting (a);",
    "            } or {",
    "                Test1() from A to B within [0;1] using a and resetting ();",
    "                Test2(payload) from A to B within [0;1] using a and resetting ();",
    "                Test3() from A to B within [0;1] using a and resetting (a);",
    "                Test4(payload) from A to B within [0;1] using a and resetting (a);",
    "            }",
    "        } or {",
    "            Test1() from A to B within [0;1] using a and resetting ();",
    "            Test2(payload) from A to B within [0;1] using a and resetting ();",
    "            Test3() from A to B within [0;1] using a and resetting (a);",
    "            Test4(payload) from A to B within [0;1] using a and resetting (a);",
    "        }",
    "    }",
    "}"]

-- /repo/tests/nuscr_mod/failing/wrong_interval.nuscr: an error
#guard refused
    ["timed global protocol Basic(role A, role B, role C) {",
    "    Test1() from A to B within [4;2] using a and resetting ();",
    "    Test1() from A to B within [0;2] using a and resetting ();",
    "}"]

-- /repo/tests/nuscr_mod/failing/wrong_consecutive_intervals.nuscr: an error
#guard refused
    ["timed global protocol Basic(role A, role B, role C) {",
    "    Test1() from A to B within [4;5] using a and resetting ();",
    "    Test0() from A to B within [0;2] using a and resetting ();",
    "}"]

end Verif.NuscrTest
