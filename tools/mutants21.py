M=[
("Ready3","sendRow","  | .function, .B, .C => some ⟨2, .C, .B, 2⟩\n  | .function, .C, .B => some ⟨2, .B, .C, 2⟩\n  | .method, .A, .B => some ⟨1, .B, .A, 1⟩\n  | .method, .A, .C => some ⟨2, .C, .A, 2⟩\n  | .method, .B, .A => some ⟨1, .A, .B, 1⟩\n  | .method, .B, .C => some ⟨2, .C, .B, 2⟩\n  | .method, .C, .A => some ⟨1, .A, .C, 1⟩\n  | .method, .C, .B => some ⟨2, .B, .C, 2⟩\n  | _, .A, .A | _, .B, .B | _, .C, .C => none\n\n/-- Receptions, by","  | .function, .B, .C => some ⟨1, .C, .B, 1⟩\n  | .function, .C, .B => some ⟨2, .B, .C, 2⟩\n  | .method, .A, .B => some ⟨1, .B, .A, 1⟩\n  | .method, .A, .C => some ⟨2, .C, .A, 2⟩\n  | .method, .B, .A => some ⟨1, .A, .B, 1⟩\n  | .method, .B, .C => some ⟨2, .C, .B, 2⟩\n  | .method, .C, .A => some ⟨1, .A, .C, 1⟩\n  | .method, .C, .B => some ⟨2, .B, .C, 2⟩\n  | _, .A, .A | _, .B, .B | _, .C, .C => none\n\n/-- Receptions, by","what B sends to C goes to A (type and index both wrong)","C61"),
("Ready3","sendRow","  | .method, .C, .A => some ⟨1, .A, .C, 1⟩\n  | .method, .C, .B => some ⟨2, .B, .C, 2⟩\n  | _, .A, .A | _, .B, .B | _, .C, .C => none\n\n/-- Receptions, by","  | .method, .C, .A => some ⟨1, .A, .C, 2⟩\n  | .method, .C, .B => some ⟨2, .B, .C, 2⟩\n  | _, .A, .A | _, .B, .B | _, .C, .C => none\n\n/-- Receptions, by","wrong index in one send method","C61"),
("Ready3","recvRow","  | .method, .C, .B => some ⟨2, .B, .C, 2⟩\n  | _, .A, .A | _, .B, .B | _, .C, .C => none\n\n/-- Receptions of","  | .method, .C, .B => some ⟨2, .A, .C, 2⟩\n  | _, .A, .A | _, .B, .B | _, .C, .C => none\n\n/-- Receptions of","two methods recv for one type","C61"),
("Ready3","recvAllRow","  | .method, .C, .B => some ⟨2, .B, .C, 2⟩\n  | _, .A, .A | _, .B, .B | _, .C, .C => none\n\n/-- The types","  | .method, .C, .B => some ⟨1, .B, .C, 1⟩\n  | _, .A, .A | _, .B, .B | _, .C, .C => none\n\n/-- The types","the offer of C to B reads the session with A","C61"),
("Ready3","recvAllRow","  | .method, .A, .C => some ⟨2, .C, .A, 2⟩\n  | .method, .B, .A => some ⟨1, .A, .B, 1⟩\n  | .method, .B, .C => some ⟨2, .C, .B, 2⟩\n  | .method, .C, .A => some ⟨1, .A, .C, 1⟩\n  | .method, .C, .B => some ⟨2, .B, .C, 2⟩\n  | _, .A, .A | _, .B, .B | _, .C, .C => none\n\n/-- The types","  | .method, .A, .C => some ⟨2, .C, .A, 2⟩\n  | .method, .B, .A => some ⟨1, .C, .B, 1⟩\n  | .method, .B, .C => some ⟨2, .C, .B, 2⟩\n  | .method, .C, .A => some ⟨1, .A, .C, 1⟩\n  | .method, .C, .B => some ⟨2, .B, .C, 2⟩\n  | _, .A, .A | _, .B, .B | _, .C, .C => none\n\n/-- The types","wrong stack in one recv_from_all","C61"),
("Ready3","offerRow",".function, .C, .A => some ⟨1, .var 5, .A, .C, (.C, .A)⟩",".function, .C, .A => some ⟨1, .var 5, .A, .C, (.C, .B)⟩","an offer calls the reception of another sender","C61"),
("Ready3","offerRow",".method, .B, .C => some ⟨2, .fin, .C, .B, (.B, .C)⟩",".method, .B, .C => some ⟨2, .var 5, .C, .B, (.B, .C)⟩","a method offers with an unfinished session","C61"),
("Ready3","offerRow",".method, .A, .C => some ⟨2, .fin, .C, .A, (.A, .C)⟩",".method, .A, .C => some ⟨1, .fin, .C, .A, (.A, .C)⟩","the offer asks for the choice on the wrong session","C61"),
("Ready3","fieldsOf3","if i = index then (i, .fresh) else (i, .old i)","if i = index then (i, .fresh) else (i, .old index)","the other session is not handed on","C61"),
("Ready3","fieldsOf3","if i = index then (i, .fresh) else (i, .old i)","if i = index then (3 - i, .fresh) else (3 - i, .old i)","sessions are swapped","C61"),
("Ready3","recvAllOp","body := [.recv w.index, .popLeft]","body := [.recv w.index, .pop]","an offer takes the stack for one message","C61"),
("Ready3","recvAllOp","stack := .two (allTy w.head) .fin .fin\n      name := nameTy w.name\n      body := [.recv","stack := .two (roleTy w.head) .fin .fin\n      name := nameTy w.name\n      body := [.recv","recv_from_all for another stack","C61"),
("Ready3","offerOp","ret := .branches [1, 2] 1 [3, 4] 2","ret := .branches [1, 2] 1 [1, 2] 2","both branches take the left mesh","C61"),
("Ready3","offerOp","stack := .two (allTy w.head) .fin .fin\n        name","stack := .two (allTy w.name) .fin .fin\n        name","an offer for the stack of the receiver","C61"),
("Ready3","sendOp","stack := .role (roleTy w.head) (.var 0)\n      name := nameTy w.name\n      body := [.send","stack := .role (roleTy w.name) (.var 0)\n      name := nameTy w.name\n      body := [.send","send asks for its own role on the stack","C61"),
("Ready3","sendOp","body := [.send w.index, .pop]","body := [.sendCanceled w.index, .pop]","send waits for the cancel check","C61"),
("Ready3","recvOp","ret := .pair [.var 1, .var 2] (.var 0) }\n\n/-- `recv_mpst_{r}_all","ret := .pair [.var 2, .var 1] (.var 0) }\n\n/-- `recv_mpst_{r}_all","declared sessions are swapped","C61"),
("Ready3","nameTy",'.B => "NameB".toList','.B => "NameA".toList',"A and B have the same name","C61"),
("Ready3","allTy",'.C => "RoleAlltoC".toList','.C => "RoleAlltoB".toList',"offers from B and C have the same stack","C61"),
("Ready3","shortArgs","| true => (3, 2)","| true => (3, 1)","create_.._2 is create_.._1","C61"),
("Ready3","calleeOf","recvAllOp .method w.name w.head","recvAllOp .method w.head w.name","the method calls recv_from_all of the partner","C61"),
]
