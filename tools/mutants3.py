M=[
("Close","accepts","| .checkCancel, .cancel => false","| .checkCancel, .cancel => true","C10: cancel is reported by close_mpst_check_cancel","C10"),
("Gen","forkStacks","def forkStacks (n : Nat) : List Stmt := (rangeIncl 1 n).map fun i => .newStack i i","def forkStacks (n : Nat) : List Stmt := (rangeIncl 1 n).map fun i => .newStack i (n + 1 - i)","C12: role i gets stack i","C12"),
("Types","Stack.dual",".toAll a d l r => .toAll a (!d) l.dual r.dual",".toAll a d l r => .toAll a (!d) r.dual l.dual","C01: branches of a stack keep their place","C01"),
("Branching","strLt","if a.toNat < b.toNat then true else if b.toNat < a.toNat then false else strLt as bs","if a.toNat ≤ b.toNat then true else if b.toNat < a.toNat then false else strLt as bs","C37: order of names","C37"),
("Branching","strLt","| _, [] => false\n  | [], _ :: _ => true","| _, [] => false\n  | [], _ :: _ => false","C37: a prefix sorts first","C37"),
("Branching","binarySearch","some (names.takeWhile fun x => strLt x name).length","some (names.length - 1)","C37: the report names the first larger variant","C37"),
("Branching","loop","else loop (names ++ [name]) rest","else loop (name :: names) rest","C37: compare with the previous variant","C37"),
("Branching","loop","strLt name last).getD false","strLt last name).getD false","C37: sorted enums are accepted","C37"),
("Branching","branchingVariants","| .other => .notAnEnum","| .other => .accepted","C37: only enums are accepted","C37"),
("Broadcast","receiverAt","if i ≥ e then i + 1 else i","if i > e then i + 1 else i","C32: the chooser skips itself","C32"),
("Broadcast","fresh","(List.range' 2 (n - 1)).reverse","(List.range' 1 (n - 1)).reverse","C32: fresh Ends of the participants","C32"),
("Broadcast","fresh","(List.range' 2 (n - 1)).reverse","(List.range' 2 (n - 1))","none: the order of the fresh Ends is immaterial (closed forms change)","C32"),
("Broadcast","handOutLoop","some ((receiverAt e i, j) :: l, r)","some ((receiverAt e i, i) :: l, r)","C32: every fresh End handed out once","C32"),
("Broadcast","handOut","(List.range' 2 (n - 2))","(List.range' 2 (n - 3))","C32: every participant gets one","C32"),
("Broadcast","partnerAt","if k < p then k else k + 1","if k ≤ p then k else k + 1","C31: close with every partner","C31"),
("Broadcast","closeActs","(List.range' 1 (n - 1)).map (fun k => .recv (partnerAt p k))","(List.range' 2 (n - 2)).map (fun k => .recv (partnerAt p k))","C31: close waits for the broadcaster","C31"),
("Broadcast","S.init","slot := fun k => (0, k + 1)","slot := fun k => (0, k)","C32: slot k is connected to role k+1","C3"),
("Broadcast","S.init","flag := fun _ => true","flag := fun _ => false","C31: the broadcaster waits for every participant","C31"),
("Broadcast","bsend","| none => some (upd s.toP (s.slot k) (some x))","| none => some s.toP","C31: the broadcaster's messages arrive","C31"),
("Broadcast","Step.offer","toB := upd s.toB (s.gen p, p) (some (.offer c)),\n","toB := upd s.toB (s.gen p, p) (some (.offer (s.gen p, p))),\n","C32: the fresh End is offered, not the old one","C32"),
("Broadcast","Step.offer","gen := upd s.gen p (s.gen p + 1), pc := upd s.pc p .active }","pc := upd s.pc p .active }","C32: the participant goes on with its new mesh","C3"),
("Broadcast","Step.check","s.toP (s.gen p, p) = some .cancel →\n      Step P s (.check p) { s with pc := upd s.pc p .down }","s.toP (s.gen p, p) = some .cancel →\n      Step P s (.check p) s","C31: a check that finds Cancel stops","C31"),
("Broadcast","Step.raise","toB := upd s.toB (s.gen p, p) (some .cancel), raised","toB := upd s.toB (s.gen p, p) (some .stop), raised","C31: send_cancel sends Cancel","C31"),
("Broadcast","Step.actRecvB","(if x = .cancel then .down else .closing rest)","(.closing rest)","C31: close notices Cancel","C31"),
("Broadcast","Step.pollCancel","toB := upd s.toB (s.slot k) none, b := .bcast 1 }","toB := upd s.toB (s.slot k) none, b := .bcast 2 }","C31: Cancel is sent on every slot","C31"),
("Broadcast","Step.pollCancel","toB := upd s.toB (s.slot k) none, b := .bcast 1 }","toB := upd s.toB (s.slot k) none, b := .poll }","C31: Cancel is forwarded","C31"),
("Broadcast","Step.pollStop","b := if s.flag k then .reply k else .down }","b := .poll }","C31: Stop is answered","C31"),
("Broadcast","Step.pollOffer","slot := upd s.slot k c }","slot := s.slot }","C32: the slot is replaced","C32"),
("Broadcast","Step.reply","flag := upd s.flag k false, b := .poll }","flag := s.flag, b := .poll }","C31: the broadcaster ends when all closed","C31"),
("Broadcast","Step.bcast","b := .bcast (k + 1) }","b := .bcast (k + 2) }","C31: Cancel is sent on every slot","C31"),
("Broadcast","Step.finish","(∀ k, 1 ≤ k → k < P.n → s.flag k = false) →","(∃ k, 1 ≤ k ∧ k < P.n ∧ s.flag k = false) →","C31: the broadcaster waits for all","C31"),
("Nuscr","decFuel","Char.ofNat (48 + n % 10)","Char.ofNat (48 + n % 9)","C29: names are unique","C29"),
("Nuscr","tooEarly","if l < b then","if l ≤ b then","C30: windows that touch are accepted","C30"),
("Nuscr","tooEarly",".ok (decide (r < b))",".ok (decide (r ≤ b))","C30: windows that touch are accepted","C30"),
("Nuscr","checkRole","if m.resetText ≠ m.clock then","if m.resetText = m.clock then","C30: reset forgets the bound","C30"),
("Nuscr","checkRole","| none => .ok (upd bs role (upd clocks m.clock m.bound))","| none => .ok bs","C43: the first bound of a clock is recorded","C43"),
("Nuscr","Msg.bound","(m.rightBound, m.rightBracket == .closing)","(m.leftBound, m.rightBracket == .closing)","C43: right bounds are compared","C43"),
("Nuscr","previousMessage","checkRole m.receiver m bs","checkRole m.sender m bs","C43: the receiver is checked","C43"),
("Nuscr","previousMessage","if ¬ Check.strLe m.leftBound m.rightBound then","if ¬ Check.strLe m.rightBound m.leftBound then","C28: crossed bounds are rejected","C28"),
("Nuscr","Msg.params","left := m.leftBound","left := m.rightBound","C29: the window is that of the message","C29"),
("Nuscr","Msg.params","rightIncl := m.rightBracket == .closing","rightIncl := m.rightBracket == .opening","C29: inclusive right bounds","C29"),
("Nuscr","senderMessages","Rhs.send (m.params title) (messageName idx (n + 1) m.sender m.receiver))","Rhs.recv (m.params title) (messageName idx (n + 1) m.sender m.receiver))","C29: the sender sends","C29"),
("Nuscr","receiverMessages","Rhs.recv (m.params title) (messageName idx (n + 1) m.receiver m.sender))","Rhs.recv (m.params title) (messageName idx n m.receiver m.sender))","C29: aliases are chained","C29"),
("Nuscr","pushStack","StackRhs.role other (orderingName idx (n + 1) role)","StackRhs.role role (orderingName idx (n + 1) role)","C29: the stack names the partner","C29"),
("Nuscr","messagesAndStacks","pushStack idx m.receiver m.sender t","pushStack idx m.sender m.receiver t","C29: the receiver's stack grows","C29"),
("Nuscr","updateMessages","else if m.receiver ∉ roles then .error .unknownRole\n","else if m.sender ∉ roles then .error .unknownRole\n","C28: unknown receivers are rejected","C2"),
("Nuscr","updateMessages","else if m.sender = m.receiver then .error .sameRole\n","else if m.sender = m.receiver then .ok t\n","C28: messages to oneself are rejected","C2"),
("Nuscr","initTree","firstStack := fun p => if p ∈ roles then some (orderingName idx 0 p)","firstStack := fun p => if p ∈ roles then some (orderingName idx 1 p)","C29: the first stack","C29"),
("Nuscr","initTree","endpoints := fun p => if p ∈ roles then some [endpointName idx p]","endpoints := fun p => if p ∈ roles then some []","C29: one endpoint per role","C29"),
("Nuscr","header","roles := Check.sortBy Check.strLe (g.roles ++ roles) }","roles := g.roles ++ roles }","C29: roles are sorted","C29"),
("Nuscr","processLine","if g.opening < g.closing then .error .tooManyClosing","if g.opening + 1 < g.closing then .error .tooManyClosing","C36: too many closing brackets are reported","C36"),
("Nuscr","processLine","closing := g.closing + line.closes }\n    if","closing := g.closing }\n    if","C36: closing brackets are counted","C36"),
("Nuscr","genSessions","| some (c :: cs) => [(c :: cs, Rhs.fin)]","| some (c :: cs) => []","C29: the last alias is defined","C29"),
("Nuscr","genStacks","| some (c :: cs) => [(c :: cs, StackRhs.fin)]","| some (c :: cs) => [(c :: cs, StackRhs.broadcast)]","C29: the stack ends with RoleEnd","C29"),
("Nuscr","genEndpoints","(roles.filter (· ≠ p)).map","roles.map","C29: one session per partner","C29"),
("Nuscr","generator","if d.glob.opening ≠ d.glob.closing then .error .unbalanced","if d.glob.opening < d.glob.closing then .error .unbalanced","C36: unclosed brackets are reported","C36"),
("Nuscr","generator","allStacks d.glob.roles d.main,\n","[],\n","C29: stack types are generated","C29"),
]
