M = [
("Mesh","Step.send","queue := upd s.queue (s.gen r, r, q) (s.queue (s.gen r, r, q) ++ [.data m]) }","queue := upd s.queue (s.gen r, r, q) (.data m :: s.queue (s.gen r, r, q)) }","C34: messages keep their order","C34"),
("Mesh","Step.send","queue := upd s.queue (s.gen r, r, q) (s.queue (s.gen r, r, q) ++ [.data m]) }","queue := upd s.queue (s.gen r, q, r) (s.queue (s.gen r, q, r) ++ [.data m]) }","C34: messages go to the partner","C34"),
("Mesh","Step.send","queue := upd s.queue (s.gen r, r, q) (s.queue (s.gen r, r, q) ++ [.data m]) }","queue := s.queue }","C34: a message sent arrives","C34"),
("Mesh","Step.send","pos := upd s.pos r (.mesh ⟨upd M.sess q T, k⟩),\n        queue := upd s.queue (s.gen r, r, q)","pos := upd s.pos r (.mesh ⟨upd M.sess q T, M.stack⟩),\n        queue := upd s.queue (s.gen r, r, q)","C34: the stack is popped by send","C34"),
("Mesh","Step.send","pos := upd s.pos r (.mesh ⟨upd M.sess q T, k⟩),\n        queue := upd s.queue (s.gen r, r, q)","pos := upd s.pos r (.mesh ⟨M.sess, k⟩),\n        queue := upd s.queue (s.gen r, r, q)","C34: the session advances with send","C34"),
("Mesh","Step.recv","queue := upd s.queue (s.gen r, q, r) l }\n  /-- `choose","queue := s.queue }\n  /-- `choose","C34: a received message is taken out","C34"),
("Mesh","Step.recv","pos := upd s.pos r (.mesh ⟨upd M.sess q T, k⟩),\n        queue := upd s.queue (s.gen r, q, r) l }\n  /-- `choose","pos := upd s.pos r (.mesh ⟨upd M.sess r T, k⟩),\n        queue := upd s.queue (s.gen r, q, r) l }\n  /-- `choose","C34: recv advances the session with the sender","C34"),
("Mesh","Step.recv","s.queue (s.gen r, q, r) = .data x :: l →","s.queue (s.gen r, r, q) = .data x :: l →","C34: recv takes what the partner sent","C34"),
("Mesh","Step.recv","s.queue (s.gen r, q, r) = .data x :: l →","s.queue (s.gen r, q, r) = l ++ [.data x] →","C34: recv takes the oldest message","C34"),
("Mesh","others","decide (q ≠ r)","decide (q < r)","C34: all partners are told of the branch","C34"),
("Mesh","others","List.range' 1 n","List.range' 1 (n - 1)","C34: the last role is told of the branch","C34"),
("Mesh","others","List.range' 1 n","List.range' 0 n","C34: roles are numbered from one","C34"),
("Mesh","Step.tell","queue := upd s.queue (s.gen r, r, q) (s.queue (s.gen r, r, q) ++ [.branch N]) }","queue := s.queue }","C34: partners learn the branch","C34"),
("Mesh","Step.tell","queue := upd s.queue (s.gen r, r, q) (s.queue (s.gen r, r, q) ++ [.branch N]) }","queue := upd s.queue (s.gen r, r, q) (s.queue (s.gen r, r, q) ++ [.branch 0]) }","C34: partners learn the branch taken","C34"),
("Mesh","Step.tell","pos := upd s.pos r (.telling N rest),","pos := upd s.pos r (.telling N (q :: rest)),","C34: each partner is told once","C34"),
("Mesh","Step.enter","pos := upd s.pos r (.mesh (Y.types N r)), gen := upd s.gen r (s.gen r + 1) }","pos := upd s.pos r (.mesh (Y.types 0 r)), gen := upd s.gen r (s.gen r + 1) }","C34: the chooser takes the branch it announced","C34"),
("Mesh","Step.enter","pos := upd s.pos r (.mesh (Y.types N r)), gen := upd s.gen r (s.gen r + 1) }","pos := upd s.pos r (.mesh (Y.types N r)) }","C34: a choice makes fresh channels for the chooser","C34"),
("Mesh","Step.enter","s.pos r = .telling N [] →","s.pos r = .telling N rest →","C34: the chooser goes on only after telling everybody","C34"),
("Mesh","Step.heed","pos := upd s.pos r (.mesh (Y.types N r)), gen := upd s.gen r (s.gen r + 1),\n        queue","pos := upd s.pos r (.mesh (Y.types N q)), gen := upd s.gen r (s.gen r + 1),\n        queue","C34: a role goes on with its own types","C34"),
("Mesh","Step.heed","pos := upd s.pos r (.mesh (Y.types N r)), gen := upd s.gen r (s.gen r + 1),\n        queue","pos := upd s.pos r (.mesh (Y.types N r)),\n        queue","C34: a choice makes fresh channels for the receivers","C34"),
("Mesh","Step.decide","Step Y s (.act r (.decide N)) { s with pos := upd s.pos r (.telling N (others Y.n r)) }","Step Y s (.act r (.decide N)) { s with pos := upd s.pos r (.telling N []) }","C34: partners are told","C34"),
("Mesh","Step.decide","N ∈ bs →","N ∉ bs →","C34: only branches of the type can be taken","C34"),
("Mesh","S.init","fun r => .mesh (Y.types root r)","fun r => .mesh (Y.types root 1)","C34: every role starts with its own type","C34"),
("../Spec/Global","sessOf","if c.p = r ∧ c.q = q then .send c.m","if c.p = r then .send c.m","C34: only messages to this partner","C34"),
("../Spec/Global","sessOf","else if c.p = q ∧ c.q = r then .recv c.m (sessOf r q cs t)","else if c.p = q ∧ c.q = r then .send c.m (sessOf r q cs t)","C34: the receiver receives","C34"),
("../Spec/Global","sessOf","if p = r then .sendChoice bs else if p = q then .recvChoice bs else .fin","if p = r then .recvChoice bs else if p = q then .sendChoice bs else .fin","C34: the chooser sends","C34"),
("../Spec/Global","sessOf","else if p = q then .recvChoice bs else .fin","else if p = q then .recvChoice bs else .recvChoice bs","C34: only the chooser announces","C34"),
("../Spec/Global","stackOf","if c.p = r then .role c.q (stackOf r cs t)","if c.p = r then .role c.p (stackOf r cs t)","C34: the stack names the receiver","C34"),
("../Spec/Global","stackOf","else if c.q = r then .role c.p (stackOf r cs t)\n    else stackOf r cs t","else stackOf r cs t","C34: the stack names all partners","C34"),
("../Spec/Global","stackOf","if p = r then .broadcast else .role p .fin","if p = r then .role p .fin else .broadcast","C34: the chooser broadcasts","C34"),
]
