# Definitions that no earlier list of wrong versions touched.
M = [
# Baking
("Baking","roleId","def roleId (a : Str) : Str := ['R', 'o', 'l', 'e'] ++ a","def roleId (a : Str) : Str := ['N', 'a', 'm', 'e'] ++ a","a role and its name get the same struct","C54"),
("Baking","toAllId","++ a ++ ['t', 'o', 'A', 'l', 'l']","++ a ++ ['D', 'u', 'a', 'l']","the stack of a choice clashes with the dual of the role","C54"),
("Baking","allToId","['R', 'o', 'l', 'e', 'A', 'l', 'l', 't', 'o'] ++ a","['R', 'o', 'l', 'e'] ++ a","the stack of an offer is the one of a reception","C54"),
("Baking","meshP","(sessions ++ [stack, name])","(sessions ++ [name, stack])","name and stack exchanged in every block","C54"),
("Baking","consts","def consts : List Pat := (List.range 6)","def consts : List Pat := (List.range 5)","the constant RESET is left out of timed types","C54"),
("Baking","constParams","if timed then (List.range 6).map .C else []","if timed then (List.range 5).map .C else []","a constant of a timed block is not declared","C54"),
("Baking","nameStructs","roles.map fun a => .struct (nameId a)","roles.tail.map fun a => .struct (nameId a)","the name of the first role has no struct","C54"),
("Baking","chooseMacros","roles.map fun a => .macroRules (macroId a)","roles.dropLast.map fun a => .macroRules (macroId a)","no choice macro for the last role","C54"),
("Baking","offerCancelId","\"offer_cancel_mpst\".toList","\"offer_mpst\".toList","the cancelling offer macro has the name of the plain one","C54"),
("Baking","groupIdents","| .group g :: ts => idents g ++ groupIdents ts","| .group g :: ts => idents g","only the first role in parentheses is read","C54"),
("Baking","rolesWithCommas","[.ident a, .punct ',']","[.punct ',']","the roles are not handed on","C54"),
("Baking","rolesInGroups","roles.map fun a => .group [.ident a]","roles.map fun a => .group []","the roles are not handed on","C54"),
("Baking","groupNames","| .ident s :: ts => (groupNames ts).map (s :: ·)","| .ident s :: _ => some [s]","a group with two names is cut","C54"),
# Broadcast
("Broadcast","PC.up","def PC.up : PC → Bool\n  | .ok => false","def PC.up : PC → Bool\n  | .ok => true","a participant that closed keeps its endpoints","C31"),
("Broadcast","BPC.up","def BPC.up : BPC → Bool\n  | .ok => false\n  | .down => false","def BPC.up : BPC → Bool\n  | .ok => false\n  | .down => true","a broadcaster that panicked keeps its slots","C31"),
("Broadcast","upd2","if x = a ∧ y = b then v else f x y","if x = a then v else f x y","a message for one participant is put in every inbox","C31"),
("Broadcast","receiverAt","if i ≥ e then i + 1 else i","if i > e then i + 1 else i","the mesh on the chooser's own slot","C32"),
("Broadcast","Step.keep","(.holding (s.gen p + 1, last))","(.holding (s.gen p, last))","the chooser offers an old end","C32"),
("Broadcast","Step.pollOffer","s.toB (s.slot k) = some (.offer c) →\n      Step P s (.poll k) { s with toB := upd s.toB (s.slot k) none, slot := upd s.slot k c }","s.toB (s.slot k) = some (.offer c) →\n      Step P s (.poll k) { s with toB := upd s.toB (s.slot k) none }","the broadcaster forgets the offered end","C32"),
("Broadcast","Step.bcastEnd","s.b = .bcast k → P.n ≤ k →\n      Step P s .bcast { s with b := .down }","s.b = .bcast k → P.n ≤ k →\n      Step P s .bcast { s with b := .poll }","the broadcaster goes on after a cancellation","C31"),
# CheckClean / CheckGraph / CheckText
("CheckClean","replaceFrom","new ++ replaceFrom pat new (pat.length - 1) t","new ++ replaceFrom pat new 0 t","replacement restarts inside the occurrence","C51"),
("CheckClean","captures","searchAll cleanClasses r (s.length + 1) s","searchAll cleanClasses r 1 s","only the first path is cleaned","C51"),
("CheckClean","look","(m.find? fun e => e.1 == k).map (·.2)","(m.find? fun e => e.1 != k).map (·.2)","the wrong entry is looked up","C51"),
("CheckClean","put","m.filter (fun e => e.1 != k) ++ [(k, v)]","m ++ [(k, v)]","insertion keeps the old value","C51"),
("CheckClean","dedup","if a = b then dedup (b :: l) else a :: dedup (b :: l)","a :: dedup (b :: l)","repetitions are kept","C51"),
("CheckGraph","Graph.addNode","({ g with nodes := g.nodes ++ [l] }, g.nodes.length)","({ g with nodes := g.nodes ++ [l] }, g.nodes.length + 1)","the index of a node is off by one","C26"),
("CheckGraph","Graph.addEdge","g.edges ++ [(a, b, l)]","g.edges ++ [(b, a, l)]","edges are reversed","C26"),
("CheckGraph","Graph.hasEdge","e.1 == a && e.2.1 == b","e.1 == a || e.2.1 == b","an edge is found where there is none","C50"),
("CheckGraph","strLe","if a.toNat < b.toNat then true","if b.toNat < a.toNat then true","names are sorted backwards","C51"),
("CheckGraph","insertBy","if le x y then x :: y :: ys else y :: insertBy le x ys","if le x y then x :: ys else y :: insertBy le x ys","sorting loses elements","C51"),
("CheckGraph","position","roles.findIdx? (· == x)","(roles.findIdx? (· == x)).map (· + 1)","the index of a role is off by one","C26"),
("CheckGraph","dropEnd","some (xs.take (xs.length - k))","some (xs.take k)","the wrong fields of a type are kept","C50"),
("CheckGraph","cleanBlocks","| n => some (blocks ++ [n])","| _ => some blocks","the name of the role is not appended","C51"),
("CheckGraph","choiceScan","(choiceScan C xs (pos + 1))","(choiceScan C xs pos)","positions of sessions are not counted","C42"),
("CheckGraph","edgeLabel","role ++ [dir] ++ partner ++ [':', ' '] ++ payload","partner ++ [dir] ++ role ++ [':', ' '] ++ payload","labels name the roles the wrong way round","C26"),
("CheckGraph","cfsmLine","role ++ Nat.toDigits 10 prev ++ [' '] ++ Nat.toDigits 10 partner","role ++ Nat.toDigits 10 partner ++ [' '] ++ Nat.toDigits 10 prev","the automaton exchanges state and partner","C26"),
("CheckGraph","bump","some (idx.set depth (v + 1))","some (idx.set depth v)","all nodes get the same label","C26"),
("CheckGraph","getGraphSession","[\".marking \".toList ++ role ++ ['0'], \".end\".toList]","[\".end\".toList]","the automaton has no initial state","C26"),
("CheckGraph","getGraphSession","List.replicate (full.length - 1) ['E', 'n', 'd']","List.replicate full.length ['E', 'n', 'd']","the end of a protocol is not recognised","C26"),
("CheckText","isWs","(9 ≤ n && n ≤ 13) || n == 0x20","(9 ≤ n && n ≤ 13)","blanks are kept in types","C24"),
("CheckText","getHead","if full = ['E', 'n', 'd'] then [['E', 'n', 'd']]","if full = ['E', 'n', 'd'] then []","the head of End is lost","C24"),
("CheckText","getHead","full.takeWhile (· ≠ '<') :: getBlocks full","full.takeWhile (· ≠ ',') :: getBlocks full","the head of a type is cut at the first comma","C24"),
("CheckText","extractIndex","s ++ '.' :: Nat.toDigits 10 n","s ++ Nat.toDigits 10 n","labels of nodes have no dots","C26"),
# Close
("Close","Act.id","| .recv _ x => (true, x)","| .recv _ x => (false, x)","sends and receives of a close are confused","C09"),
("Close","PC.stopped","| .gone => true","| .gone => false","endpoints of a thread that quit are never dropped","C10"),
("Close","genClose","closeAll .strict .stopOnly (slots n i)","closeAll .strict .unchecked (slots n i)","close accepts any signal","C09"),
("Close","genClose","closeAll .strict .stopOnly (slots n i)","closeAll .strict .stopOnly (slots (n - 1) i)","close forgets the last session","C09"),
("Close","closeMpstMulti","closeAll .lenient .unchecked (slots n i)\n\n/-- `close_mpst_cancel!`","closeAll .lenient .unchecked (slots n i).tail\n\n/-- `close_mpst_cancel!`","close_mpst! forgets the first session","C09"),
("Close","closeMpstCheckCancel","closeAll .lenient .checkCancel (slots n i)","closeAll .lenient .unchecked (slots n i)","the checking close accepts a cancellation","C10"),
("Close","closeMpstCancel","closeAll .strict .unchecked (slots n i)","closeAll .lenient .unchecked (slots n i)","close_mpst_cancel! ignores a missing partner","C10"),
("Close","closeInterleaved3",".recv .stopOnly (1, 1), .recv .stopOnly (1, 2), .recv .stopOnly (2, 1)",".recv .stopOnly (1, 1), .recv .stopOnly (1, 2), .recv .stopOnly (1, 1)","one session is received twice","C33"),
# Gen
("Gen","EP.ty","⟨e.sess, e.dual⟩","⟨e.sess, !e.dual⟩","types of endpoints are exchanged","C15"),
("Gen","take","if x = nm then none else env x) rest","env x) rest","an endpoint can be used twice","C15"),
("Gen","build","stacks := fun x => if x = stk then none else st.stacks x","stacks := st.stacks","a stack can be used twice","C15"),
("Gen","step","sent := st.sent ++ [(k, m)] }","sent := [(k, m)] }","earlier meshes are forgotten","C12"),
("Gen","step","{ st' with out := some m }","st'","the chooser gets no mesh","C12"),
("Gen","forkBody","(cs ++ forkStacks n ++ ms ++ forkThreads n)","(cs ++ forkStacks n ++ ms ++ (forkThreads n).dropLast)","the last role gets no thread","C15"),
("Gen","forkChannels","(off + line, off + column) (off + column, off + line) (soff + i)","(off + line, off + column) (off + column, off + line) i","sessions of the second protocol overlap the first","C16"),
("Gen","interleavedFnOne","if i < idx1 then i else i - 1","if i ≤ idx1 then i else i - 1","functions are given the wrong role","C16"),
("Gen","chooseSenderTys","some ⟨branchOff n right + m, true⟩","some ⟨branchOff n right + m, false⟩","the chooser's mesh is declared with the partner's types","C13"),
("Gen","chooseBody","++ chooseSends n\n      ++ [.ret","\n      ++ [.ret","nobody is told of the choice","C12"),
("Gen","toAllChannels","some (.newChan (line, column) (column, line) i)\n\n/-- `new_roles`","some (.newChan (line, line) (column, line) i)\n\n/-- `new_roles`","one end of a fresh channel has a wrong name","C12"),
("Gen","toAllBody","toAllSends n excl ++ [.ret (toAllSenderFields n excl) n]","toAllSends n excl ++ [.ret (toAllSenderFields n excl) 1]","the chooser gets another role's stack","C13"),
("Gen","rangeIncl","List.range' lo (hi + 1 - lo)","List.range' lo (hi - lo)","the last element of inclusive ranges is left out","C15"),
# GenLast
("GenLast","stackNo","2 * r + (if dual then 1 else 0)","2 * r","a stack and its dual are confused","C46"),
("GenLast","lastChoices","| some fs => some (.mesh i fs i)","| some fs => some (.mesh i fs 1)","all meshes use the first stack","C46"),
("GenLast","lastBody","++ ms ++ lastSends n ++ [.ret fs n]","++ ms ++ (lastSends n).tail ++ [.ret fs n]","the first role is not told","C46"),
("GenLast","lastSenderStack","stackNo (if right then 3 * n - 1 else 3 * n - 2) false\n\n/-! ## fork","stackNo (if right then 3 * n - 2 else 3 * n - 1) false\n\n/-! ## fork","left and right stacks exchanged","C46"),
# Hand3
("Hand3","Role3.num","| .B => 2 | .C => 3","| .B => 3 | .C => 2","two roles exchanged","C14"),
("Hand3","stackArgs","if right then [1, 3, 5] else [0, 2, 4]","if right then [1, 3, 5] else [0, 4, 2]","stacks of two receivers exchanged","C14"),
("Hand3","chooseBody3",".sendVar 1 1, .sendVar 2 2",".sendVar 1 2, .sendVar 2 1","each receiver gets the other's mesh","C14"),
("Hand3","declared","| .method, .A, false => ((⟨2,false⟩,⟨0,true⟩)","| .method, .A, false => ((⟨2,false⟩,⟨0,false⟩)","two receivers expect the same end","C14"),
("Hand3","receivers",".B => (.A, .C)",".B => (.C, .A)","receivers of B exchanged","C14"),
("Hand3","forkDeclared3","| .B => (⟨0,true⟩, ⟨2,false⟩)","| .B => (⟨0,true⟩, ⟨2,true⟩)","B and C expect the same end","C15"),
# Heap
("Heap","EP.halves","| .fin t r => [.tx t, .rx r]","| .fin t _ => [.tx t]","dropping an End leaves its receiver","C07"),
("Heap","Msg.toks","| .data v k => v.toks ++ k.halves","| .data _ k => k.halves","endpoints inside a dropped message are leaked","C07"),
("Heap","takeAll","if e ∈ pool then takeAll (pool.erase e) es else none","if e ∈ pool then takeAll pool es else none","an endpoint can be used again","C06"),
("Heap","sigRecvStep","| none => if ch.tx then some (st, .block) else some (st, .err)","| none => if ch.tx then some (st, .block) else some (st, .block)","close waits for ever for a partner that is gone","C08"),
("Heap","step","some ({ st with pool := rest, garb := e.ep.toks ++ st.garb }, .unit)","some ({ st with pool := rest }, .unit)","cancel drops nothing","C07"),
("Heap","gcTok","with rx := false, buf := none }\n              garb := bufToks","with rx := false }\n              garb := bufToks","the message stays in a dropped channel","C07"),
# Maths
("Maths","getTupleDiag","if i = 0 then none else d[i - 1]?","d[i]?","indices of the diagonal are off by one","C15"),
("Maths","diagAndMatrix","let d := diag n\n  ((List.range' 1 n)","let d := diag n\n  ((List.range' 0 n)","lines of the matrix are off by one","C17"),
("Maths","diagLoop","(l + 1, c + 1, i + 1) ::","(l + 1, c + 1, i) ::","indices of channels start at zero","C17"),
# Select, SendRecv, Timed
("Select","expand","some (recurse (.stmt e) tail)","some (recurse (.stmt e) tail.dropLast)","attempt! drops the last statement","C22"),
("SendRecv","sendImpl","emit n sender receiver\n\n/-- `recv_basic`","emit n receiver sender\n\n/-- `recv_basic`","send uses the slot of the partner's mesh","C18"),
("SendRecv","Impl.exec","| .old k => slots[k - 1]?","| .old k => slots[k]?","other sessions are moved by one","C18"),
("SendRecv","afterSend","| .send _ t' s => if t = t' then some s else none","| .send _ _ s => some s","any payload is accepted by send","C18"),
("SendRecv","afterRecv","| .recv _ t' s => if t = t' then some s else none","| .recv _ _ s => some s","any payload is accepted by recv","C18"),
("SendRecv","Impl.selfTys","if b then wrap (S k) else S k","wrap (S k)","all sessions must be ready to send","C18"),
("Timed","elapsed","W.now k - c","W.now k","elapsed time is counted from the epoch","C19"),
("Timed","secs","elapsed W c k / nsec","elapsed W c k","seconds are nanoseconds","C19"),
("Timed","toU64","if 0 ≤ x ∧ x < 18446744073709551616","if x < 18446744073709551616","negative bounds are accepted","C19"),
("Timed","toIncl","if secs W c k ≤ n then .pass (k + 1) else .fail (k + 1)","if secs W c k < n then .pass (k + 1) else .fail (k + 1)","an inclusive bound is exclusive","C19"),
("Timed","newSend","(⟨w.clock, w.start, w.inclStart, w.stop, w.inclStop, w.reset⟩,\n   ⟨w.clock","(⟨w.clock, w.start, w.inclStop, w.stop, w.inclStart, w.reset⟩,\n   ⟨w.clock","the sender's brackets are exchanged","C21"),
("Timed","constraintSend","def constraintSend (w : Window) : Option (List Tok) :=\n  if w.start < 0 then\n    if w.stop ≥ 0 then\n      if w.inclStop then some [.clk w.clock, .le,","def constraintSend (w : Window) : Option (List Tok) :=\n  if w.start < 0 then\n    if w.stop ≥ 0 then\n      if w.inclStop then some [.clk w.clock, .lt,","an inclusive bound is printed as exclusive","C21"),
# Nuscr
("Nuscr","indexText","| n :: ns => dec n ++ '_' :: indexText ns","| n :: ns => dec n ++ indexText ns","indices 1_1 and 11 are confused","C47"),
("Nuscr","messageName","['_', 'v', '_'] ++ dec n ++ ['_', 'F', 'r', 'o', 'm'] ++ s\n    ++ ['T', 'o'] ++ r","['_', 'v', '_'] ++ dec n ++ ['_', 'F', 'r', 'o', 'm'] ++ s\n    ++ ['T', 'o'] ++ s","types of sessions with different partners share a name","C47"),
("Nuscr","orderingName","++ dec n ++ ['_', 'F', 'o', 'r'] ++ r","++ ['_', 'F', 'o', 'r'] ++ r","stacks of a role share a name","C47"),
("Nuscr","choiceName","++ idx ++ ['_', 'F', 'r', 'o', 'm'] ++ s ++ ['T', 'o'] ++ r\n\n/-- `Endpoint","++ ['_', 'F', 'r', 'o', 'm'] ++ s ++ ['T', 'o'] ++ r\n\n/-- `Endpoint","enums of different choices share a name","C47"),
("Nuscr","parseI32","10 * acc + d","acc + d","numbers are read as sums of digits","C30"),
("Nuscr","addFlag",".ok (a + b.toNat)",".ok a","inclusive bounds count as exclusive","C30"),
("Nuscr","digit","some (c.toNat - 48)","some (c.toNat - 47)","digits are read as the next one","C30"),
("Nuscr","Msg.resetText","m.reset.getD [' ']","m.reset.getD []","the reset of a message is empty","C47"),
("Nuscr","upd2","fun x y => if x = a ∧ y = b then some v else f x y","fun x y => if x = a then some v else f x y","messages to one partner are added for all","C47"),
("Nuscr","contains","needle.isPrefixOf (hay.drop i)","needle.isSuffixOf (hay.drop i)","a loop is found at the end of lines only","C47"),
("Nuscr","choiceAll","roles.foldlM (choiceFor idx sender) t","roles.tail.foldlM (choiceFor idx sender) t","the first role takes no part in choices","C47"),
# NuscrText
("NuscrText","Cls.has","| .digit, a => C.digit a","| .digit, a => C.word a","letters are accepted as bounds","C48"),
("NuscrText","Rx.run","(g, t.take (t.length - t'.length)) :: c'","(g, t') :: c'","groups capture what follows them","C48"),
("NuscrText","Caps.get","c.find? (fun x => x.1 == g)","c.find? (fun x => x.1 != g)","the wrong group is read","C48"),
("NuscrText","sp1","def sp1 : Rx := .seq (.cls (.one ' ')) sp0","def sp1 : Rx := .cls (.one ' ')","two blanks are refused","C48"),
("NuscrText","word1","def word1 : Rx := .seq (.cls .word) word0","def word1 : Rx := word0","empty names are accepted","C48"),
("NuscrText","num1","def num1 : Rx := .seq (.cls .digit) (.star (.cls .digit))","def num1 : Rx := .cls .digit","bounds have one digit","C48"),
("NuscrText","opt","def opt (r : Rx) : Rx := .alt r .eps","def opt (r : Rx) : Rx := r","a bracket at the end of the header is required","C48"),
# Runtime, Failure
("Runtime","env","| .data _, tag => if tag = 0 then some [] else none","| .data _, tag => if tag = 1 then some [] else none","plain messages cannot be sent","C44"),
("Runtime","own","todo.filterMap (fun p => old[p.1 - 1]?) ++ (todo.flatMap (·.2) ++ own)","todo.flatMap (·.2) ++ own","a role failing inside a choice keeps its old sessions","C44"),
("Runtime","sims","fun | .sim l => some l | _ => none","fun | .sim l => if l.actor = 1 then some l else none | _ => none","steps of other roles are not reported","C44"),
("Failure","remaining","| .recv e => l.erase e","| .recv _ => l","a failed reception drops its endpoint twice","C45"),
("Failure","nobody","fun _ => false","fun r => r == 1","role 1 has failed from the start","C45"),
("Mesh","Label.actor","| .tell r _ => r","| .tell _ q => q","a message of a choice is a step of its receiver","C34"),
("Mesh","others","(List.range' 1 n).filter (fun q => decide (q ≠ r))","(List.range' 1 n)","a chooser tells itself","C34"),
]
