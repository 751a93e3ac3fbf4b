M=[
("Heap","alloc","kind := .data w t k.dual,\n                                      sid := sid, idx := idx, dir := side, mate := 0 }\n        next := st.next + 1 },\n      ⟨.snd st.next","kind := .data w t k,\n                                      sid := sid, idx := idx, dir := side, mate := 0 }\n        next := st.next + 1 },\n      ⟨.snd st.next","C02: the continuation received is of the dual type","C0"),
("Heap","alloc","⟨.fin st.next (st.next + 1), sid, side⟩, ⟨.fin (st.next + 1) st.next, sid, !side⟩","⟨.fin st.next (st.next + 1), sid, side⟩, ⟨.fin st.next (st.next + 1), sid, !side⟩","C02: the two Ends are cross connected","C0"),
("Heap","alloc","        next := st.next + 2 },","        next := st.next + 1 },","C02: fresh channels","C0"),
("Heap","sendStep","if ch.rx && ch.buf.isSome then some (st, .block)","if ch.buf.isSome then some (st, .block)","none visible: a dead receiver's buffer is always empty","C03"),
("Heap","sendStep","buf := some (.data v there), tx := false } }, .unit)","buf := some (.data v here), tx := false } }, .unit)","C04: the peer gets the other end","C0"),
("Heap","sendStep","some ({ st2 with chan := upd st1.chan c { ch with buf := some (.data v there), tx := false } }, .unit)","some ({ st2 with chan := upd st1.chan c { ch with buf := some (.data v there) } }, .unit)","C06: the sender half is used up by a send","C0"),
("Heap","sendStep","                               garb := v.toks ++ (there.halves ++ st.garb) }, .unit)","                               garb := there.halves ++ st.garb }, .unit)","C07: endpoints inside an undeliverable value are dropped","C07"),
("Heap","sendStep","                               garb := v.toks ++ (there.halves ++ st.garb) }, .unit)","                               garb := v.toks ++ st.garb }, .unit)","C07: an undeliverable continuation is dropped, so the peer is told","C07"),
("Heap","recvStep","{ ch with buf := none, rx := false }\n                            pool","{ ch with rx := false }\n                            pool","C05: a message is received once","C0"),
("Heap","recvStep","pool := entries v.eps tys ++ ⟨there, k⟩ :: rest","pool := entries v.eps tys ++ ⟨e.ep, k⟩ :: rest","C04: the continuation is the received endpoint","C0"),
("Heap","recvStep","        if ch.tx then some (st, .block)\n        else some ({ st with pool := rest, garb := e.ep.toks ++ st.garb }, .err)","        if ch.tx then some (st, .block)\n        else some ({ st with pool := rest }, .err)","C07: a failed recv drops its endpoint","C0"),
("Heap","recvStep","        if ch.tx then some (st, .block)\n        else some ({ st with pool := rest, garb := e.ep.toks ++ st.garb }, .err)","        if ch.tx then some ({ st with pool := rest, garb := e.ep.toks ++ st.garb }, .err)\n        else some (st, .block)","C04: recv waits while the peer lives, errs when it is gone","C04"),
("Heap","gcTok",".rx c =>\n    { st with chan := upd st.chan c { st.chan c with rx := false, buf := none }\n              garb := bufToks (st.chan c) ++ st.garb }",".rx c =>\n    { st with chan := upd st.chan c { st.chan c with rx := false, buf := none } }","C07: dropping a receiver drops the buffered message","C07"),
("Heap","gcTok",".tx c => { st with chan := upd st.chan c { st.chan c with tx := false } }",".tx _ => st","C07: dropping a sender wakes the receiver","C07"),
("Heap","sigSendStep","          else some ({ st with pool := e :: rest, garb := f.toks ++ st.garb }, .err)","          else some ({ st with pool := e :: rest }, .err)","C07: the End of an undeliverable Offer is dropped","C07"),
("Heap","step","some ({ st1 with pool := ⟨here, s⟩ :: ⟨there, s.dual⟩ :: st.pool","some ({ st1 with pool := ⟨here, s⟩ :: ⟨there, s⟩ :: st.pool","C02: new returns dual types","C02"),
("Heap","step","some rest => some ({ st with pool := rest, garb := e.ep.toks ++ st.garb }, .unit)","some rest => some ({ st with pool := rest, garb := st.garb }, .unit)","C07: cancel drops the endpoint","C07"),
("Choice","Chooses","step G st (.new s) = some (st1, o1) →\n      st1.pool = ⟨here, s⟩ :: ⟨there, s.dual⟩ :: r →","step G st (.new s) = some (st1, o1) →\n      st1.pool = ⟨there, s⟩ :: ⟨here, s.dual⟩ :: r →","C11: the chooser keeps an end of type S","C11"),
("Choice","Chooses","(.send e ⟨tag, d, [there]⟩)","(.send e ⟨0, d, [there]⟩)","C11: the branch chosen is the branch offered","C11"),
("Close","exec","| .strict => some { s with pc := upd s.pc t (.fin .err (.send m x :: rest)) }","| .strict => some { s with pc := upd s.pc t (.run rest) }","C10: close fails when a peer is gone","C"),
("Close","exec","if accepts m g then .run rest else .fin .panic (.recv m x :: rest)","if accepts m g then .run rest else .run rest","C08: an unexpected signal makes close panic","C08"),
("Close","accepts","| .checkCancel, .cancel => false","| .checkCancel, .cancel => true","C08/C10: cancel is reported by close_mpst_check_cancel","C"),
("Close","onDisconnect","| .checkCancel => .panic\n  | _ => .err","| .checkCancel => .ok\n  | _ => .ok","C10: close fails when a peer is gone","C10"),
("Close","closeAll","xs.map (.send sm) ++ xs.map (.recv rm)","xs.flatMap fun x => [.send sm x, .recv rm x]","C09: interleaving sends and receives deadlocks for three roles","C09"),
("Close","closeAll","xs.map (.send sm) ++ xs.map (.recv rm)","xs.map (.recv rm) ++ xs.map (.send sm)","C09: receiving first deadlocks","C09"),
("Close","binaryClose","[.send .strict x, .recv .stopOnly x]","[.send .strict x]","C08: both sides return Ok only if both close","C08"),
("Close","slots","(List.range' 1 (n - 1))","(List.range' 1 (n - 2))","C08/C10: all sessions are closed","C"),
("Close","closeMpst3",".recv .stopOnly (i, 1), .recv .stopOnly (i, 2)]",".recv .stopOnly (i, 1), .recv .stopOnly (i, 1)]","C09: three-role close","C0"),
("Close","closeInterleaved3",".send .strict (3, 1), .send .strict (3, 2),",".send .strict (3, 1), .send .strict (3, 1),","C33: each session is closed once","C33"),
("Close","step","| .dropRx x =>\n    if (s.pc (Y.owner x)).stopped ∧ s.rx x = true then\n      some { s with rx := upd s.rx x false, buf := upd s.buf x none } else none","| .dropRx x =>\n    if s.rx x = true then\n      some { s with rx := upd s.rx x false, buf := upd s.buf x none } else none","C09: halves live as long as their owner","C"),
("Select","swapRemove","(l.set i a).dropLast","l.dropLast","C23: the used endpoint leaves the vector","C23"),
("Select","SelectMut","(swapRemove es i) st2","es st2","C23: the used endpoint leaves the vector","C23"),
("Select","recurse","recurse (.andThen a (.stmt e)) tail","recurse (.andThen (.stmt e) a) tail","C22: statements run in order","C22"),
("Select","eval","| (s1, .error e) => (s1, .error e)","| (s1, .error e) => eval b s1 |> fun r => (r.1, .error e)","C22: nothing runs after an error","C22"),
("Select","attempt","| (s1, .error e) => handler e s1","| (_, .error e) => handler e s","C22: the handler sees the effects so far","C22"),
("Timed","finish","| some _ => ⟨.ok, fun x => if x = reset then some (W.now k) else cl x, some t⟩","| some _ => ⟨.ok, fun x => if x = reset then some (W.now 0) else cl x, some t⟩","C40: the clock is reset after the transfer","C40"),
("Timed","finish","| some _ => ⟨.ok, fun x => if x = reset then some (W.now k) else cl x, some t⟩","| some _ => ⟨.ok, fun _ => some (W.now k), some t⟩","C20: only the named clock is reset","C20"),
("Timed","transfer","if n * nsec < elapsed W c k then ⟨.panic, cl, none⟩\n      else finish fn W reset cl withReset (k + 1) (W.xfer k (some (n * nsec - elapsed W c k)))","finish fn W reset cl withReset (k + 1) (W.xfer k (some (n * nsec)))","C19: the timeout is the time left","C19"),
("Timed","fromIncl","if n ≤ secs W c k then .pass (k + 1) else .fail (k + 1)\n\n/-- `u64::try_from(s.start)? < own","if n < secs W c k then .pass (k + 1) else .fail (k + 1)\n\n/-- `u64::try_from(s.start)? < own","C19: an inclusive lower bound accepts the bound itself","C19"),
("Timed","fromExcl","if n < secs W c k then .pass","if n ≤ secs W c k then .pass","C19: exclusive lower bound","C19"),
("Timed","toExcl","if secs W c k < n then .pass","if secs W c k ≤ n then .pass","C19: exclusive upper bound","C19"),
("Timed","both","| .fail k' => .fail k'","| .fail k' => g k'","C19: both bounds are required","C19"),
("Timed","run","if fn ≠ .sendNoReset ∧ w.start > w.stop then ⟨.panic, cl, none⟩\n  else if w.start < 0 then","if w.start < 0 then","C19: send and recv reject lower-only windows (witness) ","C19"),
("Timed","run","    else if !w.inclStart && !w.inclStop then\n      match W.xfer 0 none with\n      | none => ⟨.panic, cl, none⟩\n      | some t => ⟨.ok, cl, some t⟩","    else if !w.inclStart && !w.inclStop then\n      match W.xfer 0 none with\n      | none => ⟨.panic, cl, none⟩\n      | some t => ⟨.ok, fun _ => none, some t⟩","C20: unbounded operations keep the clocks","C20"),
("Timed","guarded","| .fail _ => ⟨.panic, cl, none⟩\n    | .pass k' => transfer fn W reset cl c false k' e","| .fail k' => transfer fn W reset cl c false k' e\n    | .pass k' => transfer fn W reset cl c false k' e","C19: outside the window nothing is sent","C19"),
("Timed","newRecv","let (there, here) := newSend w\n  (here, there)","let (there, here) := newSend { w with inclStop := w.inclStart }\n  (here, there)","C21: both ends share the window","C21"),
("Timed","constraintRecv","    | true, false => some [.num w.start, .le, .clk w.clock, .lt, .num w.stop]\n    | false, true => some [.num w.start, .lt, .clk w.clock, .le, .num w.stop]\n    | false, false => some [.num w.start, .lt, .clk w.clock, .lt, .num w.stop]\n\nend","    | true, false => some [.num w.start, .lt, .clk w.clock, .le, .num w.stop]\n    | false, true => some [.num w.start, .lt, .clk w.clock, .le, .num w.stop]\n    | false, false => some [.num w.start, .lt, .clk w.clock, .lt, .num w.stop]\n\nend","C21: printed constraint","C21"),
("Timed","chooseSends","(r, cl'', m :: ms, noted ++ rs)","(r, cl'', m :: ms, rs)","C41: all named clocks are reset","C41"),
("Timed","chooseSends","| ⟨r, cl', m⟩ => (r, cl', [m], noted)","| ⟨r, cl', m⟩ => let (_, cl'', ms, rs) := chooseSends rest cl'; (r, cl'', m :: ms, noted ++ rs)","C41: nothing is sent after a failure","C41"),
("Timed","resetAll","resetAll now rs (k + 1) (fun x => if x = r then some (now k) else cl x)","resetAll now rs (k + 1) cl","C41: the clocks are reset","C41"),
("CheckText","Scan.next","else if i = ',' ∧ s.index = 0 then","else if i = ',' ∧ s.index ≥ 0 then","C24: only top-level commas split","C24"),
("CheckText","Scan.next","if i = '>' ∧ s.index = 0 then { s with result := s.result ++ [s.temp], temp := [] }","if i = '>' ∧ s.index = 0 then { s with temp := [] }","C24: the last argument is kept","C24"),
("CheckText","getBlocks","⟨-1, [], []⟩","⟨0, [], []⟩","C24: the head is not an argument","C24"),
("CheckText","buildDualAux","['S', 'e', 'n', 'd', '<'] ++ p ++ [','] ++ d ++ ['>']","['R', 'e', 'c', 'v', '<'] ++ p ++ [','] ++ d ++ ['>']","C25: Recv becomes Send","C25"),
("CheckText","buildDualAux","some p, some k => (buildDualAux fuel k).map fun d =>\n            ['R', 'e'","some p, some k => (some k).map fun d =>\n            ['R', 'e'","C25: the dual is deep","C25"),
("CheckGraph","choiceStep","let offset := if C.me > idx then 1 else 0","let offset := if C.me ≥ idx then 1 else 0","none: the receiver of a choice is never the chooser","C42"),
("CheckGraph","choiceStep","let offset := if C.me > idx then 1 else 0","let offset := 0","C42: slot of the chooser in the receiver's mesh","C42"),
("CheckGraph","choiceStep","left := s.left ++ [dl], right := s.right ++ [dr]","left := s.left ++ [dr], right := s.right ++ [dl]","C42: left and right branches","C42"),
("CheckGraph","auxGraph","let offset := if C.me < i then 1 else 0","let offset := if C.me > i then 1 else 0","C26: session with the partner","C26"),
("CheckGraph","auxGraph","(g.addEdge prev n (edgeLabel C.role '?' head p)) (cfsm ++ [(cfsmLine C.role prev i '?' p, n)])","(g.addEdge prev n (edgeLabel C.role '!' head p)) (cfsm ++ [(cfsmLine C.role prev i '?' p, n)])","C26: direction of edges","C26"),
("CheckGraph","auxGraph","(cfsm ++ [(cfsmLine C.role prev i '!' p, n)])","(cfsm ++ [(cfsmLine C.role prev (i - offset) '!' p, n)])","C26: partner number in the machine","C26"),
("CheckGraph","auxGraph","auxGraph C fuel (sc.right ++ [s2]) (idx ++ [0])","auxGraph C fuel (sc.right ++ [s1]) (idx ++ [0])","C42: the right branch follows the right stack","C42"),
("CheckGraph","kmcLoop","kmc k = false ∧ k < 50","kmc k = false ∧ k < 49","C27: bounds up to 49 are tried","C27"),
("CheckGraph","kmcSearch","let k := kmcLoop kmc 1","let k := kmcLoop kmc 2","C27: least bound from 1","C27"),
("Gen","interleavedBody","forkChannels n2 n1 ((n1 - 1) * n1 / 2)","forkChannels n2 n1 0","C16: the second mesh uses its own session parameters","C16"),
("Gen","forkStacks",".newStack i i",".newStack i (n + 1 - i)","C15: role i gets stack i","C15"),
("Gen","toAllStacks","(rangeIncl 1 n).map fun i => .newStack i i\n\n/-- `all_send`","(rangeIncl 1 n).map fun i => .newStack i (n + 1 - i)\n\n/-- `all_send`","C12: stacks in enum choices","C12"),
]
