T="Transport"
M=[
(T,"sendTcp","some (.inl h) => some (takeTcp { st with heap := h } c, .panic)\n    | some (.inr (h, here)) =>\n      if tcp then","some (.inl h) => some (takeTcp { st with heap := h } c, .err)\n    | some (.inr (h, here)) =>\n      if tcp then","send_tcp returns Err instead of panicking when the partner is gone","C56"),
(T,"sendTcp","if tcp then some (enter (takeTcp { st with heap := h } c) t (.writing c data here), .waits)","if tcp then some (enter (takeTcp { st with heap := h } c) t (.writing c (data.drop 1) here), .waits)","the first byte of the data is not written","C55"),
(T,"sendTcp","if tcp then some (enter (takeTcp { st with heap := h } c) t (.writing c data here), .waits)\n      else some ({ st with heap := h }, .okSend here)","if !tcp then some (enter (takeTcp { st with heap := h } c) t (.writing c data here), .waits)\n      else some ({ st with heap := h }, .okSend here)","flag negated in send_tcp","C55"),
(T,"write","let st1 := setTcp st c fun s => { s with sent := s.sent ++ rest.take n }","let st1 := setTcp st c fun s => { s with sent := s.sent ++ rest }","a partial write sends everything","C55"),
(T,"write","(.writing c (rest.drop n) here) }, .waits)","(.writing c (rest.drop (n - 1)) here) }, .waits)","write_all repeats the last byte","C55"),
(T,"write","(.writing c (rest.drop n) here) }, .waits)","(.writing c rest here) }, .waits)","write_all starts again after a partial write","C55"),
(T,"write","if n = rest.length then some (giveTcp (leave st1 t) c, .okSend here)","if n ≤ rest.length then some (giveTcp (leave st1 t) c, .okSend here)","Ok after a partial write","C55"),
(T,"write","(st.tcp c).shut = false ∧ (st.tcp c).broken = false then","(st.tcp c).broken = false then","bytes are accepted after shutdown","C56"),
(T,"writeErr","(dropAll G st.heap [here]).map fun h => ({ leave st t with heap := h }, .err)\n  | _ => none\n\n/-- The beginning of `recv_tcp`","some (leave st t, .err)\n  | _ => none\n\n/-- The beginning of `recv_tcp`","the continuation survives a failed write","C56"),
(T,"recvTcp","some (.inl h) => some (takeTcp { st with heap := h } c, .err)\n    | some (.inr (h, x, es)) =>\n      if tcp then some (enter (takeTcp { st with heap := h } c) t (.reading c [] x es), .waits)","some (.inl h) => some (takeTcp { st with heap := h } c, .panic)\n    | some (.inr (h, x, es)) =>\n      if tcp then some (enter (takeTcp { st with heap := h } c) t (.reading c [] x es), .waits)","recv_tcp panics instead of returning Err","C56"),
(T,"recvTcp","else some ({ st with heap := h }, .okRecv x es zeros)","else some ({ st with heap := h }, .okRecv x es [])","empty data without the flag","C55"),
(T,"recvTcp","t (.reading c [] x es), .waits)","t (.reading c [0] x es), .waits)","the buffer already holds a byte","C55"),
(T,"read","let buf1 := buf ++ ((st.tcp c).arrived.drop (st.tcp c).taken).take n","let buf1 := ((st.tcp c).arrived.drop (st.tcp c).taken).take n ++ buf","later bytes are put before earlier ones","C55"),
(T,"read","let buf1 := buf ++ ((st.tcp c).arrived.drop (st.tcp c).taken).take n","let buf1 := buf ++ (st.tcp c).arrived.take n","reads always begin at the first byte","C55"),
(T,"read","{ s with taken := s.taken + n }","{ s with taken := s.taken + n + 1 }","a byte is skipped after each read","C55"),
(T,"read","if buf1.length = size then some (giveTcp","if buf1.length ≤ size then some (giveTcp","recv_tcp returns a short array","C55"),
(T,"read","n ≤ size - buf.length ∧ (st.tcp c).taken + n","n ≤ size ∧ (st.tcp c).taken + n","read_exact reads past the array","C55"),
(T,"readErr","| .reading _ _ _ es => (dropAll G st.heap es).map fun h => ({ leave st t with heap := h }, .err)","| .reading _ _ _ _ => some (leave st t, .err)","endpoints survive a failed read","C56"),
(T,"readErr","| .reading _ _ _ es => (dropAll G st.heap es).map fun h => ({ leave st t with heap := h }, .err)","| .reading _ _ x es => (dropAll G st.heap es).map fun h => ({ leave st t with heap := h }, .okRecv x es zeros)","a failed read returns Ok","C56"),
(T,"closeTcp","| some (h, .err) => (dropAll G h [e]).map fun h' => (takeTcp { st with heap := h' } c, .err)\n    | _ => none\n  else none\n\n/-- The `End` inside","| some (h, .err) => (dropAll G h [e]).map fun h' => (takeTcp { st with heap := h' } c, .ok)\n    | _ => none\n  else none\n\n/-- The `End` inside","close_tcp returns Ok if the partner is gone","C56"),
(T,"closeTcp","Heap.step G st.heap (.sigSend e .stop) with","Heap.step G st.heap (.sigSend e .cancel) with","close_tcp sends Cancel","C56"),
(T,"closeWait","if tcp then (shutdown (st.tcp c) shutOk).map fun s' =>","if !tcp then (shutdown (st.tcp c) shutOk).map fun s' =>","flag negated in close_tcp","C56"),
(T,"closeWait","| some (h, .err) => (dropAll G h [e]).map fun h' => ({ leave st t with heap := h' }, .err)\n    | _ => none\n  | _ => none","| some (h, .err) => (dropAll G h [e]).map fun h' => (setTcp { leave st t with heap := h' } c fun s => { s with shut := true }, .err)\n    | _ => none\n  | _ => none","connection shut down on Err","C56"),
(T,"closeWait","match dropAll G h (ends s ++ [e]) with","match dropAll G h (ends s) with","the End survives close_tcp","C56"),
(T,"cancelTcp","(takeTcp (setTcp { st with heap := h } c fun _ => s') c, if shutOk then .ok else .panic)","(takeTcp (setTcp { st with heap := h } c fun _ => s') c, .ok)","cancel_tcp ignores errors of shutdown","C56"),
(T,"cancelTcp","(takeTcp (setTcp { st with heap := h } c fun _ => s') c, if shutOk then .ok else .panic)","(takeTcp { st with heap := h } c, if shutOk then .ok else .panic)","cancel_tcp does not shut the connection down","C56"),
(T,"cancelTcp","match dropAll G st.heap [e] with\n    | none => none\n    | some h => (shutdown","match dropAll G st.heap [] with\n    | none => none\n    | some h => (shutdown","cancel_tcp does not drop the endpoint","C56"),
(T,"forkTcp","(dropAll G h1 [there, here]).map fun h2 => ({ st with heap := h2, ntcp := st.ntcp + 1 }, .err)","some ({ st with heap := h1, ntcp := st.ntcp + 1 }, .err)","a session is left behind if spawn fails","C56"),
(T,"forkTcp","st.ntcp fun _ => { noStream with free := 2 },\n          .okFork there here st.ntcp)","st.ntcp fun _ => { noStream with free := 2 },\n          .okFork here there st.ntcp)","fork_tcp gives the ends the wrong way round","C56"),
(T,"forkUdp","({ st with heap := h2, nudp := st.nudp + 1 }, .panic)","({ st with heap := h2, nudp := st.nudp + 1 }, .err)","fork_udp returns Err if spawn fails","C56"),
(T,"sendUdp","{ s with sent := s.sent ++ [data] },\n          .okSendUdp here data.length)","{ s with sent := s.sent ++ [data.take 64] },\n          .okSendUdp here data.length)","half a datagram is sent","C55"),
(T,"sendUdp","else (dropAll G h [here]).map fun h' => (takeUdp { st with heap := h' } u, .err)","else (dropAll G h [here]).map fun h' => (takeUdp { st with heap := h' } u, .okSendUdp here 0)","send_udp returns Ok although the datagram was not sent","C56"),
(T,"take",".okRecvUdp x es (d.take size ++ zeros.drop d.length) (min d.length size))",".okRecvUdp x es (d.take size) (min d.length size))","no zeros after a short datagram","C55"),
(T,"take",".okRecvUdp x es (d.take size ++ zeros.drop d.length) (min d.length size))",".okRecvUdp x es (d.take size ++ zeros.drop d.length) d.length)","the number returned counts the lost bytes","C55"),
(T,"take","(setUdp st u fun s => { s with taken := s.taken + 1 })","st","the datagram stays in the socket","C55"),
(T,"takeErr","| .taking _ _ es => (dropAll G st.heap es).map fun h => ({ leave st t with heap := h }, .err)","| .taking u _ es => (dropAll G st.heap es).map fun h => (setUdp { leave st t with heap := h } u fun s => { s with taken := s.taken + 1 }, .err)","a failed recv takes a datagram","C56"),
(T,"fst","{ v with data := v.data / 256 ^ size }","{ v with data := v.data % 256 ^ size }","recv_tcp returns the data instead of the value","C55"),
(T,"chanSend","if gone h e then (dropAll G h1 [here]).map .inl","if !gone h e then (dropAll G h1 [here]).map .inl","send_tcp panics when the partner is there","C56"),
(T,"shutdown","if ok then some { s with shut := true }","if ok then some s","shutdown has no effect","C56"),
("TransportChoice","ChoosesNet","step G st2 (.send e ⟨tag, d, [there]⟩) = some (st3, o2) →","step G st2 (.send e ⟨0, d, [there]⟩) = some (st3, o2) →","choose_tcp! always sends the first label","C56"),
("TransportChoice","OffersNet","(if arms v.tag then .arm v.tag there else .panic) st3","(if arms v.tag then .arm 0 there else .panic) st3","offer_tcp! always runs the first arm","C56"),
("TransportChoice","OffersNet","(if arms v.tag then .arm v.tag there else .panic) st3","(.arm v.tag there) st3","offer_tcp! has no arm for other labels","C56"),
]
