M=[
("Transport","takeUdp","setUdp st u fun s => { s with free := s.free - 1 }","setUdp st u fun s => { s with free := s.free }","a UDP handle that goes is not counted: the socket is leaked","C72"),
("Transport","giveTcp","setTcp st c fun s => { s with free := s.free + 1 }","setTcp st c fun s => s","a stream does not come back from send_tcp","C72"),
("Transport","forkUdp","fun _ => { noDgram with free := 2 }","fun _ => { noDgram with free := 1 }","fork_udp gives the socket to one end only","C72"),
("Transport","sendTcp","      else some ({ st with heap := h }, .okSend here)","      else some (takeTcp { st with heap := h } c, .okSend here)","send_tcp without data keeps the stream","C72"),
("Transport","writeErr","fun h => ({ leave st t with heap := h }, .err)\n  | _ => none\n\n/-- The beginning of `recv_tcp`","fun h => ({ leave (match st.thr t with | .writing c _ _ => giveTcp st c | _ => st) t with heap := h }, .err)\n  | _ => none\n\n/-- The beginning of `recv_tcp`","a stream whose write failed stays with the client","C72"),
("Transport","closeWait","        else some ({ leave st t with heap := h' }, .ok)","        else some (giveTcp { leave st t with heap := h' } c, .ok)","close_tcp without data returns the stream","C72"),
("Transport","cancelUdp","(dropAll G st.heap [e]).map fun h => (takeUdp { st with heap := h } u, .ok)","(dropAll G st.heap [e]).map fun h => ({ st with heap := h }, .ok)","cancel_udp leaves the socket open","C72"),
("Transport","recvUdp","    | some (.inl h) => some (takeUdp { st with heap := h } u, .err)","    | some (.inl h) => some ({ st with heap := h }, .err)","recv_udp whose channel failed leaves the socket open","C72"),
("Transport","takeErr","fun h => ({ leave st t with heap := h }, .err)\n  | _ => none\n\n/-- `cancel_udp`","fun h => (giveUdp { leave st t with heap := h } (match st.thr t with | .taking u _ _ => u | _ => 0), .err)\n  | _ => none\n\n/-- `cancel_udp`","a socket whose receive failed stays with the client","C72"),
("Transport","cancelTcp","(takeTcp (setTcp { st with heap := h } c fun _ => s') c, if shutOk then .ok else .panic)","(setTcp { st with heap := h } c fun _ => s', if shutOk then .ok else .panic)","cancel_tcp leaves the stream open","C72"),
("Transport","step","| .dropTcp c => if 0 < (st.tcp c).free then some (takeTcp st c, .none) else none","| .dropTcp c => if 0 < (st.tcp c).free then some (setTcp st c fun s => { s with free := 0 }, .none) else none","dropping a clone closes the stream","C72"),
("TimedRuntime","TStep","| fail {n r f i sl} : s.now ≤ n → s.up r → s.fs.pos r = .ending i sl →","| fail {n r f} : s.now ≤ n → s.up r →","untimed errors are possible everywhere, as in C45","C68"),
("TimedRuntime","TStep","| down {n r f} : s.now ≤ n → s.doomed r = true →","| down {n r f} : s.now ≤ n →","a role panics for no reason","C71"),
("TimedRuntime","TStep","TStep Y V s (.go l) { s with\n        fs := f, clocks := upd s.clocks r cl, last := upd s.last r m, now := n\n","TStep Y V s (.go l) { s with\n        fs := f, clocks := upd s.clocks r (fun _ => none), last := upd s.last r m, now := n\n","clocks are lost after a call","C71"),
("TimedRuntime","Refused","Refused","Refused","",""),
]
M.pop()
