M=[
("TimedRuntime","TStep","      TStep Y V s (.go l) { s with\n        fs := f, clocks := upd s.clocks r cl, last := upd s.last r m, now := n\n        noted","      TStep Y V s (.go l) { s with\n        fs := f, clocks := upd s.clocks r cl, last := s.last, now := n\n        noted","the end of a call is not remembered: later readings of the clock may be earlier","C70"),
("TimedRuntime","TStep","(∀ k, s.last r ≤ W.now k ∧ W.now k ≤ m) → run fn W w (s.clocks r) = ⟨.ok, cl, some n⟩","(∀ k, W.now k ≤ m) → run fn W w (s.clocks r) = ⟨.ok, cl, some n⟩","the clock of a call is read before the previous call has returned","C70"),
("TimedRuntime","TStep","run fn W w (s.clocks r) = ⟨.ok, cl, some n⟩ →","run fn W w (s.clocks 1) = ⟨.ok, cl, some n⟩ →","every role measures with the clocks of role 1","C70"),
("TimedRuntime","TStep","| call {n m r fn w op l f cl} {W : World} : s.now ≤ n →","| call {n m r fn w op l f cl} {W : World} :","time goes backwards","C70"),
("TimedRuntime","TStep","resetAll now (s.noted r) 0 (s.clocks r) = (.ok, cl) →\n      TStep Y V s (.go (.sim (.enter r))) { s with fs := f, clocks := upd s.clocks r cl,","resetAll now (s.noted r) 0 (s.clocks r) = (.ok, cl) →\n      TStep Y V s (.go (.sim (.enter r))) { s with fs := f, clocks := upd s.clocks r (fun x => (s.clocks r x).map fun _ => now 0),","a choice resets all clocks","C70"),
("Timed","finish","some (W.now k) else cl x, some t⟩","some 0 else cl x, some t⟩","a reset sets the clock to the epoch","C70"),
("Timed","finish","fun x => if x = reset then some (W.now k) else cl x","fun _ => some (W.now k)","a reset resets all clocks","C70"),
("Timed","transfer","(W.xfer k (some (n * nsec - elapsed W c k)))","(W.xfer k (some (n * nsec)))","the timeout is counted from the call, not from the reset of the clock","C70"),
("Timed","transfer","(W.xfer k (some (n * nsec - elapsed W c k)))","(W.xfer k none)","the operation waits without timeout","C70"),
("Mesh","Step","        pos := upd s.pos r (.mesh ⟨upd M.sess q T, k⟩),\n        queue := upd s.queue (s.gen r, q, r) l }","        pos := upd s.pos r (.mesh ⟨upd M.sess q T, k⟩) }","recv leaves the message in the channel","C65"),
("Mesh","Step","queue := upd s.queue (s.gen r, r, q) (s.queue (s.gen r, r, q) ++ [.data m]) }","queue := upd s.queue (s.gen r, r, q) (s.queue (s.gen r, r, q) ++ [.data m, .data m]) }","send delivers twice","C65"),
]
