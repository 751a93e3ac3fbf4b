M=[
("Interleaved","Open","P.thread j r = t ∧ (sess j).pos r ≠ .closed","P.thread j r = t","a thread may go on with a mesh it has closed","C66"),
("Interleaved","Open","j < P.count ∧ (1 ≤ r ∧ r ≤ (P.sys j).n) ∧ P.thread j r = t ∧","j < P.count ∧ (1 ≤ r ∧ r ≤ (P.sys j).n) ∧","a thread may take any mesh, also of other threads","C66"),
("Interleaved","Next","| none => ∀ j r, ¬ Open P sess t j r","| none => True","a function may return without having closed its meshes","C66"),
("Interleaved","IStep","l.actor = some r → s.turn (P.thread j r) = some (j, r) →\n      RStep","l.actor = some r →\n      RStep","a thread may call on a mesh it has not come to (as if each role had its thread)","C66"),
("Interleaved","IStep","IStep P s (j, l) ⟨upd s.sess j s', upd s.turn (P.thread j r) a⟩","IStep P s (j, l) ⟨upd s.sess j s', s.turn⟩","the thread never goes on to another mesh","C66"),
("Interleaved","IStep","IStep P s (j, l) ⟨upd s.sess j s', upd s.turn (P.thread j r) a⟩","IStep P s (j, l) ⟨fun _ => s', upd s.turn (P.thread j r) a⟩","a step changes all protocols","C66"),
("Interleaved","IStep","IStep P s (j, .gc) ⟨upd s.sess j s', s.turn⟩","IStep P s (j, .gc) ⟨upd s.sess j s', fun _ => none⟩","a drop ends all threads","C66"),
("Interleaved","IStart","sess : ∀ j, j < P.count → Start (P.sys j) (P.root j) (s.sess j)","sess : ∀ j, j < P.count → Start (P.sys j) (P.root 0) (s.sess j)","all protocols start at the root of the first","C66"),
("Interleaved","IStart","turn : ∀ t, Next P s.sess t (s.turn t)","turn : ∀ t, s.turn t = none","no thread is started","C66"),
("InterleavedFailure","FOpen","(sess j).dead r = false ∧ (sess j).pos r ≠ .closed","(sess j).pos r ≠ .closed","a thread may go on with a mesh it has dropped","C67"),
("InterleavedFailure","FNext","| none => ∀ j r, ¬ FOpen P sess t j r","| none => True","a thread may end while it holds meshes, which are not dropped","C67"),
("InterleavedFailure","FIStep","l.actor = some r → (∀ x, l ≠ .crash x) → s.turn (P.thread j r) = some (j, r) →\n      FStep","l.actor = some r → (∀ x, l ≠ .crash x) →\n      FStep","calls on meshes the thread has not come to","C67"),
("InterleavedFailure","FIStep","FStep (P.sys j) (s.sess j) (.crash r) s' → FNext P (upd s.sess j s') (P.thread j r) a →\n      FIStep P s (j, .crash r) ⟨upd s.sess j s', upd s.turn (P.thread j r) a⟩","FStep (P.sys j) (s.sess j) (.crash r) s' → FNext P (upd s.sess j s') (P.thread j r) a →\n      FIStep P s (j, .crash r) ⟨upd s.sess j s', s.turn⟩","a thread that drops the mesh it has come to stays there","C67"),
("InterleavedFailure","FIStep","FStep (P.sys j) (s.sess j) (.crash r) s' → FNext P (upd s.sess j s') (P.thread j r) a →\n      FIStep P s (j, .crash r) ⟨upd s.sess j s', upd s.turn (P.thread j r) a⟩","FStep (P.sys j) (s.sess j) (.crash r) s' → FNext P (fun i => { s.sess i with dead := upd (s.sess i).dead r true }) (P.thread j r) a →\n      FIStep P s (j, .crash r) ⟨fun i => { s.sess i with dead := upd (s.sess i).dead r true }, upd s.turn (P.thread j r) a⟩","a drop takes the mesh of the same role of every protocol, and frees nothing","C67"),
("InterleavedFailure","FIStart","⟨(s.sess j).heap, (s.sess j).pos⟩ ∧ (s.sess j).dead = nobody","⟨(s.sess j).heap, (s.sess j).pos⟩","roles may have failed at the start, while their endpoints are there","C67"),
("Failure","remaining","| .recv e => l.erase e\n  | _ => l","| _ => l","the endpoint of a failed receive is dropped twice","C45"),
("Failure","remaining","| .recv e => l.erase e\n  | _ => l","| .recv _ => []\n  | _ => l","the other endpoints are forgotten, not dropped","C45"),
("Failure","FStep","FStep Y s (.crash r) ⟨h', s.pos, upd s.dead r true⟩","FStep Y s (.crash r) ⟨h', s.pos, s.dead⟩","a role that has dropped all goes on","C45"),
("TimedRuntime","TCall","TCall Y V r (.mesh sl (.role q k)) .send (V.msg m) (.send e","TCall Y V r (.mesh sl (.role q k)) .send (V.msg 0) (.send e","all messages are sent in the window of payload 0","C68"),
("TimedRuntime","TCall","TCall Y V r (.mesh sl (.role q k)) .recv (V.choice q r bs)","TCall Y V r (.mesh sl (.role q k)) .recv (V.choice r q bs)","a choice is received in the window of the opposite direction","C68"),
("TimedRuntime","TCall",".sendNoReset (V.choice r (partner r k) bs)",".send (V.choice r (partner r k) bs)","a choice is sent with the function that resets at once","C68"),
("TimedRuntime","TCall",".sendNoReset (V.choice r (partner r k) bs)",".sendNoReset (V.choice r k bs)","the window of a choice goes by the index of the field","C68"),
("TimedRuntime","Gone","| .recv e => ∃ c, e.ep.node = .rcv c ∧ (h.chan c).tx = false ∧ (h.chan c).buf = none","| .recv e => ∃ c, e.ep.node = .rcv c ∧ (h.chan c).tx = false","a message whose sender is gone is not delivered","C68"),
("TimedRuntime","Gone","| .send e _ => ∃ c, e.ep.node = .snd c ∧ (h.chan c).rx = false","| .send e _ => ∃ c, e.ep.node = .snd c ∧ (h.chan c).buf = none","a send to an empty channel fails","C68"),
("TimedRuntime","Empty","| .recv e => ∃ c, e.ep.node = .rcv c ∧ (h.chan c).tx = true ∧ (h.chan c).buf = none","| .recv e => ∃ c, e.ep.node = .rcv c ∧ (h.chan c).tx = true ∧ (h.chan c).buf = none ∧ False","nothing ever times out","C68"),
("TimedRuntime","Refused","Gone h op ∨ (Empty h op ∧ ∃ x, d = some x ∧ start + x ≤ n)","Gone h op ∨ (Empty h op ∧ ∃ x, d = some x ∧ start ≤ n)","a receive may time out at once","C68"),
("TimedRuntime","Refused","Gone h op ∨ (Empty h op ∧ ∃ x, d = some x ∧ start + x ≤ n)","Gone h op ∨ (∃ x, d = some x ∧ start + x ≤ n)","a receive may time out although the message is there","C68"),
("TimedRuntime","Refused","Gone h op ∨ (Empty h op ∧ ∃ x, d = some x ∧ start + x ≤ n)","Gone h op ∨ Empty h op","receives without a timeout may time out","C68"),
("TimedRuntime","Refused","Gone h op ∨ (Empty h op ∧ ∃ x, d = some x ∧ start + x ≤ n)","Empty h op ∧ ∃ x, d = some x ∧ start + x ≤ n","a partner that is gone is not noticed","C68"),
("TimedRuntime","TStep","FStep Y s.fs (.step (.sim (.act r (.decide N)))) f →\n      TStep Y V s (.go (.sim (.act r (.decide N)))) { s with fs := f, noted := upd s.noted r [], now := n }","FStep Y s.fs (.step (.sim (.act r (.decide N)))) f →\n      TStep Y V s (.go (.sim (.act r (.decide N)))) { s with fs := f, now := n }","the clocks noted by the last choice are not forgotten","C68"),
("TimedRuntime","TStep","noted := if fn = .sendNoReset ∧ w.reset ≠ ' ' then upd s.noted r (s.noted r ++ [w.reset]) else s.noted }","noted := s.noted }","the clocks of a choice are not noted","C68"),
("TimedRuntime","TStep","noted := if fn = .sendNoReset ∧ w.reset ≠ ' ' then upd s.noted r (s.noted r ++ [w.reset]) else s.noted }","noted := if fn = .sendNoReset ∧ w.reset ≠ ' ' then upd s.noted r [w.reset] else s.noted }","only the last clock of a choice is noted","C68"),
("TimedRuntime","TStep","noted := if fn = .sendNoReset ∧ w.reset ≠ ' ' then upd s.noted r (s.noted r ++ [w.reset]) else s.noted }","noted := if fn = .sendNoReset ∧ w.reset ≠ ' ' then upd s.noted r (s.noted r ++ [w.clock]) else s.noted }","the clock of the window is noted instead of the one to reset","C68"),
("TimedRuntime","TStep","run fn W w (s.clocks r) = ⟨.ok, cl, some n⟩ →\n      TStep Y V s (.go l) { s with\n        fs := f, clocks := upd s.clocks r cl,","run fn W w (s.clocks r) = ⟨.ok, cl, some n⟩ →\n      TStep Y V s (.go l) { s with\n        fs := f, clocks := fun _ => cl,","the roles share their clocks","C68"),
("TimedRuntime","TStep","run fn W w (s.clocks r) = ⟨.ok, cl, some n⟩ →\n      TStep Y V s (.go l) { s with\n        fs := f, clocks := upd s.clocks r cl, last := upd s.last r m, now := n","run fn W w (s.clocks r) = ⟨.ok, cl, some n⟩ →\n      TStep Y V s (.go l) { s with\n        fs := f, clocks := upd s.clocks r cl, now := n","the time of the last call is not kept","C68"),
("TimedRuntime","TStep","FStep Y s.fs (.step l) f → ¬ Gone s.fs.heap op →\n      (∀ k, s.last r ≤ W.now k ∧ W.now k ≤ m) → run fn W w (s.clocks r) = ⟨.ok, cl, some n⟩ →","FStep Y s.fs (.step l) f → ¬ Gone s.fs.heap op →\n      (∀ k, W.now k ≤ m) → run fn W w (s.clocks r) = ⟨.ok, cl, some n⟩ →","a call may read the clock before the last call returned","C68"),
("TimedRuntime","TStep","FStep Y s.fs (.step l) f → ¬ Gone s.fs.heap op →\n      (∀ k, s.last r ≤ W.now k ∧ W.now k ≤ m) → run fn W w (s.clocks r) = ⟨.ok, cl, some n⟩ →","FStep Y s.fs (.step l) f → ¬ Gone s.fs.heap op →\n      (∀ k, s.last r ≤ W.now k ∧ W.now k ≤ m) → (run fn W w (s.clocks r)).clocks = cl →","the message is transferred whatever the window says","C68"),
("TimedRuntime","TStep","TStep Y V s (.go (.sim (.enter r))) { s with fs := f, clocks := upd s.clocks r cl, last := upd s.last r n, now := n }","TStep Y V s (.go (.sim (.enter r))) { s with fs := f, last := upd s.last r n, now := n }","the clocks noted are not reset","C68"),
("TimedRuntime","TStep","resetAll now (s.noted r) 0 (s.clocks r) = (.ok, cl) →","resetAll now (s.noted r).tail 0 (s.clocks r) = (.ok, cl) →","the first clock noted is not reset","C68"),
("TimedRuntime","TStep","  | missing {n r f cl} {now : Nat → Nat} : s.now ≤ n → s.up r → (∀ k, s.last r ≤ now k ∧ now k ≤ n) →\n      (∃ f', FStep Y s.fs (.step (.sim (.enter r))) f') → resetAll now (s.noted r) 0 (s.clocks r) = (.panic, cl) →","  | missing {n r f cl} {now : Nat → Nat} : s.now ≤ n → s.up r → (∀ k, s.last r ≤ now k ∧ now k ≤ n) →\n      (∃ f', FStep Y s.fs (.step (.sim (.enter r))) f') → resetAll now (s.noted r) 0 (s.clocks r) = (.ok, cl) →","the loop at the end of a choice panics although the clocks exist","C68"),
("TimedRuntime","TStep","run fn W w (s.clocks r) = ⟨res, cl, none⟩ → FStep Y s.fs (.crash r) f → TStep Y V s (.late r) { s with fs := f, now := n }","(run fn W w (s.clocks r)).clocks = cl → res = Res.ok → FStep Y s.fs (.crash r) f → TStep Y V s (.late r) { s with fs := f, now := n }","a role may give up although its call succeeds","C68"),
("TimedRuntime","TStep","(∀ k, s.last r ≤ W.now k ∧ W.now k ≤ n) → (∀ k d, W.xfer k d = none → Refused s.fs.heap op (W.start k) d n) →","(∀ k, s.last r ≤ W.now k ∧ W.now k ≤ n) →","a call may fail without reason","C68"),
("TimedRuntime","TStep","| fail {n r f i sl} : s.now ≤ n → s.up r → s.fs.pos r = .ending i sl → FStep Y s.fs (.fail r) f →","| fail {n r f i sl} : s.now ≤ n → s.up r → s.fs.pos r = .ending i sl → False → FStep Y s.fs (.fail r) f →","close never returns an error","C68"),
("TimedRuntime","TStep","| down {n r f} : s.now ≤ n → s.doomed r = true → FStep","| down {n r f} : s.now ≤ n → FStep","any role may go down at any moment (as crash does, but with another label; the label of a role not doomed is not down)","C68"),
("TimedRuntime","TStep","| enter {n r f cl} {now : Nat → Nat} : s.now ≤ n → s.up r →","| enter {n r f cl} {now : Nat → Nat} : s.now ≤ n → s.fs.dead r = false →","a role that panicked goes on (no spoiled call is in a choice, so nothing changes)","C68"),
("TimedRuntime","TStep","W.now k ≤ m) → run fn W w (s.clocks r) = ⟨res, cl, some n⟩ → res ≠ .ok →","W.now k ≤ m) → run fn W w (s.clocks r) = ⟨res, cl, some n⟩ →","a call that returned Ok may doom its role","C68"),
("TimedRuntime","TStart","  clocks : ∀ r x c, s.clocks r x = some c → c ≤ s.last r\n","","clocks may start in the future","C68"),
("TimedRuntime","TStart","  alive : s.fs.dead = nobody\n","","roles may have failed at the start","C68"),
("TimedRuntime","TStart","  doomed : ∀ r, s.doomed r = false\n","","roles may be doomed at the start","C68"),
("TimedRuntime","TLabel.erase","| .down r => .crash r","| .down r => .fail r","going down is an error of a call","C68"),
]
