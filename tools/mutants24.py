M=[
("TimedRuntime","TStep","| call {n m r fn w op l f cl} {W : World} : s.now ≤ n → s.up r","| call {n m r fn w op l f cl} {W : World} : s.now < n → s.up r","two transfers never happen at the same instant","C68"),
("TimedRuntime","TStep","FStep Y s.fs (.step l) f → ¬ Gone s.fs.heap op →\n      (∀ k, s.last r ≤ W.now k ∧ W.now k ≤ m) → run fn W w (s.clocks r) = ⟨.ok, cl, some n⟩ →","FStep Y s.fs (.step l) f → ¬ Gone s.fs.heap op →\n      (∀ k, s.last r < W.now k ∧ W.now k ≤ m) → run fn W w (s.clocks r) = ⟨.ok, cl, some n⟩ →","a call may not read the time the last call returned at","C68"),
("TimedRuntime","TStep","FStep Y s.fs (.step l) f → ¬ Gone s.fs.heap op →\n      (∀ k, s.last r ≤ W.now k ∧ W.now k ≤ m) → run fn W w (s.clocks r) = ⟨.ok, cl, some n⟩ →","FStep Y s.fs (.step l) f → ¬ Gone s.fs.heap op →\n      (∀ k, s.now ≤ W.now k ∧ W.now k ≤ m) → run fn W w (s.clocks r) = ⟨.ok, cl, some n⟩ →","a call cannot have begun before the last step of anybody","C68"),
("TimedRuntime","TStep","| calm {n l f} : s.now ≤ n → Untimed l","| calm {n l f} : s.now < n → Untimed l","every step of close takes time","C68"),
("TimedRuntime","TStep","| decide {n r N f} : s.now ≤ n → s.doomed r = false","| decide {n r N f} : s.now ≤ n → s.noted r = [] → s.doomed r = false","a role whose last choice reset clocks cannot choose again","C68"),
("TimedRuntime","TStep","fs := f, clocks := upd s.clocks r cl, last := upd s.last r m, now := n\n","fs := f, clocks := upd s.clocks r cl, last := upd s.last r m, now := m\n","the time of the program jumps to the return of the call","C68"),
("TimedRuntime","TStep","| enter {n r f cl} {now : Nat → Nat} : s.now ≤ n → s.up r → (∀ k, s.last r ≤ now k ∧ now k ≤ n) →","| enter {n r f cl} {now : Nat → Nat} : s.now ≤ n → s.up r → (∀ k, s.last r ≤ now k ∧ now k ≤ n) → s.noted r = [] →","a choice that resets clocks cannot be finished","C68"),
("TimedRuntime","TCall","| tell {N k ms todo old own e w x bs T} : old[k - 1]? = some e →","| tell {N k ms todo old own e w x bs T} : todo ≠ [] → old[k - 1]? = some e →","the last role is never told of the choice","C68"),
("TimedRuntime","TCall","TCall Y V r (.mesh sl (.role q k)) .recv (V.msg m) (.recv e)","TCall Y V r (.mesh sl (.role q k)) .recv (V.msg q) (.recv e)","a message is received in the window of another payload","C69"),
("TimedRuntime","TCall","(.sim (.act r (.recv q m)))","(.sim (.act r (.recv q 0)))","all messages received are of payload 0, so others are never received","C69"),
("TimedRuntime","TStart","  noted : ∀ r, s.noted r = []","  noted : ∀ r, s.noted r = [' ']","a clock is noted at the start","C68"),
("TimedRuntime","TStart","s.clocks r x = some c → c ≤ s.last r","s.clocks r x = some c → c < s.last r","no role may begin at the instant its clock was created","C68"),
]
