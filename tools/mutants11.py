N="CheckGraph"
A="auxGraph"
M=[
(N,"backEdge","if s.g.hasEdge prev node = false ∧ prev ≠ node then","if s.g.hasEdge prev node = false then","A loop edge from a choice to itself is added for each further receiver, and the last transition moved","C50"),
(N,"backEdge","if s.g.hasEdge prev node = false ∧ prev ≠ node then","if prev ≠ node then","One loop edge for each branch instead of one (the walks stay the same)","C50"),
(N,"backEdge","if s.g.hasEdge prev node = false ∧ prev ≠ node then","if s.g.hasEdge node prev = false ∧ prev ≠ node then","The edge looked for goes the other way","C50"),
(N,"backEdge","g := s.g.addEdge prev node ['µ']","g := s.g.addEdge node prev ['µ']","The loop edge goes the wrong way","C50"),
(N,"backEdge","g := s.g.addEdge prev node ['µ']","g := s.g","No loop edge: the graph ends after one turn","C50"),
(N,"backEdge","| some e => s.cfsm.dropLast ++ [(e.1, node)] }","| some e => s.cfsm }","The machine is not led back: stuck in the middle","C50"),
(N,"backEdge","| some e => s.cfsm.dropLast ++ [(e.1, node)] }","| some e => s.cfsm ++ [(e.1, node)] }","The transition is written twice, once to nowhere","C50"),
(N,"backEdge","| some e => s.cfsm.dropLast ++ [(e.1, node)] }","| some e => s.cfsm.dropLast ++ [(e.1, prev)] }","The transition goes to the wrong state","C50"),
(N,"markGroup","if x ∈ C.groupKeys ∧ C.group x = some i then some prev else seen x","seen x","Branches are not marked: drawn again for each receiver (walks stay the same)","C50"),
(N,"markGroup","if x ∈ C.groupKeys ∧ C.group x = some i then some prev else seen x","if x ∈ C.groupKeys then some prev else seen x","All branches of all choices are marked after the first one","C50"),
(N,A,"let all := sortBy (fun a b => strLe a.1 b.1) (choice.map fun b => (p ++ [':', ':'] ++ b.1, b.2))","let all := sortBy (fun a b => strLe a.1 b.1) (choice.map fun b => (b.1, b.2))","Branches without the name of their enum: those of different enums coincide","C50"),
(N,A,"let all := sortBy (fun a b => strLe a.1 b.1) (choice.map fun b => (p ++ [':', ':'] ++ b.1, b.2))","let all := sortBy (fun a b => strLe a.1 b.1) ((choice.drop 1).map fun b => (p ++ [':', ':'] ++ b.1, b.2))","A branch is missing at the receiver","C50"),
(N,A,"let session ← dropEnd 2 b.2","let session ← dropEnd 1 b.2","One field too many in the branch of a receiver","C50"),
(N,A,"let session ← C.branching b >>= dropEnd 1","let session ← C.branching b >>= dropEnd 2","The stack of the chooser's branch is dropped","C50"),
(N,A,"let seen' : Seen := fun x => if x ∈ all.map (·.1) then some prev else s.seen x","let seen' : Seen := s.seen","Inside a branch the choice is not marked: no loop is found by receivers","C50"),
(N,A,"let seen' : Seen := fun x => if x ∈ all then some prev else s.seen x","let seen' : Seen := s.seen","Inside a branch the choice is not marked: no loop is found by the chooser","C50"),
(N,A,"let seen' : Seen := fun x => if x ∈ all then some prev else s.seen x","let seen' : Seen := fun x => if x ∈ all then some prev else none","Outer choices are forgotten: nested loops are drawn for ever","C50"),
(N,A,"let seen' : Seen := fun x => if x ∈ all.map (·.1) then some prev else s.seen x","let seen' : Seen := fun x => if x = b.1 then some prev else s.seen x","Only the branch itself is marked inside it: the others are drawn again (walks stay the same)","C50"),
(N,A,"let seen ← markGroup C s.seen b.1 prev","let seen ← markGroup C seen' b.1 prev","After the first branch all are taken as drawn (receiver)","C50"),
(N,A,"let seen ← markGroup C s.seen b prev","let seen ← markGroup C seen' b prev","After the first branch all are taken as drawn (chooser)","C50"),
(N,A,"let (g, cfsm) ← auxGraph C fuel session idx prev depth seen' s.g s.cfsm\n                let seen","let (g, cfsm) ← auxGraph C fuel session idx prev depth seen' g cfsm\n                let seen","Each branch of a receiver starts from the graph before the choice: only the last one is kept","C50"),
(N,A,"some (acc ++ choice.map fun c => p ++ [':', ':'] ++ c.1)","some (choice.map fun c => p ++ [':', ':'] ++ c.1)","Only the branches for the last receiver are visited (they are the same: walks stay the same)","C50"),
(N,A,"let i ← position head C.roles\n        let offset := if C.me < i then 1 else 0","let i ← position head C.roles\n        let offset := if C.me ≤ i + 1 then 1 else 0","Wrong session for the partner just before","C50"),
(N,A,"let seen' : Seen := fun x => if x ∈ all.map (·.1) then some prev else s.seen x","let seen' : Seen := fun x => if x ∈ all.map (·.1) then some 0 else s.seen x","Loops of a receiver go back to the start","C50"),
(N,A,"let depth := if s.added then s.depth else s.depth + 1\n                let session","let depth := s.depth + 1\n                let session","The level grows with each branch: index out of range at the second one","C50"),
(N,A,"some ⟨idx, depth, true, g, cfsm, seen⟩\n            some","some ⟨idx, depth, false, g, cfsm, seen⟩\n            some","The level grows with each branch (only labels of nodes change)","C50"),
]
