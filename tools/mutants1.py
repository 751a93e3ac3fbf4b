# (model file, definition, old text, new text, broken claim, prefix of the theorems expected to fail)
M=[
("Maths","diagStep","column ≥ n - 1 then","column ≥ n then","C17: the diagonal enumerates each pair once","C17"),
("Maths","diagStep","(line + 1, line + 1 + 1)","(line + 1, line + 1)","C17: the diagonal enumerates pairs of distinct roles","C17"),
("Maths","diagWOffset","(diff * (diff + 1) / 2 + 1) 0 0 0","(diff * (diff + 1) / 2) 0 0 0","none: the offset table has one entry too many, dropping it changes no looked-up entry","C17"),
("Maths","matrixRow","if i = t.1 ∨ i = t.2.1 then","if i = t.1 then","C17: row i lists all pairs containing i","C17"),
("Maths","getTupleMatrix","list[j - 1]?","list[j]?","C17: lookup is one-based","C17"),
("Maths","getLineColumnFromDiag","if t.2.2 = index then some (t.1, t.2.1)","if t.2.2 = index then some (t.2.1, t.1)","C17: line before column","C17"),
("Gen","forkFields","(j, if line = i then (off + line, off + column) else (off + column, off + line))","(j, if line = i then (off + column, off + line) else (off + line, off + column))","C15: every role gets its own end of each channel","C15"),
("Gen","forkMeshes","some (.mesh (off + i) fs (off + i))","some (.mesh (off + i) fs i)","C16: stack of the role itself in the second mesh","C16"),
("Gen","forkThreads",".spawn i [i]",".spawn i [n + 1 - i]","C15: thread i gets the mesh of role i","C15"),
("Gen","forkParamTy","if k = i then false else true","if k = i then true else false","C15: declared types match","C15"),
("Gen","interleavedOffset","else if i ≥ idx1 ∧ i < n1 - 1 + idx2 then i + 1","else if i ≥ idx1 ∧ i ≤ n1 - 1 + idx2 then i + 1","C16: every remaining role has a thread","C16"),
("Gen","interleavedThreads","++ [.spawn 0 [idx1, n1 + idx2]]","++ [.spawn 0 [idx1, idx2]]","C16: the shared thread gets a mesh of each session","C16"),
("Gen","interleavedFnTwo","(if i < idx2 then i - 1 else i - 2)","(if i ≤ idx2 then i - 1 else i - 2)","C16: declared function number of roles of mesh two (only i = idx2 changes, which has no function)","C16"),
("Gen","chooseChannels","(if sender ≠ line then (line, column) else (column, line))","(if sender ≠ line then (column, line) else (line, column))","C13: the chooser holds the dual ends","C13"),
("Gen","chooseStacks","(2 * (j - 1) + (if right then 2 else 1))","(2 * (j - 1) + (if right then 1 else 2))","C13: receivers get the stack of the chosen branch","C13"),
("Gen","chooseRecvFields","(k, if j > k then (j, k) else (j, k + 1))","(k, if j ≥ k then (j, k) else (j, k + 1))","C12: receivers' fields skip their own role","C12"),
("Gen","chooseRecvMeshes","filter (fun j => sender ≠ j)).map fun j =>\n    .mesh (if j > sender then j - 1 else j) (chooseRecvFields n j)","filter (fun j => sender ≠ j)).map fun j =>\n    .mesh (if j > sender then j - 1 else j) (chooseRecvFields n (n + 1 - j))","C12: receiver j gets the mesh of role j","C12"),
("Gen","chooseSends",".sendVar j j",".sendVar j (n - j)","C12: the mesh of a role is sent on the session with that role","C12"),
("Gen","chooseSenderFields","(if j < sender then j else j - 1, (sender, j))","(if j ≤ sender then j else j - 1, (j, sender))","C12: the chooser keeps its own ends","C12"),
("Gen","branchOff","if right then (n - 1) * (n - 1 + 1) / 2 else 0","0","C13: right branch uses the second block of session parameters","C13"),
("Gen","chooseRecvTy","if l = j ∨ m1 = m then false else true","if l = j then false else true","C13: declared type of the session with the chooser","C13"),
("Gen","chooseRecvStack","(if j > sender then 2 * (j - 1) else 2 * (j - 1) + 2)","(if j > sender then 2 * j else 2 * (j - 1) + 2)","C13: declared stack of receivers above the chooser","C13"),
("Gen","toAllSends","let temp := if i ≥ excl then i + 1 else i","let temp := if i > excl then i + 1 else i","C12: enum choice skips the chooser","C12"),
("Gen","toAllSenderFields","(i, if i < excl then (excl, i) else (excl, i + 1))","(i, if i < excl then (i, excl) else (excl, i + 1))","C12: the chooser keeps its own ends in an enum choice","C12"),
("Hand3","chans","  | .method, .C => [((2,1),(1,2)), ((1,3),(3,1)), ((2,3),(3,2))]","  | .method, .C => [((2,1),(1,2)), ((3,1),(1,3)), ((2,3),(3,2))]","C14: role C chooses by method","C14"),
("Hand3","fields","| .B => ([(1,(1,2)),(2,(1,3))], [(1,(3,1)),(2,(3,2))], [(1,(2,1)),(2,(2,3))])","| .B => ([(1,(1,3)),(2,(1,2))], [(1,(3,1)),(2,(3,2))], [(1,(2,1)),(2,(2,3))])","C14: fields of the receivers of a choice by B","C14"),
("Hand3","sessArgs","| .A, true  => [4, 5, 1]","| .A, true  => [4, 5, 0]","C14: right branch sessions","C14"),
("Hand3","forkBody3",".mesh 3 [(1,(3,1)),(2,(3,2))] 3",".mesh 3 [(1,(3,2)),(2,(3,1))] 3","C14: hand-written fork, third role","C14"),
("Types","STy.dual",".recv w t s => .send w t s.dual",".recv w t s => .send w t s","C01: duality is deep","C01"),
("Types","STy.dual",".send w t s => .recv w t s.dual",".send w t s => .recv none t s.dual","C01: windows kept by duality","C01"),
("Types","Stack.dual",".toAll a d l r => .toAll a (!d) l.dual r.dual",".toAll a d l r => .toAll a (!d) r.dual l.dual","C01: branches of a stack keep their place","C01"),
("Types","Mesh.dual","stack := m.stack.dual, name","stack := m.stack, name","C01: dual of a mesh","C01"),
("Types","STy.tailStr","| .recv _ _ s => s.headStr ++ '<' :: (s.tailStr ++ ['>'])","| .recv _ _ s => s.headStr ++ '<' :: (s.tailStr)","C35: printing of receptions","C35"),
("Types","Stack.headStr","| .role a d _ => ['R', 'o', 'l', 'e'] ++ a ++ (if d then ['D', 'u', 'a', 'l'] else [])","| .role a _ _ => ['R', 'o', 'l', 'e'] ++ a","C35: printed dual roles are distinguishable","C35"),
("SendRecv","isComm","k == (if k ≥ self then other - 1 else other)","k == (if k > self then other - 1 else other)","C18: slot arithmetic at k = self","C18"),
("SendRecv","emit","used := if other ≥ self then other - 1 else other","used := if other ≥ self then other else other","C18: used field","C18"),
("SendRecv","recvImpl","emit n receiver sender","emit n sender receiver","C18: receiver owns the mesh","C18"),
("SendRecv","emit","if isComm self other k then .fresh else .old k","if isComm self other k then .old k else .old k","C18: the new session replaces the used one","C18"),
("SendRecv","offerComm","isComm receiver sender","isComm sender receiver","C18: offer uses the session with the chooser","C18"),
]
