I="Indexed"
M=[
(I,"newFields","if i = k then (i, .fresh) else (i, .old i)","if i = k then (i, .fresh) else (i, .old (n - i))","other sessions are exchanged","C58"),
(I,"newFields","if i = k then (i, .fresh) else (i, .old i)","if i = k + 1 then (i, .fresh) else (i, .old i)","the continuation is put in the next place","C58"),
(I,"newFields","if i = k then (i, .fresh) else (i, .old i)","(i, .old i)","the continuation is dropped","C58"),
(I,"sendFn","stack := .role receiver (.var 0)\n    name := sender\n    body := ((List.range' 1 (n - 1)).flatMap fun i => if i ≠ k then [] else [.send i])","stack := .role sender (.var 0)\n    name := receiver\n    body := ((List.range' 1 (n - 1)).flatMap fun i => if i ≠ k then [] else [.send i])","sender and receiver exchanged","C58"),
(I,"sendFn","[.send i]) ++ [.pop]","[.send i])","the stack is not consumed","C58"),
(I,"sendFn","if i ≠ k then [] else [.send i]","if i = k then [] else [.send i]","sends on the other sessions","C58"),
(I,"sendFn","[.send i]) ++ [.pop]","[.send i]) ++ [.pop, .pop]","the stack loses two roles","C58"),
(I,"sendCancelFn","body := ((List.range' 1 (n - 1)).flatMap fun i => if i ≠ k then [] else [.sendCanceled i]) ++ [.pop]\n    fields := newFields n k\n    ret := .mesh ((List.range' 1 (n - 1)).map .var) (.var 0) }\n\n/-- `create_send_check","body := ((List.range' 1 (n - 1)).flatMap fun i => if i ≠ k then [] else [.send i]) ++ [.pop]\n    fields := newFields n k\n    ret := .mesh ((List.range' 1 (n - 1)).map .var) (.var 0) }\n\n/-- `create_send_check","the cancelling variant sends like the plain one","C58"),
(I,"sendCheckFn",".check :: ((List.range' 1 (n - 1))","((List.range' 1 (n - 1))","the broadcaster is not asked","C58"),
(I,"sendCheckFn","[.sendCanceled i]) ++ [.pop]\n    fields := newFields n k\n    ret := .mesh (.fin","[.sendCanceled i]) ++ [.pop, .check]\n    fields := newFields n k\n    ret := .mesh (.fin","asked again after sending","C58"),
(I,"sendCheckFn","sessions := .fin :: (List.range' 2 (n - 2)).map fun i","sessions := .fin :: (List.range' 1 (n - 2)).map fun i","sessions numbered from one","C58"),
(I,"sendCheckFn","ret := .mesh (.fin :: (List.range' 2 (n - 2)).map .var) (.var 0) }","ret := .mesh (.fin :: (List.range' 2 (n - 2)).map fun i => if i = k then .fin else .var i) (.var 0) }","the session sent on is declared finished","C58"),
(I,"recvFn","if i = k then .recv .T (.var i) else .var i","if i = k then .send .T (.var i) else .var i","declares a send","C58"),
(I,"recvFn","stack := .role sender (.var 0)\n    name := receiver","stack := .role receiver (.var 0)\n    name := sender","sender and receiver exchanged","C58"),
(I,"recvFn","if i ≠ k then [] else [.recv i]) ++ [.pop]","if i < k then [] else [.recv i]) ++ [.pop]","receives from all later sessions too","C58"),
(I,"recvFn","ret := .pair ((List.range' 1 (n - 1)).map .var) (.var 0) }","ret := .pair ((List.range' 1 (n - 1)).map .var) (.var 1) }","the declared stack is not the rest","C58"),
(I,"offerType","right : List","right : List","x","C58"),
(I,"offerType","(List.range' m (m - 1)).map","(List.range' (m - 1) (m - 1)).map","the branches share a session parameter","C58"),
(I,"offerType","if args.length = 2 * m - 2","if args.length = m - 1","wrong number of parameters accepted","C58"),
(I,"offerFn","offerType m (List.range' 1 (2 * n - 2)) 1 2 name","offerType m (List.range' 1 (2 * n - 2)) 2 1 name","stacks of the branches exchanged","C58"),
(I,"offerFn","ret := .branches (List.range' 1 (n - 1)) 1 (List.range' n (n - 1)) 2 }","ret := .branches (List.range' n (n - 1)) 1 (List.range' 1 (n - 1)) 2 }","functions for the branches exchanged","C58"),
(I,"offerFn","stack := .two role .fin .fin","stack := .two name .fin .fin","stack named after the own role","C58"),
(I,"offerFn","[.recv i]) ++ [.popLeft]","[.recv i]) ++ [.pop]","the wrong continuation of the stack","C58"),
(I,"offerFn","if i ≠ k then some .fin else offerType","if i ≠ k then some (.var i) else offerType","other sessions not finished","C58"),
(I,"takeField","| some (b, rest') => some (b, (i, a) :: rest')","| some (b, rest') => some (b, rest')","sessions before the one used are lost","C58"),
(I,"step","{ st with x := none, slots := rest, fresh := some b }\n    | _, _ => none\n  | .sendCanceled","{ st with x := none, fresh := some b }\n    | _, _ => none\n  | .sendCanceled","the session sent on may be used again","C58"),
(I,"steps","| some (.error e) => some (.error e)\n    | some (.ok st') => steps","| some (.error _) => steps o st rest\n    | some (.ok st') => steps","errors are ignored","C58"),
("Hand3","stackParams","if right then [1, 3, 5] else [0, 2, 4]","if right then [1, 3, 4] else [0, 2, 5]","stacks of the chooser exchanged","C14"),
]
M=[m for m in M if m[2]!=m[3]]
