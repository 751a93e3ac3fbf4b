N="Nuscr"
M=[
(N,"choiceFor","      messages := upd2 t.messages sender receiver (defs ++ [(last, Rhs.sendChoice (choiceName idx sender receiver))])","      messages := upd2 t.messages sender receiver (defs ++ [(last, Rhs.recvChoice (choiceName idx sender receiver))])","The chooser receives from the others at the choice","C47"),
(N,"choiceFor","      messages := upd2 t.messages receiver sender (defs ++ [(last, Rhs.recvChoice (choiceName idx sender receiver))])","      messages := upd2 t.messages receiver sender (defs ++ [(last, Rhs.recvChoice (choiceName idx receiver sender))])","The receiver's enum is not the one sent","C47"),
(N,"choiceFor","      stacks := upd t.stacks receiver (defs ++ [(last, StackRhs.last sender)])","      stacks := upd t.stacks receiver (defs ++ [(last, StackRhs.last receiver)])","A receiver's stack names itself instead of the chooser","C47"),
(N,"choiceFor","      stacks := upd t.stacks sender (defs ++ [(last, StackRhs.broadcast)])","      stacks := upd t.stacks sender (defs ++ [(last, StackRhs.fin)])","The chooser does not broadcast","C47"),
(N,"choiceFor","      lastMessage := upd2 t.lastMessage receiver sender [] }\n","      }\n","The session of a receiver with the chooser is defined twice (ends and receives)","C47"),
(N,"initSubTree","  initTree roles (indexText index)\n","  initTree roles (indexText index.dropLast)\n","The names of a branch are those of the part before","C47"),
(N,"initSubTree","upd (fun _ => none) (indexText index) (sender, 0)","(fun _ => none)","Further branches have no chooser to look up","C47"),
(N,"replay","replay title roles loop idx (active || contains l loop) ks t","replay title roles loop idx (contains l loop) ks t","A loop inside the one continued stops the replay","C47"),
(N,"replay","  | true, .choice sender :: _, t => choiceAll roles idx sender t","  | true, .choice sender :: _, t => .ok t","A branch that jumps ends instead of choosing again","C47"),
(N,"replay","  | true, .message m :: ks, t => do\n    let t ← updateMessages title roles m t","  | true, .message m :: ks, t => do\n    let t ← if m.reset = none then updateMessages title roles m t else .ok t","Messages with a reset are missing from the next passage","C47"),
(N,"Glob.save","fun s => (s.1, s.2 ++ [k])","fun s => (s.1, k :: s.2)","The messages of the loop are replayed in reverse","C47"),
(N,"processLine (or)","elt.1) offset rest","main.index.head!.repr.toList) offset rest","The chooser of the second branch is wrong","C47"),
(N,"processLine (or)","parent with enums := upd parent.enums first (elt.1, elt.2 + 1)","parent with enums := upd parent.enums first (elt.1, elt.2)","The enums have only one variant","C47"),
(N,"processLine (or)","(main.index.dropLast ++ [main.index.getLastD 0 + 1])","(main.index.dropLast ++ [main.index.getLastD 0])","All branches have the same names","C47"),
(N,"processLine (choice)","        processLine title fuel d.glob parent { d.parent with subTrees := d.parent.subTrees ++ [d.main] } d.offset d.rest","        processLine title fuel d.glob parent d.parent d.offset d.rest","The first branch is not generated","C47"),
(N,"variants","(List.range (n + 1)).map fun i =>\n    (['B'","(List.range n).map fun i =>\n    (['B'","The enums miss the last branch","C47"),
(N,"variants","endpointName (idx ++ ['_'] ++ dec i) role","endpointName idx role","Every variant carries the type of the beginning","C47"),
(N,"genEnums","if r ≠ e.1 then [(choiceName (indexText t.index) e.1 r","if r ≠ e.1 then [(choiceName (indexText t.index) r e.1","The enums have names nobody uses","C47"),
(N,"genEnums","  if t.subTrees = [] then [] else\n","  if t.subTrees.length ≤ 1 then [] else\n","No enum for a choice of one branch","C47"),
(N,"programOf","(r, ['0'], 0)","(r, ['0', '_', '0'], 0)","main starts in the first branch","C47"),
(N,"genFunctions","((t.endpoints r).getD []).headD []","((t.endpoints (roles.headD [])).getD []).headD []","All functions take the type of the first role","C47"),
(N,"allFunctionsList","  | t :: ts => allFunctions roles t ++ allFunctionsList roles ts","  | t :: ts => allFunctions roles t","Only one branch has functions","C47"),
(N,"allEnumsList","  | t :: ts => allEnums roles t ++ allEnumsList roles ts","  | t :: ts => allEnumsList roles ts","Enums of inner choices are lost (none occurs: inner choices are rejected)","C47"),
(N,"processLine (offset)","else if 1 < offset then .error .nested","else if 2 < offset then .error .nested","Nested choices are read","C47"),
(N,"processLine (jump)","let main ← replay title g.roles name idx false saved main","let main ← replay title g.roles name idx true saved main","Replay is active from the start (same: the loop's own line is first)","C47"),
]
