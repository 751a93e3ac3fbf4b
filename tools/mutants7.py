# Seeded bugs for Model/GenLast.lean.
M=[
("GenLast","lastChannels","some (.newChan (line, column) (column, line) (branchOff n right + i))","some (.newChan (line, column) (column, line) i)","C46: the right branch uses the right session parameters","C46"),
("GenLast","lastChannels","some (.newChan (line, column) (column, line) (branchOff n right + i))","some (.newChan (column, line) (line, column) (branchOff n right + i))","C46: the ends have the declared types","C46"),
("GenLast","lastChannels","(n - 1) * (n - 1 + 1) / 2","(n - 1) * (n - 1) / 2","C46: one channel per pair","C46"),
("GenLast","lastStacks","(3 * (i - 1) + (if right then 2 else 1)) true","(3 * (i - 1) + 1) true","C46: the stack of the right branch","C46"),
("GenLast","lastStacks","(3 * (i - 1) + (if right then 2 else 1)) true","(3 * (i - 1) + (if right then 2 else 1)) false","C46: the receivers get the dual stack","C46"),
("GenLast","lastStacks","[.newStack n (stackNo (if right then 3 * n - 1 else 3 * n - 2) false)]","[.newStack n (stackNo (3 * n - 2) false)]","C46: the chooser's stack of the right branch","C46"),
("GenLast","lastFields","if line = i then (line, column) else (column, line)","(line, column)","C46: each role gets its own ends","C46"),
("GenLast","lastSender","if line = i then (column, line) else (line, column)","if line = i then (line, column) else (column, line)","C46: the chooser keeps its own ends","C46"),
("GenLast","lastSends",".sendVar i i",".sendVar i (n - i)","C46: each role gets its own mesh","C46"),
("GenLast","lastSends","(List.range' 1 (n - 1)).map fun i => .sendVar i i","(List.range' 1 (n - 2)).map fun i => .sendVar i i","C46: every role gets a mesh","C46"),
("GenLast","lastSenderTys","n - 1 - j","n - j","C46: the returned mesh has the declared types","C46"),
("GenLast","lastRecvTy","decide (k = i)","decide (k ≠ i)","C46: the sent meshes have the declared types","C46"),
("GenLast","lastRecvStack","3 * (i - 1) + j","2 * (i - 1) + j","C46: the sent meshes have the declared stacks","C46"),
("GenLast","soloBody","[.spawn 0 (rangeIncl 1 n)]","[.spawn 0 (List.range' 1 (n - 1))]","C46: all meshes are passed","C46"),
("GenLast","soloBody","[.spawn 0 (rangeIncl 1 n)]","[.spawn 0 (rangeIncl 1 n).reverse]","C46: the meshes are passed in order","C46"),
]
