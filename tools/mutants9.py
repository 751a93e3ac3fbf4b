N="NuscrText"
M=[
(N,"rxGlobal","lit ['('], plus rxRoles, lit [')'], sp0,\n    opt (lit ['{'])]","lit ['('], rxRoles, lit [')'], sp0,\n    opt (lit ['{'])]","A header with several roles is not a header","C48"),
(N,"rxRoles","seqs [lit ['r', 'o', 'l', 'e'], sp1, word1, sp0, opt (lit [',']), sp0]","seqs [lit ['r', 'o', 'l', 'e'], sp1, word1, opt (lit [',']), sp0]","A blank before a comma of the header is not accepted","C48"),
(N,"rxRoles","seqs [lit ['r', 'o', 'l', 'e'], sp1, word1, sp0, opt (lit [',']), sp0]","seqs [lit ['r', 'o', 'l', 'e'], sp1, word1, sp0, opt (lit [','])]","A blank after a comma of the header is not accepted","C48"),
(N,"rxRole","seqs [lit ['r', 'o', 'l', 'e', ' '], .cap .name word1]","seqs [lit ['r', 'o', 'l', 'e', ' '], .cap .name (.cls .word)]","Only the first letter of a role is read","C48"),
(N,"rxRole","seqs [lit ['r', 'o', 'l', 'e', ' '], .cap .name word1]","seqs [lit ['o', 'l', 'e', ' '], .cap .name word1]","(harmless: any word ending with ole) the roles are still read","C48"),
(N,"rxOr","seqs [lit ['}'], sp0, lit ['o', 'r'], sp0, lit ['{']]","seqs [lit ['}'], sp1, lit ['o', 'r'], sp1, lit ['{']]","}or{ is not read","C48"),
(N,"rxOr","seqs [lit ['}'], sp0, lit ['o', 'r'], sp0, lit ['{']]","seqs [lit ['o', 'r']]","Any line with or in it separates branches","C48"),
(N,"rxChoice","lit ['a', 't'], sp1, .cap .choice word1, sp0,","lit ['a', 't'], sp0, .cap .choice word1, sp0,","Several readings of choice at atX (first one is still right)","C48"),
(N,"rxChoice","[lit ['c', 'h', 'o', 'i', 'c', 'e'], sp1,","[lit ['c', 'h', 'o', 'i', 'c', 'e'], .cls (.one ' '),","choice with two blanks is not read","C48"),
(N,"rxMsg","[.cap .message word1, lit ['('], payload,","[.cap .message (.cls .word), lit ['('], payload,","Only the last letter of the label is read","C48"),
(N,"rxMsg",".cap .sender word1, sp1,\n    lit ['t', 'o'], sp1, .cap .receiver word1",".cap .receiver word1, sp1,\n    lit ['t', 'o'], sp1, .cap .sender word1","Sender and receiver are swapped","C48"),
(N,"rxMsg","sp0, lit [';'], sp0, .cap .rightBound num1","sp0, lit [';'], sp1, .cap .rightBound num1","No blank after the semicolon of a window is an error","C48"),
(N,"rxMsg",".cap .leftBound num1, sp0, lit [';'], sp0, .cap .rightBound num1",".cap .rightBound num1, sp0, lit [';'], sp0, .cap .leftBound num1","The bounds are swapped","C48"),
(N,"rxMsg","reset, lit [')'], sp0, lit [';']]","reset, lit [')'], lit [';']]","A blank before the last semicolon is not accepted","C48"),
(N,"num1","def num1 : Rx := .seq (.cls .digit) (.star (.cls .digit))","def num1 : Rx := .cls .digit","Bounds have one digit","C48"),
(N,"bracket","def bracket : Rx := .alt (.cls (.one '[')) (.cls (.one ']'))","def bracket : Rx := .cls (.one '[')","Closing brackets are not accepted","C48"),
(N,"rxMessage","def rxMessage : Rx := rxMsg word0 word0","def rxMessage : Rx := rxMsg word1 word0","Messages without payload are not messages","C48"),
(N,"rxMessage","def rxMessage : Rx := rxMsg word0 word0","def rxMessage : Rx := rxMsg word0 .eps","Messages with a reset are not messages","C48"),
(N,"rxReset","def rxReset : Rx := rxMsg .eps (.cap .reset word1)","def rxReset : Rx := rxMsg word0 (.cap .reset word1)","(same reset) the payload of a message with both is found by the first test","C48"),
(N,"rxPayloadReset","def rxPayloadReset : Rx := rxMsg (.cap .payload word1) (.cap .reset word1)","def rxPayloadReset : Rx := rxMsg (.cap .payload word1) .eps","The reset of a message with payload is lost","C48"),
(N,"rxRec","seqs [lit ['r', 'e', 'c'], sp1, .cap .loop word1]","seqs [lit ['r', 'e', 'c'], sp0, .cap .loop word1]","continue recX and the like open a loop","C48"),
(N,"rxContinue",".cap .loop word1, sp0, lit [';']]",".cap .loop word1, lit [';']]","continue L ; is not read","C48"),
(N,"bracketOf","if t = ['['] then .opening else .closing","if t = [']'] then .opening else .closing","The brackets of the windows are swapped","C48"),
(N,"resetOf","    match search C rxReset t with\n    | some x => some (x.2.get .reset)\n    | none => none","    none","The reset of a message without payload is lost","C48"),
(N,"payloadOf","    if isMatch C rxReset t then []\n    else\n      match","    if isMatch C rxMessage t then []\n    else\n      match","The payload of a message without reset is lost","C48"),
(N,"msgOf","  clock := c.get .clock","  clock := c.get .sender","The clock is the sender","C48"),
(N,"kindOf","  match search C rxGlobal t with\n  | some x => .global (x.2.get .name) (rolesOf C t)","  match search C rxGlobal t with\n  | some x => .global (x.2.get .name) (rolesOf C t).reverse","The roles of the header are in reverse order","C48"),
(N,"kindOf","        if isMatch C rxOr t then .or\n        else\n          match search C rxRec t with\n          | some x => .loop (x.2.get .loop)\n          | none =>","        if isMatch C rxOr t then .or\n        else","No loop is opened","C48"),
(N,"lineOf","opens := t.count '{'","opens := if '{' ∈ t then 1 else 0","(same on the lines of a protocol) brackets are counted once per line","C48"),
(N,"lineOf","closes := t.count '}'","closes := t.count '{'","Opening brackets are counted as closing ones","C48"),
(N,"iter","    match step (fun t' c' => if t'.length < t.length then iter step k n t' c' else none) t c with\n    | some r => some r\n    | none => k t c","    match k t c with\n    | some r => some r\n    | none => step (fun t' c' => if t'.length < t.length then iter step k n t' c' else none) t c","Repetitions are lazy: the last name of a line is cut to one letter","C48"),
(N,"searchAll","    | some (t', c) => c :: searchAll C r n t'","    | some (_, c) => [c]","Only the first role is read","C48"),
(N,"search","    | none => search C r t\n","    | none => none\n","Matches must start at the beginning: indented lines are not read","C48"),
]
