M=[
("Nuscr","processLine","      | .other =>\n        if number = 0 then .error .notTimed\n        else processLine title fuel g parent main offset rest","      | .other =>\n        if number = 0 then .error .notTimed\n        else if line.opens = 0 ∧ line.closes = 0 then .error .notTimed\n        else processLine title fuel g parent main offset rest","a line that says nothing is refused","C73"),
("Nuscr","processLine","else if line.empty then processLine title fuel g parent main offset rest","else if line.empty then .ok ⟨g, parent, main, offset, rest⟩","reading stops at an empty line","C73"),
("Nuscr","processLine","else if line.empty then processLine title fuel g parent main offset rest","else if line.empty then processLine title fuel { g with opening := g.opening + 1 } parent main offset rest","an empty line counts as a bracket","C73"),
("Nuscr","processLine","else if line.empty then processLine title fuel g parent main offset rest","else if line.empty then processLine title fuel g parent main (offset + 1) rest","an empty line counts as a choice","C73"),
("Nuscr","processLine","else if line.empty then processLine title fuel g parent main offset rest","else if line.empty then processLine title fuel g parent main offset (rest.drop 1)","the line after an empty line is skipped","C73"),
("Nuscr","processLine","else if g.opening ≤ g.closing + offset then","else if g.opening < g.closing + offset then","the header with its bracket on the next line is read on, and the end of a choice is not seen","C73"),
("Nuscr","processLine","            ({ g with loops := upd g.loops name (indexText main.index, []) }.save (.loop name)) parent main offset rest","            ({ g with loops := upd g.loops name (indexText main.index, []) }.save (.loop name)) parent main offset (if line.opens = 0 then rest.drop 1 else rest)","after a loop without bracket a line is skipped, the bracket with it","C73"),
("NuscrText","rxContinue","sp1, .cap .loop word1, sp0, lit [';']]","sp1, .cap .loop word1, sp0]","a jump with a window is seen (the repair of the code)","C73"),
("NuscrText","rxChoice",".cap .choice word1, sp0, opt (lit ['{'])]",".cap .choice word1, sp0, lit ['{']]","a choice with its bracket on the next line is not seen","C73"),
("NuscrText","rxOr","seqs [lit ['}'], sp0, lit ['o', 'r'], sp0, lit ['{']]","seqs [lit ['o', 'r'], sp0, lit ['{']]","`or {` without the bracket before it starts a branch","C73"),
("NuscrText","rxRec","seqs [lit ['r', 'e', 'c'], sp1, .cap .loop word1]","seqs [lit ['r', 'e', 'c'], sp1, .cap .loop word1, sp0, lit ['{']]","a loop with its bracket on the next line is not seen","C73"),
("NuscrText","rxGlobal","lit [')'], sp0,\n    opt (lit ['{'])]","lit [')'], sp0,\n    lit ['{']]","a header with its bracket on the next line is not seen","C73"),
("NuscrText","lineOf","  empty := t.isEmpty","  empty := false","an empty line is not empty","C73"),
("NuscrText","lineOf","  opens := t.count '{'","  opens := if t.head? = some '{' then 0 else t.count '{'","a bracket alone on its line is not counted","C73"),
("NuscrRegular","regularLine","    | none => t","    | none => if isMatch C rxContinue t then t else []","a jump with a window is left out for the external tool","C73"),
]
