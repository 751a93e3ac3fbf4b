M=[
("Stacks","Store.bounded","some ⟨load, rx, []⟩ else","some ⟨load, true, []⟩ else","the receiver of a stack channel is kept","C59"),
("Stacks","newStack","let st := st.bounded (.stack r') false","let st := st.bounded (.stack r') true","role: the receiver of the normal channel is kept","C59"),
("Stacks","newStack","let st := st.bounded (.stack r'.dual) false","let st := st.bounded (.stack r'.dual) true","role: the receiver of the dual channel is kept","C59"),
("Stacks","newStack","(⟨.stack (.role a d r'), [dual], []⟩,","(⟨.stack (.role a d r'), [normal], []⟩,","role: the senders are swapped","C59"),
("Stacks","newStack","⟨.stack (.role a (!d) r'.dual), [normal], []⟩","⟨.stack (.role a (!d) r'), [normal], []⟩","role: the second value does not have the dual rest","C59"),
("Stacks","newStack","⟨.stack (.role a (!d) r'.dual), [normal], []⟩","⟨.stack (.role a d r'.dual), [normal], []⟩","role: the second value is not dual","C59"),
("Stacks","newStack","[dual1, dual2], []⟩,","[dual2, dual1], []⟩,","toAll: the senders are swapped","C59"),
("Stacks","newStack","[dual1, dual2], []⟩,","[dual1], []⟩,","toAll: the second sender is forgotten","C59"),
("Stacks","newStack","[normal1, normal2], []⟩","[normal2, normal1], []⟩","toAll dual: the senders are swapped","C59"),
("Stacks","newStack","⟨.stack (.toAll a (!d) r1.dual r2.dual)","⟨.stack (.toAll a (!d) r2.dual r1.dual)","toAll dual: the rests are swapped","C59"),
("Stacks","newStack","let st := st.bounded (.stack r2.dual) false","let st := st.bounded (.stack r2.dual) true","toAll: the last receiver is kept","C59"),
("Stacks","newStack","(⟨.stack .fin, [one], [two]⟩, ⟨.stack .fin, [two], [one]⟩, st)","(⟨.stack .fin, [one], [two]⟩, ⟨.stack .broadcast, [two], [one]⟩, st)","RoleEnd: the dual is a broadcast","C59"),
("Stacks","newName","(⟨.name n, [one], [two]⟩, ⟨.name n, [two], [one]⟩, st)","(⟨.name n, [one], [two]⟩, ⟨.name [], [two], [one]⟩, st)","the second name is another","C59"),
("Stacks","Store.send","if ch.rx = false then .disconnected","if ch.rx = true then .disconnected","send to a dropped receiver goes on","C59"),
("Stacks","methodOf","| .only, .role _ _ r => some (r, 0)","| .only, .role _ _ r => some (r, 1)","continuation uses a sender that is not there","C59"),
("Stacks","methodOf","| .left, .toAll _ _ l _ => some (l, 0)","| .left, .toAll _ _ _ r => some (r, 0)","continuation_left gives the right rest","C59"),
("Stacks","methodOf","| .right, .toAll _ _ _ r => some (r, 1)","| .right, .toAll _ _ _ r => some (r, 0)","continuation_right sends on the left channel","C59"),
("Stacks","methodOf","| .right, .toAll _ _ _ r => some (r, 1)","| .right, .role _ _ r => some (r, 0)","continuation_right exists on simple stacks and not on branching ones","C59"),
("Stacks","Obj.continuation","| .disconnected => .done (here, st)","| .disconnected => .noCall","an error of the send is not ignored","C59"),
("Stacks","Obj.continuation","        | .disconnected => .done (here, st)\n        | .ok st","        | .disconnected => .done (there, st)\n        | .ok st","continuation gives the dual","C59"),
("Stacks","World.step","| .done (here, st) => .done ⟨here :: w.held, st⟩","| .done (here, st) => .done ⟨here :: w.held.eraseIdx i, st⟩","continuation consumes the value","C59"),
("NuscrRegular","removeFrom","removeFrom w (w.length - 1) t else","removeFrom w w.length t else","one character too many is removed","C60"),
("NuscrRegular","removeFrom","removeFrom w (w.length - 1) t else","t else","only the first occurrence is removed","C60"),
("NuscrRegular","timed","['t', 'i', 'm', 'e', 'd', ' ']","['t', 'i', 'm', 'e', 'd']","the word is removed without a blank behind","C60"),
("NuscrRegular","starting","(t.takeWhile fun a => white a && a != '\\n').map fun _ => ' '","t.takeWhile fun a => white a && a != '\\n'","tabs are kept","C60"),
("NuscrRegular","starting","fun _ => ' '","fun _ => '\\t'","indentation by tabs","C60"),
("NuscrRegular","untimed","sender ++ [' ', 't', 'o', ' '] ++ receiver ++\n","receiver ++ [' ', 't', 'o', ' '] ++ sender ++\n","sender and receiver are swapped","C60"),
("NuscrRegular","untimed","['('] ++ payload ++ [')'","['('] ++ [')'","the payload is left out","C60"),
("NuscrRegular","untimedEmpty","++ receiver ++ [';']\n\n/-- The four","++ receiver\n\n/-- The four","no semicolon","C60"),
("NuscrRegular","regularMessage","  match search C rxPayloadReset t with\n  | some x => untimed (starting white t) (c.get .message) (x.2.get .payload)","  match search C rxPayloadReset t with\n  | some x => untimed (starting white t) (c.get .message) (x.2.get .reset)","the reset is taken for the payload","C60"),
("NuscrRegular","regularMessage","    if isMatch C rxReset t then untimedEmpty","    if !isMatch C rxReset t then untimedEmpty","wrong order of cases","C60"),
("NuscrRegular","regularMessage","      | some x => untimed (starting white t) (c.get .message) (x.2.get .payload) (c.get .sender) (c.get .receiver)\n      | none","      | some _ => untimedEmpty (starting white t) (c.get .message) (c.get .sender) (c.get .receiver)\n      | none","payload without reset is lost","C60"),
("NuscrRegular","regularLine","if isMatch C rxGlobal t then removeFrom timed 0 t","if isMatch C rxGlobal t then t","the header is given with its word timed","C60"),
("NuscrRegular","regularLine","    | none => t\n","    | none => removeFrom timed 0 t\n","the word is removed from the other lines too","C60"),
("NuscrRegular","regularLine","    | none => t\n","    | none => []\n","other lines are lost","C60"),
("NuscrRegular","nameAfter","  | none => name\n","  | none => []\n","the name is forgotten at the next line","C60"),
("NuscrRegular","regular","regular C white (nameAfter C name t) ts","regular C white name ts","the name is not passed on","C60"),
("NuscrRegular","regular","(regularLine C white t :: r.1, r.2)","(regularLine C white t :: t :: r.1, r.2)","lines are given twice","C60"),
("NuscrRegular","command","'='] ++ name ++\n    [' '] ++ file","'='] ++ file ++\n    [' '] ++ name","name and file are swapped","C60"),
("NuscrRegular","checkFsm","if windows then .error .notSupported","if windows then .ok ()","on Windows the check is passed","C60"),
("NuscrRegular","checkFsm","r.1).isEmpty then","r.1).isEmpty == false then","a protocol with an answer is refused","C60"),
("NuscrRegular","checkFsm",".nuscr".replace(".nuscr","['.', 'n', 'u', 's', 'c', 'r'])) r.1)"),"['.', 'n', 'u', 's', 'c', 'r'])) lines)","the tool is given the timed file","C60"),
("NuscrRegular","generatorChecked","if nuscrCheck then checkFsm","if !nuscrCheck then checkFsm","checked if not asked for","C60"),
("NuscrRegular","generatorChecked","  | .error e => .error e\n","  | .error _ => match generatorText title C lines with | .error f => .error (.fault f) | .ok p => .ok p\n","a refusal is ignored","C60"),
]
