M = [
("CheckClean","replaceFrom","if pat.isPrefixOf (c :: t) then new ++ replaceFrom pat new (pat.length - 1) t else","if pat.isPrefixOf (c :: t) then new ++ replaceFrom pat new pat.length t else","the character after a replaced path is lost","C51"),
("CheckClean","replaceFrom","new ++ replaceFrom pat new (pat.length - 1) t","new ++ t.drop (pat.length - 1)","only the first occurrence of a path is removed","C51"),
("CheckClean","cleanClasses","word := fun c => !(c == '<' || c == ',' || c == '>' || isWs c)","word := fun c => !(c == '<' || c == '>' || isWs c)","a path reaches over a comma","C51"),
("CheckClean","cleanClasses","(65 ≤ c.toNat && c.toNat ≤ 90) || (97 ≤ c.toNat && c.toNat ≤ 122)","(65 ≤ c.toNat && c.toNat ≤ 90)","a role name ends at its first small letter","C51"),
("CheckClean","rxPath","lit [':', ':'], .cap .message (plus (.cls .word))])","lit [':'], .cap .message (plus (.cls .word))])","single colons are taken for paths","C51"),
("CheckClean","rxName","seqs [lit ['N', 'a', 'm', 'e'], .cap .message","seqs [lit ['R', 'o', 'l', 'e'], .cap .message","the name of the role is not found, roles become names","C51"),
("CheckClean","roleText","def roleText (x : Str) : Str := ['R', 'o', 'l', 'e'] ++ x ++ ['<', 'R', 'o', 'l', 'e', 'E', 'n', 'd', '>']","def roleText (x : Str) : Str := ['R', 'o', 'l', 'e'] ++ x","the last field is RoleX instead of RoleX<RoleEnd>","C51"),
("CheckClean","stripPaths","replaceAll (c.get .choice) (c.get .message) t) (s.filter (· != '&'))","replaceAll (c.get .choice) (c.get .name) t) (s.filter (· != '&'))","the path is kept and the name is dropped","C51"),
("CheckClean","stripPaths","(s.filter (· != '&'))","s","references are kept: the head keeps them and enums hold unusable types","C51"),
("CheckClean","nameToRole","roleText (c.get .message)","roleText (c.get .choice)","the role is called RoleNameX","C51"),
("CheckClean","cleanSession","cleanBlocks ((nameToRole (stripPaths s)).filter fun c => !isWs c)","cleanBlocks (nameToRole (stripPaths s))","blanks between arguments stay","C51"),
("CheckClean","put","m.filter (fun e => e.1 != k) ++ [(k, v)]","m.filter (fun e => e.1 == k) ++ [(k, v)]","an entry removes all the others","C51"),
("CheckClean","put","m.filter (fun e => e.1 != k) ++ [(k, v)]","if (m.any fun e => e.1 == k) then m else m ++ [(k, v)]","an entry with a known key is not updated","C51"),
("CheckClean","dedup","if a = b then dedup (b :: l) else a :: dedup (b :: l)","if a = b then dedup (b :: l) else dedup (b :: l)","only the last role is kept","C51"),
("CheckClean","cleanSessions","let body ← dropEnd 2 full","let body ← dropEnd 1 full","the name of the role is taken for a field","C51"),
("CheckClean","cleanSessions","full.length - 2⟩","full.length - 1⟩","the number of roles is compared with the wrong number of fields","C51"),
("CheckClean","cleanSessions","dedup (sortBy strLe st.roles)","dedup st.roles","roles in the order of the call, not sorted","C51"),
("CheckClean","checker","let body ← dropEnd 1 full","let body ← dropEnd 2 full","one field too few for the chooser","C51"),
("CheckClean","checker","let file := roles.flatMap fun r","let file := (clean.map (·.1)).flatMap fun r","machines in the order of the call, not of the roles","C51"),
("CheckClean","checker",".getD [[]]) ++ [[]]",".getD [[]])","no empty line between machines","C51"),
("CheckClean","checker","if nameFile = [] then some (graphs, none, none)","if nameFile ≠ [] then some (graphs, none, none)","the file is written when there is no name","C51"),
("CheckClean","checker","kmcSearch (kmc file))","kmcSearch (kmc (file ++ [[]])))","the tool is run on another file","C51"),
("CheckClean","cellText","c.1 ++ [':', ':'] ++ c.2","c.2 ++ [':', ':'] ++ c.1","Branch::Enum instead of Enum::Branch","C51"),
("CheckClean","branchingOf","put m (cellText c) g.stack) m) []","put m c.2 g.stack) m) []","chooser types are filed under the name of the branch alone","C51"),
("CheckClean","groupsOf","put m (cellText c) (g.2 : Int)) m) []","put m (cellText c) ((0 * g.2 : Nat) : Int)) m) []","all branches have the same number","C51"),
("CheckClean","choicesOf","(look m c.1).getD [] ++ [c.2]","[c.2]","only the last branch of each enum is kept","C51"),
("CheckClean","receiversOf","put m b (variant c.1 b)) []","put m b (variant b c.1)) []","enum and branch swapped","C51"),
("CheckClean","receiversOf","(choicesOf groups).map fun c","(choicesOf groups).tail.map fun c","the first enum is forgotten","C51"),
("CheckClean","checkerConcat","checker fuel kmc nameFile sessions (receiversOf variant groups)","checker fuel kmc nameFile sessions.tail (receiversOf variant groups)","the first endpoint is forgotten","C51"),
]
