M=[
("Baking","dualId","['R', 'o', 'l', 'e'] ++ a ++ ['D', 'u', 'a', 'l']","['R', 'o', 'l', 'e'] ++ a","structs of roles clash","C54"),
("Baking","macroId","(\"choose_mpst_\".toList ++ a ++ \"_to_all\".toList).map Char.toLower","(\"choose_mpst_to_all\".toList).map Char.toLower","macros of roles are different","C54"),
("Baking","roleAt","(roles[i - 1]?).getD []","(roles[i]?).getD []","calls belong to the named role (off by one)","C54"),
("Baking","sendP","if timed then .app .sendTimed (t :: consts ++ [s]) else .app .send [t, s]","if timed then .app .sendTimed (t :: consts ++ [s]) else .app .send [s, t]","send: payload and continuation swapped","C54"),
("Baking","recvP","if timed then .app .recvTimed (t :: consts ++ [s]) else .app .recv [t, s]","if timed then .app .sendTimed (t :: consts ++ [s]) else .app .recv [t, s]","timed recv on a SendTimed","C54"),
("Baking","sessionVars","def sessionVars (n : Nat) : List Pat := (List.range' 1 (n - 1)).map","def sessionVars (n : Nat) : List Pat := (List.range' 1 n).map","one session too many handed on","C54"),
("Baking","sessionParams","(List.range' 1 m).map .S","(List.range' 0 m).map .S","sessions declared from 0","C54"),
("Baking","constParams","if timed then (List.range 6).map .C else []","if timed then (List.range 5).map .C else []","RESET is not declared","C54"),
("Baking","sendBlock","if isComm sender receiver k then sendP timed (.var .T) (.var (.S k)) else .var (.S k))","if isComm receiver sender k then sendP timed (.var .T) (.var (.S k)) else .var (.S k))","send uses the wrong session","C54"),
("Baking","sendBlock","(.app (.here (roleId (roleAt roles receiver))) [.var (.R 0)])","(.app (.here (roleId (roleAt roles sender))) [.var (.R 0)])","stack of send names the sender","C54"),
("Baking","recvBlock","(.app (.here (roleId (roleAt roles sender))) [.var (.R 0)])","(.app (.here (dualId (roleAt roles sender))) [.var (.R 0)])","stack of recv names the dual role","C54"),
("Baking","recvBlock","methods := [(.recv, [meshP M (sessionVars n) (.var (.R 0)) (.app (.here (nameId (roleAt roles receiver))) [])])]","methods := [(.recv, [meshP M (sessionVars n) (.app .roleEnd []) (.app (.here (nameId (roleAt roles receiver))) [])])]","recv drops the rest of the stack","C54"),
("Baking","recvFromAllBlock","[meshP M (sessionVars n) (.app .roleEnd []) (.app (.here (nameId (roleAt roles receiver))) [])])] }","[meshP M (sessionVars n) (.app .roleEnd []) (.app (.here (nameId (roleAt roles sender))) [])])] }","recv_from_all hands on the mesh of the sender","C54"),
("Baking","offerBlock","let right := meshP M ((List.range' n (n - 1)).map fun k => .var (.S k)) (.var (.R 2)) name","let right := meshP M ((List.range' 1 (n - 1)).map fun k => .var (.S k)) (.var (.R 2)) name","both branches of an offer have the same sessions","C54"),
("Baking","offerBlock","methods := [(.offer, [left, right])]","methods := [(.offer, [right, left])]","branches of an offer swapped","C54"),
("Baking","offerBlock","recvP timed (.app .either [left, right]) (.app .fin []) else .app .fin [])","recvP timed (.app .either [left, right]) (.app .fin []) else .var (.S k))","offer with sessions left open","C54"),
("Baking","offerBlock","params := sessionParams (2 * n - 2) ++ [.R 1, .R 2]","params := sessionParams (2 * n) ++ [.R 1, .R 2]","offer declares undetermined sessions","C54"),
("Baking","tyP","if t.dual then .dual t.sess else .var (.S t.sess)","if t.dual then .var (.S t.sess) else .dual t.sess","duals of a choice exchanged","C54"),
("Baking","branchP","(.app (.here (nameId (roleAt roles j))) []))","(.app (.here (nameId (roleAt roles sender))) []))","branch sent to a receiver carries the name of the sender","C54"),
("Baking","chooseSessionP","some l, some r => some (sendP timed (.app .either [l, r]) (.app .fin []))","some l, some r => some (sendP timed (.app .either [r, l]) (.app .fin []))","branches exchanged in the choice","C54"),
("Baking","chooseBlock","[.var (.R (2 * n - 1)), .var (.R (2 * n))]) name","[.var (.R (2 * n)), .var (.R (2 * n - 1))]) name","stacks of the chooser exchanged","C54"),
("Baking","chooseBlock","(.chooseRight, [meshP M (rs.map tyP) (.var (.R (2 * n))) name])","(.chooseRight, [meshP M (ls.map tyP) (.var (.R (2 * n))) name])","choosing right hands on the left sessions","C54"),
("Baking","chooseBlock","(.app (.here (toAllId (roleAt roles sender)))","(.app (.here (allToId (roleAt roles sender)))","choice waits for a broadcast instead of making it","C54"),
("Baking","closeBlock","(List.range' 1 (n - 1)).map fun _ => .app .fin []) (.app .roleEnd []) (.var .N)","(List.range' 1 (n - 1)).map fun _ => .app .fin []) (.var (.R 0)) (.var .N)","close with a stack that is not empty","C54"),
("Baking","closeBlock","meshP M ((List.range' 1 (n - 1)).map fun _ => .app .fin [])","meshP M ((List.range' 1 (n - 2)).map fun _ => .app .fin [])","close for one session too few","C54"),
("Baking","cancelBlock","self := meshP M (sessionVars n) (.var (.R 0)) (.var .N)","self := meshP M (sessionVars n) (.app .roleEnd []) (.var .N)","cancel only on finished stacks","C54"),
("Baking","pairs","((rangeIncl 1 n).filter (fun b => a ≠ b)).map fun b => (a, b)","((rangeIncl 1 n).filter (fun b => a < b)).map fun b => (a, b)","blocks for half of the pairs only","C54"),
("Baking","roleStructs","[.struct (roleId a), .struct (dualId a), .struct (toAllId a), .struct (allToId a)]","[.struct (roleId a), .struct (dualId a), .struct (toAllId a), .struct (toAllId a)]","broadcast struct emitted twice","C54"),
("Baking","core","(pairs n).map (fun p => .block (offerBlock timed M roles n p.2 p.1))","(pairs n).map (fun p => .block (offerBlock timed M roles n p.1 p.1))","offer blocks of a role with itself","C54"),
("Baking","core","[.block (closeBlock M n), .block (cancelBlock M n)])","[.block (closeBlock M n), .block (closeBlock M n)])","close defined twice, no cancel","C54"),
("Baking","Kind.timed","| .atmp => true","| .atmp => false","generate_atmp emits untimed communications","C54"),
("Baking","tailItems","| .basic => [.macroRules offerId, .func forkId]","| .basic => [.macroRules offerId]","no fork function","C54"),
("Baking","tailItems","| .atmp => chooseMacros roles ++ [.func forkId, .macroRules offerId]","| .atmp => [.func forkId, .macroRules offerId]","no choose macros (timed)","C54"),
("Baking","expandInterleaved","core timed M₁ roles₁, core timed M₂ roles₂ with","core timed M₁ roles₁, core timed M₂ roles₁ with","second mesh with the roles of the first","C54"),
("Baking","expandInterleaved","one ++ chooseMacros roles₁ ++ two ++ chooseMacros roles₂","one ++ chooseMacros roles₁ ++ one ++ chooseMacros roles₂","first mesh emitted twice","C54"),
("Baking","idents","| .ident s :: ts => s :: idents ts","| .ident s :: ts => idents ts ++ [s]","roles reversed","C54"),
("Baking","getAllRoles","if groupIdents ts = [] then idents ts else groupIdents ts","if groupIdents ts = [] then [] else groupIdents ts","roles without parentheses are lost","C54"),
("Baking","parenthesisedGroups","some a, some b => some (a ++ b)","some a, some b => some (b ++ a)","groups reversed","C54"),
]
