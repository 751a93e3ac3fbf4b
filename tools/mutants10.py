N="Nuscr"
M=[
(N,"insertKey","if a = k then (a, v) :: l else","if a = k then (a, b) :: l else","The first payload of a label wins: (the labels declared are the same) with consistent use nothing changes, C49_two_payloads keeps another one","C49"),
(N,"insertKey","if a = k then (a, v) :: l else (a, b) :: insertKey k v l","if a = k then l else (a, b) :: insertKey k v l","A label used twice in a tree is forgotten","C49"),
(N,"insertSet","if k ∈ l then l else l ++ [k]","l ++ [k]","A clock used twice is started twice","C49"),
(N,"insertSet","if k ∈ l then l else l ++ [k]","if l = [] then [k] else l","Only the first clock and the first payload are kept","C49"),
(N,"Tables.note","if m.payload = [] then T.payloads else insertSet m.payload T.payloads","T.payloads","Payload types are never declared","C49"),
(N,"Tables.note","if m.payload = [] then T.payloads else insertSet m.payload T.payloads","insertSet m.payload T.payloads","A structure without name is declared","C49"),
(N,"Tables.note","if m.payload = [] then T.payloads else insertSet m.payload T.payloads","if m.payload = [] then T.payloads else insertSet m.message T.payloads","Labels are taken for payload types","C49"),
(N,"Tables.note","if r = m.sender ∨ r = m.receiver then insertSet m.clock (T.clocks r)","if r = m.sender then insertSet m.clock (T.clocks r)","Receivers do not start their clocks","C49"),
(N,"Tables.note","if r = m.sender ∨ r = m.receiver then insertSet m.clock (T.clocks r) else T.clocks r","insertSet m.clock (T.clocks r)","Every role starts every clock","C49"),
(N,"updateMessages","{ t with labels := insertKey m.message m.payload t.labels }","t","Labels are not kept: their types are not declared","C49"),
(N,"updateMessages","insertKey m.message m.payload t.labels","insertKey m.payload m.message t.labels","Label and payload are swapped","C49"),
(N,"updateMessages","insertKey m.message m.payload t.labels","insertKey m.message m.message t.labels","The label is taken for the payload","C49"),
(N,"declare","if titleCase l.1 ∈ d.1 then d","if titleCase l.2 ∈ d.1 then d","Tests the payload instead of the label","C49"),
(N,"declare","if titleCase l.1 ∈ d.1 then d","if l.1 ∈ d.1 then d","Names are not compared in title case","C49"),
(N,"declare","d.1 ++ [titleCase l.1], d.2","d.1, d.2","Names declared are not remembered","C49"),
(N,"declare","(title l.1, if l.2 = [] then none else some (title l.2))","(title l.1, none)","No structure has a field","C49"),
(N,"declare","(title l.1, if l.2 = [] then none else some (title l.2))","(title l.1, some (title l.2))","Every structure has a field","C49"),
(N,"declare","(title l.1, if l.2 = [] then none else some (title l.2))","(l.1, if l.2 = [] then none else some (title l.2))","Names of types are not in title case","C49"),
(N,"declareTree","(payloads.map (fun p => (p, ([] : Text))) ++ labels)","labels","Payload types are not declared","C49"),
(N,"declareTree","(payloads.map (fun p => (p, ([] : Text))) ++ labels)","(payloads.map (fun p => (p, p)) ++ labels)","Payload types contain themselves","C49"),
(N,"declareTree","(payloads.map (fun p => (p, ([] : Text))) ++ labels)","(labels ++ payloads.map (fun p => (p, ([] : Text))))","(harmless unless a label is the name of a payload, when it keeps its field) labels first","C49"),
(N,"declareTree",".foldl (declare titleCase title) d",".foldl (declare titleCase title) ([], d.2)","Every tree declares its types again","C49"),
(N,"declareAll","declareAllList titleCase title payloads ord subs (declareTree titleCase title payloads (ord i la) d)","declareTree titleCase title payloads (ord i la) d","Types of the messages in the branches of a choice are not declared","C49"),
(N,"declareAllList","declareAllList titleCase title payloads ord ts (declareAll titleCase title payloads ord t d)","declareAll titleCase title payloads ord t d","Only the types of the first branch are declared","C49"),
(N,"structs","ordP k.tables.payloads","ordP []","Payload types are not declared","C49"),
(N,"structs","ord k.main ([], [])).2","ord (Tree.new [0]) ([], [])).2","Only payload types are declared","C49"),
(N,"bodies","k.tables.clocks f.1.1","k.tables.clocks f.1.2.1","The clocks of a function are those of an index, not of a role","C49"),
(N,"bodies","(allFunctions k.roles k.main).map","(genFunctions k.roles k.main).map","(no branch functions) only the functions of the main tree are written","C49"),
(N,"Glob.save","tables := g.tables.note k }","tables := g.tables }","Nothing is noted: no clock is started","C49"),
(N,"Tables.empty","⟨[], fun _ => []⟩","⟨[], fun _ => [['a']]⟩","Every role starts a clock a","C49"),
(N,"typeName","(titleCase t).filter fun c => !white c","titleCase t","Names of types contain blanks","C49"),
]
