# Seeded bugs for Model/Runtime.lean.
M=[
("Runtime","enc","| .recv m k => .recv none (.data m) (enc r q k)","| .recv m k => .recv none (.data m) (enc q r k)","C44: the role that offers goes on with its own mesh","C44"),
("Runtime","enc","| .sendChoice bs => .send none (.enum q bs) .fin","| .sendChoice bs => .send none (.enum r bs) .fin","C44: a partner is sent a mesh of its own type","C44"),
("Runtime","slotTys","(List.range' 1 (Y.n - 1)).map","(List.range' 1 Y.n).map","C44: a mesh has n - 1 sessions","C44"),
("Runtime","news","enc a.1 a.2 ((Y.types N a.1).sess a.2)","enc a.1 a.2 ((Y.types N a.2).sess a.1)","C44: the two endpoints of a new session go to the right roles","C44"),
("Runtime","resolve","if e.dual then p.2 else p.1","if e.dual then p.1 else p.2","C44: endpoint and dual endpoint are not swapped","C44"),
("Runtime","fieldsOf","(List.range' 1 (n - 1)).mapM","(List.range' 1 (n - 2)).mapM","C44: no field of a mesh is forgotten","C44"),
("Runtime","RStep.send","RStep Y h pos (.sim (.act r (.send q m))) ⟨h', upd pos r (.mesh sl' k)⟩","RStep Y h pos (.sim (.act r (.send q m))) ⟨h', upd pos r (.mesh sl k)⟩","C44: send puts the continuation in the mesh","C44"),
("Runtime","RStep.recv","RStep Y h pos (.sim (.act r (.recv q m))) ⟨h', upd pos r (.mesh sl' k)⟩","RStep Y h pos (.sim (.act r (.recv q m))) ⟨h', upd pos r (.mesh sl' (.role q k))⟩","C44: recv pops the stack","C44"),
("Runtime","RStep.recv","sl[(recvImpl Y.n q r).used - 1]? = some e → e.ty = .recv w (.data m) T →\n      Heap.step","sl[(recvImpl Y.n q r).used]? = some e → e.ty = .recv w (.data m) T →\n      Heap.step","C44: recv uses the field of the partner","C44"),
("Runtime","RStep.decide","⟨h', upd pos r (.telling N todo sl own)⟩","⟨h', upd pos r (.telling N todo own sl)⟩","C44: the new meshes are sent over the old sessions","C44"),
("Runtime","RStep.decide","⟨h', upd pos r (.telling N todo sl own)⟩","⟨h', upd pos r (.telling N todo.tail sl own)⟩","C44: every partner is told","C44"),
("Runtime","RStep.decide","Gen.toAllBody Y.n r = some body","Gen.toAllBody Y.n 1 = some body","C44: the macro of the active role is used","C44"),
("Runtime","RStep.tell","old[k - 1]? = some e →\n      Heap.step (env Y) h (.send","old[k]? = some e →\n      Heap.step (env Y) h (.send","C44: the k-th partner is told over its own session","C44"),
("Runtime","RStep.tell","Heap.step (env Y) h1 (.drop e') = some (h2, .unit) →\n      RStep Y h pos (.sim (.tell r (partner r k))) ⟨h2,","Heap.step (env Y) h1 (.drop e') = some (h2, .unit) →\n      RStep Y h pos (.sim (.tell r (partner r k))) ⟨h1,","C44: what send returns is dropped","C44"),
("Runtime","RStep.enter","⟨h, upd pos r (.mesh own (Y.types N r).stack)⟩","⟨h, upd pos r (.mesh old (Y.types N r).stack)⟩","C44: the chooser goes on with the new mesh","C44"),
("Runtime","RStep.heed","⟨h2, upd pos r (.mesh new (Y.types v.tag r).stack)⟩","⟨h1, upd pos r (.mesh new (Y.types v.tag r).stack)⟩","C44: offer drops the old mesh","C44"),
("Runtime","RStep.heed","⟨h2, upd pos r (.mesh new (Y.types v.tag r).stack)⟩","⟨h2, upd pos r (.mesh new (Y.types v.tag q).stack)⟩","C44: the role goes on with its own stack","C44"),
("Runtime","RStep.closing","⟨h, upd pos r (.ending 0 sl)⟩","⟨h, upd pos r (.ending 1 sl)⟩","C44: close signals all partners","C44"),
("Runtime","RStep.stop","i < Y.n - 1 → sl[i]? = some e →\n      Heap.step","i < Y.n - 1 → sl[0]? = some e →\n      Heap.step","C44: close signals every partner once","C44"),
("Runtime","RStep.stop","Heap.step (env Y) h (.sigSend e .stop) = some (h', .unit) →\n      RStep","Heap.step (env Y) h (.sigSend e .cancel) = some (h', .unit) →\n      RStep","C44: close sends Stop","C44"),
("Runtime","RStep.wait","sl[i - (Y.n - 1)]? = some e →\n      Heap.step","sl[i - Y.n]? = some e →\n      Heap.step","C44: close waits for every partner","C44"),
("Runtime","RStep.done","i = 2 * (Y.n - 1) → dropAll","i = Y.n - 1 → dropAll","C44: close waits for the partners before it drops the mesh","C44"),
("Runtime","RStep.done","⟨h', upd pos r .closed⟩","⟨h, upd pos r .closed⟩","C44: close drops the sessions","C44"),
("Runtime","Start","pos r = .mesh sl (Y.types root r).stack) →","pos r = .mesh sl (Y.types root 1).stack) →","C44: every role starts with its own stack","C44"),
("Runtime","Start","(r, [m]) ∈ g.spawned","(1, [m]) ∈ g.spawned","C44: every role starts with its own mesh","C44"),
("Runtime","dropAll","| some (h', _) => dropAll Y h' es","| some (h', _) => some h'","C44: all fields of a mesh are dropped","C44"),
]
