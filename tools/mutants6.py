# Seeded bugs for Model/Failure.lean.
M=[
("Failure","remaining","| .recv e => l.erase e","| .recv e => l","C45: recv has consumed its endpoint when it fails","C45"),
("Failure","remaining","| .recv e => l.erase e","| .recv _ => []","C45: the other sessions of a failed role are dropped","C45"),
("Failure","remaining","| _ => l\n","| _ => []\n","C45: the sessions of a role that fails in close are dropped","C45"),
("Failure","FStep.fail","FStep Y s (.fail r) ⟨h2, s.pos, upd s.dead r true⟩","FStep Y s (.fail r) ⟨h2, s.pos, s.dead⟩","C45: a role does not go on after an error","C45"),
("Failure","FStep.fail","FStep Y s (.fail r) ⟨h2, s.pos, upd s.dead r true⟩","FStep Y s (.fail r) ⟨h1, s.pos, upd s.dead r true⟩","C45: a failed role drops its sessions","C45"),
("Failure","FStep.crash","FStep Y s (.crash r) ⟨h', s.pos, upd s.dead r true⟩","FStep Y s (.crash r) ⟨s.heap, s.pos, upd s.dead r true⟩","C45: a cancelled mesh is dropped","C45"),
("Failure","FStep.crash","dropAll Y s.heap (own (s.pos r)) = some h'","dropAll Y s.heap (own (s.pos 1)) = some h'","C45: a failing role drops its own sessions","C45"),
("Failure","FStep.crash","dropAll Y s.heap (own (s.pos r)) = some h'","dropAll Y s.heap (own (s.pos r)).tail = some h'","C45: a failing role drops all its sessions","C45"),
("Failure","FStep.step","(∀ r, l.actor = some r → s.dead r = false) →","(∀ r, l.actor = some r → s.dead 0 = false) →","C45: failed roles do nothing","C45"),
("Failure","FStep.fail","some (h1, .err) → dropAll","some (h1, .block) → dropAll","C45: a role gives up only after an error","C45"),
("Failure","FStep.fail","Call Y r (s.pos r) op →","Call Y r (s.pos 1) op →","C45: the call that fails is the one of the role","C45"),
("Failure","FRun.start","FRun Y root [] ⟨s.heap, s.pos, nobody⟩","FRun Y root [] ⟨s.heap, s.pos, fun _ => true⟩","C45: at the start nobody has failed","C45"),
("Failure","fsims","| .step (.sim l) => some l | _ => none","| .step (.sim (.act r a)) => some (.act r a) | _ => none","C45: nothing (entering a branch counts) of the protocol is skipped","C45"),
("Heap","gcTok","garb","garbb","","C45"),
]
M=M[:-1]
