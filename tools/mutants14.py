M = [
("Mesh","Step.decide","(∀ q ∈ others Y.n r, M.sess q = .sendChoice bs) → N ∈ bs →","(∀ q ∈ others Y.n r, M.sess q = .sendChoice bs) → bs.head? = some N →","only the first branch of a choice can ever be taken","C34"),
("Mesh","Step.decide","(∀ q ∈ others Y.n r, M.sess q = .sendChoice bs) → N ∈ bs →","(∀ q ∈ others Y.n r, M.sess q = .sendChoice bs) → N ∈ bs → s.gen r = 0 →","a choice can be made only once, so loops cannot be repeated","C34"),
("Nuscr","programOf","main := roles.map fun r => (r, ['0'], 0)","main := roles.map fun r => (r, ['0'], 1)","main runs functions that are not defined","C53"),
("Nuscr","programOf","  roles := roles\n  sessions := allSessions roles t","  roles := roles.reverse\n  sessions := allSessions roles t","the roles of the file are not in the order of the sessions of the endpoints","C53"),
("Nuscr","Msg.params","message := title m.message","message := m.message","the payload of a session is not the declared type of the message","C49"),
]
