F = "NuscrFile"
M = [
 (F, "imports", "(if branching then [⟨.types, \"RoleBroadcast\".toList, .library, 0⟩] else [])", "(if branching then [] else [⟨.types, \"RoleBroadcast\".toList, .library, 0⟩])", "RoleBroadcast is imported only without branches", "C57"),
 (F, "imports", "⟨.types, \"RecvTimed\".toList, .library, 8⟩,\n    ⟨", "⟨.types, \"RecvTimed\".toList, .library, 7⟩,\n    ⟨", "RecvTimed has another number of parameters than are written", "C57"),
 (F, "imports", "⟨.types, \"HashMap\".toList, .library, 2⟩,\n    ⟨.types, \"Error\"", "\n    ⟨.types, \"Error\"", "HashMap is not imported", "C57"),
 (F, "imports", ", ⟨.types, \"Instant\".toList, .library, 0⟩]\n\n", "]\n\n", "Instant is not imported", "C57"),
 (F, "emittedRoles", "[⟨.types, Baking.roleId a, .emitted, 1⟩", "[⟨.types, Baking.roleId a, .emitted, 2⟩", "RoleX has two parameters", "C57"),
 (F, "emittedRoles", "⟨.types, Baking.allToId a, .emitted, 2⟩", "⟨.types, Baking.toAllId a, .emitted, 2⟩", "a structure is emitted twice and one is missing", "C57"),
 (F, "emittedRoles", " ++\n  roles.map fun a => ⟨.types, Baking.nameId a, .emitted, 0⟩", "", "no NameX", "C57"),
 (F, "emittedItems", "⟨.types, meshName, .emitted, roles.length + 1⟩", "⟨.types, meshName, .emitted, roles.length⟩", "the mesh lacks a parameter", "C57"),
 (F, "emittedItems", "[⟨.values, Baking.forkId, .fork, roles.length⟩]", "[⟨.values, Baking.forkId, .fork, roles.length + 1⟩]", "fork_mpst wants one more function", "C57"),
 (F, "emittedItems", " ++\n    [⟨.values, Baking.forkId, .fork, roles.length⟩]", "", "no fork_mpst", "C57"),
 (F, "structItems", "| none => [⟨.values, s.1, .struct, 0⟩]", "| none => []", "a message without payload is no value", "C57"),
 (F, "structUses", "| some t => [⟨.types, t, .struct, 0⟩]", "| some t => []", "the type of a field is not looked up", "C57"),
 (F, "rhsUses", "| .sendChoice c => [⟨.types, \"SendTimed\".toList, .library, 8⟩, ⟨.types, c, .enum, 0⟩", "| .sendChoice c => [⟨.types, \"SendTimed\".toList, .library, 8⟩, ⟨.types, c, .session, 0⟩", "a choice sends a session instead of an enum", "C57"),
 (F, "rhsUses", "| .recv p next => [⟨.types, \"RecvTimed\".toList, .library, 8⟩, ⟨.types, p.message, .struct, 0⟩, ⟨.types, next, .session, 0⟩]", "| .recv p next => [⟨.types, \"RecvTimed\".toList, .library, 8⟩, ⟨.types, p.message, .struct, 0⟩, ⟨.types, next, .stack, 0⟩]", "a session continues with a stack", "C57"),
 (F, "stackUses", "| .role r next => [⟨.types, ['R', 'o', 'l', 'e'] ++ r, .emitted, 1⟩", "| .role r next => [⟨.types, ['N', 'a', 'm', 'e'] ++ r, .emitted, 1⟩", "stacks are made of NameX", "C57"),
 (F, "stackUses", "| .last r => [⟨.types, ['R', 'o', 'l', 'e'] ++ r, .emitted, 1⟩, ⟨.types, \"RoleEnd\".toList", "| .last r => [⟨.types, ['R', 'o', 'l', 'e'] ++ r, .emitted, 1⟩, ⟨.types, \"End\".toList", "a stack ends with End", "C57"),
 (F, "endpointUses", "⟨.types, meshName, .emitted, e.2.1.length + 2⟩", "⟨.types, meshName, .emitted, e.2.1.length + 1⟩", "the name is not an argument of the mesh", "C57"),
 (F, "endpointUses", "⟨.types, e.2.2.1, .stack, 0⟩, ⟨.types, e.2.2.2, .emitted, 0⟩", "⟨.types, e.2.2.2, .stack, 0⟩, ⟨.types, e.2.2.1, .emitted, 0⟩", "stack and name exchanged", "C57"),
 (F, "functionUses", "[⟨.types, f.2, .endpoint, 0⟩", "[⟨.types, f.1.1, .endpoint, 0⟩", "the function takes the role instead of the endpoint", "C57"),
 (F, "fileItems", "    p.enums.map (fun d => ⟨.types, d.1, .enum, 0⟩) ++ p.endpoints", "    p.endpoints", "enums are not written", "C57"),
 (F, "fileItems", "⟨.values, fnName lower f.1, .function, 2⟩) ++ [⟨.values", "⟨.values, fnName lower f.1, .function, 1⟩) ++ [⟨.values", "functions take no clocks", "C57"),
 (F, "fileItems", " ++ [⟨.values, \"main\".toList, .main, 0⟩]", "", "no main", "C57"),
 (F, "fileItems", "p.stacks.map (fun d => ⟨.types, d.1, .stack, 0⟩)", "p.stacks.tail.map (fun d => ⟨.types, d.1, .stack, 0⟩)", "the first stack is not written", "C57"),
 (F, "fileUses", "⟨.values, Baking.forkId, .fork, p.main.length⟩", "⟨.values, Baking.forkId, .fork, p.functions.length⟩", "all functions are passed to fork_mpst", "C57"),
 (F, "fileUses", "⟨.types, v.2, .endpoint, 0⟩) ++", "⟨.types, v.1, .endpoint, 0⟩) ++", "variants carry the name of the variant as type", "C57"),
 (F, "threadName", "\"thread_\".toList ++ lower r", "\"thread_\".toList", "all threads are bound to the same name", "C57"),
 (F, "fileOf", "p.enums.map fun d => d.2.map (·.1)", "p.enums.map fun d => d.2.map (fun _ => ['M'])", "all variants have the same name", "C57"),
 (F, "fileOf", "p.roles.map (threadName lower)", "(p.roles ++ p.roles).map (threadName lower)", "threads are bound twice", "C57"),
 (F, "file", "(!k.main.subTrees.isEmpty)", "k.main.subTrees.isEmpty", "RoleBroadcast is imported only without branches", "C57"),
 (F, "patUses", "| .app (.here s) args => ⟨.types, s, .emitted, args.length⟩ :: patUsesList args", "| .app (.here s) args => ⟨.types, s, .emitted, args.length + 1⟩ :: patUsesList args", "emitted types are used with one more argument", "C57"),
]
