M=[
("Proto","varintN","if n < 128 then [UInt8.ofNat n] else","if n ≤ 128 then [UInt8.ofNat n] else","128 is written in one byte","C63"),
("Proto","varintN","UInt8.ofNat (n % 128 + 128) :: varintN k (n / 128)","UInt8.ofNat (n % 128) :: varintN k (n / 128)","the continuation bit is not set","C63"),
("Proto","readVarintN","(b.toNat - 128 + 128 * r.1, r.2)","(b.toNat + 128 * r.1, r.2)","the continuation bit is read as part of the number","C63"),
("Proto","readVarint64","match readVarintN 10 bs with","match readVarintN 5 bs with","negative numbers are refused","C63"),
("Proto","toI32","if n < 2 ^ 31 then n else (n : Int) - 2 ^ 32","if n ≤ 2 ^ 31 then n else (n : Int) - 2 ^ 32","the least i32 is read as positive","C63"),
("Proto","toI32","def toI32 (n : Nat) : Int := if n < 2 ^ 31 then n else (n : Int) - 2 ^ 32","def toI32 (n : Nat) : Int := (n : Int)","negative numbers are read as positive","C63"),
("Proto","readString","(String.fromUTF8? ⟨b.toArray⟩).map fun s => (s, r)","(String.fromUTF8? ⟨b.toArray⟩).map fun s => (s, b ++ r)","the bytes of a string are read again","C63"),
("Proto","readLen","| some (n, r) => takeBytes n r","| some (n, r) => takeBytes (n - 1) r","a byte is left behind","C63"),
("Proto","mergeLoop","| _, m, [] => some m\n  | 0, _, _ :: _ => none","| 0, m, _ => some m\n  | _ + 1, m, [] => some m","the loop stops when the fuel ends (equivalent: the fuel is the length)","C63"),
("Proto","readUnknown","if t / 8 = 0 then none\n  else if t % 8 = 0 then (readVarint64 bs).map fun r => (u ++ [(t / 8, .varint r.1)], r.2)","if t / 8 = 0 then none\n  else if t % 8 = 0 then (readVarint64 bs).map fun r => (u, r.2)","unknown numbers are lost","C63"),
("Proto","readUnknown","(u ++ [(t / 8, .fixed64 r.1)], r.2)","([(t / 8, .fixed64 r.1)] ++ u, r.2)","the order of unknown fields","C63"),
("Proto","varintSize","if n < 2 ^ 14 then 2","if n < 2 ^ 15 then 2","the size of a number of three bytes","C63"),
("Proto","intSize","tagSize num + varintSize (ofInt x)","tagSize num + varintSize (x.toNat)","negative numbers are counted as one byte","C63"),
("Proto","stringSize","tagSize num + varintSize (strBytes s).length + (strBytes s).length","tagSize num + varintSize s.length + s.length","a string is counted in characters","C63"),
("Proto","writeString","varint (tagOf num 2) ++ varint (strBytes s).length ++ strBytes s","varint (tagOf num 2) ++ varint s.length ++ strBytes s","the length of a string is in characters","C63"),
("Proto","writeMessage","varint (tagOf num 2) ++ varint (size % 2 ^ 32) ++ body","varint (tagOf num 2) ++ varint (size % 2 ^ 16) ++ body","the size of a message is cut to 16 bits","C63"),
("Proto","Index.step","| 10 => (readString bs).map fun r => ({ m with label := r.1 }, r.2)","| 10 => (readString bs).map fun r => ({ m with label := if m.label = \"\" then r.1 else m.label }, r.2)","the first label counts","C63"),
("Proto","Index.write","(if m.label = \"\" then [] else writeString 1 m.label)\n    ++ (if m.next = 0 then [] else writeInt 2 m.next)","(if m.label = \"\" then [] else writeString 1 m.label)\n    ++ (if m.next ≤ 0 then [] else writeInt 2 m.next)","negative next is not written","C63"),
("Proto","Index.size","(if m.next = 0 then 0 else intSize 2 m.next)\n    + unknownSize m.unknown","(if m.next = 0 then 0 else intSize 2 m.next)","unknown fields are not counted","C63"),
("Proto","Action.step","| 34 => (readString bs).map fun r => ({ m with toRole := r.1 }, r.2)","| 34 => (readString bs).map fun r => ({ m with fromRole := r.1 }, r.2)","to_role is read into from_role","C63"),
("Proto","Action.step","| 56 => (readInt64 bs).map fun r => ({ m with lowerBound := r.1 }, r.2)","| 56 => (readInt32 bs).map fun r => ({ m with lowerBound := r.1 }, r.2)","a bound is read as int32","C63"),
("Proto","Action.step","| 42 => (readMessage (Index.mergeFrom {}) bs).map fun r =>\n      ({ m with continuations := m.continuations ++ [r.1] }, r.2)","| 42 => (readMessage (Index.mergeFrom {}) bs).map fun r =>\n      ({ m with continuations := [r.1] }, r.2)","only the last continuation is kept","C63"),
("Proto","Action.step","| 42 => (readMessage (Index.mergeFrom {}) bs).map fun r =>\n      ({ m with continuations := m.continuations ++ [r.1] }, r.2)","| 42 => (readMessage (Index.mergeFrom {}) bs).map fun r =>\n      ({ m with continuations := r.1 :: m.continuations }, r.2)","continuations are reversed","C63"),
("Proto","Action.step","| 88 => (readBool bs).map fun r => ({ m with resetClock := r.1 }, r.2)\n","","reset_clock is read as an unknown field","C63"),
("Proto","Action.step and Action.write","| 64 => (readBool bs).map fun r => ({ m with includeLb := r.1 }, r.2)\n  | 72 => (readInt64 bs).map fun r => ({ m with upperBound := r.1 }, r.2)\n  | 80 => (readBool bs).map fun r => ({ m with includeUb := r.1 }, r.2)","| 80 => (readBool bs).map fun r => ({ m with includeLb := r.1 }, r.2)\n  | 72 => (readInt64 bs).map fun r => ({ m with upperBound := r.1 }, r.2)\n  | 64 => (readBool bs).map fun r => ({ m with includeUb := r.1 }, r.2)","the two brackets are swapped","C63"),
("Proto","Action.write","(if m.includeUb = false then [] else writeBool 10 m.includeUb)","(if m.includeUb = false then [] else writeBool 10 m.includeLb)","the wrong bracket is written","C63"),
("Proto","Action.size","+ (if m.includeLb = false then 0 else 1 + 1)\n    + (if m.upperBound","+ (if m.upperBound","a bool is not counted","C63"),
("Proto","Action.write","++ (if m.clock = \"\" then [] else writeString 6 m.clock)\n    ++ (if m.lowerBound = 0 then [] else writeInt 7 m.lowerBound)\n    ++ (if m.includeLb","++ (if m.clock = \"\" then [] else writeString 6 m.clock)\n    ++ (if m.lowerBound = 0 then [] else writeInt 6 m.lowerBound)\n    ++ (if m.includeLb","a bound is written under the number of the clock","C63"),
("Proto","GlobalType.step","| 8 => (readInt32 bs).map fun r => ({ m with start := r.1 }, r.2)\n  | 18","| 16 => (readInt32 bs).map fun r => ({ m with start := r.1 }, r.2)\n  | 18","start is read from field 2","C63"),
("Proto","GlobalType.write","++ m.actions.flatMap (fun v => writeMessage 2 v.size v.write)","++ m.actions.flatMap (fun v => writeMessage 2 (v.size + 1) v.write)","the length of an action is one too many","C63"),
("Proto","GlobalType.write","++ m.actions.flatMap (fun v => writeMessage 2 v.size v.write)\n    ++ writeUnknowns m.unknown","++ m.actions.flatMap (fun v => writeMessage 2 v.size v.write)","unknown fields are not written","C63"),
("Proto","parseFromReader","(parse file).map fun m => (m, [])","(parse file).map fun m => (m, file)","the file is rewound between the two calls (the repair of the violation)","C64"),
("Proto","readGlobalProtocolFile","some { action := a, start := g.start, actions := g.actions }","some { action := a, start := a.idx, actions := g.actions }","the index of the action is shown as the start","C64"),
("Nuscr","Msg.params","left := m.leftBound\n","left := m.rightBound\n","the window written in the types starts at its end","C62"),
("Nuscr","Msg.params","leftIncl := m.leftBracket == .opening\n  right := m.rightBound\n","leftIncl := m.rightBracket == .closing\n  right := m.rightBound\n","the left bracket is the right one","C62"),
("Nuscr","Msg.params","  rightIncl := m.rightBracket == .closing\n  reset := m.resetText","  rightIncl := m.rightBracket == .closing\n  reset := m.clock","every message resets its clock","C62"),
("Nuscr","checkRole","else .ok (upd bs role fun c => if c = m.clock then none else clocks c)","else .ok (upd bs role fun _ => none)","a reset forgets the other clocks","C62"),
]
