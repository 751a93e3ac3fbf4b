import Verif.Proof.Proto

namespace Verif.Proto

theorem IsMessage.append {fs gs : List (Nat × Unk)} {a b : Bytes} (h : IsMessage fs a)
    (h' : IsMessage gs b) : IsMessage (fs ++ gs) (a ++ b) := by
  induction h with
  | nil => simpa using h'
  | cons f fs b' bs hf _ ih =>
    rw [List.append_assoc]
    exact .cons f _ b' _ hf ih

theorem Reads.append {M : Type} {Sets : Nat × Unk → M → M → Prop} {fs gs : List (Nat × Unk)}
    {m m' m'' : M} (h : Reads Sets fs m m') (h' : Reads Sets gs m' m'') :
    Reads Sets (fs ++ gs) m m'' := by
  induction h with
  | nil m => simpa using h'
  | cons f fs m m1 m2 hs _ ih => exact .cons f _ m m1 m'' hs (ih h')

/-- The bytes are those of fields that take `m` to `m'`. -/
def Wrote {M : Type} (Sets : Nat × Unk → M → M → Prop) (m : M) (bs : Bytes) (m' : M) : Prop :=
  ∃ fs, IsMessage fs bs ∧ Reads Sets fs m m'

section

variable {M : Type} {Sets : Nat × Unk → M → M → Prop}

theorem Wrote.nil (m : M) : Wrote Sets m [] m := ⟨[], .nil, .nil m⟩

theorem Wrote.append {m m' m'' : M} {a b : Bytes} (h : Wrote Sets m a m')
    (h' : Wrote Sets m' b m'') : Wrote Sets m (a ++ b) m'' := by
  obtain ⟨fs, h1, h2⟩ := h
  obtain ⟨gs, h3, h4⟩ := h'
  exact ⟨fs ++ gs, h1.append h3, h2.append h4⟩

theorem Wrote.one {m m' : M} {f : Nat × Unk} {b : Bytes} (h : IsField f b) (hs : Sets f m m') :
    Wrote Sets m b m' :=
  ⟨[f], by simpa using IsMessage.cons f [] b [] h .nil, .cons f [] m m' m' hs (.nil m')⟩

theorem Wrote.cast {m m' m'' : M} {b : Bytes} (h : Wrote Sets m b m') (e : m' = m'') :
    Wrote Sets m b m'' := e ▸ h

theorem tag_is {num w : Nat} (h2 : num < 2 ^ 29) (hw : w ≤ 5) :
    IsVarint (num * 8 + w) (varint (tagOf num w)) := by
  exact varint_is (show num * 8 + w < 2 ^ 64 by omega)

theorem isField_varint {num n : Nat} (h1 : 1 ≤ num) (h2 : num < 2 ^ 29) (hn : n < 2 ^ 64) :
    IsField (num, .varint n) (varint (tagOf num 0) ++ varint n) :=
  .mk num _ _ _ h1 h2 hn (varint_le _) (tag_is h2 (by simp [wire])) (.varint _ _ (varint_le _) (varint_is hn))

theorem isField_len {num : Nat} {b : Bytes} (h1 : 1 ≤ num) (h2 : num < 2 ^ 29)
    (hb : b.length < 2 ^ 32) :
    IsField (num, .len b) (varint (tagOf num 2) ++ varint b.length ++ b) := by
  rw [List.append_assoc]
  exact .mk num _ _ _ h1 h2 hb (varint_le _) (tag_is h2 (by simp [wire]))
    (.len _ _ (varint_le _) (varint_is (by omega)))

theorem isField_unk {f : Nat × Unk} (h1 : 1 ≤ f.1) (h2 : f.1 < 2 ^ 29) (hc : Carried f.2) :
    IsField f (writeUnk f) := by
  obtain ⟨num, u⟩ := f
  cases u with
  | varint n => exact isField_varint h1 h2 hc
  | fixed64 b => exact .mk num _ _ _ h1 h2 hc (varint_le _) (tag_is h2 (by simp [wire])) (.fixed64 b)
  | len b => exact isField_len h1 h2 hc
  | fixed32 b => exact .mk num _ _ _ h1 h2 hc (varint_le _) (tag_is h2 (by simp [wire])) (.fixed32 b)

theorem wrote_unknowns {declared : List (Nat × Nat)} (u : Unknowns) (hu : Unknown declared u)
    (app : M → Unknowns → M)
    (hset : ∀ f m, (f.1, wire f.2) ∉ declared → Sets f m (app m [f]))
    (happ : ∀ m a b, app (app m a) b = app m (a ++ b)) (hnil : ∀ m, app m [] = m) (m : M) :
    Wrote Sets m (writeUnknowns u) (app m u) := by
  induction u generalizing m with
  | nil => rw [hnil]; exact .nil m
  | cons f u ih =>
    obtain ⟨h1, h2, h3, h4⟩ := hu f (by simp)
    have := ih (fun g hg => hu g (by simp [hg])) (app m [f])
    rw [happ] at this
    exact (Wrote.one (isField_unk h1 h2 h3) (hset f m h4)).append this

theorem wrote_int {num : Nat} {x : Int} {m m' : M} (h1 : 1 ≤ num) (h2 : num < 2 ^ 29)
    (hz : x = 0 → m = m') (hs : Sets (num, .varint (ofInt x)) m m') :
    Wrote Sets m (if x = 0 then [] else writeInt num x) m' := by
  split
  · rename_i h; exact hz h ▸ .nil m
  · exact .one (isField_varint h1 h2 (ofInt_lt x)) hs

theorem wrote_bool {num : Nat} {v : Bool} {m m' : M} (h1 : 1 ≤ num) (h2 : num < 2 ^ 29)
    (hz : v = false → m = m') (hs : Sets (num, .varint (if v then 1 else 0)) m m') :
    Wrote Sets m (if v = false then [] else writeBool num v) m' := by
  cases v with
  | false => exact hz rfl ▸ .nil m
  | true => exact .one (isField_varint h1 h2 (by decide)) hs

theorem wrote_string {num : Nat} {s : String} {m m' : M} (h1 : 1 ≤ num) (h2 : num < 2 ^ 29)
    (hb : Short s) (hz : s = "" → m = m') (hs : Sets (num, .len (strBytes s)) m m') :
    Wrote Sets m (if s = "" then [] else writeString num s) m' := by
  split
  · rename_i h; exact hz h ▸ .nil m
  · exact .one (isField_len h1 h2 (by rw [strBytes_length]; exact hb)) hs

theorem wrote_messages {V : Type} {num : Nat} (h1 : 1 ≤ num) (h2 : num < 2 ^ 29)
    (size : V → Nat) (write : V → Bytes) (app : M → List V → M)
    (happ : ∀ m a b, app (app m a) b = app m (a ++ b)) (hnil : ∀ m, app m [] = m)
    (vs : List V) (hv : ∀ v ∈ vs, size v = (write v).length ∧ (write v).length < 2 ^ 32 ∧
      ∀ m, Sets (num, .len (write v)) m (app m [v])) (m : M) :
    Wrote Sets m (vs.flatMap fun v => writeMessage num (size v) (write v)) (app m vs) := by
  induction vs generalizing m with
  | nil => rw [hnil]; exact .nil m
  | cons v vs ih =>
    obtain ⟨he, hl, hs⟩ := hv v (by simp)
    have := ih (fun w hw => hv w (by simp [hw])) (app m [v])
    rw [happ] at this
    have hf : IsField (num, .len (write v)) (writeMessage num (size v) (write v)) := by
      unfold writeMessage
      rw [he, Nat.mod_eq_of_lt hl]
      exact isField_len h1 h2 hl
    exact (Wrote.one hf (hs m)).append this

end

/-! ## Sizes -/

theorem tagOf_size {num w : Nat} (h2 : num < 2 ^ 29) (hw : w < 8) :
    (varint (tagOf num w)).length = tagSize num := by
  rw [varint_size (by unfold tagOf; omega)]
  unfold tagSize tagOf varintSize
  have key : ∀ c, (num * 8 + w < 8 * c) = (num * 8 + 0 < 8 * c) := by
    intro c; simp only [eq_iff_iff]; omega
  have k1 := key (2 ^ 4); have k2 := key (2 ^ 11); have k3 := key (2 ^ 18); have k4 := key (2 ^ 25)
  have k5 := key (2 ^ 32); have k6 := key (2 ^ 39); have k7 := key (2 ^ 46); have k8 := key (2 ^ 53)
  have k9 := key (2 ^ 60)
  simp only [Nat.reducePow, Nat.reduceMul] at *
  simp only [k1, k2, k3, k4, k5, k6, k7, k8, k9]

theorem writeInt_length {num : Nat} {x : Int} (h2 : num < 2 ^ 29) :
    (writeInt num x).length = intSize num x := by
  simp [writeInt, intSize, tagOf_size h2, varint_size (ofInt_lt x)]

theorem writeBool_length {num : Nat} {v : Bool} (h : num < 16) :
    (writeBool num v).length = 1 + 1 := by
  have h1 : (varint (tagOf num 0)).length = 1 := by
    rw [tagOf_size (by omega) (by omega)]
    have : num * 8 + 0 < 2 ^ 7 := by omega
    unfold tagSize tagOf varintSize
    rw [if_pos this]
  have h2 : (varint v.toNat).length = 1 := by cases v <;> rfl
  simp [writeBool, h1, h2]

theorem writeString_length {num : Nat} {s : String} (h2 : num < 2 ^ 29) (hs : Short s) :
    (writeString num s).length = stringSize num s := by
  have : (strBytes s).length < 2 ^ 64 := by
    rw [strBytes_length]; unfold Short at hs; omega
  simp [writeString, stringSize, tagOf_size h2, varint_size this, Nat.add_assoc]

theorem writeMessage_length {num size : Nat} {body : Bytes} (h : num < 16) (h2 : size < 2 ^ 32)
    (hb : size = body.length) :
    (writeMessage num size body).length = 1 + varintSize size + size := by
  have h1 : (varint (tagOf num 2)).length = 1 := by
    rw [tagOf_size (by omega) (by omega)]
    have : num * 8 + 0 < 2 ^ 7 := by omega
    unfold tagSize tagOf varintSize
    rw [if_pos this]
  unfold writeMessage
  rw [Nat.mod_eq_of_lt h2, List.length_append, List.length_append, h1, varint_size (by omega), ← hb]

theorem writeUnk_length {f : Nat × Unk} (h2 : f.1 < 2 ^ 29) (hc : Carried f.2) :
    (writeUnk f).length = tagSize f.1 + f.2.size := by
  obtain ⟨num, u⟩ := f
  simp only at h2 hc
  cases u with
  | varint n => simp [writeUnk, Unk.size, tagOf_size h2, varint_size hc]
  | fixed64 b => simp [writeUnk, Unk.size, tagOf_size h2, show b.length = 8 from hc]
  | len b =>
    have : b.length < 2 ^ 64 := by unfold Carried at hc; omega
    simp [writeUnk, Unk.size, tagOf_size h2, varint_size this]
  | fixed32 b => simp [writeUnk, Unk.size, tagOf_size h2, show b.length = 4 from hc]

theorem writeUnknowns_length {declared : List (Nat × Nat)} {u : Unknowns}
    (hu : Unknown declared u) : (writeUnknowns u).length = unknownSize u := by
  induction u with
  | nil => rfl
  | cons f u ih =>
    obtain ⟨_, h2, h3, _⟩ := hu f (by simp)
    have := ih (fun g hg => hu g (by simp [hg]))
    simp only [writeUnknowns, unknownSize] at this
    simp [writeUnknowns, unknownSize, writeUnk_length h2 h3, this]

theorem length_ite {p : Prop} [Decidable p] {b : Bytes} {n : Nat} (h : b.length = n) :
    (if p then [] else b).length = if p then 0 else n := by
  split <;> simp [h]

theorem flatMap_length {V : Type} {vs : List V} {f : V → Bytes} {g : V → Nat}
    (h : ∀ v ∈ vs, (f v).length = g v) : (vs.flatMap f).length = (vs.map g).sum := by
  induction vs with
  | nil => rfl
  | cons v vs ih =>
    simp [h v (by simp), ih (fun w hw => h w (by simp [hw]))]

theorem Index.write_length {m : Index} (h : m.Valid) : m.write.length = m.size := by
  unfold Index.write Index.size
  simp only [List.length_append]
  rw [length_ite (writeString_length (by decide) h.label), length_ite (writeInt_length (by decide)),
    writeUnknowns_length h.unknown]

theorem Action.write_length {m : Action} (h : m.Valid) : m.write.length = m.size := by
  unfold Action.write Action.size
  simp only [List.length_append]
  rw [length_ite (writeInt_length (by decide)), length_ite (writeInt_length (by decide)),
    length_ite (writeString_length (by decide) h.fromRole),
    length_ite (writeString_length (by decide) h.toRole),
    length_ite (writeString_length (by decide) h.clock),
    length_ite (writeInt_length (by decide)), length_ite (writeInt_length (by decide)),
    length_ite (writeBool_length (by decide)), length_ite (writeBool_length (by decide)),
    length_ite (writeBool_length (by decide)), writeUnknowns_length h.unknown,
    flatMap_length (g := fun v => 1 + varintSize v.size + v.size)]
  intro v hv
  have hv := h.continuations v hv
  exact writeMessage_length (by decide) (Index.write_length hv ▸ hv.size) (Index.write_length hv).symm

theorem GlobalType.write_length {m : GlobalType} (h : m.Valid) : m.write.length = m.size := by
  unfold GlobalType.write GlobalType.size
  simp only [List.length_append]
  rw [length_ite (writeInt_length (by decide)), writeUnknowns_length h.unknown,
    flatMap_length (g := fun v => 1 + varintSize v.size + v.size)]
  intro v hv
  have hv := h.actions v hv
  exact writeMessage_length (by decide) (Action.write_length hv ▸ hv.size)
    (Action.write_length hv).symm

/-! ## What is written -/

theorem orInt_set {num : Nat} {M : Type} {Sets : Nat × Unk → M → M → Prop} {x : Int} {m : M}
    (set : Int → M) (old : Int) (h1 : 1 ≤ num) (h2 : num < 2 ^ 29)
    (hold : set old = m) (hs : x ≠ 0 → Sets (num, .varint (ofInt x)) m (set x)) :
    Wrote Sets m (if x = 0 then [] else writeInt num x) (set (orInt old x)) := by
  unfold orInt
  by_cases h : x = 0
  · rw [if_pos h, if_pos h, hold]; exact .nil m
  · rw [if_neg h, if_neg h]
    exact .one (isField_varint h1 h2 (ofInt_lt x)) (hs h)

theorem orStr_set {num : Nat} {M : Type} {Sets : Nat × Unk → M → M → Prop} {x : String} {m : M}
    (set : String → M) (old : String) (h1 : 1 ≤ num) (h2 : num < 2 ^ 29) (hx : Short x)
    (hold : set old = m) (hs : Sets (num, .len (strBytes x)) m (set x)) :
    Wrote Sets m (if x = "" then [] else writeString num x) (set (orStr old x)) := by
  unfold orStr
  by_cases h : x = ""
  · rw [if_pos h, if_pos h, hold]; exact .nil m
  · rw [if_neg h, if_neg h]
    exact .one (isField_len h1 h2 (by rw [strBytes_length]; exact hx)) hs

theorem orBool_set {num : Nat} {M : Type} {Sets : Nat × Unk → M → M → Prop} {x : Bool} {m : M}
    (set : Bool → M) (old : Bool) (h1 : 1 ≤ num) (h2 : num < 2 ^ 29)
    (hold : set old = m) (hs : Sets (num, .varint (if x then 1 else 0)) m (set x)) :
    Wrote Sets m (if x = false then [] else writeBool num x) (set (old || x)) := by
  cases x with
  | false => simp only [if_true, Bool.or_false, hold]; exact .nil m
  | true =>
    simp only [Bool.or_true]
    exact .one (isField_varint h1 h2 (by decide)) hs

theorem Index.wrote {m : Index} (h : m.Valid) (m0 : Index) :
    Wrote Index.Sets m0 m.write (m0.merged m) := by
  unfold Index.write
  have a := orStr_set (Sets := Index.Sets) (num := 1) (x := m.label) (m := m0)
    (fun s => { m0 with label := s }) m0.label (by decide) (by decide) h.label rfl
    (.label m0 _ _ (strBytes_utf8 _))
  have b := orInt_set (Sets := Index.Sets) (num := 2) (x := m.next)
    (m := { m0 with label := orStr m0.label m.label })
    (fun x => { m0 with label := orStr m0.label m.label, next := x }) m0.next (by decide)
    (by decide) rfl (fun _ => by
      have := Index.Sets.next { m0 with label := orStr m0.label m.label } (ofInt m.next)
      rwa [int32_ofInt h.next] at this)
  have c := wrote_unknowns (Sets := Index.Sets) m.unknown h.unknown
    (fun i u => { i with unknown := i.unknown ++ u }) (fun f i hf => .other i f hf)
    (fun i a b => by simp) (fun i => by simp)
    { m0 with label := orStr m0.label m.label, next := orInt m0.next m.next }
  exact (a.append b).append c

theorem Index.reads {m : Index} (h : m.Valid) :
    ∃ fs, IsMessage fs m.write ∧ Reads Index.Sets fs {} m := by
  have := Index.wrote h {}
  have e : Index.merged {} m = m := by
    cases m
    simp only [Index.merged, orStr, orInt, List.nil_append, Index.mk.injEq, and_true]
    exact ⟨by split <;> simp_all, by split <;> simp_all⟩
  rwa [e] at this

theorem Action.wrote {m : Action} (h : m.Valid) (m0 : Action) :
    Wrote Action.Sets m0 m.write (m0.merged m) := by
  unfold Action.write
  have h1 := orInt_set (Sets := Action.Sets) (num := 1) (x := m.idx)
    (m := m0)
    (fun x => { m0 with idx := x })
    m0.idx (by decide) (by decide) rfl (fun _ => by
      have := Action.Sets.idx (m0) (ofInt m.idx)
      rwa [int32_ofInt h.idx] at this)
  have h2 := orInt_set (Sets := Action.Sets) (num := 2) (x := m.type)
    (m := { m0 with idx := orInt m0.idx m.idx })
    (fun x => { m0 with idx := orInt m0.idx m.idx, type := x })
    m0.type (by decide) (by decide) rfl (fun _ => by
      have := Action.Sets.type ({ m0 with idx := orInt m0.idx m.idx }) (ofInt m.type)
      rwa [int32_ofInt h.type] at this)
  have h3 := orStr_set (Sets := Action.Sets) (num := 3) (x := m.fromRole)
    (m := { m0 with idx := orInt m0.idx m.idx, type := orInt m0.type m.type })
    (fun x => { m0 with idx := orInt m0.idx m.idx, type := orInt m0.type m.type, fromRole := x })
    m0.fromRole (by decide) (by decide) h.fromRole rfl (.fromRole _ _ _ (strBytes_utf8 _))
  have h4 := orStr_set (Sets := Action.Sets) (num := 4) (x := m.toRole)
    (m := { m0 with idx := orInt m0.idx m.idx, type := orInt m0.type m.type, fromRole := orStr m0.fromRole m.fromRole })
    (fun x => { m0 with idx := orInt m0.idx m.idx, type := orInt m0.type m.type, fromRole := orStr m0.fromRole m.fromRole, toRole := x })
    m0.toRole (by decide) (by decide) h.toRole rfl (.toRole _ _ _ (strBytes_utf8 _))
  have h5 := wrote_messages (Sets := Action.Sets) (num := 5) (by decide) (by decide)
    Index.size Index.write (fun i l => { i with continuations := i.continuations ++ l })
    (fun i a b => by simp) (fun i => by simp) m.continuations
    (fun v hv => by
      have hv := h.continuations v hv
      obtain ⟨fs, hf, hr⟩ := Index.reads hv
      exact ⟨(Index.write_length hv).symm, hv.size, fun i => .continuation i fs _ v hf hr⟩)
    ({ m0 with idx := orInt m0.idx m.idx, type := orInt m0.type m.type, fromRole := orStr m0.fromRole m.fromRole, toRole := orStr m0.toRole m.toRole })
  have h6 := orStr_set (Sets := Action.Sets) (num := 6) (x := m.clock)
    (m := { m0 with idx := orInt m0.idx m.idx, type := orInt m0.type m.type, fromRole := orStr m0.fromRole m.fromRole, toRole := orStr m0.toRole m.toRole, continuations := m0.continuations ++ m.continuations })
    (fun x => { m0 with idx := orInt m0.idx m.idx, type := orInt m0.type m.type, fromRole := orStr m0.fromRole m.fromRole, toRole := orStr m0.toRole m.toRole, continuations := m0.continuations ++ m.continuations, clock := x })
    m0.clock (by decide) (by decide) h.clock rfl (.clock _ _ _ (strBytes_utf8 _))
  have h7 := orInt_set (Sets := Action.Sets) (num := 7) (x := m.lowerBound)
    (m := { m0 with idx := orInt m0.idx m.idx, type := orInt m0.type m.type, fromRole := orStr m0.fromRole m.fromRole, toRole := orStr m0.toRole m.toRole, continuations := m0.continuations ++ m.continuations, clock := orStr m0.clock m.clock })
    (fun x => { m0 with idx := orInt m0.idx m.idx, type := orInt m0.type m.type, fromRole := orStr m0.fromRole m.fromRole, toRole := orStr m0.toRole m.toRole, continuations := m0.continuations ++ m.continuations, clock := orStr m0.clock m.clock, lowerBound := x })
    m0.lowerBound (by decide) (by decide) rfl (fun _ => by
      have := Action.Sets.lowerBound ({ m0 with idx := orInt m0.idx m.idx, type := orInt m0.type m.type, fromRole := orStr m0.fromRole m.fromRole, toRole := orStr m0.toRole m.toRole, continuations := m0.continuations ++ m.continuations, clock := orStr m0.clock m.clock }) (ofInt m.lowerBound)
      rwa [int64_ofInt h.lowerBound] at this)
  have h8 := orBool_set (Sets := Action.Sets) (num := 8) (x := m.includeLb)
    (m := { m0 with idx := orInt m0.idx m.idx, type := orInt m0.type m.type, fromRole := orStr m0.fromRole m.fromRole, toRole := orStr m0.toRole m.toRole, continuations := m0.continuations ++ m.continuations, clock := orStr m0.clock m.clock, lowerBound := orInt m0.lowerBound m.lowerBound })
    (fun x => { m0 with idx := orInt m0.idx m.idx, type := orInt m0.type m.type, fromRole := orStr m0.fromRole m.fromRole, toRole := orStr m0.toRole m.toRole, continuations := m0.continuations ++ m.continuations, clock := orStr m0.clock m.clock, lowerBound := orInt m0.lowerBound m.lowerBound, includeLb := x })
    m0.includeLb (by decide) (by decide) rfl (.includeLb _ _)
  have h9 := orInt_set (Sets := Action.Sets) (num := 9) (x := m.upperBound)
    (m := { m0 with idx := orInt m0.idx m.idx, type := orInt m0.type m.type, fromRole := orStr m0.fromRole m.fromRole, toRole := orStr m0.toRole m.toRole, continuations := m0.continuations ++ m.continuations, clock := orStr m0.clock m.clock, lowerBound := orInt m0.lowerBound m.lowerBound, includeLb := m0.includeLb || m.includeLb })
    (fun x => { m0 with idx := orInt m0.idx m.idx, type := orInt m0.type m.type, fromRole := orStr m0.fromRole m.fromRole, toRole := orStr m0.toRole m.toRole, continuations := m0.continuations ++ m.continuations, clock := orStr m0.clock m.clock, lowerBound := orInt m0.lowerBound m.lowerBound, includeLb := m0.includeLb || m.includeLb, upperBound := x })
    m0.upperBound (by decide) (by decide) rfl (fun _ => by
      have := Action.Sets.upperBound ({ m0 with idx := orInt m0.idx m.idx, type := orInt m0.type m.type, fromRole := orStr m0.fromRole m.fromRole, toRole := orStr m0.toRole m.toRole, continuations := m0.continuations ++ m.continuations, clock := orStr m0.clock m.clock, lowerBound := orInt m0.lowerBound m.lowerBound, includeLb := m0.includeLb || m.includeLb }) (ofInt m.upperBound)
      rwa [int64_ofInt h.upperBound] at this)
  have h10 := orBool_set (Sets := Action.Sets) (num := 10) (x := m.includeUb)
    (m := { m0 with idx := orInt m0.idx m.idx, type := orInt m0.type m.type, fromRole := orStr m0.fromRole m.fromRole, toRole := orStr m0.toRole m.toRole, continuations := m0.continuations ++ m.continuations, clock := orStr m0.clock m.clock, lowerBound := orInt m0.lowerBound m.lowerBound, includeLb := m0.includeLb || m.includeLb, upperBound := orInt m0.upperBound m.upperBound })
    (fun x => { m0 with idx := orInt m0.idx m.idx, type := orInt m0.type m.type, fromRole := orStr m0.fromRole m.fromRole, toRole := orStr m0.toRole m.toRole, continuations := m0.continuations ++ m.continuations, clock := orStr m0.clock m.clock, lowerBound := orInt m0.lowerBound m.lowerBound, includeLb := m0.includeLb || m.includeLb, upperBound := orInt m0.upperBound m.upperBound, includeUb := x })
    m0.includeUb (by decide) (by decide) rfl (.includeUb _ _)
  have h11 := orBool_set (Sets := Action.Sets) (num := 11) (x := m.resetClock)
    (m := { m0 with idx := orInt m0.idx m.idx, type := orInt m0.type m.type, fromRole := orStr m0.fromRole m.fromRole, toRole := orStr m0.toRole m.toRole, continuations := m0.continuations ++ m.continuations, clock := orStr m0.clock m.clock, lowerBound := orInt m0.lowerBound m.lowerBound, includeLb := m0.includeLb || m.includeLb, upperBound := orInt m0.upperBound m.upperBound, includeUb := m0.includeUb || m.includeUb })
    (fun x => { m0 with idx := orInt m0.idx m.idx, type := orInt m0.type m.type, fromRole := orStr m0.fromRole m.fromRole, toRole := orStr m0.toRole m.toRole, continuations := m0.continuations ++ m.continuations, clock := orStr m0.clock m.clock, lowerBound := orInt m0.lowerBound m.lowerBound, includeLb := m0.includeLb || m.includeLb, upperBound := orInt m0.upperBound m.upperBound, includeUb := m0.includeUb || m.includeUb, resetClock := x })
    m0.resetClock (by decide) (by decide) rfl (.resetClock _ _)
  have hu := wrote_unknowns (Sets := Action.Sets) m.unknown h.unknown
    (fun i u => { i with unknown := i.unknown ++ u }) (fun f i hf => .other i f hf)
    (fun i a b => by simp) (fun i => by simp)
    ({ m0 with idx := orInt m0.idx m.idx, type := orInt m0.type m.type, fromRole := orStr m0.fromRole m.fromRole, toRole := orStr m0.toRole m.toRole, continuations := m0.continuations ++ m.continuations, clock := orStr m0.clock m.clock, lowerBound := orInt m0.lowerBound m.lowerBound, includeLb := m0.includeLb || m.includeLb, upperBound := orInt m0.upperBound m.upperBound, includeUb := m0.includeUb || m.includeUb, resetClock := m0.resetClock || m.resetClock })
  exact ((((((((((h1.append h2).append h3).append h4).append h5).append h6).append h7).append h8).append h9).append h10).append h11).append hu

theorem orInt_zero (x : Int) : orInt 0 x = x := by
  unfold orInt; split <;> simp_all

theorem orStr_empty (x : String) : orStr "" x = x := by
  unfold orStr; split <;> simp_all

theorem Action.merged_default (m : Action) : Action.merged {} m = m := by
  cases m
  simp only [Action.merged, orInt_zero, orStr_empty, List.nil_append, Bool.false_or]

theorem Action.reads {m : Action} (h : m.Valid) :
    ∃ fs, IsMessage fs m.write ∧ Reads Action.Sets fs {} m := by
  have := Action.wrote h {}
  rwa [Action.merged_default] at this

theorem GlobalType.wrote {m : GlobalType} (h : m.Valid) (m0 : GlobalType) :
    Wrote GlobalType.Sets m0 m.write (m0.merged m) := by
  unfold GlobalType.write
  have a := orInt_set (Sets := GlobalType.Sets) (num := 1) (x := m.start) (m := m0)
    (fun x => { m0 with start := x }) m0.start (by decide)
    (by decide) rfl (fun _ => by
      have := GlobalType.Sets.start m0 (ofInt m.start)
      rwa [int32_ofInt h.start] at this)
  have b := wrote_messages (Sets := GlobalType.Sets) (num := 2) (by decide) (by decide)
    Action.size Action.write (fun i l => { i with actions := i.actions ++ l })
    (fun i a b => by simp) (fun i => by simp) m.actions
    (fun v hv => by
      have hv := h.actions v hv
      obtain ⟨fs, hf, hr⟩ := Action.reads hv
      exact ⟨(Action.write_length hv).symm, hv.size, fun i => .action i fs _ v hf hr⟩)
    { m0 with start := orInt m0.start m.start }
  have c := wrote_unknowns (Sets := GlobalType.Sets) m.unknown h.unknown
    (fun i u => { i with unknown := i.unknown ++ u }) (fun f i hf => .other i f hf)
    (fun i a b => by simp) (fun i => by simp)
    { m0 with start := orInt m0.start m.start, actions := m0.actions ++ m.actions }
  exact (a.append b).append c

theorem GlobalType.merged_default (m : GlobalType) : GlobalType.merged {} m = m := by
  cases m
  simp only [GlobalType.merged, orInt_zero, List.nil_append]

theorem GlobalType.reads {m : GlobalType} (h : m.Valid) :
    ∃ fs, IsMessage fs m.write ∧ Reads GlobalType.Sets fs {} m := by
  have := GlobalType.wrote h {}
  rwa [GlobalType.merged_default] at this

end Verif.Proto
