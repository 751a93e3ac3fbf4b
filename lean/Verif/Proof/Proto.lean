import Verif.Spec.Proto

namespace Verif.Proto

/-! ## Numbers -/

theorem IsVarint.pos {n : Nat} {bs : Bytes} (h : IsVarint n bs) : bs ≠ [] := by
  cases h <;> simp

theorem readVarintN_of {n : Nat} {bs : Bytes} (h : IsVarint n bs) :
    ∀ k rest, bs.length ≤ k → readVarintN k (bs ++ rest) = some (n, rest) := by
  induction h with
  | last b hb =>
    intro k rest hk
    cases k with
    | zero => simp at hk
    | succ k => simp [readVarintN, hb]
  | more b n bs hb _ ih =>
    intro k rest hk
    cases k with
    | zero => simp at hk
    | succ k =>
      simp only [List.length_cons] at hk
      have := ih k rest (by omega)
      simp [readVarintN, this, show ¬ b.toNat < 128 by omega]

theorem readVarint64_of {n : Nat} {bs : Bytes} (h : IsVarint n bs) (hl : bs.length ≤ 10)
    (hn : n < 2 ^ 64) (rest : Bytes) : readVarint64 (bs ++ rest) = some (n, rest) := by
  simp only [readVarint64, readVarintN_of h 10 rest hl]
  simp [hn]

theorem readVarint32_of {n : Nat} {bs : Bytes} (h : IsVarint n bs) (hl : bs.length ≤ 10)
    (hn : n < 2 ^ 64) (rest : Bytes) :
    readVarint32 (bs ++ rest) = some (n % 2 ^ 32, rest) := by
  simp [readVarint32, readVarint64_of h hl hn rest]

theorem varintN_is (k n : Nat) (h : n < 128 ^ (k + 1)) : IsVarint n (varintN (k + 1) n) := by
  induction k generalizing n with
  | zero =>
    have hn : n < 128 := by simpa using h
    have : IsVarint (UInt8.ofNat n).toNat [UInt8.ofNat n] :=
      .last _ (by simp [UInt8.toNat_ofNat']; omega)
    simp only [UInt8.toNat_ofNat'] at this
    rw [Nat.mod_eq_of_lt (by omega)] at this
    simpa [varintN, hn] using this
  | succ k ih =>
    by_cases hn : n < 128
    · have : IsVarint (UInt8.ofNat n).toNat [UInt8.ofNat n] :=
        .last _ (by simp [UInt8.toNat_ofNat']; omega)
      simp only [UInt8.toNat_ofNat'] at this
      rw [Nat.mod_eq_of_lt (by omega)] at this
      simpa [varintN, hn] using this
    · have hlt : n / 128 < 128 ^ (k + 1) := by
        rw [Nat.div_lt_iff_lt_mul (by omega)]
        rw [Nat.pow_succ] at h
        exact h
      have := IsVarint.more (UInt8.ofNat (n % 128 + 128)) (n / 128) (varintN (k + 1) (n / 128))
        (by simp only [UInt8.toNat_ofNat']; omega) (ih _ hlt)
      have e : (UInt8.ofNat (n % 128 + 128)).toNat - 128 + 128 * (n / 128) = n := by
        simp only [UInt8.toNat_ofNat']; omega
      rw [e] at this
      rw [varintN]
      simpa only [if_neg hn] using this

theorem varint_is {n : Nat} (h : n < 2 ^ 64) : IsVarint n (varint n) :=
  varintN_is 9 n (by omega)

theorem varintN_length (k n : Nat) : (varintN k n).length ≤ k := by
  induction k generalizing n with
  | zero => simp [varintN]
  | succ k ih =>
    rw [varintN]
    split
    · simp
    · have := ih (n / 128)
      simp only [List.length_cons]; omega

theorem varint_le (n : Nat) : (varint n).length ≤ 10 := varintN_length 10 n

theorem varintN_len_succ (k n : Nat) :
    (varintN (k + 1) n).length = if n < 128 then 1 else 1 + (varintN k (n / 128)).length := by
  rw [varintN]
  split <;> simp; omega

theorem varintN_len_zero (n : Nat) : (varintN 0 n).length = 0 := rfl

theorem varint_size {n : Nat} (h : n < 2 ^ 64) : (varint n).length = varintSize n := by
  simp only [varint, varintN_len_succ, varintSize, Nat.div_div_eq_div_mul, varintN_len_zero,
    Nat.reduceMul, Nat.reducePow]
  simp only [Nat.reducePow] at h
  by_cases h1 : n < 128
  · simp [h1]
  by_cases h2 : n < 16384
  · simp [h1, h2, show n / 128 < 128 by omega]
  by_cases h3 : n < 2097152
  · simp [h1, h2, h3, show ¬ n / 128 < 128 by omega, show n / 16384 < 128 by omega]
  by_cases h4 : n < 268435456
  · simp [h1, h2, h3, h4, show ¬ n / 128 < 128 by omega, show ¬ n / 16384 < 128 by omega, show n / 2097152 < 128 by omega]
  by_cases h5 : n < 34359738368
  · simp [h1, h2, h3, h4, h5, show ¬ n / 128 < 128 by omega, show ¬ n / 16384 < 128 by omega, show ¬ n / 2097152 < 128 by omega, show n / 268435456 < 128 by omega]
  by_cases h6 : n < 4398046511104
  · simp [h1, h2, h3, h4, h5, h6, show ¬ n / 128 < 128 by omega, show ¬ n / 16384 < 128 by omega, show ¬ n / 2097152 < 128 by omega, show ¬ n / 268435456 < 128 by omega, show n / 34359738368 < 128 by omega]
  by_cases h7 : n < 562949953421312
  · simp [h1, h2, h3, h4, h5, h6, h7, show ¬ n / 128 < 128 by omega, show ¬ n / 16384 < 128 by omega, show ¬ n / 2097152 < 128 by omega, show ¬ n / 268435456 < 128 by omega, show ¬ n / 34359738368 < 128 by omega, show n / 4398046511104 < 128 by omega]
  by_cases h8 : n < 72057594037927936
  · simp [h1, h2, h3, h4, h5, h6, h7, h8, show ¬ n / 128 < 128 by omega, show ¬ n / 16384 < 128 by omega, show ¬ n / 2097152 < 128 by omega, show ¬ n / 268435456 < 128 by omega, show ¬ n / 34359738368 < 128 by omega, show ¬ n / 4398046511104 < 128 by omega, show n / 562949953421312 < 128 by omega]
  by_cases h9 : n < 9223372036854775808
  · simp [h1, h2, h3, h4, h5, h6, h7, h8, h9, show ¬ n / 128 < 128 by omega, show ¬ n / 16384 < 128 by omega, show ¬ n / 2097152 < 128 by omega, show ¬ n / 268435456 < 128 by omega, show ¬ n / 34359738368 < 128 by omega, show ¬ n / 4398046511104 < 128 by omega, show ¬ n / 562949953421312 < 128 by omega, show n / 72057594037927936 < 128 by omega]
  · simp [h1, h2, h3, h4, h5, h6, h7, h8, h9, show ¬ n / 128 < 128 by omega, show ¬ n / 16384 < 128 by omega, show ¬ n / 2097152 < 128 by omega, show ¬ n / 268435456 < 128 by omega, show ¬ n / 34359738368 < 128 by omega, show ¬ n / 4398046511104 < 128 by omega, show ¬ n / 562949953421312 < 128 by omega, show ¬ n / 72057594037927936 < 128 by omega]

theorem bmod_pow (x : Int) (m h : Nat) (hm : m = 2 * h) :
    Int.bmod x m = if x % (m : Int) < (h : Int) then x % (m : Int) else x % (m : Int) - (m : Int) := by
  subst hm
  simp only [Int.bmod_def]
  have : (((2 * h : Nat) : Int) + 1) / 2 = (h : Int) := by omega
  rw [this]

theorem toI_aux (n m h : Nat) (hm : m = 2 * h) (hp : 0 < h) :
    (if n % m < h then ((n % m : Nat) : Int) else ((n % m : Nat) : Int) - (m : Int))
      = Int.bmod n m := by
  rw [bmod_pow _ m h hm]
  have e : ((n % m : Nat) : Int) = (n : Int) % (m : Int) := by simp
  rw [e]
  by_cases hlt : n % m < h
  · rw [if_pos hlt, if_pos (by omega)]
  · rw [if_neg hlt, if_neg (by omega)]

theorem toI32_eq (n : Nat) : toI32 (n % 2 ^ 32) = int32 n :=
  toI_aux n (2 ^ 32) (2 ^ 31) (by decide) (by decide)

theorem toI64_eq {n : Nat} (h : n < 2 ^ 64) : toI64 n = int64 n := by
  have := toI_aux n (2 ^ 64) (2 ^ 63) (by decide) (by decide)
  rw [Nat.mod_eq_of_lt h] at this
  exact this

theorem ofInt_lt (x : Int) : ofInt x < 2 ^ 64 := by
  have h1 : 0 ≤ x % (2 : Int) ^ 64 := Int.emod_nonneg _ (by decide)
  have h2 : x % (2 : Int) ^ 64 < (2 : Int) ^ 64 := Int.emod_lt_of_pos _ (by decide)
  unfold ofInt
  omega

theorem bmod_ofInt (x : Int) (h : Nat) (hp : 0 < h) (hd : 2 * h ∣ 2 ^ 64) (h1 : -(h : Int) ≤ x)
    (h2 : x < (h : Int)) : Int.bmod (ofInt x) (2 * h) = x := by
  have h0 : 0 ≤ x % (2 : Int) ^ 64 := Int.emod_nonneg _ (by decide)
  have e : ((ofInt x : Nat) : Int) = x % (2 : Int) ^ 64 := by
    unfold ofInt; omega
  have hd' : ((2 * h : Nat) : Int) ∣ (2 : Int) ^ 64 := by
    have := Int.natCast_dvd_natCast.mpr hd
    simpa using this
  rw [e, bmod_pow _ (2 * h) h rfl, Int.emod_emod_of_dvd x hd']
  by_cases hx : 0 ≤ x
  · rw [Int.emod_eq_of_lt hx (by omega)]
    rw [if_pos h2]
  · have : x % ((2 * h : Nat) : Int) = x + ((2 * h : Nat) : Int) := by
      rw [← Int.add_emod_right, Int.emod_eq_of_lt (by omega) (by omega)]
    rw [this, if_neg (by omega)]
    omega

theorem int32_ofInt {x : Int} (h : I32 x) : int32 (ofInt x) = x := by
  have hh := h
  simp only [I32] at hh
  have := bmod_ofInt x (2 ^ 31) (by decide) ⟨2 ^ 32, by decide⟩ (by simpa using hh.1)
    (by simpa using hh.2)
  rw [show 2 * 2 ^ 31 = 2 ^ 32 by decide] at this
  exact this

theorem int64_ofInt {x : Int} (h : I64 x) : int64 (ofInt x) = x := by
  have hh := h
  simp only [I64] at hh
  have := bmod_ofInt x (2 ^ 63) (by decide) ⟨1, by decide⟩ (by simpa using hh.1)
    (by simpa using hh.2)
  rw [show 2 * 2 ^ 63 = 2 ^ 64 by decide] at this
  exact this

/-! ## Strings and lengths -/

theorem takeBytes_append (b rest : Bytes) : takeBytes b.length (b ++ rest) = some (b, rest) := by
  simp [takeBytes]

theorem readLen_of {b l : Bytes} (hl : l.length ≤ 10) (h : IsVarint b.length l)
    (hb : b.length < 2 ^ 32) (rest : Bytes) :
    readLen ((l ++ b) ++ rest) = some (b, rest) := by
  have hm : b.length % 2 ^ 32 = b.length := Nat.mod_eq_of_lt hb
  simp only [readLen, List.append_assoc, readVarint32_of h hl (by omega), hm,
    takeBytes_append]

theorem fromUTF8_of {s : String} {b : Bytes} (h : Utf8 s b) :
    String.fromUTF8? ⟨b.toArray⟩ = some s := by
  subst h
  have e : (⟨s.toUTF8.data.toList.toArray⟩ : ByteArray) = s.toByteArray := by
    simp
  rw [e]
  simp [String.fromUTF8?, s.isValidUTF8]
  rfl

theorem readString_of {s : String} {b l : Bytes} (hs : Utf8 s b) (hl : l.length ≤ 10)
    (h : IsVarint b.length l) (hb : b.length < 2 ^ 32) (rest : Bytes) :
    readString ((l ++ b) ++ rest) = some (s, rest) := by
  simp only [readString, readLen_of hl h hb, fromUTF8_of hs, Option.map_some]

theorem strBytes_utf8 (s : String) : Utf8 s (strBytes s) := by
  simp [Utf8, strBytes]

theorem strBytes_length (s : String) : (strBytes s).length = s.utf8ByteSize := by
  rw [← String.size_toByteArray]
  simp [strBytes]

/-! ## The loop -/

/-- What one round of the loop does to a field. -/
def StepOk {M : Type} (step : Nat → M → Bytes → Option (M × Bytes))
    (Sets : Nat × Unk → M → M → Prop) : Prop :=
  ∀ (f : Nat × Unk) (m m' : M) (p rest : Bytes), 1 ≤ f.1 → f.1 < 2 ^ 29 → Carried f.2 →
    IsPayload f.2 p → Sets f m m' → step (f.1 * 8 + wire f.2) m (p ++ rest) = some (m', rest)

theorem wire_le (u : Unk) : wire u ≤ 5 := by
  cases u <;> simp [wire]

theorem mergeLoop_of {M : Type} {step : Nat → M → Bytes → Option (M × Bytes)}
    {Sets : Nat × Unk → M → M → Prop} (hs : StepOk step Sets) {fs : List (Nat × Unk)} {bs : Bytes}
    (hm : IsMessage fs bs) :
    ∀ k m m', bs.length ≤ k → Reads Sets fs m m' → mergeLoop step k m bs = some m' := by
  induction hm with
  | nil =>
    intro k m m' _ hr
    cases hr
    cases k <;> rfl
  | cons f fs b bs hf _ ih =>
    intro k m m'' hk hr
    obtain ⟨num, u, t, p, h1, h2, hc, hl, ht, hp⟩ := hf
    cases hr with
    | cons _ _ _ m' _ hset hrest =>
    have hw := wire_le u
    have hr : readVarint32 (t ++ (p ++ bs)) = some (num * 8 + wire u, p ++ bs) := by
      have hmod : (num * 8 + wire u) % 2 ^ 32 = num * 8 + wire u := by omega
      have := readVarint32_of ht hl (by omega) (p ++ bs)
      rwa [hmod] at this
    have hstep := hs (num, u) m m' p bs h1 h2 hc hp hset
    cases t with
    | nil => exact absurd rfl ht.pos
    | cons c t =>
      cases k with
      | zero => simp at hk
      | succ k =>
        simp only [List.append_assoc, List.cons_append, List.length_cons, List.length_append]
          at hk hr ⊢
        simp only [mergeLoop, hr, hstep]
        exact ih k m' m'' (by omega) hrest

theorem readUnknown_of (f : Nat × Unk) (u : Unknowns) (p rest : Bytes) (h1 : 1 ≤ f.1)
    (hc : Carried f.2) (hp : IsPayload f.2 p) :
    readUnknown (f.1 * 8 + wire f.2) u (p ++ rest) = some (u ++ [f], rest) := by
  obtain ⟨num, v⟩ := f
  simp only at h1 hc hp
  have hz : ¬ (num = 0) := by omega
  cases hp with
  | varint n bs hl h =>
    have e1 : (num * 8 + 0) / 8 = num := by omega
    have e2 : (num * 8 + 0) % 8 = 0 := by omega
    simp only [readUnknown, wire, e1, e2, readVarint64_of h hl hc rest, if_neg hz]
    simp
  | fixed64 b =>
    have e1 : (num * 8 + 1) / 8 = num := by omega
    have e2 : (num * 8 + 1) % 8 = 1 := by omega
    have e3 : takeBytes 8 (p ++ rest) = some (p, rest) := by
      have := takeBytes_append p rest
      rwa [show p.length = 8 from hc] at this
    simp only [readUnknown, wire, e1, e2, e3, if_neg hz]
    simp
  | fixed32 b =>
    have e1 : (num * 8 + 5) / 8 = num := by omega
    have e2 : (num * 8 + 5) % 8 = 5 := by omega
    have e3 : takeBytes 4 (p ++ rest) = some (p, rest) := by
      have := takeBytes_append p rest
      rwa [show p.length = 4 from hc] at this
    simp only [readUnknown, wire, e1, e2, e3, if_neg hz]
    simp
  | len b l hl h =>
    have e1 : (num * 8 + 2) / 8 = num := by omega
    have e2 : (num * 8 + 2) % 8 = 2 := by omega
    simp only [readUnknown, wire, e1, e2, readLen_of hl h hc rest, if_neg hz]
    simp

theorem readInt32_of {n : Nat} {p : Bytes} (hp : IsPayload (.varint n) p) (hn : n < 2 ^ 64)
    (rest : Bytes) : readInt32 (p ++ rest) = some (int32 n, rest) := by
  cases hp with
  | varint _ _ hl h =>
    simp only [readInt32, readVarint32_of h hl hn, Option.map_some, toI32_eq]

theorem readInt64_of {n : Nat} {p : Bytes} (hp : IsPayload (.varint n) p) (hn : n < 2 ^ 64)
    (rest : Bytes) : readInt64 (p ++ rest) = some (int64 n, rest) := by
  cases hp with
  | varint _ _ hl h =>
    simp only [readInt64, readVarint64_of h hl hn, Option.map_some, toI64_eq hn]

theorem readBool_of {v : Bool} {p : Bytes} (hp : IsPayload (.varint (if v then 1 else 0)) p)
    (rest : Bytes) : readBool (p ++ rest) = some (v, rest) := by
  cases hp with
  | varint _ _ hl h =>
    simp only [readBool, readVarint32_of h hl (by split <;> omega), Option.map_some]
    cases v <;> rfl

theorem readString_pay {s : String} {b p : Bytes} (hs : Utf8 s b) (hp : IsPayload (.len b) p)
    (hc : b.length < 2 ^ 32) (rest : Bytes) : readString (p ++ rest) = some (s, rest) := by
  cases hp with
  | len _ l hl h => exact readString_of hs hl h hc rest

theorem readMessage_pay {M : Type} {parse : Bytes → Option M} {m : M} {b p : Bytes}
    (hs : parse b = some m) (hp : IsPayload (.len b) p)
    (hc : b.length < 2 ^ 32) (rest : Bytes) : readMessage parse (p ++ rest) = some (m, rest) := by
  cases hp with
  | len _ l hl h =>
    simp only [readMessage, readLen_of hl h hc, hs, Option.map_some]

theorem Index.stepOk : StepOk Index.step Index.Sets := by
  intro f m m' p rest h1 h2 hc hp hset
  cases hset with
  | label _ s b hs => simp [Index.step, wire, readString_pay hs hp hc]
  | next _ n => simp [Index.step, wire, readInt32_of hp hc]
  | other _ _ hf =>
    have hw := wire_le f.2
    have hu := readUnknown_of f m.unknown p rest h1 hc hp
    simp only [Index.declared, List.mem_cons, Prod.mk.injEq, List.not_mem_nil, or_false,
      not_or] at hf
    unfold Index.step
    split
    · omega
    · omega
    · simp [hu]

theorem Index.mergeFrom_of {fs : List (Nat × Unk)} {bs : Bytes} {m m' : Index}
    (h : IsMessage fs bs) (hr : Reads Index.Sets fs m m') : m.mergeFrom bs = some m' :=
  mergeLoop_of Index.stepOk h _ _ _ (Nat.le_refl _) hr

theorem Action.stepOk : StepOk Action.step Action.Sets := by
  intro f m m' p rest h1 h2 hc hp hset
  cases hset with
  | idx _ n => simp [Action.step, wire, readInt32_of hp hc]
  | type _ n => simp [Action.step, wire, readInt32_of hp hc]
  | fromRole _ s b hs => simp [Action.step, wire, readString_pay hs hp hc]
  | toRole _ s b hs => simp [Action.step, wire, readString_pay hs hp hc]
  | continuation _ gs b i hg hi =>
    simp [Action.step, wire, readMessage_pay (Index.mergeFrom_of hg hi) hp hc]
  | clock _ s b hs => simp [Action.step, wire, readString_pay hs hp hc]
  | lowerBound _ n => simp [Action.step, wire, readInt64_of hp hc]
  | includeLb _ v => simp [Action.step, wire, readBool_of hp]
  | upperBound _ n => simp [Action.step, wire, readInt64_of hp hc]
  | includeUb _ v => simp [Action.step, wire, readBool_of hp]
  | resetClock _ v => simp [Action.step, wire, readBool_of hp]
  | other _ _ hf =>
    have hw := wire_le f.2
    have hu := readUnknown_of f m.unknown p rest h1 hc hp
    simp only [Action.declared, List.mem_cons, Prod.mk.injEq, List.not_mem_nil, or_false,
      not_or] at hf
    unfold Action.step
    split <;> first | omega | simp [hu]

theorem Action.mergeFrom_of {fs : List (Nat × Unk)} {bs : Bytes} {m m' : Action}
    (h : IsMessage fs bs) (hr : Reads Action.Sets fs m m') : m.mergeFrom bs = some m' :=
  mergeLoop_of Action.stepOk h _ _ _ (Nat.le_refl _) hr

theorem GlobalType.stepOk : StepOk GlobalType.step GlobalType.Sets := by
  intro f m m' p rest h1 h2 hc hp hset
  cases hset with
  | start _ n => simp [GlobalType.step, wire, readInt32_of hp hc]
  | action _ gs b i hg hi =>
    simp [GlobalType.step, wire, readMessage_pay (Action.mergeFrom_of hg hi) hp hc]
  | other _ _ hf =>
    have hw := wire_le f.2
    have hu := readUnknown_of f m.unknown p rest h1 hc hp
    simp only [GlobalType.declared, List.mem_cons, Prod.mk.injEq, List.not_mem_nil, or_false,
      not_or] at hf
    unfold GlobalType.step
    split <;> first | omega | simp [hu]

theorem GlobalType.mergeFrom_of {fs : List (Nat × Unk)} {bs : Bytes} {m m' : GlobalType}
    (h : IsMessage fs bs) (hr : Reads GlobalType.Sets fs m m') : m.mergeFrom bs = some m' :=
  mergeLoop_of GlobalType.stepOk h _ _ _ (Nat.le_refl _) hr

end Verif.Proto
