import Verif.Spec.Global
import Mathlib.Data.List.Perm.Subperm
/-!
# Invariant of projected programs

Ghost state: `path g` is the block followed after `g` choices (decided for `g ≤ top`); role `r` has done its part of the
blocks before `gst r` and of the first `idx r` messages of block `gst r`.
-/
namespace Verif.Mesh

def Part (n r : Nat) : Prop := 1 ≤ r ∧ r ≤ n

theorem mem_others {n r q : Nat} : q ∈ others n r ↔ Part n q ∧ q ≠ r := by
  simp only [others, List.mem_filter, List.mem_range'_1, Part, decide_eq_true_eq]
  constructor
  · rintro ⟨h1, h2⟩; exact ⟨by omega, h2⟩
  · rintro ⟨h1, h2⟩; exact ⟨by omega, h2⟩

theorem others_nodup (n r : Nat) : (others n r).Nodup := List.Nodup.sublist List.filter_sublist List.nodup_range'

/-! ## Projection lemmas -/

def Free (r : Nat) (cs : List Comm) : Prop := ∀ c ∈ cs, c.p ≠ r ∧ c.q ≠ r

theorem sess_skip {r q : Nat} {pre cs : List Comm} {t : Tail} (h : Free r pre) :
    sessOf r q (pre ++ cs) t = sessOf r q cs t := by
  induction pre with
  | nil => rfl
  | cons c pre ih =>
    have hc := h c List.mem_cons_self
    have := ih (fun c hc => h c (List.mem_cons_of_mem _ hc))
    simp [sessOf, hc.1, hc.2, this]

theorem stack_skip {r : Nat} {pre cs : List Comm} {t : Tail} (h : Free r pre) :
    stackOf r (pre ++ cs) t = stackOf r cs t := by
  induction pre with
  | nil => rfl
  | cons c pre ih =>
    have hc := h c List.mem_cons_self
    have := ih (fun c hc => h c (List.mem_cons_of_mem _ hc))
    simp [stackOf, hc.1, hc.2, this]

/-- Either `r` has nothing left in `cs`, or there is a first message of its own. -/
theorem split_first (r : Nat) (cs : List Comm) :
    Free r cs ∨ ∃ pre c post, cs = pre ++ c :: post ∧ Free r pre ∧ (c.p = r ∨ c.q = r) := by
  induction cs with
  | nil => exact .inl (by intro c hc; cases hc)
  | cons c cs ih =>
    by_cases hc : c.p = r ∨ c.q = r
    · exact .inr ⟨[], c, cs, rfl, (by intro c hc; cases hc), hc⟩
    · rcases ih with h | ⟨pre, c', post, e, h1, h2⟩
      · refine .inl ?_
        intro d hd
        rcases List.mem_cons.1 hd with rfl | hd
        · exact ⟨fun h => hc (.inl h), fun h => hc (.inr h)⟩
        · exact h d hd
      · refine .inr ⟨c :: pre, c', post, by rw [e]; rfl, ?_, h2⟩
        intro d hd
        rcases List.mem_cons.1 hd with rfl | hd
        · exact ⟨fun h => hc (.inl h), fun h => hc (.inr h)⟩
        · exact h1 d hd

theorem mesh_done {r : Nat} {cs : List Comm} {t : Tail} (h : Free r cs) : meshOf r cs t = meshOf r [] t := by
  have h1 : ∀ q, sessOf r q cs t = sessOf r q [] t := fun q => by simpa using sess_skip (cs := []) (q := q) (t := t) h
  have h2 : stackOf r cs t = stackOf r [] t := by simpa using stack_skip (cs := []) (t := t) h
  simp [meshOf, h1, h2]

theorem mesh_next {r : Nat} {pre post : List Comm} {c : Comm} {t : Tail} (h : Free r pre) :
    meshOf r (pre ++ c :: post) t = meshOf r (c :: post) t := by
  simp [meshOf, sess_skip h, stack_skip h]

/-- The mesh of the sender of the next message. -/
theorem mesh_send {q m : Nat} {r : Nat} {post : List Comm} {t : Tail} :
    (meshOf r (⟨r, q, m⟩ :: post) t).stack = .role q (stackOf r post t) ∧
    (meshOf r (⟨r, q, m⟩ :: post) t).sess q = .send m (sessOf r q post t) ∧
    upd (meshOf r (⟨r, q, m⟩ :: post) t).sess q (sessOf r q post t) = (meshOf r post t).sess := by
  refine ⟨by simp [meshOf, stackOf], by simp [meshOf, sessOf], ?_⟩
  funext x
  simp only [upd, meshOf, sessOf]
  by_cases hx : x = q
  · simp [hx]
  · simp only [hx, if_false, true_and]
    rw [if_neg (fun h => hx h.symm)]
    split
    · rename_i hc
      exact absurd (hc.1.symm.trans hc.2.symm) hx
    · rfl

/-- The mesh of the receiver of the next message. -/
theorem mesh_recv {p m : Nat} {r : Nat} {post : List Comm} {t : Tail} (hp : p ≠ r) :
    (meshOf r (⟨p, r, m⟩ :: post) t).stack = .role p (stackOf r post t) ∧
    (meshOf r (⟨p, r, m⟩ :: post) t).sess p = .recv m (sessOf r p post t) ∧
    upd (meshOf r (⟨p, r, m⟩ :: post) t).sess p (sessOf r p post t) = (meshOf r post t).sess := by
  refine ⟨by simp [meshOf, stackOf, hp], by simp [meshOf, sessOf, hp], ?_⟩
  funext x
  simp only [upd, meshOf, sessOf, hp, false_and, if_false, and_true]
  by_cases hx : x = p
  · simp [hx]
  · simp [hx, Ne.symm hx]

/-! ## What has been sent -/

/-- The messages from `p` to `q` in `cs`. -/
def chan (p q : Nat) (cs : List Comm) : List Msg :=
  cs.filterMap fun c => if c.p = p ∧ c.q = q then some (.data c.m) else none

theorem chan_append (p q : Nat) (a b : List Comm) : chan p q (a ++ b) = chan p q a ++ chan p q b := by
  simp [chan, List.filterMap_append]

theorem chan_free {p q r : Nat} {cs : List Comm} (h : Free r cs) (hr : p = r ∨ q = r) : chan p q cs = [] := by
  simp only [chan, List.filterMap_eq_nil_iff]
  intro c hc
  have := h c hc
  rw [if_neg]
  rintro ⟨rfl, rfl⟩
  rcases hr with hr | hr
  · exact this.1 hr
  · exact this.2 hr

/-- Everything from `p` to `q` in block `g`. -/
def full (D : Global) (path : Nat → Name) (g p q : Nat) : List Msg :=
  chan p q (D (path g)).comms ++
    match (D (path g)).tail with
    | .choice p' _ => if p' = p then [.branch (path (g + 1))] else []
    | .fin => []

/-- What is exchanged from `p` to `q` in block `g` up to position `(g', i)`. -/
def upTo (D : Global) (path : Nat → Name) (g p q g' i : Nat) : List Msg :=
  if g < g' then full D path g p q
  else if g = g' then chan p q ((D (path g)).comms.take i) else []

theorem upTo_congr {D : Global} {path path' : Nat → Name} {g p q g' i : Nat} (h : ∀ x, x ≤ g' → path x = path' x) :
    upTo D path g p q g' i = upTo D path' g p q g' i := by
  unfold upTo
  split
  · rename_i hg
    simp only [full, h g (by omega), h (g + 1) (by omega)]
  · split
    · rename_i e; rw [h g (by omega)]
    · rfl

theorem upTo_prefix (D : Global) (path : Nat → Name) (g p q g' i : Nat) :
    upTo D path g p q g' i <+: full D path g p q := by
  unfold upTo
  split
  · exact List.prefix_refl _
  · split
    · refine List.IsPrefix.trans ?_ (List.prefix_append _ _)
      have : chan p q (D (path g)).comms =
          chan p q ((D (path g)).comms.take i) ++ chan p q ((D (path g)).comms.drop i) := by
        rw [← chan_append, List.take_append_drop]
      rw [this]
      exact List.prefix_append _ _
    · exact List.nil_prefix

/-- What `p` still has to send to `q` in its present choice. -/
def pend (s : S) (g p q : Nat) : List Msg :=
  match s.pos p with
  | .telling N rest => if g = s.gen p ∧ q ∈ rest then [.branch N] else []
  | _ => []

/-- All events up to position `(g, i)`. -/
def events (D : Global) (path : Nat → Name) : Nat → List Ev
  | 0 => []
  | g + 1 => events D path g ++ (D (path g)).comms.map .comm ++
      match (D (path g)).tail with
      | .choice p _ => [.sel p (path (g + 1))]
      | .fin => []

def eventsTo (D : Global) (path : Nat → Name) (g i : Nat) : List Ev :=
  events D path g ++ ((D (path g)).comms.take i).map .comm

theorem events_congr {D : Global} {path path' : Nat → Name} {g : Nat} (h : ∀ x, x ≤ g → path x = path' x) :
    events D path g = events D path' g := by
  induction g with
  | zero => rfl
  | succ g ih => simp only [events, ih (fun x hx => h x (by omega)), h g (by omega), h (g + 1) (by omega)]

/-- The ghost state. -/
structure Ghost where
  path : Nat → Name
  top : Nat
  gst : Nat → Nat
  idx : Nat → Nat

/-- The block role `r` is in. -/
abbrev blk (D : Global) (G : Ghost) (g : Nat) : Block := D (G.path g)

/-- The invariant. -/
structure Inv (n : Nat) (D : Global) (root : Name) (G : Ghost) (ls : List Label) (s : S) : Prop where
  start : G.path 0 = root
  mesh : ∀ r, Part n r → ∀ M, s.pos r = .mesh M → G.gst r = s.gen r ∧ G.idx r ≤ (blk D G (s.gen r)).comms.length ∧
    M = meshOf r ((blk D G (s.gen r)).comms.drop (G.idx r)) (blk D G (s.gen r)).tail
  tell : ∀ r, Part n r → ∀ N rest, s.pos r = .telling N rest → G.gst r = s.gen r + 1 ∧ G.idx r = 0 ∧
    (∃ bs, (blk D G (s.gen r)).tail = .choice r bs) ∧ G.path (s.gen r + 1) = N ∧ rest.Nodup ∧
    ∀ q ∈ rest, Part n q ∧ q ≠ r
  le : ∀ r, Part n r → G.gst r ≤ G.top
  sel : ∀ g, g < G.top → ∃ p bs, (blk D G g).tail = .choice p bs ∧ G.path (g + 1) ∈ bs ∧ g < G.gst p
  eq : ∀ g p q, Part n p → Part n q → p ≠ q →
    upTo D G.path g p q (G.gst p) (G.idx p) =
      upTo D G.path g p q (G.gst q) (G.idx q) ++ s.queue (g, p, q) ++ pend s g p q
  acts : ∀ r, Part n r → actsOf r ls = (eventsTo D G.path (G.gst r) (G.idx r)).filterMap (view r)

theorem mesh_cases (r : Nat) (cs : List Comm) (hc : ∀ c ∈ cs, c.p ≠ c.q) :
    Free r cs ∨ (∃ pre q m post, cs = pre ++ ⟨r, q, m⟩ :: post ∧ Free r pre ∧ q ≠ r) ∨
    (∃ pre p m post, cs = pre ++ ⟨p, r, m⟩ :: post ∧ Free r pre ∧ p ≠ r) := by
  rcases split_first r cs with h | ⟨pre, c, post, e, h1, h2⟩
  · exact .inl h
  · have hne := hc c (by rw [e]; simp)
    obtain ⟨p, q, m⟩ := c
    rcases h2 with h2 | h2
    · simp only at h2 hne; subst h2; exact .inr (.inl ⟨pre, q, m, post, e, h1, Ne.symm hne⟩)
    · simp only at h2 hne; subst h2; exact .inr (.inr ⟨pre, p, m, post, e, h1, hne⟩)

theorem advance {cs pre post : List Comm} {c : Comm} {i : Nat} (h : i ≤ cs.length) (e : cs.drop i = pre ++ c :: post) :
    cs.take (i + pre.length + 1) = cs.take i ++ (pre ++ [c]) ∧ cs.drop (i + pre.length + 1) = post ∧
    i + pre.length + 1 ≤ cs.length := by
  have hcs : cs = cs.take i ++ (pre ++ [c]) ++ post := by
    conv => lhs; rw [← List.take_append_drop i cs, e]
    simp
  have hl : (cs.take i ++ (pre ++ [c])).length = i + pre.length + 1 := by
    simp [List.length_take, Nat.min_eq_left h]; omega
  refine ⟨?_, ?_, ?_⟩
  · conv => lhs; rw [hcs]
    rw [← hl, List.take_left]
  · conv => lhs; rw [hcs]
    rw [← hl, List.drop_left]
  · rw [← hl]; conv => rhs; rw [hcs]
    simp

theorem actsOf_snoc (r : Nat) (ls : List Label) (l : Label) :
    actsOf r (ls ++ [l]) = actsOf r ls ++ actsOf r [l] := by simp [actsOf, List.filterMap_append]

theorem view_free {r : Nat} {cs : List Comm} (h : Free r cs) : (cs.map Ev.comm).filterMap (view r) = [] := by
  simp only [List.filterMap_eq_nil_iff, List.mem_map]
  rintro e ⟨c, hc, rfl⟩
  have := h c hc
  simp [view, this.1, this.2]

theorem pend_pos {s : S} {p : Nat} {M : Mesh} (h : s.pos p = .mesh M) (g q : Nat) : pend s g p q = [] := by
  simp [pend, h]

theorem pend_other {s : S} {r : Nat} {x : At} {g p q : Nat} {qu} (h : p ≠ r) :
    pend { s with pos := upd s.pos r x, queue := qu } g p q = pend s g p q := by
  simp [pend, upd, h]

/-- The state after role `r` has advanced over the message `c`. -/
def Ghost.adv (G : Ghost) (r d : Nat) : Ghost := { G with idx := upd G.idx r (G.idx r + d + 1) }

/-- Number of events before block `g`, counting every choice. -/
def base (D : Global) (path : Nat → Name) : Nat → Nat
  | 0 => 0
  | g + 1 => base D path g + (D (path g)).comms.length + 1

theorem base_congr {D : Global} {path path' : Nat → Name} {g : Nat} (h : ∀ x, x < g → path x = path' x) :
    base D path g = base D path' g := by
  induction g with
  | zero => rfl
  | succ g ih => simp only [base, ih (fun x hx => h x (by omega)), h g (by omega)]

theorem base_mono {D : Global} {path : Nat → Name} {g g' : Nat} (h : g ≤ g') : base D path g ≤ base D path g' := by
  induction g' with
  | zero => have : g = 0 := by omega
            subst this; exact Nat.le_refl _
  | succ k ih =>
    by_cases e : g = k + 1
    · subst e; exact Nat.le_refl _
    · have := ih (by omega)
      simp only [base]; omega

/-- Progress inside a choice. -/
def sub (n : Nat) : At → Nat
  | .mesh _ => n + 1
  | .telling _ rest => n - rest.length

/-- How far role `r` has come. -/
def work (n : Nat) (D : Global) (G : Ghost) (s : S) (r : Nat) : Nat :=
  (base D G.path (G.gst r) + G.idx r) * (n + 2) + sub n (s.pos r)

/-- `G'` continues `G` by a step of `r`. -/
def Ext (n : Nat) (D : Global) (G : Ghost) (s : S) (G' : Ghost) (s' : S) (r : Nat) : Prop :=
  G.top ≤ G'.top ∧ (∀ x, x ≤ G.top → G'.path x = G.path x) ∧
  (∀ p, p ≠ r → G'.gst p = G.gst p ∧ G'.idx p = G.idx p) ∧ work n D G s r < work n D G' s' r

theorem others_length (n r : Nat) : (others n r).length ≤ n := by
  unfold others
  refine Nat.le_trans (List.length_filter_le _ _) ?_
  simp

theorem sub_le (n : Nat) (a : At) : sub n a ≤ n + 1 := by
  cases a with
  | mesh => exact Nat.le_refl _
  | telling _ rest => simp only [sub]; omega

theorem lt_of_base {a b c d k : Nat} (h : a < b) (hc : c ≤ k + 1) : a * (k + 2) + c < b * (k + 2) + d := by
  have : (a + 1) * (k + 2) ≤ b * (k + 2) := Nat.mul_le_mul_right _ h
  rw [Nat.add_mul] at this
  omega

section
variable {n : Nat} {D : Global} {root : Name} {G : Ghost} {ls : List Label} {s : S}

theorem chan_adv {p q r : Nat} {cs pre : List Comm} {c : Comm} (hf : Free r pre) (hr : p = r ∨ q = r) :
    chan p q (cs ++ (pre ++ [c])) = chan p q cs ++ (if c.p = p ∧ c.q = q then [.data c.m] else []) := by
  rw [chan_append, chan_append, chan_free hf hr]
  simp only [chan, List.filterMap_cons, List.filterMap_nil, List.nil_append]
  split
  · rename_i h; split at h <;> simp_all
  · rename_i h; split at h <;> simp_all

theorem upTo_adv {p q r : Nat} {pre post : List Comm} {c : Comm} {g g' : Nat} {i : Nat}
    (hi : i ≤ (blk D G g').comms.length) (e : (blk D G g').comms.drop i = pre ++ c :: post) (hf : Free r pre)
    (hr : p = r ∨ q = r) :
    upTo D G.path g p q g' (i + pre.length + 1) =
      upTo D G.path g p q g' i ++ (if g = g' ∧ c.p = p ∧ c.q = q then [.data c.m] else []) := by
  unfold upTo
  by_cases h1 : g < g'
  · have : g ≠ g' := by omega
    simp [h1, this]
  · by_cases h2 : g = g'
    · subst h2
      simp only [h1, if_false, if_true, true_and]
      rw [(advance hi e).1, chan_adv hf hr]
    · simp [h1, h2]

theorem ext_adv {r d : Nat} {M' : Mesh} {qu : Q → List Msg} :
    Ext n D G s (G.adv r d) { s with pos := upd s.pos r (.mesh M'), queue := qu } r := by
  refine ⟨Nat.le_refl _, fun _ _ => rfl, ?_, ?_⟩
  · intro p hp; simp [Ghost.adv, upd, hp]
  · simp only [work, Ghost.adv, upd, if_true]
    exact lt_of_base (by omega) (sub_le _ _)

/-- Common part of `send` and `recv`: role `r` advances over `c`. -/
theorem inv_adv (hI : Inv n D root G ls s) {r : Nat} (hr : Part n r) {M : Mesh} (hM : s.pos r = .mesh M)
    {pre post : List Comm} {c : Comm} (e : (blk D G (s.gen r)).comms.drop (G.idx r) = pre ++ c :: post)
    (hf : Free r pre) {a : Act} (ha : view r (.comm c) = some a) {qu : Q → List Msg}
    (heq : ∀ g p q, Part n p → Part n q → p ≠ q →
      s.queue (g, p, q) ++ (if g = s.gen r ∧ p = r ∧ c.p = p ∧ c.q = q then [.data c.m] else []) =
        (if g = s.gen r ∧ q = r ∧ c.p = p ∧ c.q = q then [.data c.m] else []) ++ qu (g, p, q)) :
    Inv n D root (G.adv r pre.length) (ls ++ [.act r a])
      { s with pos := upd s.pos r (.mesh (meshOf r post (blk D G (s.gen r)).tail)), queue := qu } := by
  obtain ⟨hg, hi, -⟩ := hI.mesh r hr M hM
  obtain ⟨ht, hd, hl⟩ := advance hi e
  refine ⟨hI.start, ?_, ?_, hI.le, hI.sel, ?_, ?_⟩
  · intro r' hr' M' hM'
    by_cases h : r' = r
    · subst h
      simp only [upd, if_true, At.mesh.injEq] at hM'
      simp only [Ghost.adv, upd, if_true]
      exact ⟨hg, hl, by rw [← hM']; simp only [blk, hd] at *⟩
    · simp only [upd, h, if_false] at hM'
      simp only [Ghost.adv, upd, h, if_false]
      exact hI.mesh r' hr' M' hM'
  · intro r' hr' N rest hM'
    by_cases h : r' = r
    · subst h; simp [upd] at hM'
    · simp only [upd, h, if_false] at hM'
      simp only [Ghost.adv, upd, h, if_false]
      exact hI.tell r' hr' N rest hM'
  · intro g p q hp hq hpq
    have h0 := hI.eq g p q hp hq hpq
    have he := heq g p q hp hq hpq
    have hpe : pend { s with pos := upd s.pos r (.mesh (meshOf r post (blk D G (s.gen r)).tail)), queue := qu } g p q
        = pend s g p q := by
      by_cases h : p = r
      · subst h; rw [pend_pos hM, pend_pos (by simp [upd]; rfl)]
      · exact pend_other h
    rw [hpe]
    simp only [Ghost.adv]
    by_cases h1 : p = r
    · subst h1
      have h2 : q ≠ p := Ne.symm hpq
      simp only [upd, if_true, h2, if_false]
      rw [hg, upTo_adv hi e hf (.inl rfl), ← hg, h0, pend_pos hM, hg]
      simp only [h2, false_and, and_false, if_false, List.nil_append, true_and, List.append_nil] at he ⊢
      rw [← he]; simp
    · by_cases h2 : q = r
      · subst h2
        simp only [upd, if_true, h1, if_false]
        rw [hg, upTo_adv hi e hf (.inr rfl), h0, hg]
        simp only [h1, false_and, and_false, if_false, List.append_nil, true_and] at he
        rw [he]; simp
      · simp only [upd, h1, h2, if_false]
        simp only [h1, h2, false_and, and_false, if_false, List.append_nil, List.nil_append] at he
        rw [h0, he]
  · intro r' hr'
    rw [actsOf_snoc, hI.acts r' hr']
    simp only [Ghost.adv]
    by_cases h : r' = r
    · subst h
      simp only [upd, if_true, eventsTo, hg]
      rw [ht]
      simp only [List.map_append, List.filterMap_append, view_free hf, List.nil_append, List.map_cons, List.map_nil,
        List.append_assoc]
      simp [actsOf, ha]
    · simp [upd, h, actsOf, Ne.symm h]

theorem Inv.wfComms (w : Global.Wf n D) (g : Nat) (i : Nat) : ∀ c ∈ (blk D G g).comms.drop i, c.p ≠ c.q :=
  fun c hc => ((w.2 (G.path g)).1 c (List.mem_of_mem_drop hc)).2.2

/-- What the mesh of `r` looks like. -/
theorem Inv.look (w : Global.Wf n D) (hI : Inv n D root G ls s) {r : Nat} (hr : Part n r) {M : Mesh}
    (hM : s.pos r = .mesh M) :
    (Free r ((blk D G (s.gen r)).comms.drop (G.idx r)) ∧ M = meshOf r [] (blk D G (s.gen r)).tail) ∨
    (∃ pre q m post, (blk D G (s.gen r)).comms.drop (G.idx r) = pre ++ ⟨r, q, m⟩ :: post ∧ Free r pre ∧ q ≠ r ∧
      M = meshOf r (⟨r, q, m⟩ :: post) (blk D G (s.gen r)).tail) ∨
    (∃ pre p m post, (blk D G (s.gen r)).comms.drop (G.idx r) = pre ++ ⟨p, r, m⟩ :: post ∧ Free r pre ∧ p ≠ r ∧
      M = meshOf r (⟨p, r, m⟩ :: post) (blk D G (s.gen r)).tail) := by
  obtain ⟨-, -, h⟩ := hI.mesh r hr M hM
  rcases mesh_cases r _ (Inv.wfComms (G := G) w (s.gen r) (G.idx r)) with h1 | ⟨pre, q, m, post, e, h1, h2⟩ | ⟨pre, p, m, post, e, h1, h2⟩
  · exact .inl ⟨h1, by rw [h, mesh_done h1]⟩
  · exact .inr (.inl ⟨pre, q, m, post, e, h1, h2, by rw [h, e, mesh_next h1]⟩)
  · exact .inr (.inr ⟨pre, p, m, post, e, h1, h2, by rw [h, e, mesh_next h1]⟩)

theorem mesh_nil_role {r : Nat} {t : Tail} {q : Nat} {k : Stack} (h : (meshOf r [] t).stack = .role q k) :
    ∃ bs, t = .choice q bs ∧ q ≠ r ∧ k = .fin ∧ (meshOf r [] t).sess q = .recvChoice bs := by
  cases t with
  | fin => simp [meshOf, stackOf] at h
  | choice p bs =>
    simp only [meshOf, stackOf] at h
    split at h
    · cases h
    · rename_i hp
      injection h with h1 h2
      subst h1 h2
      exact ⟨bs, rfl, hp, rfl, by simp [meshOf, sessOf, hp]⟩

theorem inv_send (w : Global.Wf n D) (hI : Inv n D root G ls s) {r M q k m T} (hr : Part n r) (hM : s.pos r = .mesh M)
    (hk : M.stack = .role q k) (hq : M.sess q = .send m T) :
    ∃ G', Inv n D root G' (ls ++ [.act r (.send q m)]) { s with
        pos := upd s.pos r (.mesh ⟨upd M.sess q T, k⟩),
        queue := upd s.queue (s.gen r, r, q) (s.queue (s.gen r, r, q) ++ [.data m]) } ∧
      Ext n D G s G' { s with
        pos := upd s.pos r (.mesh ⟨upd M.sess q T, k⟩),
        queue := upd s.queue (s.gen r, r, q) (s.queue (s.gen r, r, q) ++ [.data m]) } r := by
  rcases hI.look w hr hM with ⟨_, h⟩ | ⟨pre, q', m', post, e, hf, hne, h⟩ | ⟨pre, p, m', post, e, hf, hne, h⟩
  · subst h
    obtain ⟨bs, _, _, _, h⟩ := mesh_nil_role hk
    rw [h] at hq; cases hq
  · obtain ⟨h1, h2, h3⟩ := mesh_send (q := q') (m := m') (r := r) (post := post) (t := (blk D G (s.gen r)).tail)
    rw [← h] at h1 h2 h3
    rw [h1] at hk; injection hk with e1 e2; subst e1 e2
    rw [h2] at hq; injection hq with e1 e2; subst e1 e2
    refine ⟨G.adv r pre.length, ?_, ext_adv⟩
    rw [h3]
    refine inv_adv hI hr hM e hf (a := .send q' m') (by simp [view]) ?_
    intro g p q hp hq hpq
    simp only [upd, Prod.mk.injEq]
    by_cases c1 : g = s.gen r ∧ p = r ∧ q = q'
    · obtain ⟨rfl, rfl, rfl⟩ := c1
      simp [hne]
    · have d1 : ¬ (g = s.gen r ∧ p = r ∧ r = p ∧ q' = q) := by grind
      have d2 : ¬ (g = s.gen r ∧ q = r ∧ r = p ∧ q' = q) := by grind
      rw [if_neg d1, if_neg d2, if_neg c1]; simp
  · obtain ⟨h1, h2, h3⟩ := mesh_recv (p := p) (m := m') (r := r) (post := post) (t := (blk D G (s.gen r)).tail) hne
    rw [← h] at h1 h2 h3
    rw [h1] at hk; injection hk with e1 e2; subst e1 e2
    rw [h2] at hq; cases hq

/-- Two continuations of the same list inside one list agree. -/
theorem prefix_head {α} {a b L : List α} {x y : α} {l : List α} (h1 : a ++ x :: l <+: L) (h2 : a ++ y :: b <+: L) : x = y := by
  obtain ⟨u, rfl⟩ := h1
  obtain ⟨v, hv⟩ := h2
  simp only [List.append_assoc, List.cons_append, List.append_cancel_left_eq, List.cons.injEq] at hv
  exact hv.1.symm

/-- What role `r` has received from `q` continues with the queue. -/
theorem Inv.queue_prefix (hI : Inv n D root G ls s) {p q : Nat} (hp : Part n p) (hq : Part n q) (h : p ≠ q) (g : Nat) :
    upTo D G.path g p q (G.gst q) (G.idx q) ++ s.queue (g, p, q) <+: full D G.path g p q := by
  refine List.IsPrefix.trans ?_ (upTo_prefix D G.path g p q (G.gst p) (G.idx p))
  rw [hI.eq g p q hp hq h]
  exact List.prefix_append _ _

theorem Inv.next_recv (hI : Inv n D root G ls s) {r M} (hr : Part n r) (hM : s.pos r = .mesh M) {pre post p m}
    (e : (blk D G (s.gen r)).comms.drop (G.idx r) = pre ++ ⟨p, r, m⟩ :: post) (hf : Free r pre) (hp : Part n p)
    (hne : p ≠ r) {x l} (hq : s.queue (s.gen r, p, r) = x :: l) : x = .data m := by
  obtain ⟨hg, hi, -⟩ := hI.mesh r hr M hM
  have h1 := hI.queue_prefix hp hr hne (s.gen r)
  have h2 := upTo_prefix D G.path (s.gen r) p r (s.gen r) (G.idx r + pre.length + 1)
  rw [upTo_adv hi e hf (.inr rfl)] at h2
  rw [hq, hg] at h1
  simp only [and_self, if_true] at h2
  exact prefix_head h1 h2

theorem inv_recv (w : Global.Wf n D) (hI : Inv n D root G ls s) {r M q k m T x l} (hr : Part n r) (hM : s.pos r = .mesh M)
    (hk : M.stack = .role q k) (hq : M.sess q = .recv m T) (hl : s.queue (s.gen r, q, r) = .data x :: l) :
    ∃ G', Inv n D root G' (ls ++ [.act r (.recv q x)]) { s with
        pos := upd s.pos r (.mesh ⟨upd M.sess q T, k⟩),
        queue := upd s.queue (s.gen r, q, r) l } ∧
      Ext n D G s G' { s with
        pos := upd s.pos r (.mesh ⟨upd M.sess q T, k⟩),
        queue := upd s.queue (s.gen r, q, r) l } r := by
  rcases hI.look w hr hM with ⟨_, h⟩ | ⟨pre, q', m', post, e, hf, hne, h⟩ | ⟨pre, p, m', post, e, hf, hne, h⟩
  · subst h
    obtain ⟨bs, _, _, _, h⟩ := mesh_nil_role hk
    rw [h] at hq; cases hq
  · obtain ⟨h1, h2, h3⟩ := mesh_send (q := q') (m := m') (r := r) (post := post) (t := (blk D G (s.gen r)).tail)
    rw [← h] at h1 h2 h3
    rw [h1] at hk; injection hk with e1 e2; subst e1 e2
    rw [h2] at hq; cases hq
  · obtain ⟨h1, h2, h3⟩ := mesh_recv (p := p) (m := m') (r := r) (post := post) (t := (blk D G (s.gen r)).tail) hne
    rw [← h] at h1 h2 h3
    rw [h1] at hk; injection hk with e1 e2; subst e1 e2
    rw [h2] at hq; injection hq with e1 e2; subst e1 e2
    have hpp : Part n p := by
      have : (⟨p, r, m'⟩ : Comm) ∈ (blk D G (s.gen r)).comms := List.mem_of_mem_drop (by rw [e]; simp)
      exact ((w.2 _).1 _ this).1
    have hx := hI.next_recv hr hM e hf hpp hne hl
    injection hx with hx; subst hx
    refine ⟨G.adv r pre.length, ?_, ext_adv⟩
    rw [h3]
    refine inv_adv hI hr hM e hf (a := .recv p x) (by simp [view, hne]) ?_
    intro g p' q hp' hq hpq
    simp only [upd, Prod.mk.injEq]
    by_cases c1 : g = s.gen r ∧ p' = p ∧ q = r
    · obtain ⟨rfl, rfl, rfl⟩ := c1
      simp [hne, hl]
    · have d1 : ¬ (g = s.gen r ∧ p' = r ∧ p = p' ∧ r = q) := by grind
      have d2 : ¬ (g = s.gen r ∧ q = r ∧ p = p' ∧ r = q) := by grind
      rw [if_neg d1, if_neg d2, if_neg c1]; simp


theorem chan_take_free {p q r : Nat} {cs : List Comm} {i : Nat} (hf : Free r (cs.drop i)) (hr : p = r ∨ q = r) :
    chan p q (cs.take i) = chan p q cs := by
  conv => rhs; rw [← List.take_append_drop i cs, chan_append, chan_free hf hr]
  simp

theorem view_take_free {r : Nat} {cs : List Comm} {i : Nat} (hf : Free r (cs.drop i)) :
    ((cs.take i).map Ev.comm).filterMap (view r) = (cs.map Ev.comm).filterMap (view r) := by
  conv => rhs; rw [← List.take_append_drop i cs, List.map_append, List.filterMap_append, view_free hf]
  simp

/-- A role that waits at the end of its block, or has left it, has exchanged everything there. -/
theorem mesh_nil_broadcast {r : Nat} {t : Tail} (h : (meshOf r [] t).stack = .broadcast) : ∃ bs, t = .choice r bs := by
  cases t with
  | fin => simp [meshOf, stackOf] at h
  | choice p bs =>
    simp only [meshOf, stackOf] at h
    split at h
    · rename_i hp; exact ⟨bs, by rw [hp]⟩
    · cases h

theorem inv_decide (w : Global.Wf n D) (hI : Inv n D root G ls s) {r M bs N} (hr : Part n r) (hM : s.pos r = .mesh M)
    (hk : M.stack = .broadcast) (hq : ∀ q ∈ others n r, M.sess q = .sendChoice bs) (hN : N ∈ bs) :
    ∃ G', Inv n D root G' (ls ++ [.act r (.decide N)]) { s with pos := upd s.pos r (.telling N (others n r)) } ∧
      Ext n D G s G' { s with pos := upd s.pos r (.telling N (others n r)) } r := by
  obtain ⟨hg, hi, -⟩ := hI.mesh r hr M hM
  rcases hI.look w hr hM with ⟨hfree, h⟩ | ⟨pre, q', m', post, e, hf, hne, h⟩ | ⟨pre, p, m', post, e, hf, hne, h⟩
  · subst h
    obtain ⟨bs', ht⟩ := mesh_nil_broadcast hk
    have hbs : bs' = bs := by
      obtain ⟨q, hq1, hq2⟩ : ∃ q, Part n q ∧ q ≠ r := by
        by_cases h : r = 1
        · exact ⟨2, ⟨by omega, w.1⟩, by omega⟩
        · exact ⟨1, ⟨by omega, by have := w.1; omega⟩, by omega⟩
      have := hq q (mem_others.2 ⟨hq1, hq2⟩)
      simp only [meshOf, sessOf, ht, if_true] at this
      injection this
    subst hbs
    have htop : s.gen r = G.top := by
      have h1 := hI.le r hr
      rcases Nat.lt_or_ge (s.gen r) G.top with h2 | h2
      · obtain ⟨p, bs2, h3, _, h5⟩ := hI.sel _ h2
        rw [ht] at h3; injection h3 with h3; subst h3; omega
      · omega
    let G' : Ghost := ⟨upd G.path (G.top + 1) N, G.top + 1, upd G.gst r (G.top + 1), upd G.idx r 0⟩
    have hpath : ∀ x, x ≤ G.top → G'.path x = G.path x := by
      intro x hx; have : x ≠ G.top + 1 := by omega
      simp [G', upd, this]
    have hgen : ∀ x, Part n x → s.gen x ≤ G.top := by
      intro x hx
      have := hI.le x hx
      cases hp : s.pos x with
      | mesh M => have := (hI.mesh x hx M hp).1; omega
      | telling N rest => have := (hI.tell x hx N rest hp).1; omega
    have hblk : ∀ x, x ≤ G.top → blk D G' x = blk D G x := fun x hx => by simp only [blk, hpath x hx]
    have hup : ∀ g p q x, Part n x → upTo D G'.path g p q (G.gst x) (G.idx x) = upTo D G.path g p q (G.gst x) (G.idx x) :=
      fun g p q x hx => upTo_congr (fun y hy => hpath y (Nat.le_trans hy (hI.le x hx)))
    refine ⟨G', ⟨?_, ?_, ?_, ?_, ?_, ?_, ?_⟩, Nat.le_succ _, hpath, ?_, ?_⟩
    rotate_right 2
    · intro p hp; simp [G', upd, hp]
    · simp only [work]
      refine lt_of_base ?_ (sub_le _ _)
      have e2 : G'.gst r = G.top + 1 ∧ G'.idx r = 0 := by simp [G', upd]
      rw [e2.1, e2.2, hg, htop, base_congr (path := G'.path) (path' := G.path) (fun x hx => hpath x (by omega))]
      rw [htop] at hi
      simp only [base]
      simp only [blk] at hi
      omega
    · rw [← hI.start]; exact hpath 0 (by omega)
    · intro x hx M' hM'
      by_cases hxr : x = r
      · subst hxr; simp [upd] at hM'
      · simp only [upd, hxr, if_false] at hM'
        rw [hblk _ (hgen x hx)]
        simpa [G', upd, hxr] using hI.mesh x hx M' hM'
    · intro x hx N' rest hM'
      by_cases hxr : x = r
      · subst hxr
        simp only [upd, if_true, At.telling.injEq] at hM'
        obtain ⟨rfl, rfl⟩ := hM'
        rw [hblk _ (hgen x hx)]
        refine ⟨by simp [G', upd, htop], by simp [G', upd], ⟨_, ht⟩, by simp [G', upd, htop], others_nodup n x, ?_⟩
        intro q hq; exact mem_others.1 hq
      · simp only [upd, hxr, if_false] at hM'
        rw [hblk _ (hgen x hx)]
        obtain ⟨h1, h2, h3, h4, h5, h6⟩ := hI.tell x hx N' rest hM'
        have := hI.le x hx
        exact ⟨by simp [G', upd, hxr, h1], by simp [G', upd, hxr, h2], h3, by rw [hpath (s.gen x + 1) (by omega)]; exact h4, h5, h6⟩
    · intro x hx
      by_cases hxr : x = r
      · simp [G', upd, hxr]
      · have := hI.le x hx
        simp [G', upd, hxr]; omega
    · intro g hgt
      have hgt : g < G.top + 1 := hgt
      rw [hblk g (by omega)]
      by_cases hg2 : g < G.top
      · obtain ⟨p, bs2, h3, h4, h5⟩ := hI.sel g hg2
        refine ⟨p, bs2, h3, by rw [hpath _ (by omega)]; exact h4, ?_⟩
        by_cases hpr : p = r
        · simp [G', upd, hpr]; omega
        · simp [G', upd, hpr]; omega
      · have : g = G.top := by omega
        subst this
        rw [htop] at ht
        exact ⟨r, _, ht, by simp [G', upd]; exact hN, by simp [G', upd]⟩
    · intro g p q hp hq' hpq
      have h0 := hI.eq g p q hp hq' hpq
      by_cases h1 : p = r
      · subst h1
        have h2 : q ≠ p := Ne.symm hpq
        have e1 : G'.gst q = G.gst q ∧ G'.idx q = G.idx q := by simp [G', upd, h2]
        rw [e1.1, e1.2, hup g p q q hq']
        have e2 : G'.gst p = G.top + 1 ∧ G'.idx p = 0 := by simp [G', upd]
        rw [e2.1, e2.2]
        rw [pend_pos hM, List.append_nil, hg] at h0
        have ep : pend { s with pos := upd s.pos p (.telling N (others n p)) } g p q =
            if g = s.gen p then [.branch N] else [] := by
          simp [pend, upd, mem_others.2 ⟨hq', h2⟩]
        rw [ep]
        show upTo D G'.path g p q (G.top + 1) 0 = upTo D G.path g p q (G.gst q) (G.idx q) ++ s.queue (g, p, q) ++ _
        rw [← h0]
        unfold upTo
        by_cases c1 : g < G.top
        · have : g < s.gen p := by omega
          have c3 : g < G.top + 1 := by omega
          have c4 : g ≠ s.gen p := by omega
          simp only [c3, this, c4, if_true, if_false, List.append_nil, full, hpath g (by omega), hpath (g + 1) (by omega)]
        · by_cases c2 : g = G.top
          · have c5 : g = s.gen p := by omega
            subst c5
            have c3 : s.gen p < G.top + 1 := by omega
            simp only [c3, if_true, Nat.lt_irrefl, if_false, full, hpath (s.gen p) (by omega)]
            have : (D (G.path (s.gen p))).tail = .choice p bs' := ht
            simp only [this, if_true]
            rw [chan_take_free hfree (.inl rfl)]
            simp [G', upd, htop]
          · have c3 : ¬ g < G.top + 1 := by omega
            have c4 : ¬ g < s.gen p := by omega
            have c5 : g ≠ s.gen p := by omega
            simp only [c3, c4, c5, if_false]
            split <;> simp [chan]
      · have ep : pend { s with pos := upd s.pos r (.telling N (others n r)) } g p q = pend s g p q := by
          simp [pend, upd, h1]
        rw [ep]
        have e1 : G'.gst p = G.gst p ∧ G'.idx p = G.idx p := by simp [G', upd, h1]
        rw [e1.1, e1.2, hup g p q p hp]
        by_cases h2 : q = r
        · subst h2
          have e2 : G'.gst q = G.top + 1 ∧ G'.idx q = 0 := by simp [G', upd]
          rw [e2.1, e2.2, h0]
          show _ ++ s.queue (g, p, q) ++ pend s g p q = _ ++ s.queue (g, p, q) ++ pend s g p q
          congr 2
          rw [hg]
          unfold upTo
          by_cases c1 : g < G.top
          · have : g < s.gen q := by omega
            have c3 : g < G.top + 1 := by omega
            simp only [c3, this, if_true, full, hpath g (by omega), hpath (g + 1) (by omega)]
          · by_cases c2 : g = G.top
            · have c5 : g = s.gen q := by omega
              subst c5
              have c3 : s.gen q < G.top + 1 := by omega
              simp only [c3, if_true, Nat.lt_irrefl, if_false, full, hpath (s.gen q) (by omega)]
              have : (D (G.path (s.gen q))).tail = .choice q bs' := ht
              simp only [this, Ne.symm h1, if_false]
              rw [chan_take_free hfree (.inr rfl)]
              simp
            · have c3 : ¬ g < G.top + 1 := by omega
              have c4 : ¬ g < s.gen q := by omega
              have c5 : g ≠ s.gen q := by omega
              simp only [c3, c4, c5, if_false]
              split <;> simp [chan]
        · have e2 : G'.gst q = G.gst q ∧ G'.idx q = G.idx q := by simp [G', upd, h2]
          rw [e2.1, e2.2, hup g p q q hq']
          exact h0
    · intro x hx
      rw [actsOf_snoc, hI.acts x hx]
      by_cases hxr : x = r
      · subst hxr
        have e2 : G'.gst x = G.top + 1 ∧ G'.idx x = 0 := by simp [G', upd]
        rw [e2.1, e2.2, hg]
        simp only [eventsTo, events, List.take_zero, List.map_nil, List.append_nil, hpath G.top (by omega)]
        rw [events_congr (path := G'.path) (path' := G.path) (fun y hy => hpath y hy), ← htop]
        have : (D (G.path (s.gen x))).tail = .choice x bs' := ht
        simp only [this, List.filterMap_append]
        rw [view_take_free hfree]
        simp [actsOf, view, G', upd, htop]
      · have e2 : G'.gst x = G.gst x ∧ G'.idx x = G.idx x := by simp [G', upd, hxr]
        rw [e2.1, e2.2]
        have h1 := hI.le x hx
        simp only [eventsTo, hpath _ h1]
        rw [events_congr (path := G'.path) (path' := G.path) (fun y hy => hpath y (by omega))]
        simp [actsOf, Ne.symm hxr]
  · have h1 := (mesh_send (q := q') (m := m') (r := r) (post := post) (t := (blk D G (s.gen r)).tail)).1
    rw [← h, hk] at h1; cases h1
  · have h1 := (mesh_recv (p := p) (m := m') (r := r) (post := post) (t := (blk D G (s.gen r)).tail) hne).1
    rw [← h, hk] at h1; cases h1

theorem actsOf_other {r : Nat} {l : Label} (h : ∀ a, l ≠ .act r a) : actsOf r [l] = [] := by
  cases l with
  | act r' a =>
    by_cases e : r' = r
    · subst e; exact absurd rfl (h a)
    · simp [actsOf, e]
  | tell => rfl
  | enter => rfl

theorem inv_tell (hI : Inv n D root G ls s) {r N q rest} (hr : Part n r) (hM : s.pos r = .telling N (q :: rest)) :
    Inv n D root G (ls ++ [.tell r q]) { s with
        pos := upd s.pos r (.telling N rest),
        queue := upd s.queue (s.gen r, r, q) (s.queue (s.gen r, r, q) ++ [.branch N]) } := by
  obtain ⟨t1, t2, t3, t4, t5, t6⟩ := hI.tell r hr _ _ hM
  refine ⟨hI.start, ?_, ?_, hI.le, hI.sel, ?_, ?_⟩
  · intro x hx M' hM'
    by_cases hxr : x = r
    · subst hxr; simp [upd] at hM'
    · simp only [upd, hxr, if_false] at hM'
      exact hI.mesh x hx M' hM'
  · intro x hx N' rest' hM'
    by_cases hxr : x = r
    · subst hxr
      simp only [upd, if_true, At.telling.injEq] at hM'
      obtain ⟨rfl, rfl⟩ := hM'
      exact ⟨t1, t2, t3, t4, (List.nodup_cons.1 t5).2, fun y hy => t6 y (List.mem_cons_of_mem _ hy)⟩
    · simp only [upd, hxr, if_false] at hM'
      exact hI.tell x hx N' rest' hM'
  · intro g p q' hp hq hpq
    have h0 := hI.eq g p q' hp hq hpq
    rw [h0]
    by_cases h1 : p = r
    · subst h1
      simp only [pend, upd, if_true, hM, Prod.mk.injEq, true_and, List.mem_cons]
      by_cases c1 : g = s.gen p
      · subst c1
        by_cases c2 : q' = q
        · subst c2
          have := (List.nodup_cons.1 t5).1
          simp [this]
        · simp [c2]
      · simp [c1]
    · simp [pend, upd, h1]
  · intro x hx
    rw [actsOf_snoc, hI.acts x hx, actsOf_other (by simp), List.append_nil]

theorem ext_tell (hI : Inv n D root G ls s) {r N q rest qu} (hr : Part n r) (hM : s.pos r = .telling N (q :: rest)) :
    Ext n D G s G { s with pos := upd s.pos r (.telling N rest), queue := qu } r := by
  obtain ⟨t1, t2, t3, t4, t5, t6⟩ := hI.tell r hr _ _ hM
  refine ⟨Nat.le_refl _, fun _ _ => rfl, fun _ _ => ⟨rfl, rfl⟩, ?_⟩
  have : (q :: rest).length ≤ (others n r).length := by
    exact (List.Nodup.subperm t5 (fun y hy => mem_others.2 (t6 y hy))).length_le
  have h2 := others_length n r
  simp only [List.length_cons] at this
  simp only [work, sub, upd, if_true, hM, List.length_cons]
  omega

theorem ext_enter {r N M g} (hM : s.pos r = .telling N []) :
    Ext n D G s G { s with pos := upd s.pos r (.mesh M), gen := g } r := by
  refine ⟨Nat.le_refl _, fun _ _ => rfl, fun _ _ => ⟨rfl, rfl⟩, ?_⟩
  simp [work, sub, upd, hM]

theorem inv_enter (hI : Inv n D root G ls s) {r N} (hr : Part n r) (hM : s.pos r = .telling N []) :
    Inv n D root G (ls ++ [.enter r]) { s with
        pos := upd s.pos r (.mesh ((project n D).types N r)), gen := upd s.gen r (s.gen r + 1) } := by
  obtain ⟨t1, t2, t3, t4, t5, t6⟩ := hI.tell r hr _ _ hM
  refine ⟨hI.start, ?_, ?_, hI.le, hI.sel, ?_, ?_⟩
  · intro x hx M' hM'
    by_cases hxr : x = r
    · subst hxr
      simp only [upd, if_true, At.mesh.injEq] at hM' ⊢
      refine ⟨t1, by omega, ?_⟩
      rw [← hM', t2]
      simp only [project, blk, t4, List.drop_zero]
    · simp only [upd, hxr, if_false] at hM' ⊢
      exact hI.mesh x hx M' hM'
  · intro x hx N' rest' hM'
    by_cases hxr : x = r
    · subst hxr; simp [upd] at hM'
    · simp only [upd, hxr, if_false] at hM' ⊢
      exact hI.tell x hx N' rest' hM'
  · intro g p q hp hq hpq
    have h0 := hI.eq g p q hp hq hpq
    rw [h0]
    by_cases h1 : p = r
    · subst h1
      simp [pend, upd, hM]
    · simp [pend, upd, h1]
  · intro x hx
    rw [actsOf_snoc, hI.acts x hx, actsOf_other (by simp), List.append_nil]

theorem inv_heed (w : Global.Wf n D) (hI : Inv n D root G ls s) {r M q bs N l} (hr : Part n r) (hM : s.pos r = .mesh M)
    (hk : M.stack = .role q .fin) (hq : M.sess q = .recvChoice bs) (hl : s.queue (s.gen r, q, r) = .branch N :: l) :
    ∃ G', Inv n D root G' (ls ++ [.act r (.heed q N)]) { s with
        pos := upd s.pos r (.mesh ((project n D).types N r)), gen := upd s.gen r (s.gen r + 1),
        queue := upd s.queue (s.gen r, q, r) l } ∧
      Ext n D G s G' { s with
        pos := upd s.pos r (.mesh ((project n D).types N r)), gen := upd s.gen r (s.gen r + 1),
        queue := upd s.queue (s.gen r, q, r) l } r := by
  obtain ⟨hg, hi, -⟩ := hI.mesh r hr M hM
  rcases hI.look w hr hM with ⟨hfree, h⟩ | ⟨pre, q', m', post, e, hf, hne, h⟩ | ⟨pre, p, m', post, e, hf, hne, h⟩
  · subst h
    obtain ⟨bs', ht, hqr, -, hs⟩ := mesh_nil_role hk
    have hqp : Part n q := ((w.2 _).2 _ _ ht).1
    have ht' : (D (G.path (s.gen r))).tail = .choice q bs' := ht
    -- the sender has left the block
    have hfull : full D G.path (s.gen r) q r =
        upTo D G.path (s.gen r) q r (G.gst r) (G.idx r) ++ [.branch (G.path (s.gen r + 1))] := by
      simp only [full, ht', if_true, upTo, hg, Nat.lt_irrefl, if_false]
      rw [chan_take_free hfree (.inr rfl)]
    have hpre := hI.queue_prefix hqp hr hqr (s.gen r)
    rw [hl, hfull] at hpre
    have hN : N = G.path (s.gen r + 1) := by
      have := prefix_head hpre (List.prefix_refl _)
      injection this
    have hlnil : l = [] := by
      have := hpre.length_le
      simp at this
      cases l with
      | nil => rfl
      | cons _ _ => simp at this
    have hgq : s.gen r < G.gst q := by
      rcases Nat.lt_or_ge (s.gen r) (G.gst q) with h | h
      · exact h
      · exfalso
        have h0 := hI.eq (s.gen r) q r hqp hr hqr
        have : upTo D G.path (s.gen r) q r (G.gst q) (G.idx q) <+: chan q r (D (G.path (s.gen r))).comms := by
          unfold upTo
          rw [if_neg (by omega)]
          split
          · conv => rhs; rw [← List.take_append_drop (G.idx q) (D (G.path (s.gen r))).comms, chan_append]
            exact List.prefix_append _ _
          · exact List.nil_prefix
        have h1 : upTo D G.path (s.gen r) q r (G.gst r) (G.idx r) = chan q r (D (G.path (s.gen r))).comms := by
          simp only [upTo, hg, Nat.lt_irrefl, if_false, if_true]
          rw [chan_take_free hfree (.inr rfl)]
        rw [h0, h1, hl] at this
        have := this.length_le
        simp only [List.length_append, List.length_cons] at this
        omega
    have htop := hI.le q hqp
    let G' : Ghost := { G with gst := upd G.gst r (s.gen r + 1), idx := upd G.idx r 0 }
    refine ⟨G', ⟨hI.start, ?_, ?_, ?_, ?_, ?_, ?_⟩, Nat.le_refl _, fun _ _ => rfl, ?_, ?_⟩
    rotate_right 2
    · intro p hp; simp [G', upd, hp]
    · simp only [work]
      refine lt_of_base ?_ (sub_le _ _)
      have e2 : G'.gst r = s.gen r + 1 ∧ G'.idx r = 0 := by simp [G', upd]
      rw [e2.1, e2.2, hg]
      simp only [base, G']
      simp only [blk] at hi
      omega
    · intro x hx M' hM'
      by_cases hxr : x = r
      · subst hxr
        simp only [upd, if_true, At.mesh.injEq] at hM'
        simp only [G', upd, if_true]
        refine ⟨trivial, by omega, ?_⟩
        rw [← hM']
        simp only [project, blk, hN, List.drop_zero]
      · simp only [upd, hxr, if_false] at hM' ⊢
        simpa [G', upd, hxr] using hI.mesh x hx M' hM'
    · intro x hx N' rest' hM'
      by_cases hxr : x = r
      · subst hxr; simp [upd] at hM'
      · simp only [upd, hxr, if_false] at hM' ⊢
        simpa [G', upd, hxr] using hI.tell x hx N' rest' hM'
    · intro x hx
      by_cases hxr : x = r
      · simp [G', upd, hxr]; omega
      · simpa [G', upd, hxr] using hI.le x hx
    · intro g hgt
      obtain ⟨p, bs2, h3, h4, h5⟩ := hI.sel g hgt
      refine ⟨p, bs2, h3, h4, ?_⟩
      by_cases hxr : p = r
      · subst hxr; simp [G', upd]; omega
      · simpa [G', upd, hxr] using h5
    · intro g p q' hp hq' hpq
      have h0 := hI.eq g p q' hp hq' hpq
      have ep : pend { s with
          pos := upd s.pos r (.mesh ((project n D).types N r)), gen := upd s.gen r (s.gen r + 1),
          queue := upd s.queue (s.gen r, q, r) l } g p q' = pend s g p q' := by
        by_cases h1 : p = r
        · subst h1; simp [pend, upd, hM]
        · simp [pend, upd, h1]
      rw [ep]
      have hmove : ∀ a b, (a = r ∨ b = r) → ¬ (g = s.gen r ∧ a = q) →
          upTo D G.path g a b (s.gen r + 1) 0 = upTo D G.path g a b (s.gen r) (G.idx r) := by
        intro a b hab hng
        unfold upTo
        by_cases c1 : g < s.gen r
        · have : g < s.gen r + 1 := by omega
          simp [c1, this]
        · by_cases c2 : g = s.gen r
          · subst c2
            have hna : ¬ q = a := fun h => hng ⟨rfl, h.symm⟩
            simp only [Nat.lt_irrefl, Nat.lt_succ_self, if_true, if_false, full, ht', hna, List.append_nil]
            rw [chan_take_free hfree hab]
          · have c3 : ¬ g < s.gen r + 1 := by omega
            simp only [c1, c2, c3, if_false]
            split <;> simp [chan]
      by_cases h1 : p = r
      · subst h1
        have h2 : q' ≠ p := Ne.symm hpq
        have e1 : G'.gst q' = G.gst q' ∧ G'.idx q' = G.idx q' := by simp [G', upd, h2]
        have e2 : G'.gst p = s.gen p + 1 ∧ G'.idx p = 0 := by simp [G', upd]
        rw [e1.1, e1.2, e2.1, e2.2]
        rw [hmove p q' (.inl rfl) (fun h => hqr h.2.symm)]
        rw [hg] at h0
        rw [h0]
        have : (g, p, q') ≠ (s.gen p, q, p) := by
          intro h; injection h with _ h; injection h with h _; exact hqr h.symm
        simp only [upd, this, if_false]
        rfl
      · have e1 : G'.gst p = G.gst p ∧ G'.idx p = G.idx p := by simp [G', upd, h1]
        rw [e1.1, e1.2]
        by_cases h2 : q' = r
        · subst h2
          have e2 : G'.gst q' = s.gen q' + 1 ∧ G'.idx q' = 0 := by simp [G', upd]
          rw [e2.1, e2.2]
          by_cases c : g = s.gen q' ∧ p = q
          · obtain ⟨rfl, rfl⟩ := c
            simp only [upd, if_true]
            rw [h0, hl, hlnil]
            have : upTo D G'.path (s.gen q') p q' (s.gen q' + 1) 0 = full D G.path (s.gen q') p q' := by
              simp [upTo, G']
            rw [this, hfull, hN]
            simp
          · have c' : (g, p, q') ≠ (s.gen q', q, q') := by
              intro h; injection h with a h; injection h with b _; exact c ⟨a, b⟩
            simp only [upd, c', if_false]
            show _ = upTo D G.path g p q' _ _ ++ _ ++ _
            rw [hmove p q' (.inr rfl) c]
            rw [hg] at h0
            exact h0
        · have e2 : G'.gst q' = G.gst q' ∧ G'.idx q' = G.idx q' := by simp [G', upd, h2]
          rw [e2.1, e2.2]
          have c' : (g, p, q') ≠ (s.gen r, q, r) := by
            intro h; injection h with a h; injection h with _ b; exact h2 b
          simp only [upd, c', if_false]
          exact h0
    · intro x hx
      rw [actsOf_snoc, hI.acts x hx]
      by_cases hxr : x = r
      · subst hxr
        have e2 : G'.gst x = s.gen x + 1 ∧ G'.idx x = 0 := by simp [G', upd]
        rw [e2.1, e2.2, hg]
        show _ = List.filterMap _ (eventsTo D G.path _ _)
        simp only [eventsTo, events, List.take_zero, List.map_nil, List.append_nil, ht', List.filterMap_append]
        rw [view_take_free hfree]
        simp [actsOf, view, hqr, hN]
      · have e2 : G'.gst x = G.gst x ∧ G'.idx x = G.idx x := by simp [G', upd, hxr]
        rw [e2.1, e2.2]
        simp [actsOf, Ne.symm hxr, G']
  · have h1 := (mesh_send (q := q') (m := m') (r := r) (post := post) (t := (blk D G (s.gen r)).tail))
    rw [← h, hk] at h1
    obtain ⟨h1, h2, _⟩ := h1
    injection h1 with h1 _; subst h1
    rw [hq] at h2; cases h2
  · have h1 := (mesh_recv (p := p) (m := m') (r := r) (post := post) (t := (blk D G (s.gen r)).tail) hne)
    rw [← h, hk] at h1
    obtain ⟨h1, h2, _⟩ := h1
    injection h1 with h1 _; subst h1
    rw [hq] at h2; cases h2

theorem inv_init (n : Nat) (D : Global) (root : Name) :
    Inv n D root ⟨fun _ => root, 0, fun _ => 0, fun _ => 0⟩ [] (.init (project n D) root) := by
  refine ⟨rfl, ?_, ?_, fun _ _ => Nat.le_refl _, ?_, ?_, ?_⟩
  · intro r _ M hM
    simp only [S.init, At.mesh.injEq] at hM
    exact ⟨rfl, Nat.zero_le _, by rw [← hM]; rfl⟩
  · intro r _ N rest h; simp [S.init] at h
  · intro g h; exact absurd h (Nat.not_lt_zero _)
  · intro g p q _ _ _
    simp only [pend, S.init, List.append_nil]
  · intro r _; simp [actsOf, eventsTo, events]

theorem inv_step (w : Global.Wf n D) (hI : Inv n D root G ls s) {l : Label} {s' : S} (h : Step (project n D) s l s') :
    ∃ G', Inv n D root G' (ls ++ [l]) s' ∧ Ext n D G s G' s' l.actor := by
  cases h with
  | send h1 h2 h3 h4 h5 => exact inv_send w hI ⟨h1, h2⟩ h3 h4 h5
  | recv h1 h2 h3 h4 h5 h6 => exact inv_recv w hI ⟨h1, h2⟩ h3 h4 h5 h6
  | decide h1 h2 h3 h4 h5 h6 => exact inv_decide w hI ⟨h1, h2⟩ h3 h4 h5 h6
  | tell h1 h2 h3 => exact ⟨G, inv_tell hI ⟨h1, h2⟩ h3, ext_tell hI ⟨h1, h2⟩ h3⟩
  | enter h1 h2 h3 => exact ⟨G, inv_enter hI ⟨h1, h2⟩ h3, ext_enter h3⟩
  | heed h1 h2 h3 h4 h5 h6 => exact inv_heed w hI ⟨h1, h2⟩ h3 h4 h5 h6

theorem inv_run (w : Global.Wf n D) (h : Run (project n D) (.init (project n D) root) ls s) : ∃ G, Inv n D root G ls s := by
  generalize hs : S.init (project n D) root = s0 at h
  induction h with
  | nil => subst hs; exact ⟨_, inv_init n D root⟩
  | snoc _ hl ih => obtain ⟨G, hG⟩ := ih; obtain ⟨G', h, _⟩ := inv_step w hG hl; exact ⟨G', h⟩

end

end Verif.Mesh
