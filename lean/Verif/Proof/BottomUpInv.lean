import Verif.Proof.BottomUp

/-! # Programs and the machines of their roles: the invariant -/
namespace Verif.BottomUp
open Verif.Check Verif.Spec

/-- How far the roles are: the blocks so far, their names; for each role its block, how much of it is done, and whom it has
still to tell of its choice. -/
structure Ghost where
  top : Nat
  blk : Nat → Nat → Part
  nm : Nat → Mesh.Name
  gen : Nat → Nat
  k : Nat → Nat
  tell : Nat → Option (List Nat)

namespace Ghost

/-- What role `i` has done of block `g`. -/
def done (G : Ghost) (g i : Nat) : List Comm :=
  if g < G.gen i then (G.blk g i).comms else if g = G.gen i then (G.blk g i).comms.take (G.k i) else []

/-- What `p` has done of block `g` with `q`, and `q` not yet. -/
def left (G : Ghost) (g p q : Nat) : List Comm := (withs q (G.done g p)).drop (withs p (G.done g q)).length

/-- What role `i` still has to do in its block. -/
def cur (G : Ghost) (i : Nat) : Part := ⟨(G.blk (G.gen i) i).comms.drop (G.k i), (G.blk (G.gen i) i).next⟩

def Told (G : Ghost) (g p q : Nat) : Prop := g < G.gen p ∨ (G.gen p = g ∧ ∃ rest, G.tell p = some rest ∧ q ∉ rest)

def Chooses (sites : List Site) (G : Ghost) (g p : Nat) : Prop := ∃ c, (G.blk g p).next = some c ∧ chooser sites c = p

open Classical in
noncomputable def label (sites : List Site) (G : Ghost) (g p q : Nat) : List Mesh.Msg :=
  if g < G.top ∧ G.Chooses sites g p ∧ G.Told g p q ∧ G.gen q ≤ g then [.branch (G.nm (g + 1))] else []

/-- Role `i` does one more communication. -/
def step (G : Ghost) (i : Nat) : Ghost := { G with k := fun x => if x = i then G.k i + 1 else G.k x }

end Ghost

/-- What is given. -/
structure Ctx (n : Nat) (sites : List Site) (main : Nat → Part) (code : Str → Nat) (num : Nat → Str → Mesh.Name)
    (Y : Mesh.Sys) (root : Mesh.Name) (ts : Nat → List Trans) (part : Nat → Nat → Part) : Prop where
  prog : Program n sites main code num Y root
  coh : Coherent n sites main
  zero : ∀ i < n, part i 0 = main i
  states : ∀ i < n, ∀ w v, Moves (ts i) 0 w v →
    (∀ t ∈ ts i, t.src = v → ∃ c : Comm, After (partsOf sites i) (part i v) c (part i t.dst) ∧
      t.out = c.out ∧ t.partner = c.partner ∧ t.payload = c.payload.print) ∧
    ∀ c Q, After (partsOf sites i) (part i v) c Q → ∃ t ∈ ts i, t.src = v ∧ part i t.dst = Q ∧
      t.out = c.out ∧ t.partner = c.partner ∧ t.payload = c.payload.print

/-- The invariant of the ghost state. -/
structure Ok (n : Nat) (sites : List Site) (main : Nat → Part) (num : Nat → Str → Mesh.Name) (root : Mesh.Name) (G : Ghost) :
    Prop where
  le : ∀ i < n, G.gen i ≤ G.top
  root : G.blk 0 = main ∧ G.nm 0 = root
  path : ∀ g < G.top, ∃ c s b, sites[c]? = some s ∧ b ∈ s.branches ∧ (∀ i < n, (G.blk g i).next = some c) ∧
    G.blk (g + 1) = s.part b ∧ G.nm (g + 1) = num c b
  kle : ∀ i < n, G.k i ≤ (G.blk (G.gen i) i).comms.length
  tell : ∀ i < n, ∀ rest, G.tell i = some rest → G.gen i < G.top ∧ G.Chooses sites (G.gen i) i ∧
    (G.cur i).comms = [] ∧ rest.Nodup ∧ ∀ q ∈ rest, q < n ∧ q ≠ i ∧ G.gen q ≤ G.gen i
  decided : ∀ i < n, ∀ g < G.top, G.Chooses sites g i → g < G.gen i ∨ (G.gen i = g ∧ G.tell i ≠ none)
  outs : ∀ g, ∀ p < n, ∀ q < n, p ≠ q → ∀ x ∈ G.left g p q, x.out = true

/-- The state of the program. -/
structure Real (n : Nat) (sites : List Site) (code : Str → Nat) (num : Nat → Str → Mesh.Name) (G : Ghost) (s : Mesh.S) : Prop where
  gen : ∀ i < n, s.gen (i + 1) = G.gen i
  mesh : ∀ i < n, G.tell i = none → s.pos (i + 1) = .mesh ((G.cur i).mesh code num sites i)
  telling : ∀ i < n, ∀ rest, G.tell i = some rest → s.pos (i + 1) = .telling (G.nm (G.gen i + 1)) (rest.map (· + 1))
  queue : ∀ g, ∀ p < n, ∀ q < n, p ≠ q → s.queue (g, p + 1, q + 1) =
    (G.left g p q).map (fun c => .data (code c.payload.print)) ++ G.label sites g p q

/-- The state of the machines. -/
structure Mach (n : Nat) (ts : Nat → List Trans) (part : Nat → Nat → Part) (G : Ghost) (cf : Config) : Prop where
  queue : ∀ p < n, ∀ q < n, p ≠ q → cf.queue p q = (List.range (G.top + 1)).flatMap fun g =>
    (G.left g p q).map fun c => c.payload.print
  reach : ∀ i < n, ∃ w, Moves (ts i) 0 w (cf.st i)
  lag : ∀ i < n, part i (cf.st i) = G.cur i ∨
    (G.k i = 0 ∧ ∃ g, G.gen i = g + 1 ∧ part i (cf.st i) = ⟨[], (G.blk g i).next⟩)

variable {n : Nat} {sites : List Site} {main : Nat → Part} {code : Str → Nat} {num : Nat → Str → Mesh.Name}
  {Y : Mesh.Sys} {root : Mesh.Name} {ts : Nat → List Trans} {part : Nat → Nat → Part} {G : Ghost} {s : Mesh.S} {cf : Config}

/-! ## Blocks -/

theorem Ok.dual (h : Ok n sites main num root G) (hC : Coherent n sites main) {g : Nat} (hg : g ≤ G.top) : Dual n (G.blk g) := by
  cases g with
  | zero => rw [h.root.1]; exact hC.dualMain
  | succ g =>
    obtain ⟨c, s, b, h1, h2, _, h3, _⟩ := h.path g hg
    rw [h3]
    exact hC.dual s (List.mem_of_getElem? h1) b h2

theorem Ok.partner (h : Ok n sites main num root G) (hC : Coherent n sites main) {g : Nat} (hg : g ≤ G.top) :
    ∀ i < n, ∀ c ∈ (G.blk g i).comms, c.partner < n ∧ c.partner ≠ i := by
  cases g with
  | zero => rw [h.root.1]; exact hC.partnerMain
  | succ g =>
    obtain ⟨c, s, b, h1, h2, _, h3, _⟩ := h.path g hg
    rw [h3]
    exact hC.partner s (List.mem_of_getElem? h1) b h2

theorem Ok.next (h : Ok n sites main num root G) (hC : Coherent n sites main) {g : Nat} (hg : g ≤ G.top) :
    ∀ i < n, ∀ c, (G.blk g i).next = some c → c < sites.length := by
  cases g with
  | zero => rw [h.root.1]; exact hC.nextMain
  | succ g =>
    obtain ⟨c, s, b, h1, h2, _, h3, _⟩ := h.path g hg
    rw [h3]
    exact hC.next s (List.mem_of_getElem? h1) b h2

theorem Ok.guarded (h : Ok n sites main num root G) (hC : Coherent n sites main) {g : Nat} (hg : g < G.top) :
    ∀ i < n, (G.blk (g + 1) i).Guarded := by
  obtain ⟨c, s, b, h1, h2, _, h3, _⟩ := h.path g hg
  rw [h3]
  exact hC.guarded s (List.mem_of_getElem? h1) b h2

/-- Two choosers of a block are the same. -/
theorem Ok.chooser_eq (h : Ok n sites main num root G) (hC : Coherent n sites main) {g : Nat} (hg : g ≤ G.top) {p q : Nat}
    (hp : p < n) (hq : q < n) (h1 : G.Chooses sites g p) (h2 : G.Chooses sites g q) : p = q := by
  obtain ⟨c, a1, a2⟩ := h1
  obtain ⟨d, b1, b2⟩ := h2
  rw [(h.dual hC hg).next p hp q hq, b1] at a1
  cases a1
  rw [← a2, b2]

/-! ## What is done -/

theorem done_prefix (G : Ghost) (g i : Nat) : G.done g i <+: (G.blk g i).comms := by
  unfold Ghost.done
  split
  · exact List.prefix_refl _
  · split
    · exact List.take_prefix _ _
    · exact List.nil_prefix

theorem done_before {g i : Nat} (h : g < G.gen i) : G.done g i = (G.blk g i).comms := by
  unfold Ghost.done; rw [if_pos h]

theorem done_after {g i : Nat} (h : G.gen i < g) : G.done g i = [] := by
  unfold Ghost.done; rw [if_neg (by omega), if_neg (by omega)]

theorem done_now {i : Nat} : G.done (G.gen i) i = (G.blk (G.gen i) i).comms.take (G.k i) := by
  unfold Ghost.done; rw [if_neg (by omega), if_pos rfl]

theorem done_split {i : Nat} : G.done (G.gen i) i ++ (G.cur i).comms = (G.blk (G.gen i) i).comms := by
  rw [done_now]; exact List.take_append_drop _ _

theorem done_all {i : Nat} (h : (G.cur i).comms = []) : G.done (G.gen i) i = (G.blk (G.gen i) i).comms := by
  have := done_split (G := G) (i := i)
  rw [h, List.append_nil] at this
  exact this

section Comm
variable {i : Nat} {c : Comm} {cs : List Comm}

theorem step_cur (hc : (G.cur i).comms = c :: cs) : (G.step i).cur i = ⟨cs, (G.cur i).next⟩ := by
  unfold Ghost.cur Ghost.step at *
  simp only [if_pos] at *
  congr 1
  have := congrArg List.tail hc
  rw [List.tail_drop] at this
  simpa using this

theorem step_cur_ne {j : Nat} (h : j ≠ i) : (G.step i).cur j = G.cur j := by
  unfold Ghost.cur Ghost.step
  simp only [if_neg h]

theorem step_done (hc : (G.cur i).comms = c :: cs) : (G.step i).done (G.gen i) i = G.done (G.gen i) i ++ [c] := by
  have h1 := done_split (G := G.step i) (i := i)
  rw [step_cur hc] at h1
  have h2 := done_split (G := G) (i := i)
  rw [hc] at h2
  have h3 : (G.step i).done (G.gen i) i ++ cs = (G.done (G.gen i) i ++ [c]) ++ cs := by
    rw [List.append_assoc]
    exact h1.trans h2.symm
  exact List.append_cancel_right h3

theorem step_done_ne {g j : Nat} (h : ¬(g = G.gen i ∧ j = i)) : (G.step i).done g j = G.done g j := by
  unfold Ghost.done Ghost.step
  simp only
  by_cases hj : j = i
  · subst hj
    split
    · rfl
    · have : g ≠ G.gen j := fun h' => h ⟨h', rfl⟩
      rw [if_neg this, if_neg this]
  · rw [if_neg hj]

theorem done_snoc (hc : (G.cur i).comms = c :: cs) : G.done (G.gen i) i ++ [c] <+: (G.blk (G.gen i) i).comms := by
  rw [← step_done hc]
  exact done_prefix (G.step i) _ _

theorem step_left_other (hc : (G.cur i).comms = c :: cs) {g p q : Nat}
    (h : ¬(g = G.gen i ∧ ((p = i ∧ q = c.partner) ∨ (p = c.partner ∧ q = i)))) (hpq : p ≠ q) : (G.step i).left g p q = G.left g p q := by
  unfold Ghost.left
  by_cases hg : g = G.gen i
  · subst hg
    by_cases hp : p = i
    · subst hp
      have hq : q ≠ p := fun h => hpq h.symm
      rw [step_done hc, step_done_ne (fun h => hq h.2), withs_append, withs_single, if_neg, List.append_nil]
      intro h'
      exact h ⟨rfl, .inl ⟨rfl, h'.symm⟩⟩
    · by_cases hq : q = i
      · subst hq
        rw [step_done hc, step_done_ne (fun h => hp h.2), withs_append, withs_single, if_neg, List.append_nil]
        intro h'
        exact h ⟨rfl, .inr ⟨h'.symm, rfl⟩⟩
      · rw [step_done_ne (fun h => hp h.2), step_done_ne (fun h => hq h.2)]
  · rw [step_done_ne (fun h => hg h.1), step_done_ne (fun h => hg h.1)]

variable (hO : Ok n sites main num root G) (hC : Coherent n sites main) (hi : i < n)
include hO hC hi

theorem cur_partner (hc : (G.cur i).comms = c :: cs) : c.partner < n ∧ c.partner ≠ i := by
  apply hO.partner hC (hO.le i hi) i hi
  have : c ∈ (G.cur i).comms := by rw [hc]; exact List.mem_cons_self
  exact List.mem_of_mem_drop this

/-- The two sides of a session. -/
theorem sides (hc : (G.cur i).comms = c :: cs) :
    withs c.partner (G.blk (G.gen i) i).comms =
      (withs i (G.blk (G.gen i) c.partner).comms).map (fun d => ⟨!d.out, c.partner, d.payload⟩) ∧
    withs c.partner (G.done (G.gen i) i) ++ [c] <+: withs c.partner (G.blk (G.gen i) i).comms ∧
    withs i (G.done (G.gen i) c.partner) <+: withs i (G.blk (G.gen i) c.partner).comms := by
  obtain ⟨h1, h2⟩ := cur_partner hO hC hi hc
  refine ⟨(hO.dual hC (hO.le i hi)).sessions i hi _ h1 (Ne.symm h2), ?_, withs_prefix _ (done_prefix _ _ _)⟩
  have := withs_prefix c.partner (done_snoc hc)
  rw [withs_append, withs_single, if_pos rfl] at this
  exact this

theorem left_send (hc : (G.cur i).comms = c :: cs) (ho : c.out = true) :
    (G.step i).left (G.gen i) i c.partner = G.left (G.gen i) i c.partner ++ [c] ∧
    (G.step i).left (G.gen i) c.partner i = G.left (G.gen i) c.partner i := by
  obtain ⟨h1, h2⟩ := cur_partner hO hC hi hc
  obtain ⟨a1, a2, a3⟩ := sides hO hC hi hc
  have hle := sender_ahead a1 a2 a3 ho (hO.outs _ _ h1 _ hi h2)
  unfold Ghost.left
  rw [step_done hc, step_done_ne (fun h => h2 h.2), withs_append, withs_single, if_pos rfl]
  constructor
  · rw [List.drop_append_of_le_length hle]
  · rw [List.drop_eq_nil_of_le hle, List.drop_eq_nil_of_le (by simp; omega)]

theorem left_recv (hc : (G.cur i).comms = c :: cs) {d : Comm} {l : List Comm} (hd : G.left (G.gen i) c.partner i = d :: l) :
    (G.step i).left (G.gen i) i c.partner = [] ∧ (G.step i).left (G.gen i) c.partner i = l ∧ d.payload = c.payload := by
  obtain ⟨h1, h2⟩ := cur_partner hO hC hi hc
  obtain ⟨a1, a2, a3⟩ := sides hO hC hi hc
  obtain ⟨b1, b2, b3, b4⟩ := receives a1 a2 a3 hd
  unfold Ghost.left
  rw [step_done hc, step_done_ne (fun h => h2 h.2), withs_append, withs_single, if_pos rfl]
  exact ⟨List.drop_eq_nil_of_le (by simp; omega), b3, b1⟩

omit hO hC hi in
theorem left_later {g p : Nat} (q : Nat) (h : G.gen p < g) : G.left g p q = [] := by
  unfold Ghost.left
  rw [done_after h]
  simp [withs]

omit hi in
theorem left_earlier {g p q : Nat} (hp : p < n) (hq : q < n) (hpq : p ≠ q) (hg : g ≤ G.top)
    (h : G.done g q = (G.blk g q).comms) : G.left g p q = [] := by
  unfold Ghost.left
  rw [h]
  exact full_empty ((hO.dual hC hg).sessions p hp q hq hpq) (withs_prefix _ (done_prefix _ _ _))

theorem step_ok (hc : (G.cur i).comms = c :: cs) (hcase : c.out = true ∨ ∃ d l, G.left (G.gen i) c.partner i = d :: l) :
    Ok n sites main num root (G.step i) where
  le := hO.le
  root := hO.root
  path := hO.path
  kle := by
    intro j hj
    by_cases h : j = i
    · subst h
      simp only [Ghost.step, if_pos]
      have := congrArg List.length hc
      simp only [Ghost.cur, List.length_drop, List.length_cons] at this
      omega
    · simp only [Ghost.step, if_neg h]
      exact hO.kle j hj
  tell := by
    intro j hj rest hr
    obtain ⟨h1, h2, h3, h4⟩ := hO.tell j hj rest hr
    refine ⟨h1, h2, ?_, h4⟩
    by_cases h : j = i
    · subst h
      rw [h3] at hc; cases hc
    · rw [step_cur_ne h]; exact h3
  decided := hO.decided
  outs := by
    intro g p hp q hq hpq x hx
    by_cases h : g = G.gen i ∧ ((p = i ∧ q = c.partner) ∨ (p = c.partner ∧ q = i))
    · obtain ⟨rfl, h⟩ := h
      rcases hcase with ho | ⟨d, l, hd⟩
      · obtain ⟨h1, h2⟩ := left_send hO hC hi hc ho
        rcases h with ⟨rfl, rfl⟩ | ⟨rfl, rfl⟩
        · rw [h1] at hx
          rcases List.mem_append.mp hx with hx | hx
          · exact hO.outs _ _ hp _ hq hpq x hx
          · rw [List.mem_singleton] at hx; rw [hx]; exact ho
        · rw [h2] at hx
          exact hO.outs _ _ hp _ hq hpq x hx
      · obtain ⟨h1, h2, _⟩ := left_recv hO hC hi hc hd
        rcases h with ⟨rfl, rfl⟩ | ⟨rfl, rfl⟩
        · rw [h1] at hx; cases hx
        · rw [h2] at hx
          exact hO.outs _ _ hp _ hq hpq x (by rw [hd]; exact List.mem_cons_of_mem _ hx)
    · rw [step_left_other hc h hpq] at hx
      exact hO.outs g p hp q hq hpq x hx

end Comm

end Verif.BottomUp
