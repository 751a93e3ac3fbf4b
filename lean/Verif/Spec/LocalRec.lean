import Verif.Spec.LocalTree

/-!
# Endpoints with choices given by enums, which may be recursive

Roles are numbered from 0 in the order of the list of role names; choices are numbered too.
-/
namespace Verif.Spec
open Verif.Check

/-- A communication of a role: does it send, with whom, which payload type. -/
structure Comm where
  out : Bool
  partner : Nat
  payload : Ty

/-- A part of what a role does: some communications, then the end, or the choice of a given number. -/
structure Part where
  comms : List Comm
  next : Option Nat

/-- A choice: the role that chooses, the name of the enum received by each other role, the names of the branches, and
what each role does in each branch. -/
structure Site where
  sender : Nat
  enum : Nat → Str
  branches : List Str
  part : Str → Nat → Part

/-- What a role may do from a part on: communications in order; at a choice, any of its branches. `parts c` are the
branches of choice `c`.  `Run parts P w Q`: after the communications `w` it is in `Q`. -/
inductive Run (parts : Nat → List Part) : Part → List Comm → Part → Prop
  | nil {P : Part} : Run parts P [] P
  | comm {c : Comm} {cs w : List Comm} {nx : Option Nat} {Q : Part} (h : Run parts ⟨cs, nx⟩ w Q) :
      Run parts ⟨c :: cs, nx⟩ (c :: w) Q
  | choose {c : Nat} {B Q : Part} {w : List Comm} (hB : B ∈ parts c) (h : Run parts B w Q) :
      Run parts ⟨[], some c⟩ w Q

/-- The branches of a choice for role `me`. -/
def partsOf (sites : List Site) (me : Nat) (c : Nat) : List Part :=
  match sites[c]? with
  | none => []
  | some s => s.branches.map fun b => s.part b me

/-! ## The types -/

def roleEndTy : Ty := .mk ['R', 'o', 'l', 'e', 'E', 'n', 'd'] []
def broadcastTy : Ty := .mk ['R', 'o', 'l', 'e', 'B', 'r', 'o', 'a', 'd', 'c', 'a', 's', 't'] []

/-- How the session of `me` with `x` ends: the chooser sends an enum to everybody. -/
def lastSession (sites : List Site) (me x : Nat) : Option Nat → Ty
  | none => endTy
  | some c =>
    match sites[c]? with
    | none => endTy
    | some s =>
      if s.sender = me then sendTy (.mk (s.enum x) []) endTy
      else if s.sender = x then recvTy (.mk (s.enum me) []) endTy
      else endTy

/-- The session with `x`: the communications with `x`, in order. -/
def sessionThen (x : Nat) (last : Ty) : List Comm → Ty
  | [] => last
  | c :: cs =>
    if c.partner = x then
      if c.out then sendTy c.payload (sessionThen x last cs) else recvTy c.payload (sessionThen x last cs)
    else sessionThen x last cs

/-- How the stack ends. -/
def lastStack (roles : List Str) (sites : List Site) (me : Nat) : Option Nat → Ty
  | none => roleEndTy
  | some c =>
    match sites[c]? with
    | none => roleEndTy
    | some s => if s.sender = me then broadcastTy else .mk (roles.getD s.sender []) [roleEndTy]

/-- The stack: `RoleX<RoleY<...>>`. -/
def stackThen (roles : List Str) (last : Ty) : List Comm → Ty
  | [] => last
  | c :: cs => .mk (roles.getD c.partner []) [stackThen roles last cs]

/-- The sessions of role `me`, one for each other role, in order, and the stack. -/
def Part.fields (roles : List Str) (sites : List Site) (me : Nat) (P : Part) : List Ty :=
  ((List.range (roles.length - 1)).map fun i => sessionThen (partner me i) (lastSession sites me (partner me i) P.next) P.comms)
    ++ [stackThen roles (lastStack roles sites me P.next) P.comms]

/-- `Enum::Branch`. -/
def branchKey (enum b : Str) : Str := enum ++ [':', ':'] ++ b

/-- A part is fit for the types of role `me`: partners exist and are others; payloads have plain names, and those received
are not the name of an enum; the choice exists. -/
structure Part.Fit (roles : List Str) (sites : List Site) (me : Nat) (P : Part) : Prop where
  partner : ∀ c ∈ P.comms, c.partner < roles.length ∧ c.partner ≠ me
  plain : ∀ c ∈ P.comms, c.payload.Ok
  notEnum : ∀ c ∈ P.comms, c.out = false → ∀ s ∈ sites, ∀ x < roles.length, c.payload.print ≠ s.enum x
  next : ∀ c, P.next = some c → c < sites.length

/-- A branch does not begin with another choice. -/
def Part.Guarded (P : Part) : Prop := P.comms = [] → P.next = none

/-- The choices are well named: no `:` and no brackets in the names, all enums different, all branches of a choice
different; somebody chooses. -/
structure Named (roles : List Str) (sites : List Site) : Prop where
  enumPlain : ∀ s ∈ sites, ∀ x < roles.length, ∀ ch ∈ s.enum x, Plain ch ∧ ch ≠ ':'
  branchPlain : ∀ s ∈ sites, ∀ b ∈ s.branches, ':' ∉ b
  enumInj : ∀ (c d : Nat) (s t : Site), sites[c]? = some s → sites[d]? = some t →
    ∀ x < roles.length, ∀ y < roles.length, s.enum x = t.enum y → c = d ∧ x = y
  branches : ∀ s ∈ sites, s.branches ≠ [] ∧ s.branches.Nodup
  sender : ∀ s ∈ sites, s.sender < roles.length

/-- The arguments of the checker describe the choices: for each enum its branches with the types of the receiver, in some
order; for each `Enum::Branch` the type of the chooser; and the number of the branch it belongs to, the same for all
receivers. -/
structure Given (roles : List Str) (sites : List Site) (receivers : Str → Option (List (Str × List Str)))
    (branching : Str → Option (List Str)) (group : Str → Option Int) (keys : List Str) : Prop where
  receives : ∀ s ∈ sites, ∀ x < roles.length, x ≠ s.sender → ∃ (u v : Str) (l : List (Str × List Str)),
    receivers (s.enum x) = some l ∧
    l.Perm (s.branches.map fun b => (b, ((s.part b x).fields roles sites x).map Ty.print ++ [u, v]))
  noEnum : ∀ p, (∀ s ∈ sites, ∀ x < roles.length, p ≠ s.enum x) → receivers p = none
  chooses : ∀ s ∈ sites, ∀ x < roles.length, x ≠ s.sender → ∀ b ∈ s.branches,
    ∃ u, branching (branchKey (s.enum x) b) = some (((s.part b s.sender).fields roles sites s.sender).map Ty.print ++ [u])
  groups : ∃ num : Nat → Str → Int,
    (∀ c s, sites[c]? = some s → ∀ x < roles.length, x ≠ s.sender → ∀ b ∈ s.branches,
      group (branchKey (s.enum x) b) = some (num c b) ∧ branchKey (s.enum x) b ∈ keys) ∧
    (∀ (c d : Nat) (s t : Site), sites[c]? = some s → sites[d]? = some t → ∀ b ∈ s.branches, ∀ b' ∈ t.branches,
      num c b = num d b' → c = d ∧ b = b') ∧
    ∀ k ∈ keys, ∃ (c : Nat) (s : Site) (x : Nat) (b : Str), sites[c]? = some s ∧ b ∈ s.branches ∧ x < roles.length ∧ x ≠ s.sender ∧
      k = branchKey (s.enum x) b

/-! ## The graph and the machine -/

/-- The label of a communication: `RoleA!RoleB: i32`. -/
def Comm.label (roles : List Str) (me : Str) (c : Comm) : Str :=
  me ++ [if c.out then '!' else '?'] ++ roles.getD c.partner [] ++ [':', ' '] ++ c.payload.print

/-- Walks through a graph from a node; edges labelled `µ` are not seen. -/
inductive Walk (g : Graph) : Nat → List Str → Nat → Prop
  | nil {a : Nat} : Walk g a [] a
  | step {a b c : Nat} {l : Str} {w : List Str} (hl : l ≠ ['µ']) (h : (a, b, l) ∈ g.edges) (t : Walk g b w c) :
      Walk g a (l :: w) c
  | loop {a b c : Nat} {w : List Str} (h : (a, b, ['µ']) ∈ g.edges) (t : Walk g b w c) : Walk g a w c

/-- Walks through the machine: direction, partner and payload of each transition. -/
inductive Moves (ts : List Trans) : Nat → List (Bool × Nat × Str) → Nat → Prop
  | nil {a : Nat} : Moves ts a [] a
  | step {t : Trans} {c : Nat} {w : List (Bool × Nat × Str)} (ht : t ∈ ts) (h : Moves ts t.dst w c) :
      Moves ts t.src ((t.out, t.partner, t.payload) :: w) c

/-- One communication of a part, and what remains: the first, or the first of a branch of the choice it begins with. -/
inductive After (parts : Nat → List Part) : Part → Comm → Part → Prop
  | comm {c : Comm} {cs : List Comm} {nx : Option Nat} : After parts ⟨c :: cs, nx⟩ c ⟨cs, nx⟩
  | choose {k : Nat} {B Q : Part} {c : Comm} (hB : B ∈ parts k) (h : After parts B c Q) : After parts ⟨[], some k⟩ c Q

/-- Each state of the machine that can be reached stands for a part, state 0 for `main`: its transitions are the next
communications of the part, and lead to what remains. -/
def States (parts : Nat → List Part) (main : Part) (ts : List Trans) : Prop :=
  ∃ part : Nat → Part, part 0 = main ∧ ∀ w v, Moves ts 0 w v →
    (∀ t ∈ ts, t.src = v → ∃ c : Comm, After parts (part v) c (part t.dst) ∧
      t.out = c.out ∧ t.partner = c.partner ∧ t.payload = c.payload.print) ∧
    ∀ c Q, After parts (part v) c Q → ∃ t ∈ ts, t.src = v ∧ part t.dst = Q ∧
      t.out = c.out ∧ t.partner = c.partner ∧ t.payload = c.payload.print

end Verif.Spec
