import Verif.Spec.CheckerCall
import Verif.Spec.Global

/-!
# The bottom-up approach: a program, and the machines of its roles

The program: `n` roles hold meshes for the parts of their protocol (roles 0, 1, ... of the lists are roles 1, 2, ... of the
meshes); what runs is `Mesh.Step`, with the branch sent to everybody at each choice.

The machines: what `KMC` reads, one per role, with a queue from each role to each other; the branch is not among the
messages.
-/
namespace Verif.Spec
open Verif.Check

/-! ## The machines -/

/-- States of the machines, and the queues: sender, receiver. -/
structure Config where
  st : Nat → Nat
  queue : Nat → Nat → List Str

/-- What a role does: does it send, with whom, which payload type. -/
abbrev Action := Bool × Nat × Str

def Config.init : Config := ⟨fun _ => 0, fun _ _ => []⟩

/-- The machine of role `i` takes a transition. -/
inductive CStep (ts : Nat → List Trans) (c : Config) : Nat → Action → Config → Prop
  | send {i : Nat} {t : Trans} (ht : t ∈ ts i) (hs : t.src = c.st i) (ho : t.out = true) :
      CStep ts c i (true, t.partner, t.payload)
        ⟨fun x => if x = i then t.dst else c.st x,
          fun x y => if x = i ∧ y = t.partner then c.queue x y ++ [t.payload] else c.queue x y⟩
  | recv {i : Nat} {t : Trans} {l : List Str} (ht : t ∈ ts i) (hs : t.src = c.st i) (ho : t.out = false)
      (hq : c.queue t.partner i = t.payload :: l) :
      CStep ts c i (false, t.partner, t.payload)
        ⟨fun x => if x = i then t.dst else c.st x, fun x y => if x = t.partner ∧ y = i then l else c.queue x y⟩

/-- A run of the machines of `n` roles. -/
inductive CRun (n : Nat) (ts : Nat → List Trans) : Config → List (Nat × Action) → Config → Prop
  | nil {c : Config} : CRun n ts c [] c
  | snoc {c c1 c2 : Config} {w : List (Nat × Action)} {i : Nat} {a : Action} (h : CRun n ts c w c1) (hi : i < n)
      (hs : CStep ts c1 i a c2) : CRun n ts c (w ++ [(i, a)]) c2

/-- The role can only receive, and can do so for some message. -/
def Receiving (ts : Nat → List Trans) (c : Config) (i : Nat) : Prop :=
  (∃ t ∈ ts i, t.src = c.st i) ∧ ∀ t ∈ ts i, t.src = c.st i → t.out = false

/-- What a bound found by `KMC` stands for: whatever has happened, a role that can only receive may yet receive. -/
def Progress (n : Nat) (ts : Nat → List Trans) : Prop :=
  ∀ w c i, CRun n ts .init w c → i < n → Receiving ts c i →
    ∃ w' c' a c'', CRun n ts c w' c' ∧ CStep ts c' i a c''

/-! ## The program -/

/-- The session of a role with mesh role `x`: the communications with it, in order, then the choice. -/
def sessionOf (code : Str → Nat) (x : Nat) (last : Mesh.Sess) : List Comm → Mesh.Sess
  | [] => last
  | c :: cs =>
    if c.partner + 1 = x then
      if c.out then .send (code c.payload.print) (sessionOf code x last cs)
      else .recv (code c.payload.print) (sessionOf code x last cs)
    else sessionOf code x last cs

/-- The branches of a choice, `num` being the number of each. -/
def branchNames (num : Nat → Str → Mesh.Name) (sites : List Site) (c : Nat) : List Mesh.Name :=
  match sites[c]? with
  | none => []
  | some s => s.branches.map (num c)

/-- The role that makes a choice. -/
def chooser (sites : List Site) (c : Nat) : Nat :=
  match sites[c]? with
  | none => 0
  | some s => s.sender

/-- How the session of `me` with mesh role `x` ends. -/
def sessionLast (num : Nat → Str → Mesh.Name) (sites : List Site) (me x : Nat) : Option Nat → Mesh.Sess
  | none => .fin
  | some c =>
    if chooser sites c = me then .sendChoice (branchNames num sites c)
    else if chooser sites c + 1 = x then .recvChoice (branchNames num sites c)
    else .fin

/-- The partners, in order. -/
def partnersThen (last : Mesh.Stack) : List Comm → Mesh.Stack
  | [] => last
  | c :: cs => .role (c.partner + 1) (partnersThen last cs)

/-- How the stack of `me` ends. -/
def partnersLast (sites : List Site) (me : Nat) : Option Nat → Mesh.Stack
  | none => .fin
  | some c => if chooser sites c = me then .broadcast else .role (chooser sites c + 1) .fin

/-- The mesh of role `me` for a part. -/
def Part.mesh (code : Str → Nat) (num : Nat → Str → Mesh.Name) (sites : List Site) (me : Nat) (P : Part) : Mesh.Mesh :=
  ⟨fun x => sessionOf code x (sessionLast num sites me x P.next) P.comms, partnersThen (partnersLast sites me P.next) P.comms⟩

/-- The program of `n` roles that start with `main`: branch `root` has the parts `main`, branch `num c b` has the parts of
branch `b` of choice `c`; payload types have the numbers `code`. -/
structure Program (n : Nat) (sites : List Site) (main : Nat → Part) (code : Str → Nat) (num : Nat → Str → Mesh.Name)
    (Y : Mesh.Sys) (root : Mesh.Name) : Prop where
  roles : Y.n = n
  start : ∀ i < n, Y.types root (i + 1) = (main i).mesh code num sites i
  branch : ∀ c s, sites[c]? = some s → ∀ b ∈ s.branches, ∀ i < n,
    Y.types (num c b) (i + 1) = (s.part b i).mesh code num sites i

/-- The communications with `x`. -/
def withs (x : Nat) (cs : List Comm) : List Comm := cs.filter fun c => c.partner == x

/-- The parts of the roles fit together: what `p` does with `q` is what `q` does with `p`, seen from the other side; and
they go on with the same choice. (Rust checks this: duality of the sessions.) -/
structure Dual (n : Nat) (P : Nat → Part) : Prop where
  sessions : ∀ p < n, ∀ q < n, p ≠ q →
    withs q (P p).comms = (withs p (P q).comms).map fun c => ⟨!c.out, q, c.payload⟩
  next : ∀ p < n, ∀ q < n, (P p).next = (P q).next

/-- All parts of the protocol fit together; partners are other roles, choices exist, are made by one of the roles and
have branches; no branch begins with another choice. -/
structure Coherent (n : Nat) (sites : List Site) (main : Nat → Part) : Prop where
  two : 2 ≤ n
  dualMain : Dual n main
  dual : ∀ s ∈ sites, ∀ b ∈ s.branches, Dual n (s.part b)
  partnerMain : ∀ i < n, ∀ c ∈ (main i).comms, c.partner < n ∧ c.partner ≠ i
  partner : ∀ s ∈ sites, ∀ b ∈ s.branches, ∀ i < n, ∀ c ∈ (s.part b i).comms, c.partner < n ∧ c.partner ≠ i
  nextMain : ∀ i < n, ∀ c, (main i).next = some c → c < sites.length
  next : ∀ s ∈ sites, ∀ b ∈ s.branches, ∀ i < n, ∀ c, (s.part b i).next = some c → c < sites.length
  sender : ∀ s ∈ sites, s.sender < n ∧ s.branches ≠ []
  guarded : ∀ s ∈ sites, ∀ b ∈ s.branches, ∀ i < n, (s.part b i).Guarded

/-- How far the roles get in their parts: `Gets P i k` says that role `i` can do its first `k` communications.  A message is
there if its sender, in the communications it can do, has gone further with `i` than `i` with it. -/
inductive Gets (P : Nat → Part) : Nat → Nat → Prop
  | zero {i : Nat} : Gets P i 0
  | send {i k : Nat} {c : Comm} (h : Gets P i k) (hc : (P i).comms[k]? = some c) (ho : c.out = true) : Gets P i (k + 1)
  | recv {i k m : Nat} {c : Comm} (h : Gets P i k) (hc : (P i).comms[k]? = some c) (ho : c.out = false)
      (h' : Gets P c.partner m)
      (hm : (withs c.partner ((P i).comms.take k)).length < (withs i ((P c.partner).comms.take m)).length) : Gets P i (k + 1)

/-- In each branch of the choices with more than one, all roles can do their first communication. -/
def Begins (n : Nat) (sites : List Site) : Prop :=
  ∀ s ∈ sites, 2 ≤ s.branches.length → ∀ b ∈ s.branches, ∀ i < n, (s.part b i).comms ≠ [] → Gets (s.part b) i 1

/-- Whatever has happened, a role that has not ended may yet take a step. -/
def Lively (Y : Mesh.Sys) (root : Mesh.Name) : Prop :=
  ∀ ls s, Mesh.Run Y (.init Y root) ls s → ∀ r, 1 ≤ r → r ≤ Y.n → ¬ Mesh.Finished s r →
    ∃ ls' s', Mesh.Run Y s ls' s' ∧ ∃ l ∈ ls', l.actor = r

/-- The communications among the labels of a run of the program, with the numbers of the payload types. -/
def commsOf (ls : List Mesh.Label) : List (Nat × Bool × Nat × Nat) :=
  ls.filterMap fun l => match l with
    | .act r (.send q m) => some (r, true, q, m)
    | .act r (.recv q m) => some (r, false, q, m)
    | _ => none

/-- The values `p` has sent to `q`, in order. -/
def sentTo (p q : Nat) (cs : List (Nat × Bool × Nat × Nat)) : List Nat :=
  cs.filterMap fun (r, out, x, m) => if r = p ∧ out = true ∧ x = q then some m else none

/-- The values `q` has received from `p`, in order. -/
def receivedFrom (q p : Nat) (cs : List (Nat × Bool × Nat × Nat)) : List Nat :=
  cs.filterMap fun (r, out, x, m) => if r = q ∧ out = false ∧ x = p then some m else none

end Verif.Spec
