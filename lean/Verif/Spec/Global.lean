import Verif.Model.Mesh
/-!
# Global protocols and their projection

A protocol is a family of blocks: each block is a sequence of messages, then either the end or a choice made by one
role and announced to all others.  The branches of a choice are names of blocks, so that protocols may be
recursive.
-/
namespace Verif.Mesh

/-- `p` sends `m` to `q`. -/
structure Comm where
  p : Nat
  q : Nat
  m : Nat
deriving DecidableEq, Repr

/-- How a block ends. -/
inductive Tail where
  | fin
  | choice (p : Nat) (bs : List Name)
deriving DecidableEq, Repr

structure Block where
  comms : List Comm
  tail : Tail
deriving DecidableEq, Repr

/-- A protocol. -/
abbrev Global := Name → Block

/-- Roles are `1 .. n`, nobody sends to itself, choices have a branch. -/
def Global.Wf (n : Nat) (D : Global) : Prop :=
  2 ≤ n ∧ ∀ N, (∀ c ∈ (D N).comms, (1 ≤ c.p ∧ c.p ≤ n) ∧ (1 ≤ c.q ∧ c.q ≤ n) ∧ c.p ≠ c.q) ∧
    ∀ p bs, (D N).tail = .choice p bs → (1 ≤ p ∧ p ≤ n) ∧ bs ≠ []

/-! ## Projection -/

/-- The session type of `r` with `q`: the messages between them, in order. -/
def sessOf (r q : Nat) : List Comm → Tail → Sess
  | [], .fin => .fin
  | [], .choice p bs => if p = r then .sendChoice bs else if p = q then .recvChoice bs else .fin
  | c :: cs, t =>
    if c.p = r ∧ c.q = q then .send c.m (sessOf r q cs t)
    else if c.p = q ∧ c.q = r then .recv c.m (sessOf r q cs t)
    else sessOf r q cs t

/-- The stack of `r`: the partners of its messages, in order. -/
def stackOf (r : Nat) : List Comm → Tail → Stack
  | [], .fin => .fin
  | [], .choice p _ => if p = r then .broadcast else .role p .fin
  | c :: cs, t =>
    if c.p = r then .role c.q (stackOf r cs t)
    else if c.q = r then .role c.p (stackOf r cs t)
    else stackOf r cs t

/-- The mesh type of `r` for a block. -/
def meshOf (r : Nat) (cs : List Comm) (t : Tail) : Mesh := ⟨fun q => sessOf r q cs t, stackOf r cs t⟩

/-- The program obtained by projecting `D` to every role. -/
def project (n : Nat) (D : Global) : Sys := ⟨n, fun N r => meshOf r (D N).comms (D N).tail⟩

/-! ## What a protocol prescribes -/

/-- A global event. -/
inductive Ev where
  | comm (c : Comm)
  | sel (p : Nat) (N : Name)
deriving DecidableEq, Repr

/-- `tr` is what happens when the protocol is followed from the beginning of block `N` to the end of some block. -/
inductive Follows (D : Global) : Name → List Ev → Prop
  | stop (N) : Follows D N ((D N).comms.map .comm)
  | go {N p bs N' tr} : (D N).tail = .choice p bs → N' ∈ bs → Follows D N' tr →
      Follows D N ((D N).comms.map .comm ++ .sel p N' :: tr)

/-- `tr` is what happens when the protocol is followed from the beginning of block `N` to its end. -/
inductive Completes (D : Global) : Name → List Ev → Prop
  | stop {N} : (D N).tail = .fin → Completes D N ((D N).comms.map .comm)
  | go {N p bs N' tr} : (D N).tail = .choice p bs → N' ∈ bs → Completes D N' tr →
      Completes D N ((D N).comms.map .comm ++ .sel p N' :: tr)

/-- What role `r` has to do in an event. -/
def view (r : Nat) : Ev → Option Act
  | .comm c => if c.p = r then some (.send c.q c.m) else if c.q = r then some (.recv c.p c.m) else none
  | .sel p N => if p = r then some (.decide N) else some (.heed p N)

/-- What role `r` has done in a run. -/
def actsOf (r : Nat) (ls : List Label) : List Act :=
  ls.filterMap fun l => match l with
    | .act r' a => if r' = r then some a else none
    | _ => none

/-- Role `r` has nothing left to do but close. -/
def Finished (s : S) (r : Nat) : Prop := ∃ M, s.pos r = .mesh M ∧ M.stack = .fin

/-- Role `r` can take a step. -/
def CanMove (Y : Sys) (s : S) (r : Nat) : Prop := ∃ l s', l.actor = r ∧ Step Y s l s'

/-- An endless schedule: at every moment one step is taken, or none. -/
structure Schedule (Y : Sys) (root : Name) (σ : Nat → S) (lab : Nat → Option Label) : Prop where
  start : σ 0 = S.init Y root
  step : ∀ k, (∃ l, lab k = some l ∧ Step Y (σ k) l (σ (k + 1))) ∨ (lab k = none ∧ σ (k + 1) = σ k)

/-- Role `r` takes a step at moment `k`. -/
def Moves (lab : Nat → Option Label) (r k : Nat) : Prop := ∃ l, lab k = some l ∧ l.actor = r

/-- The scheduler is fair: a role that can move from now on for ever, does move. -/
def Fair (Y : Sys) (σ : Nat → S) (lab : Nat → Option Label) : Prop :=
  ∀ r k, (∀ j, k ≤ j → CanMove Y (σ j) r) → ∃ j, k ≤ j ∧ Moves lab r j

/-- Dual of a session type. -/
def Sess.dual : Sess → Sess
  | .fin => .fin
  | .send m k => .recv m k.dual
  | .recv m k => .send m k.dual
  | .sendChoice bs => .recvChoice bs
  | .recvChoice bs => .sendChoice bs

end Verif.Mesh
