/-!
# Model of N roles running typed meshes

Every role holds a `MeshedChannels` value: one session type per partner, and a stack that says with whom to communicate
next.  The types leave no choice to the program but which branch to take: `send` and `recv` exist only on the session the
head of the stack names (`mpst_seq_proc/src/common_functions/expand/send.rs:7-83`, `recv.rs`; the slot arithmetic is C18).

Sessions are two FIFO queues that are never full (proved from the channel model in C38); a queue is named by
the number of choices made before its mesh was created, the sender and the receiver.  Payloads are numbers, which
stand for the payload type or the value.  Simplifications: nobody cancels, no clocks, and the sessions are named by the
partner instead of the slot.
-/
namespace Verif.Mesh

/-- A branch of a choice: a variant of an enum like `Branches0AtoB`; it names one type definition per role. -/
abbrev Name := Nat

/-- A binary session type, src/binary/struct_trait/{send,recv,end}.rs.  The payload of a choice is an enum of meshes;
after it the session ends (`Send<Enum, End>`, `choose_mpst_multi_to_all.rs:107-155`). -/
inductive Sess where
  | fin
  | send (m : Nat) (k : Sess)
  | recv (m : Nat) (k : Sess)
  | sendChoice (bs : List Name)
  | recvChoice (bs : List Name)
deriving DecidableEq, Repr

/-- A stack: `RoleEnd`, `RoleBroadcast`, `Role{q}<k>`, src/role/. -/
inductive Stack where
  | fin
  | broadcast
  | role (q : Nat) (k : Stack)
deriving DecidableEq, Repr

/-- A mesh type, without its name: the session with every partner, and the stack. -/
structure Mesh where
  sess : Nat → Sess
  stack : Stack

/-- Content of a message: a payload, or the variant of an enum carrying the receiver's next mesh. -/
inductive Msg where
  | data (m : Nat)
  | branch (N : Name)
deriving DecidableEq, Repr

/-- Where a role is. -/
inductive At where
  | mesh (M : Mesh)
  /-- inside a choice: `rest` are the partners not yet told of branch `N` -/
  | telling (N : Name) (rest : List Nat)

/-- A queue: the number of choices before, sender, receiver. -/
abbrev Q := Nat × Nat × Nat

/-- Global state. -/
structure S where
  gen : Nat → Nat
  pos : Nat → At
  queue : Q → List Msg

/-- A program: the number of roles and the types of all roles in each branch. -/
structure Sys where
  n : Nat
  types : Name → Nat → Mesh

/-- Function update. -/
def upd {α β : Type} [DecidableEq α] (f : α → β) (a : α) (b : β) : α → β := fun x => if x = a then b else f x

/-- All roles start with the types of the branch `root`; `fork`, functionmpst/fork.rs. -/
def S.init (Y : Sys) (root : Name) : S := ⟨fun _ => 0, fun r => .mesh (Y.types root r), fun _ => []⟩

/-- What a role does, as its program sees it. -/
inductive Act where
  | send (q m : Nat)
  | recv (p m : Nat)
  | decide (N : Name)
  | heed (p : Nat) (N : Name)
deriving DecidableEq, Repr

/-- Labels of steps: an action of `r`, or a step inside its choice. -/
inductive Label where
  | act (r : Nat) (a : Act)
  | tell (r q : Nat)
  | enter (r : Nat)
deriving DecidableEq, Repr

/-- The role that takes the step. -/
def Label.actor : Label → Nat
  | .act r _ => r
  | .tell r _ => r
  | .enter r => r

/-- The partners of `r` in the order of its sessions. -/
def others (n r : Nat) : List Nat := (List.range' 1 n).filter (fun q => decide (q ≠ r))

/-- One step. -/
inductive Step (Y : Sys) (s : S) : Label → S → Prop
  /-- `send`, expand/send.rs:58-83: the session named by the stack, which is popped. -/
  | send {r M q k m T} : 1 ≤ r → r ≤ Y.n → s.pos r = .mesh M → M.stack = .role q k → M.sess q = .send m T →
      Step Y s (.act r (.send q m)) { s with
        pos := upd s.pos r (.mesh ⟨upd M.sess q T, k⟩),
        queue := upd s.queue (s.gen r, r, q) (s.queue (s.gen r, r, q) ++ [.data m]) }
  /-- `recv`, expand/recv.rs: the first message of the queue, whatever it is of. -/
  | recv {r M q k m T x l} : 1 ≤ r → r ≤ Y.n → s.pos r = .mesh M → M.stack = .role q k → M.sess q = .recv m T →
      s.queue (s.gen r, q, r) = .data x :: l →
      Step Y s (.act r (.recv q x)) { s with
        pos := upd s.pos r (.mesh ⟨upd M.sess q T, k⟩),
        queue := upd s.queue (s.gen r, q, r) l }
  /-- `choose_mpst_..._to_all!`: the program picks a branch; fresh channels and stacks for all roles are made,
  choose_mpst_multi_to_all.rs:60-105. -/
  | decide {r M bs N} : 1 ≤ r → r ≤ Y.n → s.pos r = .mesh M → M.stack = .broadcast →
      (∀ q ∈ others Y.n r, M.sess q = .sendChoice bs) → N ∈ bs →
      Step Y s (.act r (.decide N)) { s with pos := upd s.pos r (.telling N (others Y.n r)) }
  /-- Each partner is sent its new mesh, choose_mpst_multi_to_all.rs:107-155. -/
  | tell {r N q rest} : 1 ≤ r → r ≤ Y.n → s.pos r = .telling N (q :: rest) →
      Step Y s (.tell r q) { s with
        pos := upd s.pos r (.telling N rest),
        queue := upd s.queue (s.gen r, r, q) (s.queue (s.gen r, r, q) ++ [.branch N]) }
  /-- The chooser goes on with its own new mesh, choose_mpst_multi_to_all.rs:157-215. -/
  | enter {r N} : 1 ≤ r → r ≤ Y.n → s.pos r = .telling N [] →
      Step Y s (.enter r) { s with
        pos := upd s.pos r (.mesh (Y.types N r)), gen := upd s.gen r (s.gen r + 1) }
  /-- `offer_mpst!`, src/macros_multiple/offer.rs: the enum is received and matched, the new mesh is used. -/
  | heed {r M q bs N l} : 1 ≤ r → r ≤ Y.n → s.pos r = .mesh M → M.stack = .role q .fin → M.sess q = .recvChoice bs →
      s.queue (s.gen r, q, r) = .branch N :: l →
      Step Y s (.act r (.heed q N)) { s with
        pos := upd s.pos r (.mesh (Y.types N r)), gen := upd s.gen r (s.gen r + 1),
        queue := upd s.queue (s.gen r, q, r) l }

/-- A run. -/
inductive Run (Y : Sys) : S → List Label → S → Prop
  | nil (s) : Run Y s [] s
  | snoc {s ls s1 l s2} : Run Y s ls s1 → Step Y s1 l s2 → Run Y s (ls ++ [l]) s2

end Verif.Mesh
