import Verif.Model.Mesh
import Verif.Model.Heap
import Verif.Model.Gen
import Verif.Model.SendRecv
import Verif.Spec.Pairs
/-!
# Model of the whole runtime: generated meshes on one-place channels

Everything below the protocol is put together: the channels of `Model/Heap.lean`, the emitted bodies of
`fork_mpst` and `choose_..._to_all!` (`Model/Gen.lean`), the emitted `send` and `recv` methods (`Model/SendRecv.lean`),
`offer_mpst!` and `close`.  A program is given by the mesh types of its roles (`Mesh.Sys`); the roles run
concurrently, one API call at a time, in any order, and drops are carried out at any time.

Simplifications: no clocks, nobody cancels or panics; all partners of a choice use the same names for its branches;
the contents of plain messages are numbers; roles do not share threads (see `Model/Interleaved.lean`).
-/
namespace Verif.Runtime
open Verif.Mesh (Sys Name Sess Stack Label upd)
open Verif.Types (STy)
open Verif.Heap hiding upd
open Verif.Spec Verif.SendRecv

/-- Payload types: plain ones, and the enums of meshes, given by the role that will go on with the mesh and
the branches (`enum Branching0fromAtoB { .. }`). -/
inductive Pay where
  | data (m : Nat)
  | enum (r : Nat) (bs : List Name)
deriving DecidableEq, Repr

/-- The binary session type (src/binary/struct_trait/) of role `r` with `q`. -/
def enc (r q : Nat) : Sess → STy Pay
  | .fin => .fin
  | .send m k => .send none (.data m) (enc r q k)
  | .recv m k => .recv none (.data m) (enc r q k)
  | .sendChoice bs => .send none (.enum q bs) .fin
  | .recvChoice bs => .recv none (.enum r bs) .fin

/-- Types of `session1 .. session{n-1}` of role `r` in branch `N`, expand/meshedchannels.rs:6-211; field `k`
is for the `k`-th other role. -/
def slotTys (Y : Sys) (N : Name) (r : Nat) : List (STy Pay) :=
  (List.range' 1 (Y.n - 1)).map fun k => enc r (partner r k) ((Y.types N r).sess (partner r k))

/-- What is inside a payload: nothing, or the mesh of the chosen variant. -/
def env (Y : Sys) : Env Pay
  | .data _, tag => if tag = 0 then some [] else none
  | .enum r bs, tag => if tag ∈ bs then some (slotTys Y tag r) else none

/-- Where the program of a role is. -/
inductive Pos where
  /-- holding a mesh: its fields and its stack -/
  | mesh (slots : List (Entry Pay)) (k : Stack)
  /-- inside `choose_..._to_all!`: the fields still to be told (with the partner's new mesh), the fields of the old mesh,
  the own new mesh -/
  | telling (N : Name) (todo : List (Nat × List (Entry Pay))) (old own : List (Entry Pay))
  /-- inside `close`: the number of signals sent and received -/
  | ending (i : Nat) (slots : List (Entry Pay))
  | closed

/-- The endpoints the variables of a role hold: the fields of its mesh; inside `choose_..._to_all!` the fields still to be
used, the meshes not sent yet and the own new mesh. -/
def own : Pos → List (Entry Pay)
  | .mesh sl _ => sl
  | .ending _ sl => sl
  | .closed => []
  | .telling _ todo old own => todo.filterMap (fun p => old[p.1 - 1]?) ++ (todo.flatMap (·.2) ++ own)

/-- The state of the whole program. -/
structure RS where
  heap : Heap.St Pay
  pos : Nat → Pos

/-- Labels of steps: those of `Model/Mesh.lean`; steps of `close`; carrying out a drop. -/
inductive RLabel where
  | sim (l : Label)
  | closing (r : Nat)
  | stop (r : Nat)
  | wait (r : Nat)
  | done (r : Nat)
  | gc
deriving DecidableEq

/-- Whose step it is; drops are carried out by nobody in particular. -/
def RLabel.actor : RLabel → Option Nat
  | .sim l => some l.actor
  | .closing r => some r
  | .stop r => some r
  | .wait r => some r
  | .done r => some r
  | .gc => none

/-- The steps of the protocol among the steps of a program. -/
def sims (ls : List RLabel) : List Label := ls.filterMap fun | .sim l => some l | _ => none

/-- The `let (a, b) = S::new();` statements of an emitted body, executed on the channels: choose_mpst_multi_to_all.rs:71-83,
aux_fork.rs:142-161.  The first endpoint of the pair named `(line, col)` is used by role `line`, so its type is
what `line` expects from `col`. -/
def news (Y : Sys) (N : Name) : Heap.St Pay → List Gen.Stmt → Heap.St Pay × List (Entry Pay × Entry Pay)
  | h, [] => (h, [])
  | h, .newChan a _ _ :: ss =>
    match Heap.step (env Y) h (.new (enc a.1 a.2 ((Y.types N a.1).sess a.2))) with
    | none => (h, [])
    | some (h1, _) =>
      match h1.pool with
      | e1 :: e2 :: _ => ((news Y N h1 ss).1, (e1, e2) :: (news Y N h1 ss).2)
      | _ => (h1, [])
  | h, _ :: ss => news Y N h ss

/-- The endpoint an emitted identifier stands for. -/
def resolve (l : List (Entry Pay × Entry Pay)) (e : Gen.EP) : Option (Entry Pay) :=
  (l[e.chan]?).map fun p => if e.dual then p.2 else p.1

/-- The fields of a mesh literal, in the order of the struct. -/
def fieldsOf (n : Nat) (l : List (Entry Pay × Entry Pay)) (m : Gen.MeshV) : Option (List (Entry Pay)) :=
  (List.range' 1 (n - 1)).mapM fun k => (m.slot k).bind (resolve l)

/-- Dropping several endpoints one after the other: the fields of a struct, in order. -/
def dropAll (Y : Sys) : Heap.St Pay → List (Entry Pay) → Option (Heap.St Pay)
  | h, [] => some h
  | h, e :: es =>
    match Heap.step (env Y) h (.drop e) with
    | none => none
    | some (h', _) => dropAll Y h' es

/-- The call role `r` makes next, where it makes one on an endpoint: `send`, `recv` (expand/send.rs, recv.rs) on the field
for the partner at the head of the stack; the `send` of a choice (choose_mpst_multi_to_all.rs:107-155); the signals
of `close` (expand/close.rs:13-60): first all are sent, then all are received, in the order of the fields. -/
inductive Call (Y : Sys) (r : Nat) : Pos → Op Pay → Prop
  | send {sl q k e w m T d} : sl[(sendImpl Y.n r q).used - 1]? = some e → e.ty = .send w (.data m) T →
      Call Y r (.mesh sl (.role q k)) (.send e ⟨0, d, []⟩)
  | recv {sl q k e w t T} : sl[(recvImpl Y.n q r).used - 1]? = some e → e.ty = .recv w t T →
      Call Y r (.mesh sl (.role q k)) (.recv e)
  | tell {N k ms todo old own e} : old[k - 1]? = some e →
      Call Y r (.telling N ((k, ms) :: todo) old own) (.send e ⟨N, 0, ms.map (·.ep)⟩)
  | stop {i sl e} : i < Y.n - 1 → sl[i]? = some e → Call Y r (.ending i sl) (.sigSend e .stop)
  | wait {i sl e} : Y.n - 1 ≤ i → sl[i - (Y.n - 1)]? = some e → Call Y r (.ending i sl) (.sigRecv e)

/-- One step. -/
inductive RStep (Y : Sys) (h : Heap.St Pay) (pos : Nat → Pos) : RLabel → RS → Prop
  /-- The emitted `send`: expand/send.rs:58-83. -/
  | send {r sl q k e w m T d h' e' rest sl'} : 1 ≤ r → r ≤ Y.n → pos r = .mesh sl (.role q k) →
      sl[(sendImpl Y.n r q).used - 1]? = some e → e.ty = .send w (.data m) T →
      Heap.step (env Y) h (.send e ⟨0, d, []⟩) = some (h', .unit) → h'.pool = e' :: rest →
      (sendImpl Y.n r q).exec (fun _ => some e') sl = some sl' →
      RStep Y h pos (.sim (.act r (.send q m))) ⟨h', upd pos r (.mesh sl' k)⟩
  /-- The emitted `recv`: expand/recv.rs:58-85. -/
  | recv {r sl q k e w m T v h' e' rest sl'} : 1 ≤ r → r ≤ Y.n → pos r = .mesh sl (.role q k) →
      sl[(recvImpl Y.n q r).used - 1]? = some e → e.ty = .recv w (.data m) T →
      Heap.step (env Y) h (.recv e) = some (h', .value v) → h'.pool = e' :: rest →
      (recvImpl Y.n q r).exec (fun _ => some e') sl = some sl' →
      RStep Y h pos (.sim (.act r (.recv q m))) ⟨h', upd pos r (.mesh sl' k)⟩
  /-- `choose_mpst_..._to_all!`, the first part: the new channels and meshes, choose_mpst_multi_to_all.rs:60-105.  The
  program may pick any branch the types of its sessions allow. -/
  | decide {r sl N body g h' l m own todo} : 1 ≤ r → r ≤ Y.n → pos r = .mesh sl .broadcast →
      (∀ e ∈ sl, ∃ w q bs, e.ty = .send w (.enum q bs) .fin ∧ N ∈ bs) →
      Gen.toAllBody Y.n r = some body → Gen.run (Gen.St.init 0) body = some g → news Y N h body = (h', l) →
      g.out = some m → fieldsOf Y.n l m = some own →
      g.sent.mapM (fun p => (fieldsOf Y.n l p.2).map fun f => (p.1, f)) = some todo →
      RStep Y h pos (.sim (.act r (.decide N))) ⟨h', upd pos r (.telling N todo sl own)⟩
  /-- `let _ = send(Label(Mesh { .. }), s.session_k)`, choose_mpst_multi_to_all.rs:107-155; what `send` returns is dropped. -/
  | tell {r N k ms todo old own e h1 e' rest h2} : 1 ≤ r → r ≤ Y.n → pos r = .telling N ((k, ms) :: todo) old own →
      old[k - 1]? = some e →
      Heap.step (env Y) h (.send e ⟨N, 0, ms.map (·.ep)⟩) = some (h1, .unit) → h1.pool = e' :: rest →
      Heap.step (env Y) h1 (.drop e') = some (h2, .unit) →
      RStep Y h pos (.sim (.tell r (partner r k))) ⟨h2, upd pos r (.telling N todo old own)⟩
  /-- The own new mesh is the value of the macro, choose_mpst_multi_to_all.rs:157-215. -/
  | enter {r N old own} : 1 ≤ r → r ≤ Y.n → pos r = .telling N [] old own →
      RStep Y h pos (.sim (.enter r)) ⟨h, upd pos r (.mesh own (Y.types N r).stack)⟩
  /-- `offer_mpst!`, src/macros_multiple/offer.rs:159-185: `let (l, s) = s.recv()?; cancel(s); match l { .. }`. -/
  | heed {r sl q e w x bs v h1 new e' rest sl1 h2} : 1 ≤ r → r ≤ Y.n → pos r = .mesh sl (.role q .fin) →
      sl[(recvImpl Y.n q r).used - 1]? = some e → e.ty = .recv w (.enum x bs) .fin →
      Heap.step (env Y) h (.recv e) = some (h1, .value v) → h1.pool = new ++ e' :: rest → new.length = Y.n - 1 →
      (recvImpl Y.n q r).exec (fun _ => some e') sl = some sl1 → dropAll Y h1 sl1 = some h2 →
      RStep Y h pos (.sim (.act r (.heed q v.tag))) ⟨h2, upd pos r (.mesh new (Y.types v.tag r).stack)⟩
  /-- `close()` is called: it exists when the stack is `RoleEnd` and all sessions are `End`, expand/close.rs:35-47. -/
  | closing {r sl} : 1 ≤ r → r ≤ Y.n → pos r = .mesh sl .fin → (∀ e ∈ sl, e.ty = .fin) →
      RStep Y h pos (.closing r) ⟨h, upd pos r (.ending 0 sl)⟩
  /-- `self.session_k.sender.send(Signal::Stop)?`, expand/close.rs:13-21. -/
  | stop {r i sl e h'} : 1 ≤ r → r ≤ Y.n → pos r = .ending i sl → i < Y.n - 1 → sl[i]? = some e →
      Heap.step (env Y) h (.sigSend e .stop) = some (h', .unit) →
      RStep Y h pos (.stop r) ⟨h', upd pos r (.ending (i + 1) sl)⟩
  /-- `self.session_k.receiver.recv()?`, which must be `Signal::Stop`, expand/close.rs:23-33. -/
  | wait {r i sl e h'} : 1 ≤ r → r ≤ Y.n → pos r = .ending i sl → Y.n - 1 ≤ i → sl[i - (Y.n - 1)]? = some e →
      Heap.step (env Y) h (.sigRecv e) = some (h', .signal .stop) →
      RStep Y h pos (.wait r) ⟨h', upd pos r (.ending (i + 1) sl)⟩
  /-- `drop(self); Ok(())`, expand/close.rs:57-59. -/
  | done {r i sl h'} : 1 ≤ r → r ≤ Y.n → pos r = .ending i sl → i = 2 * (Y.n - 1) → dropAll Y h sl = some h' →
      RStep Y h pos (.done r) ⟨h', upd pos r .closed⟩
  /-- A pending drop is carried out. -/
  | gc {i h' o} : Heap.step (env Y) h (.gc i) = some (h', o) → RStep Y h pos .gc ⟨h', pos⟩

/-- The state after `fork_mpst`, expand/fork.rs:82-168: every role is started with its mesh. -/
inductive Start (Y : Sys) (root : Name) : RS → Prop
  | mk {body g h l pos} : Gen.forkBody Y.n = some body → Gen.run (Gen.St.init 0) body = some g →
      news Y root (Heap.init Pay) body = (h, l) →
      (∀ r, 1 ≤ r → r ≤ Y.n → ∃ m sl, (r, [m]) ∈ g.spawned ∧ fieldsOf Y.n l m = some sl ∧
        pos r = .mesh sl (Y.types root r).stack) →
      Start Y root ⟨h, pos⟩

/-- A run. -/
inductive RRun (Y : Sys) (root : Name) : List RLabel → RS → Prop
  | start {s} : Start Y root s → RRun Y root [] s
  | snoc {ls s l s'} : RRun Y root ls s → RStep Y s.heap s.pos l s' → RRun Y root (ls ++ [l]) s'

end Verif.Runtime
