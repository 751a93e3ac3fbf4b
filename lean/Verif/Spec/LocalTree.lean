import Verif.Spec.TypeText
import Verif.Spec.Pairs
import Verif.Model.CheckGraph

/-!
# What an endpoint does, and what its graph should be

Roles are numbered from 0 in the order of the list of role names.
-/
namespace Verif.Spec
open Verif.Check

/-- The communications of a role: direction (`true`: it sends), number of the partner, printed payload; and binary
choices. -/
inductive Beh where
  | fin
  | comm (out : Bool) (partner : Nat) (payload : Str) (k : Beh)
  | branch (l r : Beh)

def endTy : Ty := .mk ['E', 'n', 'd'] []
def sendTy (p k : Ty) : Ty := .mk ['S', 'e', 'n', 'd'] [p, k]
def recvTy (p k : Ty) : Ty := .mk ['R', 'e', 'c', 'v'] [p, k]

/-- `Describes roles me ss stack b`: the mesh type of role number `me` with sessions `ss` (one per other role, in
order) and ordering stack `stack` prescribes the behaviour `b`.
The stack `RoleX<K>` says that the next communication is with `X`, over the session with `X`.
A role that chooses has in all its sessions a `Send` of an `Either` of two meshes for the receiver; it continues with
the duals of what these meshes contain for it.  A role that is offered a choice has one `Recv` of an `Either` of two
of its own meshes. -/
inductive Describes (roles : List Str) (me : Nat) : List Ty → Ty → Beh → Prop
  | fin : Describes roles me (List.replicate (roles.length - 1) endTy) (.mk ['R', 'o', 'l', 'e', 'E', 'n', 'd'] []) .fin
  | send {ss : List Ty} {x : Nat} {p s k : Ty} {b : Beh} (hx : x < roles.length) (hne : x ≠ me)
      (h : ss[slotOf me x]? = some (sendTy p s)) (hk : Describes roles me (ss.set (slotOf me x) s) k b) :
      Describes roles me ss (.mk roles[x] [k]) (.comm true x p.print b)
  | recv {ss : List Ty} {x : Nat} {p s k : Ty} {b : Beh} (hx : x < roles.length) (hne : x ≠ me)
      (h : ss[slotOf me x]? = some (recvTy p s)) (hk : Describes roles me (ss.set (slotOf me x) s) k b) :
      Describes roles me ss (.mk roles[x] [k]) (.comm false x p.print b)
  | offer {ss ls rs : List Ty} {i : Nat} {head either m1 m2 n1 n2 : Str} {a1 a2 : List Ty} {s1 s2 tl lst rst : Ty}
      {l r : Beh} (h : ss[i]? = some (recvTy (.mk either [.mk m1 (ls ++ [lst, .mk n1 a1]),
        .mk m2 (rs ++ [rst, .mk n2 a2])]) tl))
      (hend : ∀ j, j < ss.length → j ≠ i → ss[j]? = some endTy) (hn1 : n1 ≠ []) (hn2 : n2 ≠ [])
      (hl : Describes roles me ls lst l) (hr : Describes roles me rs rst r) :
      Describes roles me ss (.mk head [s1, s2]) (.branch l r)
  | choose {ss : List Ty} {ds es : List Sess} {head : Str} {s1 s2 : Ty} {l r : Beh} (hpos : ss ≠ [])
      (hd : ds.length = ss.length) (he : es.length = ss.length)
      (h : ∀ i (hi : i < ss.length), ∃ (x : Str) (either m1 m2 : Str) (bl br al : List Ty) (tl : Ty),
        roles[partner me i]? = some x ∧ ss[i] = sendTy (.mk either [.mk m1 bl, .mk m2 br]) tl ∧
        bl.getLast? = some (.mk x al) ∧
        bl[slotOf (partner me i) me]? = some (ds[i]).ty ∧ br[slotOf (partner me i) me]? = some (es[i]).ty)
      (hl : Describes roles me (ds.map fun d => d.dual.ty) s1 l)
      (hr : Describes roles me (es.map fun d => d.dual.ty) s2 r) :
      Describes roles me ss (.mk head [s1, s2]) (.branch l r)

/-- The received payloads, which must not be the name of an enum of branches. -/
def Beh.received : Beh → List Str
  | .fin => []
  | .comm out _ p k => if out then k.received else p :: k.received
  | .branch l r => l.received ++ r.received

/-- The complete sequences of labels a role can produce; `0` marks the end. -/
def Beh.traces (roles : List Str) (me : Str) : Beh → List (List Str)
  | .fin => [[['0']]]
  | .comm out x p k =>
    (k.traces roles me).map fun w => (me ++ [if out then '!' else '?'] ++ roles.getD x [] ++ [':', ' '] ++ p) :: w
  | .branch l r => l.traces roles me ++ r.traces roles me

/-- `0.2.1` -/
def dotted : List Nat → Str
  | [] => []
  | [a] => Nat.toDigits 10 a
  | a :: l => Nat.toDigits 10 a ++ '.' :: dotted l

/-- The texts of the states in the picture of a role: states are numbered along a sequence of communications, and the
states of both branches of a choice after state `path.n` are numbered `path.n.1`, `path.n.2`, ... -/
def Beh.stateNames : Beh → List Nat → Nat → List Str
  | .fin, path, n => [dotted (path ++ [n + 1])]
  | .comm _ _ _ k, path, n => dotted (path ++ [n + 1]) :: k.stateNames path (n + 1)
  | .branch l r, path, n => l.stateNames (path ++ [n]) 0 ++ r.stateNames (path ++ [n]) 0

/-- A path of a graph, with its labels. -/
inductive Path (g : Graph) : Nat → List Str → Nat → Prop
  | nil {a : Nat} : Path g a [] a
  | cons {a b c : Nat} {l : Str} {w : List Str} (h : (a, b, l) ∈ g.edges) (t : Path g b w c) : Path g a (l :: w) c

/-- No edge leaves `b`. -/
def Sink (g : Graph) (b : Nat) : Prop := ∀ e ∈ g.edges, e.1 ≠ b

/-- A transition of the machine written by the checker: from a state, to or from a partner, payload, to a state. -/
structure Trans where
  src : Nat
  out : Bool
  partner : Nat
  payload : Str
  dst : Nat

/-- The line of the machine file for a transition: `RoleA0 1 ! i32 RoleA1`. -/
def Trans.line (me : Str) (t : Trans) : Str :=
  me ++ Nat.toDigits 10 t.src ++ [' '] ++ Nat.toDigits 10 t.partner ++ [' ', if t.out then '!' else '?', ' '] ++
    t.payload ++ [' '] ++ me ++ Nat.toDigits 10 t.dst

/-- The edge of the graph for a transition: label `RoleA!RoleB: i32`. -/
def Trans.edge (roles : List Str) (me : Str) (t : Trans) : Nat × Nat × Str :=
  (t.src, t.dst, me ++ [if t.out then '!' else '?'] ++ roles.getD t.partner [] ++ [':', ' '] ++ t.payload)

end Verif.Spec
