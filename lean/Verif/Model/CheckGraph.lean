import Verif.Model.CheckText

/-!
# Model of the graph construction and of the search for `k` of the bottom-up checker

`none` is a panic or an error.  Hash maps are functions together with, where the code iterates over one, a list of
keys; the code sorts what it collects by iteration before using it, so the order of that list is irrelevant.
-/
namespace Verif.Check

/-- `petgraph::Graph<String, String>`: labels of the nodes by index, edges (source, target, label) in order of
insertion. -/
structure Graph where
  nodes : List Str
  edges : List (Nat × Nat × Str)
  deriving DecidableEq

/-- `g.add_node`. -/
def Graph.addNode (g : Graph) (l : Str) : Graph × Nat := ({ g with nodes := g.nodes ++ [l] }, g.nodes.length)

/-- `g.add_edge`. -/
def Graph.addEdge (g : Graph) (a b : Nat) (l : Str) : Graph := { g with edges := g.edges ++ [(a, b, l)] }

/-- `g.contains_edge`. -/
def Graph.hasEdge (g : Graph) (a b : Nat) : Bool := g.edges.any fun e => e.1 == a && e.2.1 == b

/-- `str` order, by code points. -/
def strLe : Str → Str → Bool
  | [], _ => true
  | _ :: _, [] => false
  | a :: as, b :: bs => if a.toNat < b.toNat then true else if a.toNat = b.toNat then strLe as bs else false

def insertBy {α : Type} (le : α → α → Bool) (x : α) : List α → List α
  | [] => [x]
  | y :: ys => if le x y then x :: y :: ys else y :: insertBy le x ys

/-- `sort()`. -/
def sortBy {α : Type} (le : α → α → Bool) (xs : List α) : List α := xs.foldr (insertBy le) []

/-- The parameters of `aux_get_graph` that never change, `/repo/src/checking/aux_checker.rs:260-275`:
`current_role`, `roles`, `index_current_role`, `compare_end`, `branches_receivers` (with the branches of each enum
listed), `branching_sessions`, `group_branches` (with its keys). -/
structure Ctx where
  role : Str
  roles : List Str
  me : Nat
  compareEnd : List Str
  receivers : Str → Option (List (Str × List Str))
  branching : Str → Option (List Str)
  group : Str → Option Int
  groupKeys : List Str

/-- `roles.iter().position(|r| r == x)`. -/
def position (x : Str) (roles : List Str) : Option Nat := roles.findIdx? (· == x)

abbrev Cfsm := List (Str × Nat)
abbrev Seen := Str → Option Nat

/-- `clean_session` on text that has been cleaned already (`aux_checker.rs:65-81`): the fields of the type, then
the text before the first bracket of the last field.  The replacements of `::` paths and of `Name` do nothing
there. -/
def cleanBlocks (s : Str) : Option (List Str) :=
  let blocks := getBlocks s
  match blocks.getLast? with
  | none => none
  | some l =>
    match (l.dropWhile fun c => c == '<' || c == '>').takeWhile fun c => c != '<' && c != '>' with
    | [] => none
    | n => some (blocks ++ [n])

/-- `full_session[..(len - k)]`, panicking when `k` is too large. -/
def dropEnd (k : Nat) (xs : List Str) : Option (List Str) :=
  if k ≤ xs.length then some (xs.take (xs.length - k)) else none

/-- The state of the loop over the sessions of a simple choice, `aux_checker.rs:292-297`. -/
structure ChoiceScan where
  nSend : Nat
  nRecv : Nat
  posRecv : Nat
  left : List Str
  right : List Str

/-- One iteration of the loop over the sessions of a simple choice, `aux_checker.rs:299-348`. -/
def choiceStep (C : Ctx) (s : ChoiceScan) (pos : Nat) (session : Str) : Option ChoiceScan :=
  match (getHead session)[0]? with
  | none => none
  | some h =>
    if h = ['S', 'e', 'n', 'd'] ∧ s.nRecv = 0 ∧ s.nSend = pos then do
      let either ← (getHead session)[1]?
      let choices := getHead either
      let l ← choices[1]?
      let r ← choices[2]?
      let bl := getBlocks l
      let br := getBlocks r
      let lastL ← bl.getLast?
      let receiver ← (getHead lastL)[0]?
      let idx ← position receiver C.roles
      let offset := if C.me > idx then 1 else 0
      let dl ← bl[C.me - offset]? >>= buildDual
      let dr ← br[C.me - offset]? >>= buildDual
      some { s with nSend := s.nSend + 1, left := s.left ++ [dl], right := s.right ++ [dr] }
    else if h = ['R', 'e', 'c', 'v'] ∧ s.nSend = 0 ∧ s.nRecv = 0 then
      some { s with nRecv := s.nRecv + 1, posRecv := pos }
    else if h = ['E', 'n', 'd'] ∧ s.nSend = 0 then some s
    else none

/-- The loop over the sessions of a simple choice. -/
def choiceScan (C : Ctx) : List Str → Nat → ChoiceScan → Option ChoiceScan
  | [], _, s => some s
  | x :: xs, pos, s => (choiceStep C s pos x).bind (choiceScan C xs (pos + 1))

/-- `{current_role}!{head_stack}: {payload}` and the same with `?` (`aux_checker.rs:490`, `611`). -/
def edgeLabel (role : Str) (dir : Char) (partner payload : Str) : Str :=
  role ++ [dir] ++ partner ++ [':', ' '] ++ payload

/-- `{current_role}{previous} {index_head} ! {payload} {current_role}` and the same with `?`
(`aux_checker.rs:494-501`, `615-622`). -/
def cfsmLine (role : Str) (prev : Nat) (partner : Nat) (dir : Char) (payload : Str) : Str :=
  role ++ Nat.toDigits 10 prev ++ [' '] ++ Nat.toDigits 10 partner ++ [' ', dir, ' '] ++ payload ++ [' '] ++ role

/-- `index_node[depth_level] += 1` (a panic when out of range). -/
def bump (idx : List Nat) (depth : Nat) : Option (List Nat) :=
  match idx[depth]? with
  | none => none
  | some v => some (idx.set depth (v + 1))

/-- Loop state of the branch loops: `index_node`, `depth_level`, `node_added`, `g`, `cfsm`,
`branches_already_seen`. -/
structure BranchSt where
  idx : List Nat
  depth : Nat
  added : Bool
  g : Graph
  cfsm : Cfsm
  seen : Seen

/-- An iteration of a branch loop for a branch already seen: `aux_checker.rs:534-543`, `695-702`. -/
def backEdge (s : BranchSt) (prev node : Nat) : BranchSt :=
  if s.g.hasEdge prev node = false ∧ prev ≠ node then
    { s with
      g := s.g.addEdge prev node ['µ']
      cfsm := match s.cfsm.getLast? with
        | none => s.cfsm
        | some e => s.cfsm.dropLast ++ [(e.1, node)] }
  else s

/-- After a branch was explored, all branches of its group are marked: `aux_checker.rs:583-596`, `748-760`. -/
def markGroup (C : Ctx) (seen : Seen) (b : Str) (prev : Nat) : Option Seen :=
  match C.group b with
  | none => none
  | some i => some fun x => if x ∈ C.groupKeys ∧ C.group x = some i then some prev else seen x

/-- `aux_get_graph`, `aux_checker.rs:260-773`.  `full` is `full_session` (the sessions, then the stack).  The
recursion depth is bounded by `fuel`; exceeding it is `none`. -/
def auxGraph (C : Ctx) : Nat → List Str → List Nat → Nat → Nat → Seen → Graph → Cfsm → Option (Graph × Cfsm)
  | 0, _, _, _, _, _, _, _ => none
  | fuel + 1, full, idx, prev, depth, seen, g, cfsm =>
    if C.compareEnd = full then do
      -- 276-281
      let idx ← bump idx depth
      let l ← extractIndex idx depth
      let (g, n) := g.addNode l
      some (g.addEdge prev n ['0'], cfsm)
    else do
      let stackText ← full.getLast?
      let stack := getHead stackText
      match stack with
      | [_, s1, s2] =>
        -- 289-453
        let sc ← choiceScan C full.dropLast 0 ⟨0, 0, 0, [], []⟩
        if sc.nRecv = 0 ∧ sc.nSend = 0 then none
        else if sc.nRecv = 1 then do
          let x ← full[sc.posRecv]?
          let either ← (getHead x)[1]?
          let offers := getHead either
          let o1 ← offers[1]?
          let l ← cleanBlocks o1 >>= dropEnd 2
          let (g, cfsm) ← auxGraph C fuel l (idx ++ [0]) prev (depth + 1) seen g cfsm
          let o2 ← offers[2]?
          let r ← cleanBlocks o2 >>= dropEnd 2
          auxGraph C fuel r (idx ++ [0]) prev (depth + 1) seen g cfsm
        else do
          let (g, cfsm) ← auxGraph C fuel (sc.left ++ [s1]) (idx ++ [0]) prev (depth + 1) seen g cfsm
          auxGraph C fuel (sc.right ++ [s2]) (idx ++ [0]) prev (depth + 1) seen g cfsm
      | [head, k] =>
        -- 454-652
        let i ← position head C.roles
        let offset := if C.me < i then 1 else 0
        let x ← full[i - offset]?
        let running := getHead x
        let dir ← running[0]?
        if dir = ['S', 'e', 'n', 'd'] then do
          let idx ← bump idx depth
          let l ← extractIndex idx depth
          let (g, n) := g.addNode l
          let p ← running[1]?
          let next ← running[2]?
          auxGraph C fuel ((full.set (i - offset) next).set (full.length - 1) k) idx n depth seen
            (g.addEdge prev n (edgeLabel C.role '!' head p)) (cfsm ++ [(cfsmLine C.role prev i '!' p, n)])
        else if dir = ['R', 'e', 'c', 'v'] then do
          let p ← running[1]?
          match C.receivers p with
          | some choice =>
            -- 514-600
            let all := sortBy (fun a b => strLe a.1 b.1) (choice.map fun b => (p ++ [':', ':'] ++ b.1, b.2))
            let s ← all.foldlM (init := (⟨idx, depth, false, g, cfsm, seen⟩ : BranchSt)) fun s b =>
              match s.seen b.1 with
              | some node => some (backEdge s prev node)
              | none => do
                let idx := if s.added then s.idx else s.idx ++ [0]
                let depth := if s.added then s.depth else s.depth + 1
                let session ← dropEnd 2 b.2
                let seen' : Seen := fun x => if x ∈ all.map (·.1) then some prev else s.seen x
                let (g, cfsm) ← auxGraph C fuel session idx prev depth seen' s.g s.cfsm
                let seen ← markGroup C s.seen b.1 prev
                some ⟨idx, depth, true, g, cfsm, seen⟩
            some (s.g, s.cfsm)
          | none => do
            let idx ← bump idx depth
            let l ← extractIndex idx depth
            let (g, n) := g.addNode l
            let next ← running[2]?
            auxGraph C fuel ((full.set (i - offset) next).set (full.length - 1) k) idx n depth seen
              (g.addEdge prev n (edgeLabel C.role '?' head p)) (cfsm ++ [(cfsmLine C.role prev i '?' p, n)])
        else none
      | [b] =>
        -- 653-764
        if b = ['R', 'o', 'l', 'e', 'B', 'r', 'o', 'a', 'd', 'c', 'a', 's', 't'] then do
          let names ← full.dropLast.foldlM (init := ([] : List Str)) fun acc x => do
            let h ← (getHead x)[0]?
            if h = ['S', 'e', 'n', 'd'] then do
              let p ← (getHead x)[1]?
              let choice ← C.receivers p
              some (acc ++ choice.map fun c => p ++ [':', ':'] ++ c.1)
            else none
          let all := sortBy strLe names
          let s ← all.foldlM (init := (⟨idx, depth, false, g, cfsm, seen⟩ : BranchSt)) fun s b =>
            match s.seen b with
            | some node => some (backEdge s prev node)
            | none => do
              let idx := if s.added then s.idx else s.idx ++ [0]
              let depth := if s.added then s.depth else s.depth + 1
              let session ← C.branching b >>= dropEnd 1
              let seen' : Seen := fun x => if x ∈ all then some prev else s.seen x
              let (g, cfsm) ← auxGraph C fuel session idx prev depth seen' s.g s.cfsm
              let seen ← markGroup C s.seen b prev
              some ⟨idx, depth, true, g, cfsm, seen⟩
          some (s.g, s.cfsm)
        else none
      | _ => none

/-- `get_graph_session`, `aux_checker.rs:777-852`. -/
def getGraphSession (fuel : Nat) (role : Str) (full : List Str) (roles : List Str)
    (receivers : Str → Option (List (Str × List Str))) (branching : Str → Option (List Str))
    (group : Str → Option Int) (groupKeys : List Str) : Option (Graph × List Str) := do
  let compareEnd := List.replicate (full.length - 1) ['E', 'n', 'd'] ++ [['R', 'o', 'l', 'e', 'E', 'n', 'd']]
  let me ← position role roles
  let (g, cfsm) ← auxGraph ⟨role, roles, me, compareEnd, receivers, branching, group, groupKeys⟩ fuel full [0] 0 0
    (fun _ => none) ⟨[Nat.toDigits 10 0], []⟩ []
  some (g, [".outputs".toList, ".state graph".toList] ++ cfsm.map (fun e => e.1 ++ Nat.toDigits 10 e.2) ++
    [".marking ".toList ++ role ++ ['0'], ".end".toList])

/-- The search for `k` in `checker`, `/repo/src/checking/mod.rs:383-399`, from `k` on; `kmc k` says whether the
external tool succeeds with bound `k`. -/
def kmcLoop (kmc : Nat → Bool) (k : Nat) : Nat :=
  if kmc k = false ∧ k < 50 then kmcLoop kmc (k + 1) else k
  termination_by 50 - k

/-- `mod.rs:383-399`: start at 1; `None` when the counter ends at 50. -/
def kmcSearch (kmc : Nat → Bool) : Option Nat :=
  let k := kmcLoop kmc 1
  if k = 50 then none else some k

end Verif.Check
