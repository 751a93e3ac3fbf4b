import Verif.Model.CheckGraph
import Verif.Model.NuscrText

/-!
# Model of the cleaning of type names and of the checker as a whole

`/repo/src/checking/aux_checker.rs:43-136`, `/repo/src/checking/mod.rs:78-256`, `299-418`, and the maps built by the
generated code of `/repo/mpst_seq_proc/src/checking/aux_checking.rs` and `aux_checking_impl.rs`.  Regular expressions are
those of `Model/NuscrText.lean` (documented semantics of the crate `regex`), with other classes.  `none` is a panic or an
error.  Hash maps are lists of pairs with different keys.
-/
namespace Verif.Check
open Verif.NuscrText (Rx Classes Group seqs lit plus searchAll Caps)

/-- `str::replace` for a non-empty pattern: from left to right, without overlap; `skip` characters of an occurrence
already replaced are still to be left out. -/
def replaceFrom (pat new : Str) : Nat → Str → Str
  | _, [] => []
  | skip + 1, _ :: t => replaceFrom pat new skip t
  | 0, c :: t =>
    if pat.isPrefixOf (c :: t) then new ++ replaceFrom pat new (pat.length - 1) t else c :: replaceFrom pat new 0 t

def replaceAll (pat new s : Str) : Str := replaceFrom pat new 0 s

/-- The classes used in `clean_session`: `[^<,>\s]` as `word`, `[[:alpha:]]` (ASCII letters) as `digit`. -/
def cleanClasses : Classes where
  word := fun c => !(c == '<' || c == ',' || c == '>' || isWs c)
  digit := fun c => (65 ≤ c.toNat && c.toNat ≤ 90) || (97 ≤ c.toNat && c.toNat ≤ 122)

/-- `([^<,>\s]+)::([^<,>\s]+)`, `aux_checker.rs:47`; `choice` is the whole match, `message` the last group. -/
def rxPath : Rx := .cap .choice (seqs [.cap .name (plus (.cls .word)), lit [':', ':'], .cap .message (plus (.cls .word))])

/-- `Name([[:alpha:]]+)`, `aux_checker.rs:55`. -/
def rxName : Rx := .cap .choice (seqs [lit ['N', 'a', 'm', 'e'], .cap .message (plus (.cls .digit))])

/-- `captures_iter`. -/
def captures (r : Rx) (s : Str) : List Caps := searchAll cleanClasses r (s.length + 1) s

/-- `Role{}<RoleEnd>`, `aux_checker.rs:62`. -/
def roleText (x : Str) : Str := ['R', 'o', 'l', 'e'] ++ x ++ ['<', 'R', 'o', 'l', 'e', 'E', 'n', 'd', '>']

/-- `aux_checker.rs:44-52`: every match of the path expression in the text as given is replaced everywhere. -/
def stripPaths (s : Str) : Str :=
  (captures rxPath s).foldl (fun t c => replaceAll (c.get .choice) (c.get .message) t) (s.filter (· != '&'))

/-- `aux_checker.rs:55-63`. -/
def nameToRole (s : Str) : Str :=
  (captures rxName s).foldl (fun t c => replaceAll (c.get .choice) (roleText (c.get .message)) t) s

/-- `clean_session`, `aux_checker.rs:43-82`: then white space is removed, and fields and name are taken. -/
def cleanSession (s : Str) : Option (List Str) :=
  cleanBlocks ((nameToRole (stripPaths s)).filter fun c => !isWs c)

/-- `HashMap::insert`. -/
def put {α : Type} (m : List (Str × α)) (k : Str) (v : α) : List (Str × α) := m.filter (fun e => e.1 != k) ++ [(k, v)]

/-- `HashMap::get`. -/
def look {α : Type} (m : List (Str × α)) (k : Str) : Option α := (m.find? fun e => e.1 == k).map (·.2)

/-- `dedup()`: repetitions next to each other are removed. -/
def dedup : List Str → List Str
  | [] => []
  | [a] => [a]
  | a :: b :: l => if a = b then dedup (b :: l) else a :: dedup (b :: l)

/-- The variables of the loop of `clean_sessions`: `roles`, `all_sessions`, `size_sessions`. -/
structure CleanSt where
  roles : List Str
  all : List (Str × List Str)
  size : Nat

/-- `clean_sessions`, `aux_checker.rs:91-136`. -/
def cleanSessions (sessions : List Str) : Option (List (Str × List Str) × List Str) := do
  let st ← sessions.foldlM (init := (⟨[], [], 0⟩ : CleanSt)) fun st s => do
    let full ← cleanSession s
    let name ← full.getLast?
    let body ← dropEnd 2 full
    some ⟨st.roles ++ [name], put st.all name body, full.length - 2⟩
  if st.roles.length ≠ st.size then none else some (st.all, dedup (sortBy strLe st.roles))

/-- `checker`, `mod.rs:299-418`.  The graphs of the roles; the lines of the file, if it has a name; the bound found.
`kmc` stands for the external tool: does it succeed on this file with this bound? -/
def checker (fuel : Nat) (kmc : List Str → Nat → Bool) (nameFile : Str) (sessions : List Str)
    (branchesReceivers : List (Str × List (Str × Str))) (branchingSessions : List (Str × Str))
    (groupBranches : List (Str × Int)) : Option (List (Str × Graph) × Option (List Str) × Option Nat) := do
  let (clean, roles) ← cleanSessions sessions
  -- 311-321
  let receivers ← branchesReceivers.mapM fun c => do
    let bs ← c.2.mapM fun b => do
      let full ← cleanSession b.2
      some (b.1, full)
    some (c.1, bs)
  -- 324-334
  let branching ← branchingSessions.mapM fun b => do
    let full ← cleanSession b.2
    let body ← dropEnd 1 full
    some (b.1, body)
  -- 349-366, 405-415
  let out ← clean.mapM fun r => do
    let (g, cfsm) ← getGraphSession fuel r.1 r.2 roles (look receivers) (look branching) (look groupBranches)
      (groupBranches.map (·.1))
    some (r.1, g, cfsm)
  let graphs := out.map fun r => (r.1, r.2.1)
  if nameFile = [] then some (graphs, none, none)
  else
    -- 346, 363-378
    let file := roles.flatMap fun r => (((out.find? fun o => o.1 == r).map fun o => o.2.2).getD [[]]) ++ [[]]
    some (graphs, some file, kmcSearch (kmc file))

/-- A group of branches in the call of `checker_concat!`: the type of the chooser, as `type_name` gives it, then pairs of an
enum and a branch. -/
structure BranchGroup where
  stack : Str
  cells : List (Str × Str)

/-- `{choice}::{branch}`. -/
def cellText (c : Str × Str) : Str := c.1 ++ [':', ':'] ++ c.2

/-- `branching_sessions`, `mod.rs:147-163`. -/
def branchingOf (groups : List BranchGroup) : List (Str × Str) :=
  groups.foldl (fun m g => g.cells.foldl (fun m c => put m (cellText c) g.stack) m) []

/-- `group_branches`, `mod.rs:145`, `165-176`. -/
def groupsOf (groups : List BranchGroup) : List (Str × Int) :=
  (groups.zipIdx).foldl (fun m g => g.1.cells.foldl (fun m c => put m (cellText c) (g.2 : Int)) m) []

/-- The `choices` of `checking!` and `checking_impl!`: for each enum the branches, in order (`aux_checking.rs:43-58`). -/
def choicesOf (groups : List BranchGroup) : List (Str × List Str) :=
  (groups.flatMap BranchGroup.cells).foldl (fun m c => put m c.1 ((look m c.1).getD [] ++ [c.2])) []

/-- `branches_receivers`: for each enum the map built by the function generated for it, from branches to the text
`type_of(&s)` of what the variant holds (`aux_checking.rs:68-86`, `aux_checking_impl.rs:71-140`); `variant` is that text.
Functions are named after the enums in lower case: that these differ is up to the compiler. -/
def receiversOf (variant : Str → Str → Str) (groups : List BranchGroup) : List (Str × List (Str × Str)) :=
  (choicesOf groups).map fun c => (c.1, c.2.foldl (fun m b => put m b (variant c.1 b)) [])

/-- `checker_concat!`, `mod.rs:83-201`. -/
def checkerConcat (fuel : Nat) (kmc : List Str → Nat → Bool) (nameFile : Str) (sessions : List Str)
    (variant : Str → Str → Str) (groups : List BranchGroup) :
    Option (List (Str × Graph) × Option (List Str) × Option Nat) :=
  checker fuel kmc nameFile sessions (receiversOf variant groups) (branchingOf groups) (groupsOf groups)

end Verif.Check
