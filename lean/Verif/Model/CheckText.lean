/-!
# Model of the text functions of the bottom-up checker

Rust strings are lists of characters.  `none` is a panic.
-/
namespace Verif.Check

abbrev Str := List Char

/-- `char::is_whitespace`: the Unicode `White_Space` characters. -/
def isWs (c : Char) : Bool :=
  let n := c.toNat
  (9 ≤ n && n ≤ 13) || n == 0x20 || n == 0x85 || n == 0xA0 || n == 0x1680 || (0x2000 ≤ n && n ≤ 0x200A) ||
    n == 0x2028 || n == 0x2029 || n == 0x202F || n == 0x205F || n == 0x3000

/-- The variables of the loop of `get_blocks`, `/repo/src/checking/aux_checker.rs:155-159`. -/
structure Scan where
  index : Int
  temp : Str
  result : List Str

/-- One iteration of the loop of `get_blocks`, `aux_checker.rs:162-181`, branch by branch. -/
def Scan.next (s : Scan) (i : Char) : Scan :=
  if i = '&' ∨ isWs i = true then s
  else if i = '>' ∧ s.index = 0 then { s with result := s.result ++ [s.temp], temp := [] }
  else if i = '<' ∧ s.index ≥ 0 then { s with temp := s.temp ++ [i], index := s.index + 1 }
  else if i = '>' ∧ s.index ≥ 0 then { s with temp := s.temp ++ [i], index := s.index - 1 }
  else if i = ',' ∧ s.index = 0 then { s with result := s.result ++ [s.temp], temp := [] }
  else if s.index ≥ 0 then { s with temp := s.temp ++ [i] }
  else if i = '<' then { s with index := s.index + 1 }
  else if i = '>' then { s with index := s.index - 1 }
  else s

/-- `get_blocks`, `aux_checker.rs:154-192`. -/
def getBlocks (full : Str) : List Str :=
  let s := full.foldl Scan.next ⟨-1, [], []⟩
  if s.temp = [] then s.result else s.result ++ [s.temp.dropLast]

/-- `get_head_payload_continuation`, `aux_checker.rs:196-209`; `split('<')[0]` is the text before the
first `<`. -/
def getHead (full : Str) : List Str :=
  if full = ['E', 'n', 'd'] then [['E', 'n', 'd']]
  else if full = ['R', 'o', 'l', 'e', 'E', 'n', 'd'] then [['R', 'o', 'l', 'e', 'E', 'n', 'd']]
  else full.takeWhile (· ≠ '<') :: getBlocks full

/-- `build_dual`, `aux_checker.rs:237-256`.  The recursion is on a strictly shorter text whenever it is
meaningful; the model bounds the depth by `fuel` (see `buildDual`). -/
def buildDualAux : Nat → Str → Option Str
  | 0, _ => none
  | fuel + 1, session =>
    if session = ['E', 'n', 'd'] then some session
    else
      let fields := getHead session
      if fields[0]? = some ['R', 'e', 'c', 'v'] then
        match fields[1]?, fields[2]? with
        | some p, some k => (buildDualAux fuel k).map fun d =>
            ['S', 'e', 'n', 'd', '<'] ++ p ++ [','] ++ d ++ ['>']
        | _, _ => none
      else if fields[0]? = some ['S', 'e', 'n', 'd'] then
        match fields[1]?, fields[2]? with
        | some p, some k => (buildDualAux fuel k).map fun d =>
            ['R', 'e', 'c', 'v', '<'] ++ p ++ [','] ++ d ++ ['>']
        | _, _ => none
      else none

/-- `build_dual` with enough fuel. -/
def buildDual (session : Str) : Option Str := buildDualAux (session.length + 1) session

/-- `extract_index_node`, `aux_checker.rs:215-233`: the first `depth + 1` components separated by dots.
Numbers are printed in base ten.  The slice `[1..=depth_level]` panics when out of range. -/
def extractIndex (idx : List Nat) (depth : Nat) : Option Str :=
  if idx.length < depth then none
  else match idx with
    | [] => none
    | [a] => some (Nat.toDigits 10 a)
    | a :: rest =>
      if depth ≤ rest.length then
        some ((rest.take depth).foldl (fun s n => s ++ '.' :: Nat.toDigits 10 n) (Nat.toDigits 10 a))
      else none

end Verif.Check
