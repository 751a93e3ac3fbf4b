/-!
# Model of the `branching` attribute

`/repo/mpst_seq_proc/src/checking/branching.rs:4-29`, called at `/repo/mpst_seq_proc/src/lib.rs:425-436`.
A variant is its identifier, a list of characters.  The `println!` of line 11 is not modelled.
-/
namespace Verif.Branching

/-- The identifier of a variant (`variant.ident.to_string()`). -/
abbrev Name := List Char

/-- `String: PartialOrd`, `a < b`.  Rust compares the UTF-8 bytes, which is the order of the code points. -/
def strLt : Name → Name → Bool
  | _, [] => false
  | [], _ :: _ => true
  | a :: as, b :: bs => if a.toNat < b.toNat then true else if b.toNat < a.toNat then false else strLt as bs

/-- `names.binary_search(&name)` on a sorted vector: `none` is `Ok(_)`, found; `some i` is `Err(i)` with `i` the number
of elements below `name`.  The contract of the standard library is modelled, not its loop; the vector is sorted
whenever the call is made. -/
def binarySearch (names : List Name) (name : Name) : Option Nat :=
  if names.contains name then none else some (names.takeWhile fun x => strLt x name).length

/-- Outcome of the attribute. -/
inductive Verdict where
  /-- `Ok(())`: the item is left as it is. -/
  | accepted
  /-- "{name} should sort before {other}". -/
  | shouldSortBefore (name other : Name)
  /-- "expected enum or match expression". -/
  | notAnEnum
  /-- `unwrap_err()` of a name that was found, or an index out of bounds. -/
  | panicked
  deriving DecidableEq

/-- The loop over the variants, `branching.rs:9-22`, with `names` collected so far. -/
def loop (names : List Name) : List Name → Verdict
  | [] => .accepted
  | name :: rest =>
    if (names.getLast?.map fun last => strLt name last).getD false then
      match binarySearch names name with
      | none => .panicked
      | some i =>
        match names[i]? with
        | none => .panicked
        | some other => .shouldSortBefore name other
    else loop (names ++ [name]) rest

/-- The item the attribute is put on. -/
inductive Item where
  | enum (variants : List Name)
  | other

/-- `branching_variants`, `branching.rs:4-29`. -/
def branchingVariants : Item → Verdict
  | .enum vs => loop [] vs
  | .other => .notAnEnum

end Verif.Branching
