/-!
# Model of `mpst_seq_proc/src/common_functions/maths.rs`

The index arithmetic shared by every code generator.  `u64`/`usize` become `Nat`
(number of roles is a macro literal; overflow is out of scope), a `panic!` becomes `none`.
-/
namespace Verif.Maths

/-- A `(line, column, index)` triple, `VecOfTuple` element type. maths.rs:3 -/
abbrev Triple := Nat × Nat × Nat

/-- One update of the mutable pair `(line, column)` in the closure of `diag`.
maths.rs:15-22 (identical in `diag_w_offset`, maths.rs:92-99). `n` is `number_roles`. -/
def diagStep (n line column : Nat) : Nat × Nat :=
  if line = column then (line, column + 1)
  else if column ≥ n - 1 then (line + 1, line + 1 + 1)
  else (line, column + 1)

/-- The `(i..).map(..).collect()` loop with captured mutable `line`, `column`; `todo` iterations left.
maths.rs:13-25 and 90-102. -/
def diagLoop (n : Nat) : (todo i line column : Nat) → List Triple
  | 0, _, _, _ => []
  | todo + 1, i, line, column =>
    let (l, c) := diagStep n line column
    (l + 1, c + 1, i + 1) :: diagLoop n todo (i + 1) l c

/-- `diag(number_roles)`. maths.rs:6-26 -/
def diag (n : Nat) : List Triple :=
  let diff := n - 1
  diagLoop n (diff * (diff + 1) / 2) 0 0 0

/-- `diag_w_offset(number_roles)`: same loop over an inclusive range `0..=`. maths.rs:83-103 -/
def diagWOffset (n : Nat) : List Triple :=
  let diff := n - 1
  diagLoop n (diff * (diff + 1) / 2 + 1) 0 0 0

/-- The filter producing line `i` of the matrix. maths.rs:36-44, 113-122 -/
def matrixRow (d : List Triple) (i : Nat) : List Triple :=
  d.filterMap fun t => if i = t.1 ∨ i = t.2.1 then some (t.1, t.2.1, t.2.2) else none

/-- `diag_and_matrix(number_roles)`, `.1` the matrix, `.2` the diag. maths.rs:29-49 -/
def diagAndMatrix (n : Nat) : List (List Triple) × List Triple :=
  let d := diag n
  ((List.range' 1 n).map (matrixRow d), d)

/-- `diag_and_matrix_w_offset(number_roles)`. maths.rs:106-127 -/
def diagAndMatrixWOffset (n : Nat) : List (List Triple) × List Triple :=
  let d := diagWOffset n
  ((List.range' 1 n).map (matrixRow d), d)

/-- `get_tuple_matrix(matrix, i, j)`; `none` is the panic (also for `i = 0` or `j = 0`, where
`i - 1` underflows). maths.rs:52-70 -/
def getTupleMatrix (m : List (List Triple)) (i j : Nat) : Option Triple :=
  if i = 0 ∨ j = 0 then none
  else match m[i - 1]? with
    | none => none
    | some list => list[j - 1]?

/-- `get_line_column_from_diag(diag, index)`: first entry with the index. maths.rs:73-80 -/
def getLineColumnFromDiag : List Triple → Nat → Option (Nat × Nat)
  | [], _ => none
  | t :: ts, index => if t.2.2 = index then some (t.1, t.2.1) else getLineColumnFromDiag ts index

/-- `get_tuple_diag(diag, i)`. maths.rs:130-139 -/
def getTupleDiag (d : List Triple) (i : Nat) : Option Triple :=
  if i = 0 then none else d[i - 1]?

end Verif.Maths
