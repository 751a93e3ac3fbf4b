import Verif.Model.Indexed
/-!
# Specification: a function made by a macro compiles, and uses one session

`Compiles m f` is how Rust reads the emitted function when the mesh was declared for `m` roles: the type of `s` has the
right number of arguments, the statements are well-typed from the declared types of `x` and `s`, and what is given back
has the declared type.  Types are read in the same way as values, with the calls of `tyOps`.
-/
namespace Verif.Indexed

/-- The types of the calls: `send: T, Send<T, S> -> S`, `send_canceled: T, Send<T, S> -> Result<S, _>`,
`recv: Recv<T, S> -> Result<(T, S), _>`, the field `receiver` of `End`, `continuation` of `role<r>` and
`continuation_left` of `role<l, r>`. -/
def tyOps : Ops Empty Ty Pay Stk where
  poll | .fin => some (.ok ()) | _ => none
  send x | .send t s => if t = x then some (.ok s) else none | _ => none
  sendCanceled x | .send t s => if t = x then some (.ok s) else none | _ => none
  recv | .recv t s => some (.ok (t, s)) | _ => none
  pop | .role _ r => some r | _ => none
  popLeft | .two _ l _ => some l | _ => none

/-- Fields `session1`, `session2`, ... -/
def fieldsOf {α : Type} (l : List α) : List (Nat × α) := (List.range' 1 l.length).zip l

/-- The value given back has the declared type, of a mesh for `m` roles. -/
def Ret.fits (m : Nat) (name : Str) (out : Out Ty Pay Stk) : Ret → Prop
  | .mesh ss q => ss.length = m - 1 ∧ out.mesh.Perm (fieldsOf ss) ∧ out.stack = q
  | .pair ss q => ss.length = m - 1 ∧ out.mesh.Perm (fieldsOf ss) ∧ out.stack = q ∧ out.got = some .T
  | .branches l ql r qr => l.length = m - 1 ∧ r.length = m - 1 ∧
      (out.mesh.map Prod.fst).Perm (List.range' 1 (m - 1)) ∧ out.got = some (.either l ql r qr name)

/-- The emitted function compiles beside a mesh declared for `m` roles. -/
def Compiles (m : Nat) (f : Fn) : Prop :=
  f.sessions.length = m - 1 ∧ ∃ out, f.call tyOps (if f.arg then some .T else none) f.sessions f.stack = some (.ok out) ∧
    f.ret.fits m f.name out

end Verif.Indexed
