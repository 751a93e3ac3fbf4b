import Verif.Spec.Holders
/-!
# Model of `select`, `select_mut` (/repo/src/binary/select.rs) and `attempt!` (/repo/src/attempt.rs)
-/
namespace Verif.Select
open Verif.Types Verif.Heap

/-- `Vec::swap_remove(i)`, the vector left: the last element takes the place of the removed one. -/
def swapRemove {α : Type} (l : List α) (i : Nat) : List α :=
  match l.getLast? with
  | none => []
  | some a => (l.set i a).dropLast

/-- Result of `select_mut`: `Err(EmptyVec)`, or the outcome of a receive. -/
inductive SelRes where
  | emptyVec
  | out (o : Out)
  deriving DecidableEq, Repr

/-- All endpoints of the vector are in the caller's hands. -/
def Owned {P : Type} [DecidableEq P] (st : St P) (es : List (Entry P)) : Prop := ∀ x, es.count x ≤ st.pool.count x

/-- `select_mut(&mut rs)`, select.rs:47-81: `SelectMut G es st r rest st'`: called on the vector `es` in state `st`, it
returns `r`, leaving the vector `rest` in state `st'`.
`sel.ready()` (line 62) may return any index, also one that is not ready (spurious wake-up, or overtaken); then
`try_recv` finds the channel empty and the loop goes round (lines 65-69).  Between any two actions other
threads run (`Steps`); the caller keeps the vector.
Simplification: the message is taken (line 63) and the endpoint dropped (line 75) in one step. -/
inductive SelectMut {P : Type} [DecidableEq P] (G : Env P) (es : List (Entry P)) :
    St P → SelRes → List (Entry P) → St P → Prop
  | empty {st : St P} : es = [] → SelectMut G es st .emptyVec [] st
  | spin {st st1 st2 st' : St P} {i : Nat} {e : Entry P} {r : SelRes} {rest : List (Entry P)} :
      Steps G st st1 → Owned st1 es → es[i]? = some e →
      step G st1 (.recv e) = some (st2, .block) →
      SelectMut G es st2 r rest st' → SelectMut G es st r rest st'
  | hit {st st1 st2 : St P} {i : Nat} {e : Entry P} {o : Out} :
      Steps G st st1 → Owned st1 es → es[i]? = some e →
      step G st1 (.recv e) = some (st2, o) → o ≠ .block →
      SelectMut G es st (.out o) (swapRemove es i) st2

end Verif.Select

namespace Verif.Attempt

/-- The expression built by `attempt!`: a statement of the block, or `a.and_then(|_| b)`. -/
inductive Ex (α : Type) where
  | stmt (a : α)
  | andThen (a b : Ex α)

/-- Rule `@recurse ($a) { $e; $tail } => @recurse ($a.and_then(|_| $e)) { $tail }`, attempt.rs:41-46. -/
def recurse {α : Type} (a : Ex α) : List α → Ex α
  | [] => a
  | e :: tail => recurse (.andThen a (.stmt e)) tail

/-- First rule, attempt.rs:47-49; an empty block matches no rule. -/
def expand {α : Type} : List α → Option (Ex α)
  | [] => none
  | e :: tail => some (recurse (.stmt e) tail)

/-- A statement: changes the world and returns a `Result`. -/
abbrev Stmt (σ ε ν : Type) := σ → σ × Except ε ν

/-- Evaluation; `Result::and_then` evaluates the closure only on `Ok`. -/
def eval {σ ε ν : Type} : Ex (Stmt σ ε ν) → σ → σ × Except ε ν
  | .stmt f, s => f s
  | .andThen a b, s =>
    match eval a s with
    | (s1, .ok _) => eval b s1
    | (s1, .error e) => (s1, .error e)

/-- `if let Err(e) = <chain> <block>`, attempt.rs:42: the value of the whole macro is `()`. -/
def attempt {σ ε ν : Type} (stmts : List (Stmt σ ε ν)) (handler : ε → σ → σ) (s : σ) : Option σ :=
  (expand stmts).map fun x =>
    match eval x s with
    | (s1, .ok _) => s1
    | (s1, .error e) => handler e s1

end Verif.Attempt
