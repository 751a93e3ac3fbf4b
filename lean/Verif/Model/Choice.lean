import Verif.Spec.Holders
/-!
# Binary choice, as sequences of API calls

`choose_left`, `choose_right`, `choose!`, `offer_either` and `offer!` are ordinary functions made of several
calls.  Other threads may run between two of these calls, which `Steps` allows.
-/
namespace Verif.Choice
open Verif.Types Verif.Heap

/-- `choose_left` (`/repo/src/binary/choose.rs:17-26`, tag 0), `choose_right` (`:30-39`, tag 1) and
`choose!(label, s)` (`:44-50`, tag of the label): `let (here, there) = S::new(); let s = send(label(there),
s); cancel(s); here`.  The type `Choose<S1, S2> = Send<Either<S1::Dual, S2::Dual>, End>` (`:13`) is the
type of `e`; `t` is the `Either` (or `enum`) whose variant `tag` holds an endpoint of type `S::Dual`.
From `st` to `st'`; `here` is what the caller gets. -/
inductive Chooses {P : Type} [DecidableEq P] (G : Env P) (e : Entry P) (tag : Nat) (s : STy P) :
    St P → EP → St P → Prop
  | mk {st st1 st2 st3 st4 st5 : St P} {here there : EP} {k : Entry P} {o1 o2 o3 : Out} {d : Nat} {r : List (Entry P)} :
      step G st (.new s) = some (st1, o1) →
      st1.pool = ⟨here, s⟩ :: ⟨there, s.dual⟩ :: r →
      Steps G st1 st2 →
      step G st2 (.send e ⟨tag, d, [there]⟩) = some (st3, o2) →
      st3.pool.head? = some k →
      Steps G st3 st4 →
      step G st4 (.drop k) = some (st5, o3) →
      Chooses G e tag s st here st5

/-- `offer_either` (`/repo/src/binary/offer.rs:19-33`) and `offer!` (`:37-50`): `let (l, s) = recv(s)?;
cancel(s); match l { .. }`.  `tag` selects the branch, which continues with `there`; the continuation `k`
is dropped. -/
inductive Offers {P : Type} [DecidableEq P] (G : Env P) (e : Entry P) : St P → Nat → EP → St P → Prop
  | mk {st st1 st2 st3 : St P} {v : Val} {there k : EP} {o : Out} :
      step G st (.recv e) = some (st1, .value v) →
      v.eps = [there] →
      ⟨k, .fin⟩ ∈ st1.pool →
      Steps G st1 st2 →
      step G st2 (.drop ⟨k, .fin⟩) = some (st3, o) →
      Offers G e st v.tag there st3

end Verif.Choice
