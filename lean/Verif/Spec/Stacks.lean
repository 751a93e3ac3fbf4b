import Verif.Model.Stacks
/-!
# Specification: ordering stacks

`Rest side r r'`: the stack `r` goes on with `r'` when the method for `side` is called.  `Path`: going on several times.
-/
namespace Verif.Stacks
open Verif.Types

/-- A stack with one role has `continuation`, a stack of a choice has `continuation_left` and `continuation_right`. -/
inductive Rest : Side → Stack → Stack → Prop where
  | only (a d r) : Rest .only (.role a d r) r
  | left (a d l r) : Rest .left (.toAll a d l r) l
  | right (a d l r) : Rest .right (.toAll a d l r) r

/-- Going on several times. -/
inductive Path : List Side → Stack → Stack → Prop where
  | nil (r) : Path [] r r
  | cons {s ss r r' r''} : Rest s r r' → Path ss r' r'' → Path (s :: ss) r r''

/-- What the fields of a value are declared to be, `role/a.rs:30-37`, `role/a_to_all.rs:33-44`, `role/end.rs:22-27`,
`role/broadcast.rs:22-27`, `name/a.rs:23-28`: what the senders and the receivers carry. -/
def declared : Kind → List Load × List Load
  | .stack (.role _ _ r) => ([.stack r.dual], [])
  | .stack (.toAll _ _ l r) => ([.stack l.dual, .stack r.dual], [])
  | .stack .fin => ([.unit], [.unit])
  | .stack .broadcast => ([.unit], [.unit])
  | .name _ => ([.unit], [.unit])

/-- The fields of a value have the declared types. -/
def Typed (st : Store) (x : Obj) : Prop :=
  x.senders.map (fun c => (st.chan c).map Chan.load) = (declared x.kind).1.map some ∧
  x.receivers.map (fun c => (st.chan c).map Chan.load) = (declared x.kind).2.map some

/-- A world that some program leads to. -/
def Reachable (w : World) : Prop := ∃ ops, World.init.run ops = .done w

end Verif.Stacks
