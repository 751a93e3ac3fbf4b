import Verif.Spec.TimedText
/-!
# Specification: executions of a text at given instants

Read from the text and the clocks of the roles alone.
-/
namespace Verif.Runtime
open Verif.Types (Window)

/-- The window the generator writes for choices, /repo/src/top_down_nuscr/auxiliary_objects/process_line.rs:258,280,430,454: no bounds,
nothing to reset. -/
def free : Window := ⟨' ', -2, false, -1, false, ' '⟩

/-- The choices are not timed. -/
def FreeChoices (V : Windows) : Prop := ∀ p q bs, V.choice p q bs = free

end Verif.Runtime

namespace Verif.EndToEnd
open Verif.Nuscr Verif.NuscrSpec Verif.Runtime
open Verif.Timed (Clocks)

/-- `p` takes part in what happens: everybody takes part in a choice. -/
def Happening.of (p : Text) : Happening → Bool
  | .exchange m => decide (m.sender = p ∨ m.receiver = p)
  | .choice _ _ => true

/-- The same things happen, perhaps in another order, but for each role in the same order. -/
def SameFor (roles : List Text) (tr tr' : List Happening) : Prop :=
  tr.Perm tr' ∧ ∀ p ∈ roles, tr.filter (Happening.of p) = tr'.filter (Happening.of p)

/-- The clock value `v`, in nanoseconds, is in the window written in the message; above an exclusive lower bound by a second at least (what the
code accepts, C19). -/
def InBounds (m : Msg) (v : Nat) : Prop :=
  (if m.leftBracket = .opening then value m.leftBound * 1000000000 ≤ v else (value m.leftBound + 1) * 1000000000 ≤ v) ∧
  (if m.rightBracket = .closing then v ≤ value m.rightBound * 1000000000 else v < value m.rightBound * 1000000000)

/-- At the instant `t` a role with the clocks `cl` may exchange the message: its clock, named by the first character, is there and in the window, and the clock to reset is there. -/
def MayExchange (cl : Clocks) (m : Msg) (t : Nat) : Prop :=
  (∃ c, cl (m.clock.headD ' ') = some c ∧ InBounds m (t - c)) ∧
  (∀ x, m.reset = some x → x.headD ' ' ≠ ' ' → ∃ c, cl (x.headD ' ') = some c)

/-- The clocks of a role after the message. -/
def resetBy (m : Msg) (t : Nat) (cl : Clocks) : Clocks := fun y =>
  match m.reset with
  | some x => if y = x.headD ' ' ∧ y ≠ ' ' then some t else cl y
  | none => cl y

/-- From the instant `now` on, these things can happen one after the other at these instants. -/
inductive Permitted : (Text → Clocks) → Nat → List (Happening × Nat) → Prop
  | nil {cl now} : Permitted cl now []
  | exchange {cl now m t L} : now ≤ t → MayExchange (cl m.sender) m t → MayExchange (cl m.receiver) m t →
      Permitted (fun p => if p = m.sender ∨ p = m.receiver then resetBy m t (cl p) else cl p) t L →
      Permitted cl now ((.exchange m, t) :: L)
  | choice {cl now x i t L} : now ≤ t → Permitted cl t L → Permitted cl now ((.choice x i, t) :: L)

/-- The program of `s` can be carried out from the instant `t₀` with the clocks `cl` so that each role does its part of these things, each at its instant, and returns from `close`;
no call is late. -/
def CarriedOut (prog : Program) (code : Params → Nat) (title : Text → Text) (V : Windows) (s : Plan) (cl : Text → Clocks) (t₀ : Nat) (L : List (Happening × Nat)) : Prop :=
  ∃ (ls : List (RLabel × Nat)) (σ : Nat → TS),
    (TStart (system prog code title s) 0 (σ 0) ∧ (∀ p ∈ s.roles, (σ 0).clocks (number prog p) = cl p) ∧ (σ 0).now = t₀) ∧
    (∀ k l m, ls[k]? = some (l, m) →
      TStep (system prog code title s) V (σ k) (.go l) (σ (k + 1)) ∧ (σ (k + 1)).now = m ∧ OnTime V (σ k) l m) ∧
    (∀ p ∈ s.roles, (σ ls.length).fs.pos (number prog p) = .closed ∧
      timedActs (number prog p) ls = L.filterMap fun a => (does prog code title p a.1).map fun x => (x, a.2))

/-- The clock value `v`, in nanoseconds, is in the interval written in the message. -/
def InInterval (m : Msg) (v : Nat) : Prop :=
  (if m.leftBracket = .opening then value m.leftBound * 1000000000 ≤ v else value m.leftBound * 1000000000 < v) ∧
  (if m.rightBracket = .closing then v ≤ value m.rightBound * 1000000000 else v < value m.rightBound * 1000000000)

/-- The message resets the clock `y`. -/
def Resets (m : Msg) (y : Char) : Prop := ∃ x, m.reset = some x ∧ y = x.headD ' ' ∧ y ≠ ' '

/-- Role `p`, whose clocks are `cl` and whose last call returned at `last`, may have had its part in these things, each at its instant, one call after
the other: for each message there was an instant `u` of the call, not after the transfer, at which the clock named was in the interval written; and no clock was
changed but the one the message resets, if at all after the transfer and before the call returned at `d`. -/
inductive Diary (p : Text) : Clocks → Nat → List (Happening × Nat) → Prop
  | nil {cl last} : Diary p cl last []
  | choice {cl last d x i t L} : last ≤ d → Diary p cl d L → Diary p cl last ((.choice x i, t) :: L)
  | exchange {cl cl' last d m c u t L} : Involved p m → cl (m.clock.headD ' ') = some c → last ≤ u → u ≤ t → u ≤ d → InInterval m (u - c) →
      (∀ y, cl' y = cl y ∨ (Resets m y ∧ ∃ i, cl' y = some i ∧ t ≤ i ∧ i ≤ d)) → Diary p cl' d L → Diary p cl last ((.exchange m, t) :: L)

/-- What role number `r` does during the first `k` moments of a schedule, with the instants. -/
def stamped (σ : Nat → TS) (lab : Nat → Option TLabel) (r k : Nat) : List (Mesh.Act × Nat) :=
  (List.range k).filterMap fun j => match lab j with
    | some (.go (.sim (.act q a))) => if q = r then some (a, (σ (j + 1)).now) else none
    | _ => none

/-- The messages exchanged. -/
def exchanged (tr : List Happening) : List Msg := tr.filterMap fun | .exchange m => some m | .choice _ _ => none

end Verif.EndToEnd
