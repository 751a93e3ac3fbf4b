import Verif.Spec.EndToEnd
import Verif.Spec.NuscrSchedule
import Verif.Spec.TimedIdeal
/-!
# Specification: what a role does and when
-/
namespace Verif.EndToEnd
open Verif.Nuscr Verif.NuscrSpec Verif.Runtime

/-- What role number `r` does, with the instants. -/
def timedActs (r : Nat) (ls : List (RLabel × Nat)) : List (Mesh.Act × Nat) :=
  ls.filterMap fun a => match a.1 with
    | .sim (.act q x) => if q = r then some (x, a.2) else none
    | _ => none

/-- What a protocol without choices asks of `p`, when message number `i` is exchanged at the instant `time i`. -/
def timetable (prog : Program) (code : Params → Nat) (title : Text → Text) (p : Text) (msgs : List Msg) (time : Nat → Nat) : List (Mesh.Act × Nat) :=
  msgs.zipIdx.filterMap fun a => (does prog code title p (.exchange a.1)).map fun x => (x, time a.2)

/-- The messages written in a protocol. -/
def Plan.messages : Plan → List Msg
  | .straight _ _ msgs => msgs
  | .choice P => messagesOf P.pre ++ P.branches.flatMap (·.msgs)

/-- The windows of the program are those of the text. -/
def AsWritten (code : Params → Nat) (title : Text → Text) (V : Windows) (msgs : List Msg) : Prop :=
  ∀ m ∈ msgs, V.msg (code (written title m)) = Params.window (written title m)

end Verif.EndToEnd
