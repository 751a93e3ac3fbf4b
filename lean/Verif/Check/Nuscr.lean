import Verif.Model.NuscrText
import Verif.Model.NuscrFile
import Verif.Prop.C48
/-!
# Tests of the model of the generator of Rust from timed nuScr protocols

Not proofs: the model is run on protocols of the repository and its results printed as the code prints them and
compared with the generated files kept in the repository.  The code goes through hash maps, so the order of the items
differs from run to run: items are compared as multisets.  Headings, imports and `main` are not compared.
-/
namespace Verif.NuscrTest
open Verif.Nuscr Verif.NuscrText Verif.Prop Verif.NuscrTextSpec

def txt (t : Text) : String := String.ofList t
def bool (x : Bool) : String := if x then "true" else "false"

def params (p : Params) : String :=
  s!"{txt p.message}, '{txt p.clock}', {txt p.left}, {bool p.leftIncl}, {txt p.right}, {bool p.rightIncl}, '{txt p.reset}'"

def rhs : Rhs → String
  | .send p n => s!"SendTimed<{params p}, {txt n}>"
  | .recv p n => s!"RecvTimed<{params p}, {txt n}>"
  | .sendChoice c => s!"SendTimed<{txt c}, ' ', -2, false, -1, false, ' ', End>"
  | .recvChoice c => s!"RecvTimed<{txt c}, ' ', -2, false, -1, false, ' ', End>"
  | .fin => "End"

def stack : StackRhs → String
  | .role o n => s!"Role{txt o}<{txt n}>"
  | .last o => s!"Role{txt o}<RoleEnd>"
  | .broadcast => "RoleBroadcast"
  | .fin => "RoleEnd"

def lower (t : Text) : Text := t.map Char.toLower

/-- `to_title_case` on the words of the test protocols. -/
def title : Text → Text
  | [] => []
  | c :: r => c.toUpper :: r

def white (c : Char) : Bool := c == ' ' || c == '\t'

def inserts (cs : List Text) : String := String.join (cs.map fun c => s!" all_clocks.insert('{txt c}', Instant::now());")

/-- The items of the generated file. -/
def items (lines : List Text) : Option (List String) :=
  match generatorText title ascii lines, structs title white id (fun _ x => x) (lines.map (lineOf ascii)),
      bodies title (lines.map (lineOf ascii)) with
  | .ok p, .ok ss, .ok bs => some <|
    p.sessions.map (fun d => s!"type {txt d.1} = {rhs d.2};") ++
    p.stacks.map (fun d => s!"type {txt d.1} = {stack d.2};") ++
    p.enums.flatMap (fun d => s!"enum {txt d.1} \{" :: d.2.map (fun v => s!"{txt v.1}({txt v.2}),")) ++
    p.endpoints.map (fun e =>
      s!"type {txt e.1} = MeshedChannels<{", ".intercalate (e.2.1.map txt)}, {txt e.2.2.1}, {txt e.2.2.2}>;") ++
    (p.functions.zip bs).map (fun f =>
      s!"fn {txt (fnName lower f.1.1)}(s: {txt f.1.2}, all_clocks: &mut HashMap<char, Instant>) " ++
      s!"-> Result<(), Box<dyn Error>> \{{inserts f.2.2}") ++
    ss.map (fun s => match s.2 with
      | none => s!"struct {txt s.1};"
      | some t => s!"struct {txt s.1} \{ payload: {txt t} }")
  | _, _, _ => none

def sameFile (protocol : List String) (expected : List String) : Bool :=
  (items (protocol.map String.toList)).elim false fun l => l.isPerm expected

def refused (protocol : List String) : Bool := (items (protocol.map String.toList)).isNone

end Verif.NuscrTest
