import Verif.Model.CheckGraph

/-!
# Model of the top-down generator: from a timed *nuscr* protocol to Rust session types

`/repo/src/top_down_nuscr/`.  A line of the input is given by what the code observes of it: its numbers of `{` and `}`,
whether it is empty, and the captures of the regular expression that matches it (`Kind`).  The regular expressions of
`regex_nuscr.rs` are in `Model/NuscrText.lean`.  Hash maps are functions, or lists where their keys are enumerated.
The names in the file, with the imports, are in `NuscrFile.lean`.  The call of the external tool `nuscr`
(`generate_regular_protocol.rs`) is in `NuscrRegular.lean`.  Errors of the file system are not modelled.
-/
namespace Verif.Nuscr

abbrev Text := List Char

/-- Why the generator stops.  All but `panicked` and `fuel` are `Err`; `fuel` never occurs (`fuel_enough`). -/
inductive Fault where
  | tooManyClosing | nested | notTimed | unknownRole | sameRole | unsoundBounds | wrongInterval | notFeasible
  | noLoop | unbalanced | noOutput | panicked | fuel
  deriving DecidableEq

/-- `get(..).unwrap()`. -/
def unwrap {α : Type} : Option α → Except Fault α
  | some a => .ok a
  | none => .error .panicked

/-- Decimal digits of a number, the last `fuel` ones at most. -/
def decFuel : Nat → Nat → Text
  | 0, _ => []
  | fuel + 1, n => if n < 10 then [Char.ofNat (48 + n)] else decFuel fuel (n / 10) ++ [Char.ofNat (48 + n % 10)]

/-- Decimal text of a number, `to_string()`. -/
def dec (n : Nat) : Text := decFuel (n + 1) n

/-- `join("_")` of the texts of an index, e.g. `messages_and_stacks_update/mod.rs:21-25`. -/
def indexText : List Nat → Text
  | [] => []
  | [n] => dec n
  | n :: ns => dec n ++ '_' :: indexText ns

/-- The brackets `[` and `]` of a window. -/
inductive Bracket where
  | opening | closing
  deriving DecidableEq

/-- The captures of a line that is a message, `regex_nuscr.rs:20-34`, `line_is_message.rs:22-31,74-87`: `reset` is the
content of `resetting (..)`, none if it is empty; `payload` is the one of the parentheses after the label, `89-165`, empty
if there is none. -/
structure Msg where
  sender : Text
  receiver : Text
  message : Text
  clock : Text
  leftBound : Text
  leftBracket : Bracket
  rightBound : Text
  rightBracket : Bracket
  reset : Option Text
  payload : Text
  deriving DecidableEq

/-- `MessageParameters.reset`, a blank when there is none, `line_is_message.rs:86,100,125`. -/
def Msg.resetText (m : Msg) : Text := m.reset.getD [' ']

/-- The right-hand side of a generated session type.  `Params` are the type parameters of `SendTimed` and `RecvTimed`
before the continuation. -/
structure Params where
  message : Text
  clock : Text
  left : Text
  leftIncl : Bool
  right : Text
  rightIncl : Bool
  reset : Text
  deriving DecidableEq

inductive Rhs where
  /-- `SendTimed<.., next>` -/
  | send (p : Params) (next : Text)
  /-- `RecvTimed<.., next>` -/
  | recv (p : Params) (next : Text)
  /-- `SendTimed<Choice.., ' ', -2, false, -1, false, ' ', End>` -/
  | sendChoice (choice : Text)
  /-- `RecvTimed<Choice.., ' ', -2, false, -1, false, ' ', End>` -/
  | recvChoice (choice : Text)
  /-- `End` -/
  | fin
  deriving DecidableEq

/-- The right-hand side of a generated stack type. -/
inductive StackRhs where
  /-- `Role{other}<next>` -/
  | role (other : Text) (next : Text)
  /-- `Role{other}<RoleEnd>` -/
  | last (other : Text)
  /-- `RoleBroadcast` -/
  | broadcast
  /-- `RoleEnd` -/
  | fin
  deriving DecidableEq

/-- `Message_{idx}_v_{n}_From{s}To{r}`, `sender_messages.rs:17,41`. -/
def messageName (idx : Text) (n : Nat) (s r : Text) : Text :=
  ['M', 'e', 's', 's', 'a', 'g', 'e', '_'] ++ idx ++ ['_', 'v', '_'] ++ dec n ++ ['_', 'F', 'r', 'o', 'm'] ++ s
    ++ ['T', 'o'] ++ r

/-- `Ordering_{idx}_v_{n}_For{r}`, `sender_stacks.rs:15,28`. -/
def orderingName (idx : Text) (n : Nat) (r : Text) : Text :=
  ['O', 'r', 'd', 'e', 'r', 'i', 'n', 'g', '_'] ++ idx ++ ['_', 'v', '_'] ++ dec n ++ ['_', 'F', 'o', 'r'] ++ r

/-- `Choice_{idx}_From{s}To{r}`, `process_line.rs:241,263`, `code_generate/enums.rs:37`. -/
def choiceName (idx s r : Text) : Text :=
  ['C', 'h', 'o', 'i', 'c', 'e', '_'] ++ idx ++ ['_', 'F', 'r', 'o', 'm'] ++ s ++ ['T', 'o'] ++ r

/-- `Endpoint_{idx}_For{r}`, `process_line.rs:98,175`. -/
def endpointName (idx r : Text) : Text :=
  ['E', 'n', 'd', 'p', 'o', 'i', 'n', 't', '_'] ++ idx ++ ['_', 'F', 'o', 'r'] ++ r

/-- The table of the last right bound (with whether it is inclusive) per role and clock.  The code keeps the flag as
text and parses it back. -/
abbrev Bounds := Text → Option (Text → Option (Text × Bool))

/-- `Tree`, `auxiliary_objects/mod.rs:40-53`; `labels` is `messages_with_payloads`. -/
structure Tree where
  index : List Nat
  labels : List (Text × Text)
  messages : Text → Text → Option (List (Text × Rhs))
  firstMessage : Text → Text → Option Text
  prev : Bounds
  lastMessage : Text → Text → Option Text
  stacks : Text → Option (List (Text × StackRhs))
  firstStack : Text → Option Text
  lastStack : Text → Option Text
  enums : Text → Option (Text × Nat)
  endpoints : Text → Option (List Text)
  subTrees : List Tree

/-- A tree with empty maps. -/
def Tree.new (index : List Nat) : Tree where
  index := index
  labels := []
  messages _ _ := none
  firstMessage _ _ := none
  prev _ := none
  lastMessage _ _ := none
  stacks _ := none
  firstStack _ := none
  lastStack _ := none
  enums _ := none
  endpoints _ := none
  subTrees := []

/-- `insert`. -/
def upd {α : Type} (f : Text → Option α) (k : Text) (v : α) : Text → Option α := fun x => if x = k then some v else f x

/-- `get_mut(a).get_mut(b)` and assignment. -/
def upd2 {α : Type} (f : Text → Text → Option α) (a b : Text) (v : α) : Text → Text → Option α :=
  fun x y => if x = a ∧ y = b then some v else f x y

/-- `HashMap::insert` into a map kept as a list without repeated keys. -/
def insertKey (k v : Text) : List (Text × Text) → List (Text × Text)
  | [] => [(k, v)]
  | (a, b) :: l => if a = k then (a, v) :: l else (a, b) :: insertKey k v l

/-- `HashSet::insert`. -/
def insertSet (k : Text) (l : List Text) : List Text := if k ∈ l then l else l ++ [k]

/-- The value of a digit. -/
def digit (c : Char) : Option Nat := if 48 ≤ c.toNat ∧ c.toNat ≤ 57 then some (c.toNat - 48) else none

/-- `parse::<i32>().unwrap()` of a text matched by `\d+`: fails on digits other than the ASCII ones and above
`i32::MAX`. -/
def parseI32 (t : Text) : Except Fault Nat :=
  match t.foldlM (fun acc c => (digit c).map fun d => 10 * acc + d) 0 with
  | some n => if t = [] ∨ 2147483647 < n then .error .panicked else .ok n
  | none => .error .panicked

/-- `a + b as i32`; overflow panics (debug profile). -/
def addFlag (a : Nat) (b : Bool) : Except Fault Nat :=
  if 2147483647 < a + b.toNat then .error .panicked else .ok (a + b.toNat)

/-- The condition of `previous_message_wrt_clocks.rs:14-20` and `54-60`; `&&` evaluates its right-hand side only if the
left-hand side holds. -/
def tooEarly (m : Msg) (p : Text × Bool) : Except Fault Bool := do
  let l ← addFlag (← parseI32 m.leftBound) (m.leftBracket == .opening)
  let b ← addFlag (← parseI32 p.1) p.2
  if l < b then
    let r ← addFlag (← parseI32 m.rightBound) (m.rightBracket == .closing)
    .ok (decide (r < b))
  else .ok false

/-- `(right_bound, right_bracket == "]")`. -/
def Msg.bound (m : Msg) : Text × Bool := (m.rightBound, m.rightBracket == .closing)

/-- One half of `fn_previous_message_wrt_clocks`, for the sender (`previous_message_wrt_clocks.rs:12-51`) or the receiver
(`53-92`). -/
def checkRole (role : Text) (m : Msg) (bs : Bounds) : Except Fault Bounds :=
  match bs role with
  | some clocks =>
    match clocks m.clock with
    | some p => do
      if ← tooEarly m p then .error .notFeasible
      else if m.resetText ≠ m.clock then .ok (upd bs role (upd clocks m.clock m.bound))
      else .ok (upd bs role fun c => if c = m.clock then none else clocks c)
    | none => .ok (upd bs role (upd clocks m.clock m.bound))
  | none => .ok (upd bs role (upd (fun _ => none) m.clock m.bound))

/-- `fn_previous_message_wrt_clocks`, `previous_message_wrt_clocks.rs:4-95`; the bounds are compared as texts. -/
def previousMessage (m : Msg) (bs : Bounds) : Except Fault Bounds :=
  if ¬ Check.strLe m.leftBound m.rightBound then .error .wrongInterval
  else do
    let bs ← checkRole m.sender m bs
    checkRole m.receiver m bs

/-- The type parameters written for a message, `sender_messages.rs:15-32`, `receiver_messages.rs:14-31`.  `title` is
`to_title_case` without the white space, a function of the crate `inflector`. -/
def Msg.params (title : Text → Text) (m : Msg) : Params where
  message := title m.message
  clock := m.clock
  left := m.leftBound
  leftIncl := m.leftBracket == .opening
  right := m.rightBound
  rightIncl := m.rightBracket == .closing
  reset := m.resetText

/-- `sender_messages`, `sender_messages.rs:5-51`. -/
def senderMessages (title : Text → Text) (idx : Text) (m : Msg) (t : Tree) : Except Fault Tree := do
  let defs ← unwrap (t.messages m.sender m.receiver)
  let n := defs.length
  let d := (messageName idx n m.sender m.receiver,
    Rhs.send (m.params title) (messageName idx (n + 1) m.sender m.receiver))
  let t := { t with messages := upd2 t.messages m.sender m.receiver (defs ++ [d]) }
  let _ ← unwrap (t.lastMessage m.sender m.receiver)
  let t := { t with
    lastMessage := upd2 t.lastMessage m.sender m.receiver (messageName idx (n + 1) m.sender m.receiver) }
  let prev ← previousMessage m t.prev
  .ok { t with prev := prev }

/-- `receiver_messages`, `receiver_messages.rs:5-48`. -/
def receiverMessages (title : Text → Text) (idx : Text) (m : Msg) (t : Tree) : Except Fault Tree := do
  let defs ← unwrap (t.messages m.receiver m.sender)
  let n := defs.length
  let d := (messageName idx n m.receiver m.sender,
    Rhs.recv (m.params title) (messageName idx (n + 1) m.receiver m.sender))
  let t := { t with messages := upd2 t.messages m.receiver m.sender (defs ++ [d]) }
  let _ ← unwrap (t.lastMessage m.receiver m.sender)
  .ok { t with
    lastMessage := upd2 t.lastMessage m.receiver m.sender (messageName idx (n + 1) m.receiver m.sender) }

/-- `sender_stacks` and `receiver_stacks`, `sender_stacks.rs:5-36`, `receiver_stacks.rs:5-36`: the stack of `role` grows
by its partner `other`. -/
def pushStack (idx role other : Text) (t : Tree) : Except Fault Tree := do
  let defs ← unwrap (t.stacks role)
  let n := defs.length
  let d := (orderingName idx n role, StackRhs.role other (orderingName idx (n + 1) role))
  let t := { t with stacks := upd t.stacks role (defs ++ [d]) }
  let _ ← unwrap (t.lastStack role)
  .ok { t with lastStack := upd t.lastStack role (orderingName idx (n + 1) role) }

/-- `messages_and_stacks`, `messages_and_stacks_update/mod.rs:12-39`. -/
def messagesAndStacks (title : Text → Text) (m : Msg) (t : Tree) : Except Fault Tree := do
  let idx := indexText t.index
  let t ← senderMessages title idx m t
  let t ← receiverMessages title idx m t
  let t ← pushStack idx m.sender m.receiver t
  pushStack idx m.receiver m.sender t

/-- `update_messages`, `line_is_message.rs:14-170`, as far as it changes the tree; for the rest see `Tables.note`.  The
four cases of the end differ in the reset clock (`Msg.reset`) and in the payload (`Msg.payload`). -/
def updateMessages (title : Text → Text) (roles : List Text) (m : Msg) (t : Tree) : Except Fault Tree :=
  if m.sender ∉ roles then .error .unknownRole
  else if m.receiver ∉ roles then .error .unknownRole
  else if m.sender = m.receiver then .error .sameRole
  else if ¬ Check.strLe m.leftBound m.rightBound ∧ (m.leftBracket = .closing ∨ m.rightBracket = .opening) then
    .error .unsoundBounds
  else messagesAndStacks title m { t with labels := insertKey m.message m.payload t.labels }

/-- What the regular expressions find in a line: the header, a message, `choice at`, `} or {`, `rec`, `continue`, or
nothing. -/
inductive Kind where
  | global (name : Text) (roles : List Text)
  | message (m : Msg)
  | choice (role : Text)
  | or
  | loop (name : Text)
  | jump (name : Text)
  | other

/-- A line of the input. -/
structure Line where
  opens : Nat
  closes : Nat
  empty : Bool
  kind : Kind

/-- `GlobalElements.payloads` and `GlobalElements.clocks`, `auxiliary_objects/mod.rs:14-15`.  A role without an entry in
the second map has no clocks. -/
structure Tables where
  payloads : List Text
  clocks : Text → List Text

/-- Empty tables. -/
def Tables.empty : Tables := ⟨[], fun _ => []⟩

/-- The clock of a message is a clock of its sender and of its receiver, `line_is_message.rs:60-74`; its payload, if any,
is one of the payloads, `line_is_message.rs:95,133`.  Done for each message read.  The messages replayed at `continue`
have been read before, and doing it again changes nothing, so that it is not repeated here. -/
def Tables.note (T : Tables) : Kind → Tables
  | .message m =>
    { payloads := if m.payload = [] then T.payloads else insertSet m.payload T.payloads
      clocks := fun r => if r = m.sender ∨ r = m.receiver then insertSet m.clock (T.clocks r) else T.clocks r }
  | _ => T

/-- `GlobalElements`, `auxiliary_objects/mod.rs:10-25`; `output` is the name of the file. -/
structure Glob where
  output : Option Text
  roles : List Text
  loops : Text → Option (Text × List Kind)
  opening : Nat
  closing : Nat
  tables : Tables

/-- The maps of a tree for given roles: no messages, first and last names `.._v_0_..`,
`process_line.rs:10-51,78-103,152-180`. -/
def initTree (roles : List Text) (idx : Text) (t : Tree) : Tree :=
  { t with
    messages := fun p q => if p ∈ roles ∧ q ∈ roles ∧ q ≠ p then some [] else t.messages p q
    firstMessage := fun p q => if p ∈ roles ∧ q ∈ roles ∧ q ≠ p then some (messageName idx 0 p q)
      else t.firstMessage p q
    lastMessage := fun p q => if p ∈ roles ∧ q ∈ roles ∧ q ≠ p then some (messageName idx 0 p q) else t.lastMessage p q
    stacks := fun p => if p ∈ roles then some [] else t.stacks p
    firstStack := fun p => if p ∈ roles then some (orderingName idx 0 p) else t.firstStack p
    lastStack := fun p => if p ∈ roles then some (orderingName idx 0 p) else t.lastStack p
    endpoints := fun p => if p ∈ roles then some [endpointName idx p] else t.endpoints p }

/-- `init_sub_tree`, `process_line.rs:53-107`. -/
def initSubTree (roles : List Text) (index : List Nat) (sender : Text) : Tree :=
  initTree roles (indexText index)
    { Tree.new index with enums := upd (fun _ => none) (indexText index) (sender, 0) }

/-- The messages of a choice for one receiver, `process_line.rs:226-304` and `413-488`. -/
def choiceFor (idx sender : Text) (t : Tree) (receiver : Text) : Except Fault Tree :=
  if receiver ≠ sender then do
    let defs ← unwrap (t.messages sender receiver)
    let last ← unwrap (t.lastMessage sender receiver)
    let t := { t with
      messages := upd2 t.messages sender receiver (defs ++ [(last, Rhs.sendChoice (choiceName idx sender receiver))])
      lastMessage := upd2 t.lastMessage sender receiver [] }
    let defs ← unwrap (t.messages receiver sender)
    let last ← unwrap (t.lastMessage receiver sender)
    let t := { t with
      messages := upd2 t.messages receiver sender (defs ++ [(last, Rhs.recvChoice (choiceName idx sender receiver))])
      lastMessage := upd2 t.lastMessage receiver sender [] }
    let defs ← unwrap (t.stacks receiver)
    let last ← unwrap (t.lastStack receiver)
    .ok { t with
      stacks := upd t.stacks receiver (defs ++ [(last, StackRhs.last sender)])
      lastStack := upd t.lastStack receiver [] }
  else do
    let defs ← unwrap (t.stacks sender)
    let last ← unwrap (t.lastStack sender)
    .ok { t with
      stacks := upd t.stacks sender (defs ++ [(last, StackRhs.broadcast)])
      lastStack := upd t.lastStack sender [] }

/-- The loop over the receivers of a choice. -/
def choiceAll (roles : List Text) (idx sender : Text) (t : Tree) : Except Fault Tree :=
  roles.foldlM (choiceFor idx sender) t

/-- Every loop under construction records the line, `process_line.rs:186-188,199-201,364-366`, and the tables take note
of a message. -/
def Glob.save (g : Glob) (k : Kind) : Glob :=
  { g with
    loops := fun x => (g.loops x).map fun s => (s.1, s.2 ++ [k])
    tables := g.tables.note k }

/-- `saved_line.contains(loop)`.  The text of a `rec` line is represented by the name of its loop. -/
def contains (hay needle : Text) : Bool := (List.range (hay.length + 1)).any fun i => needle.isPrefixOf (hay.drop i)

/-- The saved lines of a loop replayed at `continue`, `process_line.rs:377-494`; `active` is `do_something`. -/
def replay (title : Text → Text) (roles : List Text) (loop idx : Text) :
    Bool → List Kind → Tree → Except Fault Tree
  | _, [], t => .ok t
  | active, .loop l :: ks, t => replay title roles loop idx (active || contains l loop) ks t
  | true, .message m :: ks, t => do
    let t ← updateMessages title roles m t
    replay title roles loop idx true ks t
  | true, .choice sender :: _, t => choiceAll roles idx sender t
  | active, _ :: ks, t => replay title roles loop idx active ks t

/-- The header, `process_line.rs:143-182`. -/
def header (name : Text) (roles : List Text) (g : Glob) (t : Tree) : Glob × Tree :=
  let g := { g with
    output := if g.output = none then some name else g.output
    roles := Check.sortBy Check.strLe (g.roles ++ roles) }
  (g, initTree g.roles ['0'] t)

/-- The result of `process_line`: what it changed, and the lines it has not read. -/
structure Done where
  glob : Glob
  parent : Tree
  main : Tree
  offset : Nat
  rest : List (Nat × Line)

/-- `process_line`, `process_line.rs:109-521`.  `fuel` bounds the depth of the recursion; the number of lines plus one
is enough. -/
def processLine (title : Text → Text) : Nat → Glob → Tree → Tree → Nat → List (Nat × Line) → Except Fault Done
  | 0, _, _, _, _, _ => .error .fuel
  | _ + 1, g, parent, main, offset, [] => .ok ⟨g, parent, main, offset, []⟩
  | fuel + 1, g, parent, main, offset, (number, line) :: rest =>
    let g := { g with
      opening := g.opening + line.opens
      closing := g.closing + line.closes }
    if g.opening < g.closing then .error .tooManyClosing
    else if 1 < offset then .error .nested
    else if g.opening ≤ g.closing + offset then
      .ok ⟨g, parent, main, if g.opening < g.closing then g.closing - g.opening - 1 else offset, rest⟩
    else if line.empty then processLine title fuel g parent main offset rest
    else
      match line.kind with
      | .global name roles =>
        if number ≠ 0 then .error .notTimed
        else
          processLine title fuel (header name roles g main).1 parent (header name roles g main).2 offset rest
      | .message m =>
        if number = 0 then .error .notTimed
        else do
          let main ← updateMessages title g.roles m main
          processLine title fuel (g.save (.message m)) parent main offset rest
      | .choice sender =>
        if number = 0 then .error .notTimed
        else do
          let index := main.index ++ [0]
          let t ← choiceAll g.roles (indexText main.index) sender
            { main with enums := upd main.enums (indexText index) (sender, 0) }
          let d ← processLine title fuel (g.save (.choice sender)) t (initSubTree g.roles index sender) (offset + 1) rest
          processLine title fuel d.glob parent { d.parent with subTrees := d.parent.subTrees ++ [d.main] } d.offset d.rest
      | .or =>
        if number = 0 then .error .notTimed
        else do
          let first := indexText (main.index.dropLast ++ [0])
          let elt ← unwrap (parent.enums first)
          let d ← processLine title fuel g { parent with enums := upd parent.enums first (elt.1, elt.2 + 1) }
            (initSubTree g.roles (main.index.dropLast ++ [main.index.getLastD 0 + 1]) elt.1) offset rest
          processLine title fuel d.glob { d.parent with subTrees := d.parent.subTrees ++ [d.main] } main d.offset d.rest
      | .loop name =>
        if number = 0 then .error .notTimed
        else
          processLine title fuel
            ({ g with loops := upd g.loops name (indexText main.index, []) }.save (.loop name)) parent main offset rest
      | .jump name =>
        if number = 0 then .error .notTimed
        else
          match g.loops name with
          | some (idx, saved) => do
            let main ← replay title g.roles name idx false saved main
            processLine title fuel g parent main offset rest
          | none => .error .noLoop
      | .other =>
        if number = 0 then .error .notTimed
        else processLine title fuel g parent main offset rest

/-- The generated file, as far as modelled: the roles in the order given to `generate_atmp!`, the session types, the
stack types, the enums, the endpoint types and the functions.  An enum is its name and its variants, each a name and the
type it carries.  An endpoint is its name, its session types in order, its stack and its role.  A function skeleton is
its role, the index and the number in its name, and the type of its argument (`fnName`).  `main` lists the functions
given to `fork_mpst`. -/
structure Program where
  roles : List Text
  sessions : List (Text × Rhs)
  stacks : List (Text × StackRhs)
  enums : List (Text × List (Text × Text))
  endpoints : List (Text × List Text × Text × Text)
  functions : List ((Text × Text × Nat) × Text)
  main : List (Text × Text × Nat)

/-- `endpoint_{role}_{idx}_v_{n}`, `code_generate/fn_endpoints.rs:33-40`, `fn_main.rs:23-25`; `lower` is
`to_lowercase`. -/
def fnName (lower : Text → Text) (f : Text × Text × Nat) : Text :=
  ['e', 'n', 'd', 'p', 'o', 'i', 'n', 't', '_'] ++ lower f.1 ++ ['_'] ++ f.2.1 ++ ['_', 'v', '_'] ++ dec f.2.2

/-- `generate_sessions` at one depth, `code_generate/sessions.rs:26-43`.  The code goes through hash maps whose keys are
the roles; the order of the lines is irrelevant in Rust. -/
def genSessions (roles : List Text) (t : Tree) : List (Text × Rhs) :=
  roles.flatMap fun p => roles.flatMap fun q =>
    if q = p then [] else
      (t.messages p q).getD [] ++
        (match t.lastMessage p q with
          | some (c :: cs) => [(c :: cs, Rhs.fin)]
          | _ => [])

/-- `generate_stacks` at one depth, `code_generate/stacks.rs:25-35`. -/
def genStacks (roles : List Text) (t : Tree) : List (Text × StackRhs) :=
  roles.flatMap fun p =>
    (t.stacks p).getD [] ++
      (match t.lastStack p with
        | some (c :: cs) => [(c :: cs, StackRhs.fin)]
        | _ => [])

/-- `generate_endpoints` at one depth, `code_generate/endpoints.rs:24-52`. -/
def genEndpoints (roles : List Text) (t : Tree) : List (Text × List Text × Text × Text) :=
  roles.flatMap fun p => ((t.endpoints p).getD []).map fun e =>
    (e, (roles.filter (· ≠ p)).map (fun q => (t.firstMessage p q).getD []), (t.firstStack p).getD [],
      ['N', 'a', 'm', 'e'] ++ p)


mutual
/-- All session types of a tree, `code_generate/sessions.rs:6-53`. -/
def allSessions (roles : List Text) : Tree → List (Text × Rhs)
  | ⟨i, la, m, fm, p, lm, s, fs, ls, e, ep, subs⟩ =>
    genSessions roles ⟨i, la, m, fm, p, lm, s, fs, ls, e, ep, []⟩ ++ allSessionsList roles subs
def allSessionsList (roles : List Text) : List Tree → List (Text × Rhs)
  | [] => []
  | t :: ts => allSessions roles t ++ allSessionsList roles ts
end

mutual
/-- All stack types of a tree, `code_generate/stacks.rs:6-48`. -/
def allStacks (roles : List Text) : Tree → List (Text × StackRhs)
  | ⟨i, la, m, fm, p, lm, s, fs, ls, e, ep, subs⟩ =>
    genStacks roles ⟨i, la, m, fm, p, lm, s, fs, ls, e, ep, []⟩ ++ allStacksList roles subs
def allStacksList (roles : List Text) : List Tree → List (Text × StackRhs)
  | [] => []
  | t :: ts => allStacks roles t ++ allStacksList roles ts
end

mutual
/-- All endpoint types of a tree, `code_generate/endpoints.rs:6-62`. -/
def allEndpoints (roles : List Text) : Tree → List (Text × List Text × Text × Text)
  | ⟨i, la, m, fm, p, lm, s, fs, ls, e, ep, subs⟩ =>
    genEndpoints roles ⟨i, la, m, fm, p, lm, s, fs, ls, e, ep, []⟩ ++ allEndpointsList roles subs
def allEndpointsList (roles : List Text) : List Tree → List (Text × List Text × Text × Text)
  | [] => []
  | t :: ts => allEndpoints roles t ++ allEndpointsList roles ts
end

/-- The variants `Branching{i}(Endpoint_{idx}_{i}_For{role})` for `i` up to `n`, `code_generate/enums.rs:41-47`. -/
def variants (idx : Text) (n : Nat) (role : Text) : List (Text × Text) :=
  (List.range (n + 1)).map fun i =>
    (['B', 'r', 'a', 'n', 'c', 'h', 'i', 'n', 'g'] ++ dec i, endpointName (idx ++ ['_'] ++ dec i) role)

/-- `generate_enums` at one depth, `code_generate/enums.rs:11-54`.  The keys of the map `enums` of a tree are its own
index (`process_line.rs:64-66`) and the one of its first branch (`217-219`). -/
def genEnums (roles : List Text) (t : Tree) : List (Text × List (Text × Text)) :=
  if t.subTrees = [] then [] else
    ([indexText t.index, indexText (t.index ++ [0])].filterMap t.enums).flatMap fun e =>
      roles.flatMap fun r =>
        if r ≠ e.1 then [(choiceName (indexText t.index) e.1 r, variants (indexText t.index) e.2 r)] else []

mutual
/-- All enums of a tree, `code_generate/enums.rs:5-63`. -/
def allEnums (roles : List Text) : Tree → List (Text × List (Text × Text))
  | ⟨i, la, m, fm, p, lm, s, fs, ls, e, ep, subs⟩ =>
    genEnums roles ⟨i, la, m, fm, p, lm, s, fs, ls, e, ep, subs⟩ ++ allEnumsList roles subs
def allEnumsList (roles : List Text) : List Tree → List (Text × List (Text × Text))
  | [] => []
  | t :: ts => allEnums roles t ++ allEnumsList roles ts
end

/-- `generate_fn_endpoints` at one depth, `code_generate/fn_endpoints.rs:19-55`, without the body. -/
def genFunctions (roles : List Text) (t : Tree) : List ((Text × Text × Nat) × Text) :=
  roles.flatMap fun r => (List.range (t.index.getLastD 0 + 1)).map fun i =>
    ((r, indexText t.index, i), ((t.endpoints r).getD []).headD [])

mutual
/-- All functions of a tree, `code_generate/fn_endpoints.rs:7-65`. -/
def allFunctions (roles : List Text) : Tree → List ((Text × Text × Nat) × Text)
  | ⟨i, la, m, fm, p, lm, s, fs, ls, e, ep, subs⟩ =>
    genFunctions roles ⟨i, la, m, fm, p, lm, s, fs, ls, e, ep, []⟩ ++ allFunctionsList roles subs
def allFunctionsList (roles : List Text) : List Tree → List ((Text × Text × Nat) × Text)
  | [] => []
  | t :: ts => allFunctions roles t ++ allFunctionsList roles ts
end

/-- What is written from the roles and the tree, `generator.rs:94-102`, with `generate_fn_main`, `fn_main.rs:6-46`. -/
def programOf (roles : List Text) (t : Tree) : Program where
  roles := roles
  sessions := allSessions roles t
  stacks := allStacks roles t
  enums := allEnums roles t
  endpoints := allEndpoints roles t
  functions := allFunctions roles t
  main := roles.map fun r => (r, ['0'], 0)

/-- `enumerate()`. -/
def number {α : Type} : Nat → List α → List (Nat × α)
  | _, [] => []
  | n, a :: as => (n, a) :: number (n + 1) as

/-- The start of the generator, `generator.rs:26-35`. -/
def Glob.start : Glob := ⟨none, [], fun _ => none, 0, 0, Tables.empty⟩

/-- What is known when the generation of the file starts: the roles, the tables and the tree. -/
structure Known where
  roles : List Text
  tables : Tables
  main : Tree

/-- The first part of `generator`, `generator.rs:20-91`, without the check by the external tool. -/
def reading (title : Text → Text) (lines : List Line) : Except Fault Known := do
  let d ← processLine title (lines.length + 1) Glob.start (Tree.new []) (Tree.new [0]) 0 (number 0 lines)
  if d.glob.opening ≠ d.glob.closing then .error .unbalanced
  else if d.glob.output = none then .error .noOutput
  else .ok ⟨d.glob.roles, d.glob.tables, d.main⟩

/-- `generator`, `generator.rs:20-105`, as far as `Program` goes; for the rest of the file see `structs` and `bodies`. -/
def generator (title : Text → Text) (lines : List Line) : Except Fault Program := do
  let k ← reading title lines
  .ok (programOf k.roles k.main)

/-! The types of the messages and the clocks of the functions. -/

/-- A structure of the generated file: its name and the type of its field `payload`, if any. -/
abbrev Struct := Text × Option Text

/-- The names declared so far, in title case, and the structures. -/
abbrev Declared := List Text × List Struct

/-- One structure, unless its name in title case is among those declared, `code_generate/structs.rs:20-31,34-63`.
`titleCase` is `to_title_case`, a function of the crate `inflector`, `title` the same without the white space. -/
def declare (titleCase title : Text → Text) (d : Declared) (l : Text × Text) : Declared :=
  if titleCase l.1 ∈ d.1 then d
  else (d.1 ++ [titleCase l.1], d.2 ++ [(title l.1, if l.2 = [] then none else some (title l.2))])

/-- `generate_structs` at one depth, `code_generate/structs.rs:18-64`: the payloads, which have no field, and the labels
of the tree.  The orders of the hash set and of the hash map are those of the arguments. -/
def declareTree (titleCase title : Text → Text) (payloads : List Text) (labels : List (Text × Text)) (d : Declared) :
    Declared :=
  (payloads.map (fun p => (p, ([] : Text))) ++ labels).foldl (declare titleCase title) d

mutual
/-- `generate_structs`, `code_generate/structs.rs:7-77`; `ord` is the order of the hash map of a tree. -/
def declareAll (titleCase title : Text → Text) (payloads : List Text)
    (ord : List Nat → List (Text × Text) → List (Text × Text)) : Tree → Declared → Declared
  | ⟨i, la, _, _, _, _, _, _, _, _, _, subs⟩, d =>
    declareAllList titleCase title payloads ord subs (declareTree titleCase title payloads (ord i la) d)
def declareAllList (titleCase title : Text → Text) (payloads : List Text)
    (ord : List Nat → List (Text × Text) → List (Text × Text)) : List Tree → Declared → Declared
  | [], d => d
  | t :: ts, d => declareAllList titleCase title payloads ord ts (declareAll titleCase title payloads ord t d)
end

/-- The name of a type, `to_title_case().chars().filter(|c| !c.is_whitespace()).collect()`, `line_is_message.rs:79-83`,
`code_generate/structs.rs:24-28`. -/
def typeName (titleCase : Text → Text) (white : Char → Bool) (t : Text) : Text := (titleCase t).filter fun c => !white c

/-- The structures of the generated file, `generator.rs:95`; `ordP` is the order of the set of the payloads. -/
def structs (titleCase : Text → Text) (white : Char → Bool) (ordP : List Text → List Text)
    (ord : List Nat → List (Text × Text) → List (Text × Text)) (lines : List Line) : Except Fault (List Struct) := do
  let k ← reading (typeName titleCase white) lines
  .ok (declareAll titleCase (typeName titleCase white) (ordP k.tables.payloads) ord k.main ([], [])).2

/-- The functions of the generated file with the clocks that each of them starts, in some order, before anything else:
`all_clocks.insert('{}', Instant::now())`, `code_generate/fn_endpoints.rs:42-50`. -/
def bodies (title : Text → Text) (lines : List Line) : Except Fault (List ((Text × Text × Nat) × List Text)) := do
  let k ← reading title lines
  .ok ((allFunctions k.roles k.main).map fun f => (f.1, k.tables.clocks f.1.1))

end Verif.Nuscr
