import Verif.Proof.NuscrLayout
import Verif.Model.NuscrRegular
import Verif.Prop.C48

/-!
# C73: the layout of a protocol
-/
namespace Verif.Prop
open Verif.Nuscr Verif.NuscrSpec Verif.NuscrText Verif.NuscrTextSpec Verif.NuscrLayout

/-- C73, layout: of two protocols that differ in layout only, the generator accepts both or neither, and makes the same
program of them. -/
theorem C73_layout_partial (title : Text → Text) (ls ls' : List Line) (h : Layout 0 false ls ls') (prog : Program) :
    generator title ls = .ok prog ↔ generator title ls' = .ok prog := by
  unfold generator
  constructor
  · intro h1
    obtain ⟨k, hk, h1⟩ := bind_ok h1
    rw [(layout_reading title h k).mp hk]
    exact h1
  · intro h1
    obtain ⟨k, hk, h1⟩ := bind_ok h1
    rw [(layout_reading title h k).mpr hk]
    exact h1

/-- The same, of texts. -/
theorem C73_layout_text (title : Text → Text) (C : Classes) (text text' : List Text)
    (h : Layout 0 false (text.map (lineOf C)) (text'.map (lineOf C))) (prog : Program) :
    generatorText title C text = .ok prog ↔ generatorText title C text' = .ok prog :=
  C73_layout_partial title _ _ h prog

/-- A protocol written in the usual way, and a text that differs from it in layout. -/
theorem C73_layout_protocol (title : Text → Text) (C : Classes) (hC : Usual C) (protocol : List Line) (text text' : List Text)
    (ht : IsText C protocol text) (h : Layout 0 false (text.map (lineOf C)) (text'.map (lineOf C))) (prog : Program) :
    generator title protocol = .ok prog ↔ generatorText title C text' = .ok prog := by
  rw [← C48_generator title C hC protocol text ht]
  exact C73_layout_text title C text text' h prog

/-- C73, not for the header: with its bracket on the next line, no protocol is accepted. -/
theorem C73_header_bracket (title : Text → Text) (name : Text) (roles : List Text) (rest : List Line) :
    generator title (⟨0, 0, false, .global name roles⟩ :: rest) = .error .noOutput := by
  unfold generator reading
  conv => lhs; unfold processLine
  simp [number, Glob.start, bind, Except.bind]

/-- C73, not for `or`: with the bracket before it on the line before, no protocol whose choice is in no loop is accepted,
whatever follows. -/
theorem C73_or_apart (title : Text → Text) (name : Text) (roles : List Text) (x : Text) (a : List Msg) (l : Line)
    (rest : List Line) (hl : Silent l) (prog : Program) :
    generator title (⟨1, 0, false, .global name roles⟩ :: ⟨1, 0, false, .choice x⟩ ::
      ((a.map fun m => ⟨0, 0, false, .message m⟩) ++ (⟨0, 1, false, .other⟩ :: l :: rest))) ≠ .ok prog := by
  intro h
  rw [generator_header] at h
  simp only [number] at h
  rw [run_choice title _ _ _ 0 _ _ x (by omega) (by omega) (by simp)] at h
  simp only [bind_assoc'] at h
  obtain ⟨m1, h1, h⟩ := bind_ok h
  rw [run_msgs title _ 1 (by omega) _ _ _ _ _ (by omega) (by simp [Glob.save])] at h
  simp only [bind_assoc'] at h
  obtain ⟨m2, h2, h⟩ := bind_ok h
  simp only [number] at h
  rw [run_last title _ _ _ 1 _ _ (by omega) (by simp [Glob.save, Glob.saves]) (by simp [Glob.save, Glob.saves]), ok_bind] at h
  simp only at h
  rw [run_stop_blank title _ _ _ 1 _ _ _ hl (by omega) (by simp [Glob.save, Glob.saves])
    (by simp [Glob.save, Glob.saves]), ok_bind] at h
  simp [Glob.save, Glob.saves] at h

/-! `continue` with a time window. -/

/-- The branch with the line `l` in the place of its `continue`. -/
def Branch.linesWith (l : Line) (b : Branch) : List Line :=
  (b.msgs.map fun m => ⟨0, 0, false, .message m⟩) ++
    match b.back with
    | some _ => [l]
    | none => []

/-- The protocol with the line `l` in the place of each `continue`. -/
def Proto.linesWith (l : Line) (P : Proto) : List Line :=
  ⟨1, 0, false, .global P.name P.roles⟩ :: (P.pre.map Item.line ++
    (⟨1, 0, false, .choice P.chooser⟩ :: (Branch.linesWith l P.first ++
    (P.others.flatMap (fun b => ⟨1, 1, false, .or⟩ :: Branch.linesWith l b) ++
    List.replicate (loopCount P.pre + 2) ⟨0, 1, false, .other⟩))))

/-- The branch without its `continue`. -/
def Branch.once (b : Branch) : Branch := { b with back := none }

/-- The protocol in which no branch goes back. -/
def Proto.once (P : Proto) : Proto := { P with first := Branch.once P.first, others := P.others.map Branch.once }

theorem layout_refl : ∀ (ls : List Line) (d : Nat) (c : Bool), Layout d c ls ls
  | [], d, c => .nil d c
  | l :: ls, d, c => .line d c l ls ls (layout_refl ls _ _)

theorem layout_msgs {c : Bool} {d : Nat} {ls ls' : List Line} (h : Layout d c ls ls') : ∀ (ms : List Msg),
    Layout d c ((ms.map fun m => (⟨0, 0, false, .message m⟩ : Line)) ++ ls)
      ((ms.map fun m => (⟨0, 0, false, .message m⟩ : Line)) ++ ls')
  | [] => h
  | m :: ms => by
    refine .line d c _ _ _ ?_
    have : (c || isChoice (Kind.message m)) = c := by simp [isChoice]
    simp only [this, Nat.add_zero, Nat.sub_zero]
    exact layout_msgs h ms

theorem layout_branch {l : Line} (hl : Silent l) {c : Bool} {d : Nat} (hi : Inside d c) {ls ls' : List Line} (hne : ls ≠ [])
    (h : Layout d c ls ls') (b : Branch) : Layout d c ((Branch.once b).lines ++ ls) (Branch.linesWith l b ++ ls') := by
  obtain ⟨ms, back⟩ := b
  unfold Branch.lines Branch.once Branch.linesWith
  cases back with
  | none =>
    simp only [List.append_nil]
    exact layout_msgs h ms
  | some x =>
    simp only [List.append_nil, List.append_assoc, List.cons_append, List.nil_append]
    exact layout_msgs (.silent d c l ls ls' hl hi hne h) ms

theorem layout_others {l : Line} (hl : Silent l) {d : Nat} (hd : 2 ≤ d) {ls ls' : List Line} (hne : ls ≠ [])
    (h : Layout d true ls ls') : ∀ (bs : List Branch),
    Layout d true ((bs.map Branch.once).flatMap (fun b => (⟨1, 1, false, .or⟩ : Line) :: b.lines) ++ ls)
      (bs.flatMap (fun b => (⟨1, 1, false, .or⟩ : Line) :: Branch.linesWith l b) ++ ls')
  | [] => h
  | b :: bs => by
    simp only [List.map_cons, List.flatMap_cons, List.cons_append, List.append_assoc]
    refine .line d true _ _ _ ?_
    simp only [Nat.add_sub_cancel, Bool.true_or]
    refine layout_branch hl ⟨by omega, fun _ => hd⟩ ?_ (layout_others hl hd hne h bs) b
    simp [hne]

theorem layout_items {ls ls' : List Line} : ∀ (is : List Item) (d : Nat), Layout (d + loopCount is) false ls ls' →
    Layout d false (is.map Item.line ++ ls) (is.map Item.line ++ ls')
  | [], d, h => h
  | .msg m :: is, d, h => by
    refine .line d false _ _ _ ?_
    simp only [Item.line, isChoice, Bool.or_false, Nat.add_zero, Nat.sub_zero]
    exact layout_items is d h
  | .loop x :: is, d, h => by
    refine .line d false _ _ _ ?_
    simp only [Item.line, isChoice, Bool.or_false, Nat.sub_zero]
    refine layout_items is (d + 1) ?_
    rw [show d + 1 + loopCount is = d + loopCount (.loop x :: is) by simp only [loopCount]; omega]
    exact h

/-- C73, not for `continue`: in its place a line that says nothing to the generator, and the program made is that of the
protocol in which no branch goes back. -/
theorem C73_continue_lost (title : Text → Text) (P : Proto) (l : Line) (hl : Silent l) (prog : Program) :
    generator title (Proto.linesWith l P) = .ok prog ↔ generator title (Proto.once P).lines = .ok prog := by
  refine (C73_layout_partial title _ _ ?_ prog).symm
  have e : (Proto.once P).lines = ⟨1, 0, false, .global P.name P.roles⟩ :: (P.pre.map Item.line ++
      (⟨1, 0, false, .choice P.chooser⟩ :: ((Branch.once P.first).lines ++
      ((P.others.map Branch.once).flatMap (fun b => ⟨1, 1, false, .or⟩ :: b.lines) ++
      List.replicate (loopCount P.pre + 2) ⟨0, 1, false, .other⟩)))) := by
    simp [Proto.lines, Proto.once, List.append_assoc]
  rw [e]
  refine .line 0 false _ _ _ ?_
  simp only [isChoice, Bool.or_false, Nat.zero_add, Nat.sub_zero]
  refine layout_items P.pre 1 ?_
  refine .line _ false _ _ _ ?_
  simp only [isChoice, Bool.or_true, Nat.sub_zero]
  refine layout_branch hl ⟨by omega, fun _ => by omega⟩ (by simp [List.replicate_succ]) ?_ P.first
  exact layout_others hl (by omega) (by simp [List.replicate_succ]) (layout_refl _ _ _) P.others

/-- The line with which the protocols that come with the project go back. -/
def windowed : Text := "continue Loop within [0;1] using a and resetting ();".toList

theorem C73_continue_silent : Silent (lineOf ascii windowed) := by
  refine ⟨by decide +kernel, by decide +kernel, .inr ?_⟩
  decide +kernel

/-- Nor is its window removed for the external tool. -/
theorem C73_continue_timed (white : Char → Bool) : NuscrRegular.regularLine ascii white windowed = windowed := by
  have h1 : isMatch ascii rxGlobal windowed = false := by decide +kernel
  have h2 : (search ascii rxMessage windowed).isNone = true := by decide +kernel
  unfold NuscrRegular.regularLine
  rw [h1]
  simp only [Bool.false_eq_true, if_false]
  rw [Option.isNone_iff_eq_none.mp h2]

/-- Written without a window, it is understood. -/
example : lineOf ascii "continue Loop;".toList = ⟨0, 0, false, .jump "Loop".toList⟩ := by
  have h : kindOf ascii "continue Loop;".toList = .jump "Loop".toList := by decide +kernel
  unfold lineOf
  rw [h]
  rfl

/-! A way of finding out whether two protocols differ in layout only. -/

deriving instance DecidableEq for Line

def layoutCheck : Nat → Nat → Bool → List Line → List Line → Bool
  | 0, _, _, _, _ => false
  | _ + 1, _, _, [], [] => true
  | _ + 1, _, _, _ :: _, [] => false
  | _ + 1, _, _, [], _ :: _ => false
  | n + 1, d, c, l :: ls, l' :: ls' =>
    if l = l' then layoutCheck n (d + l.opens - l.closes) (c || isChoice l.kind) ls ls'
    else if decide (1 ≤ d) && (!c || decide (2 ≤ d)) then
      if l'.opens = 0 ∧ l'.closes = 0 ∧ (l'.empty = true ∨ l'.kind = .other) then layoutCheck n d c (l :: ls) ls'
      else if l = { l' with opens := 1 } ∧ l' = ⟨0, 0, false, l'.kind⟩ ∧ isBlock l'.kind = true ∧ ls ≠ [] ∧
          ls'.head? = some ⟨1, 0, false, .other⟩ then
        layoutCheck n (d + 1) (c || isChoice l.kind) ls (ls'.drop 1)
      else false
    else false

theorem layout_of_check : ∀ (n d : Nat) (c : Bool) (ls ls' : List Line), layoutCheck n d c ls ls' = true →
    Layout d c ls ls'
  | 0, _, _, _, _, h => by simp [layoutCheck] at h
  | n + 1, d, c, [], [], _ => .nil d c
  | n + 1, d, c, _ :: _, [], h => by simp [layoutCheck] at h
  | n + 1, d, c, [], _ :: _, h => by simp [layoutCheck] at h
  | n + 1, d, c, l :: ls, l' :: ls', h => by
    unfold layoutCheck at h
    split at h
    · rename_i e
      subst e
      exact .line d c l ls ls' (layout_of_check n _ _ _ _ h)
    · split at h
      · rename_i hi
        have hin : Inside d c := by
          simp only [Bool.and_eq_true, decide_eq_true_eq, Bool.or_eq_true, Bool.not_eq_true'] at hi
          refine ⟨hi.1, fun hc => ?_⟩
          rcases hi.2 with h2 | h2
          · rw [hc] at h2; cases h2
          · exact h2
        split at h
        · rename_i hs
          exact .silent d c l' _ _ hs hin (by simp) (layout_of_check n _ _ _ _ h)
        · split at h
          · rename_i hb
            obtain ⟨h1, h2, h3, h4, h5⟩ := hb
            cases ls' with
            | nil => simp at h5
            | cons b ls' =>
              simp only [List.head?_cons, Option.some.injEq] at h5
              simp only [List.drop_succ_cons, List.drop_zero] at h
              have hk : l = ⟨1, 0, false, l'.kind⟩ := by rw [h1, h2]
              subst h5
              rw [h2, hk]
              rw [hk] at h
              exact .bracket d c l'.kind ls ls' h3 hin h4 (layout_of_check n _ _ _ _ h)
          · cases h
      · cases h

/-! The protocols that come with the project. -/

/-- A message between the instants 0 and 1 of the clock `a`, without reset. -/
def step (sender receiver message payload : String) : Msg :=
  ⟨sender.toList, receiver.toList, message.toList, ['a'], ['0'], .opening, ['1'], .closing, none, payload.toList⟩

/-- `scribble_protocols/atmp/three_buyers.nuscr`, with an empty line and with the bracket of its choice on a line of its
own. -/
def threeBuyers : List Text := [
  "timed global protocol ThreeBuyers(role A, role C, role S) {".toList,
  "    empty1(int) from A to S within [0;1] using a and resetting ();".toList,
  "    empty2(int) from S to A within [0;1] using a and resetting ();".toList,
  "    empty3(int) from S to C within [0;1] using a and resetting ();".toList,
  "    empty4(int) from A to C within [0;1] using a and resetting ();".toList,
  "".toList,
  "    choice at C".toList,
  "    {".toList,
  "        ok(int) from C to A within [0;1] using a and resetting ();".toList,
  "        ok(int) from C to S within [0;1] using a and resetting ();".toList,
  "        empty5(int) from S to C within [0;1] using a and resetting ();".toList,
  "    } or {".toList,
  "        quit() from C to A within [0;1] using a and resetting ();".toList,
  "        quit() from C to S within [0;1] using a and resetting ();".toList,
  "    }".toList,
  "}".toList]

/-- What it says. -/
def threeBuyersPlan : Proto where
  name := "ThreeBuyers".toList
  roles := ["A".toList, "C".toList, "S".toList]
  pre := [.msg (step "A" "S" "empty1" "int"),
    .msg (step "S" "A" "empty2" "int"),
    .msg (step "S" "C" "empty3" "int"),
    .msg (step "A" "C" "empty4" "int")]
  chooser := "C".toList
  first := ⟨[step "C" "A" "ok" "int",
    step "C" "S" "ok" "int",
    step "S" "C" "empty5" "int"], none⟩
  others := [⟨[step "C" "A" "quit" "",
    step "C" "S" "quit" ""], none⟩]

/-- `scribble_protocols/atmp/video_stream.nuscr`. -/
def videoStream : List Text := [
  "timed global protocol VideoStreamingProtocol(role Auth, role Client, role Server) {".toList,
  "\tDeclare(Id) from Client to Auth within [0;1] using a and resetting (); // Sends a message labelled Declare with a payload Id".toList,
  "\tAccept(Answer) from Auth to Client within [0;1] using a and resetting (); // The Auth role replies with an Accept message".toList,
  "\trec Loop {".toList,
  "\t\tchoice at Client { // Client makes a choice".toList,
  "\t\t\tRequestVideo(Request) from Client to Auth within [0;1] using a and resetting (); // Client sends a request for a video, giving its name".toList,
  "\t\t\tRequestVideo(Request) from Auth to Server within [0;1] using a and resetting (); // Auth forwards the request".toList,
  "\t\t\tSendVideo(Video) from Server to Auth within [0;1] using a and resetting (); // Server sends the video file to the Auth".toList,
  "\t\t\tSendVideo(Video) from Auth to Client within [0;1] using a and resetting (); // Auth sends the video file to the client".toList,
  "\t\t\tcontinue Loop within [0;1] using a and resetting (); // A Recursive call".toList,
  "\t\t} or {".toList,
  "\t\t\tClose() from Client to Auth within [0;1] using a and resetting (); // Close the session between Client and Auth".toList,
  "\t\t\tClose() from Auth to Server within [0;1] using a and resetting (); // Close the session between Server and Auth".toList,
  "\t\t}".toList,
  "\t}".toList,
  "}".toList]

/-- What it says. -/
def videoStreamPlan : Proto where
  name := "VideoStreamingProtocol".toList
  roles := ["Auth".toList, "Client".toList, "Server".toList]
  pre := [.msg (step "Client" "Auth" "Declare" "Id"),
    .msg (step "Auth" "Client" "Accept" "Answer"),
    .loop "Loop".toList]
  chooser := "Client".toList
  first := ⟨[step "Client" "Auth" "RequestVideo" "Request",
    step "Auth" "Server" "RequestVideo" "Request",
    step "Server" "Auth" "SendVideo" "Video",
    step "Auth" "Client" "SendVideo" "Video"], some "Loop".toList⟩
  others := [⟨[step "Client" "Auth" "Close" "",
    step "Auth" "Server" "Close" ""], none⟩]

/-- `scribble_protocols/atmp/calculator.nuscr`. -/
def calculator : List Text := [
  "timed global protocol Calc(role A, role C, role S)".toList,
  "{".toList,
  "    element_1(int) from C to S within [0;1] using a and resetting ();".toList,
  "    element_2(int) from C to S within [0;1] using a and resetting ();".toList,
  "".toList,
  "    choice at C".toList,
  "    {".toList,
  "        sum(int) from S to C within [0;1] using a and resetting ();".toList,
  "    }".toList,
  "    or".toList,
  "    {".toList,
  "        diff(int) from S to C within [0;1] using a and resetting ();".toList,
  "    }".toList,
  "}".toList]

theorem threeBuyers_lines : layoutCheck 40 0 false threeBuyersPlan.lines
    ((threeBuyersPlan.lines.take 5) ++ [⟨0, 0, true, .other⟩, ⟨0, 0, false, .choice "C".toList⟩, ⟨1, 0, false, .other⟩] ++
      threeBuyersPlan.lines.drop 6) = true := by decide +kernel

theorem threeBuyers_read : threeBuyers.map (lineOf ascii) =
    (threeBuyersPlan.lines.take 5) ++ [⟨0, 0, true, .other⟩, ⟨0, 0, false, .choice "C".toList⟩, ⟨1, 0, false, .other⟩] ++
      threeBuyersPlan.lines.drop 6 := by decide +kernel

/-- The protocol of the three buyers has an empty line and a bracket on a line of its own, and the program made of it is
the one made of what it says. -/
theorem C73_three_buyers (title : Text → Text) (prog : Program) :
    generator title threeBuyersPlan.lines = .ok prog ↔ generatorText title ascii threeBuyers = .ok prog := by
  unfold generatorText
  rw [threeBuyers_read]
  exact C73_layout_partial title _ _ (layout_of_check 40 0 false _ _ threeBuyers_lines) prog

theorem videoStream_read : videoStream.map (lineOf ascii) = Proto.linesWith ⟨0, 0, false, .other⟩ videoStreamPlan := by
  decide +kernel

/-- The protocol of the video stream goes back to its loop, and the program made of it is the one made of the protocol
that does not. -/
theorem C73_video_stream (title : Text → Text) (prog : Program) :
    generatorText title ascii videoStream = .ok prog ↔ generator title (Proto.once videoStreamPlan).lines = .ok prog := by
  unfold generatorText
  rw [videoStream_read]
  exact C73_continue_lost title videoStreamPlan _ ⟨rfl, rfl, .inr rfl⟩ prog

/-- Nothing is made of the protocol of the calculator. -/
theorem C73_calculator (title : Text → Text) : generatorText title ascii calculator = .error .noOutput := by
  have h : lineOf ascii "timed global protocol Calc(role A, role C, role S)".toList =
      ⟨0, 0, false, .global "Calc".toList ["A".toList, "C".toList, "S".toList]⟩ := by decide +kernel
  unfold generatorText calculator
  rw [List.map_cons, h]
  exact C73_header_bracket title _ _ _

end Verif.Prop
