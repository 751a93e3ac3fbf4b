M = [
("TimedRun","op","let o := run .send (E.world r m q) w cl","let o := run .sendNoReset (E.world r m q) w cl","the sender of a message does not reset its clock","C52"),
("TimedRun","op","""      let o := run .recv (E.world r m p) w cl
      (o.res, o.clocks, [(p, o.moved)])
    else (.ok, cl, [])""","""      let o := run .recv (E.world r m p) w cl
      (o.res, cl, [(p, o.moved)])
    else (.ok, cl, [])""","the receiver of a message does not keep its reset clock","C52"),
("TimedRun","op","""      let o := run .send (E.world r m q) w cl
      (o.res, o.clocks, [(q, o.moved)])""","""      let o := run .send (E.world r m q) w cl
      (.ok, o.clocks, [(q, o.moved)])""","a failed send is ignored","C52"),
("TimedRun","op","""    else if r = q then
      let o := run .recv (E.world r m p) w cl
      (o.res""","""    else if r = q then
      let o := run .recv (E.world r m q) w cl
      (o.res""","the message is received from the wrong role","C52"),
("TimedRun","op","(o.1, o.2.1, (to.map fun x => x.1).zip o.2.2)","(o.1, cl, (to.map fun x => x.1).zip o.2.2)","the resets of the choice are lost","C52"),
("TimedRun","op","choose (to.map fun x => (E.world r m x.1, x.2)) (E.fin r m) cl","choose (to.tail.map fun x => (E.world r m x.1, x.2)) (E.fin r m) cl","the first passive role is not told","C52"),
("TimedRun","op","choose (to.map fun x => (E.world r m x.1, x.2)) (E.fin r m) cl","choose (to.reverse.map fun x => (E.world r m x.1, x.2)) (E.fin r m) cl","the choice is announced in the wrong order: labels go to the wrong roles","C52"),
("TimedRun","op","to.find? fun x => x.1 == r with","to.find? fun x => x.1 != r with","a passive role uses the window of another one","C52"),
("TimedRun","op","let o := run .recv (E.world r m p) x.2 cl","let o := run .sendNoReset (E.world r m p) x.2 cl","a passive role does not reset its clock","C52"),
("TimedRun","clocksAt","| (.ok, cl', _) => some cl'","| (.ok, _, _) => some cl","clocks are forgotten between steps","C52"),
("TimedRun","clocksAt","| (.ok, cl', _) => some cl'\n      | _ => none","| (.ok, cl', _) => some cl'\n      | (.err, cl', _) => some cl'\n      | _ => none","errors are ignored","C52"),
("TimedRun","clocksAt","| 0 => some (cl0 r)","| 0 => some (fun _ => none)","clocks are never started","C52"),
("TimedRun","movedAt","(op E r m (evs m) cl).2.2.lookup o","(op E o m (evs m) cl).2.2.lookup r","the transfer of the other role is reported","C52"),
("Timed","guarded","| .pass k => if reset ≠ ' ' then transfer fn W reset cl c true k e else plain k","| .pass k => if reset ≠ ' ' then transfer fn W reset cl c true k e else transfer fn W reset cl c false k e","the window is checked once only (harmless)","C19"),
("Timed","transfer","finish fn W reset cl withReset (k + 1) (W.xfer k (some (n * nsec - elapsed W c k)))","finish fn W reset cl withReset (k + 1) (W.xfer k (some (n * nsec)))","waits for the whole window instead of the time left","C19"),
("Timed","transfer","finish fn W reset cl withReset (k + 1) (W.xfer k (some (n * nsec - elapsed W c k)))","finish fn W reset cl withReset (k + 1) (W.xfer k (some (elapsed W c k)))","waits for the time elapsed instead of the time left","C19"),
("Timed","run","| false, true => guarded fn W w.reset cl c (both (fromExcl W c w.start) (toIncl W c w.stop)) (some w.stop)","| false, true => guarded fn W w.reset cl c (both (fromExcl W c w.start) (toExcl W c w.stop)) (some w.stop)","inclusive upper bound taken as exclusive after an exclusive lower bound","C19"),
("Timed","run","| false, false => guarded fn W w.reset cl c (both (fromExcl W c w.start) (toExcl W c w.stop)) (some w.stop)","| false, false => guarded fn W w.reset cl c (both (fromExcl W c w.stop) (toExcl W c w.stop)) (some w.stop)","lower bound compared with the upper one","C19"),
("Timed","finish","some (W.now k) else cl x, some t⟩","some (W.now 0) else cl x, some t⟩","the clock is reset to the beginning of the call","C40"),
]
