import Verif.Prop.C70_Roles
import Verif.Prop.C73_Runs

/-!
# C73: protocols of the project that are read as what they say
-/
namespace Verif.Prop
open Verif.Nuscr Verif.NuscrSpec Verif.NuscrText Verif.NuscrTextSpec Verif.NuscrLayout Verif.EndToEnd Verif.Runtime

/-- `scribble_protocols/atmp/remote_data.nuscr`. -/
def remoteData : List Text := [
  "timed global protocol RemoteData(role Sensor, role Satellite, role Server) {".toList,
  "    rec Loop {".toList,
  "        choice at Server".toList,
  "        {".toList,
  "            GetData() from Server to Satellite within [0;1] using a and resetting ();".toList,
  "            GetData() from Satellite to Sensor within [0;1] using a and resetting ();".toList,
  "".toList,
  "            Data(int) from Sensor to Satellite within [0;1] using a and resetting ();".toList,
  "            Data(int) from Satellite to Server within [0;1] using a and resetting ();".toList,
  "".toList,
  "            continue Loop;".toList,
  "        } or {".toList,
  "            Stop() from Server to Satellite within [0;1] using a and resetting ();".toList,
  "            Stop() from Satellite to Sensor within [0;1] using a and resetting ();".toList,
  "        }".toList,
  "    }".toList,
  "}".toList]

/-- What it says. -/
def remoteDataPlan : Proto where
  name := "RemoteData".toList
  roles := ["Sensor".toList, "Satellite".toList, "Server".toList]
  pre := [.loop "Loop".toList]
  chooser := "Server".toList
  first := ⟨[step "Server" "Satellite" "GetData" "",
    step "Satellite" "Sensor" "GetData" "",
    step "Sensor" "Satellite" "Data" "int",
    step "Satellite" "Server" "Data" "int"], some "Loop".toList⟩
  others := [⟨[step "Server" "Satellite" "Stop" "",
    step "Satellite" "Sensor" "Stop" ""], none⟩]

theorem remoteData_read : remoteData.map (lineOf ascii) =
    (remoteDataPlan.lines.take 2) ++ [⟨0, 0, false, .choice "Server".toList⟩, ⟨1, 0, false, .other⟩] ++
      (remoteDataPlan.lines.drop 3).take 2 ++ [⟨0, 0, true, .other⟩] ++ (remoteDataPlan.lines.drop 5).take 2 ++
      [⟨0, 0, true, .other⟩] ++ remoteDataPlan.lines.drop 7 := by decide +kernel

theorem remoteData_lines : layoutCheck 40 0 false remoteDataPlan.lines
    ((remoteDataPlan.lines.take 2) ++ [⟨0, 0, false, .choice "Server".toList⟩, ⟨1, 0, false, .other⟩] ++
      (remoteDataPlan.lines.drop 3).take 2 ++ [⟨0, 0, true, .other⟩] ++ (remoteDataPlan.lines.drop 5).take 2 ++
      [⟨0, 0, true, .other⟩] ++ remoteDataPlan.lines.drop 7) = true := by decide +kernel

/-- `remote_data.nuscr` is accepted as the protocol it says. -/
theorem C73_remote_data_accepted : ∃ prog, generatorText id ascii remoteData = .ok prog ∧
    ∃ usual, EndToEnd.Accepted id ascii (.choice remoteDataPlan) usual prog := by
  have hl : Layout 0 false remoteDataPlan.lines (remoteData.map (lineOf ascii)) := by
    rw [remoteData_read]
    exact layout_of_check 40 0 false _ _ remoteData_lines
  obtain ⟨prog, h⟩ := (okB_iff (generator id remoteDataPlan.lines)).mp (by decide +kernel)
  have hok : generatorText id ascii remoteData = .ok prog := (C73_layout_partial id _ _ hl prog).mp h
  exact ⟨prog, hok, C73_accepted (s := .choice remoteDataPlan) ascii_usual (written_all (by decide +kernel)) (by decide +kernel)
    (by decide +kernel) hl hok⟩

/-- So however often the server asks for data, its program can be carried out to the end, in time. -/
theorem C73_remote_data_runs : ∃ prog code V, generatorText id ascii remoteData = .ok prog ∧
    AsWritten code id V (Plan.messages (.choice remoteDataPlan)) ∧ FreeChoices V ∧
    ∀ tr, Execution (.choice remoteDataPlan) true tr →
      ∃ L, SameFor remoteDataPlan.roles (L.map (·.1)) tr ∧
        CarriedOut prog code id V (.choice remoteDataPlan) (fun _ _ => some 7) 7 L := by
  obtain ⟨prog, hok, usual, h⟩ := C73_remote_data_accepted
  obtain ⟨code, V, hV, hf⟩ := asGenerated_exists id (Plan.messages (.choice remoteDataPlan))
  have all : ∀ m ∈ Plan.messages (.choice remoteDataPlan), NuscrSpec.Fits m 0 := by
    unfold NuscrSpec.Fits
    decide +kernel
  have ex : ∀ b ∈ remoteDataPlan.branches, ∀ m ∈ remoteDataPlan.exchanges b, m ∈ Plan.messages (.choice remoteDataPlan) := by
    decide +kernel
  refine ⟨prog, code, V, hok, hV, hf, fun tr he => C70_roles_partial h hV hf (by decide +kernel) 'a'
    ⟨by decide +kernel, by decide +kernel⟩ (by decide +kernel) (fun m hm => ⟨0, all m hm⟩) ?_ ?_ tr he 7⟩
  · exact fun a ha b hb m hm => ⟨0, 0, Int.le_refl _, all a (List.mem_append_left _ ha), all m (ex b hb m hm)⟩
  · exact fun b hb _ a ha b' hb' m hm => ⟨0, 0, Int.le_refl _, all a (ex b hb a ha), all m (ex b' hb' m hm)⟩

/-- There are such executions: the server asks once and stops. -/
example : Execution (.choice remoteDataPlan) true
    [.choice "Server".toList 0, .exchange (step "Server" "Satellite" "GetData" ""),
      .exchange (step "Satellite" "Sensor" "GetData" ""),
      .exchange (step "Sensor" "Satellite" "Data" "int"),
      .exchange (step "Satellite" "Server" "Data" "int"),
      .choice "Server".toList 1, .exchange (step "Server" "Satellite" "Stop" ""),
      .exchange (step "Satellite" "Sensor" "Stop" "")] :=
  .choice (P := remoteDataPlan) (.again (P := remoteDataPlan) (i := 0) (b := remoteDataPlan.first) (l := "Loop".toList)
    (body := []) rfl rfl rfl (.ends (P := remoteDataPlan) (i := 1)
      (b := ⟨[step "Server" "Satellite" "Stop" "", step "Satellite" "Sensor" "Stop" ""], none⟩) rfl rfl))

/-- `scribble_protocols/atmp/servo.nuscr`. -/
def servo : List Text := [
  "timed global protocol Servo(role C, role L, role S) {".toList,
  "    GetCurrentState() from C to S within [0;1] using a and resetting ();".toList,
  "    DocumentLoading() from S to C within [0;1] using a and resetting ();".toList,
  "    WebFontLoaded() from L to S within [0;1] using a and resetting ();".toList,
  "    GetWebPageLoadState() from C to L within [0;1] using a and resetting ();".toList,
  "    OutstandingWebFonts() from L to C within [0;1] using a and resetting ();".toList,
  "}".toList]

/-- What it says. -/
def servoPlan : Plan := .straight "Servo".toList ["C".toList, "L".toList, "S".toList]
  [step "C" "S" "GetCurrentState" "",
   step "S" "C" "DocumentLoading" "",
   step "L" "S" "WebFontLoaded" "",
   step "C" "L" "GetWebPageLoadState" "",
   step "L" "C" "OutstandingWebFonts" ""]

theorem servo_read : servo.map (lineOf ascii) = servoPlan.lines := by decide +kernel

/-- `servo.nuscr` is accepted as the protocol it says. -/
theorem C73_servo_accepted : ∃ prog, generatorText id ascii servo = .ok prog ∧
    ∃ usual, EndToEnd.Accepted id ascii servoPlan usual prog := by
  obtain ⟨prog, h⟩ := (okB_iff (generator id servoPlan.lines)).mp (by decide +kernel)
  have hok : generatorText id ascii servo = .ok prog := by
    unfold generatorText
    rw [servo_read]
    exact h
  exact ⟨prog, hok, C73_accepted ascii_usual (written_all (by decide +kernel)) (by decide +kernel) (by decide +kernel)
    (by rw [servo_read]; exact layout_refl _ _ _) hok⟩

end Verif.Prop
