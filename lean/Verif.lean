import Verif.Proof.Maths
import Verif.Model.Gen
import Verif.Model.GenLast
import Verif.Proof.Gen
import Verif.Proof.GenWire
import Verif.Proof.GenChoose
import Verif.Prop.C17
import Verif.Prop.C12_C13
import Verif.Prop.C15_C16
import Verif.Model.Hand3
import Verif.Prop.C14
import Verif.Prop.C01_C35
import Verif.Prop.C18
import Verif.Prop.C03_C04
import Verif.Prop.C05_C38
import Verif.Prop.C11
import Verif.Prop.C07
import Verif.Prop.C08_C10
import Verif.Prop.C19_C21
import Verif.Prop.C22_C23
import Verif.Prop.C24_C25
import Verif.Prop.C26
import Verif.Prop.C27
import Verif.Prop.C36
import Verif.Prop.C29
import Verif.Prop.C28_C30
import Verif.Prop.C37
import Verif.Prop.C31_C32
import Verif.Model.Mesh
import Verif.Spec.Global
import Verif.Proof.Mesh
import Verif.Proof.MeshLive
import Verif.Proof.MeshFair
import Verif.Proof.MeshEnds
import Verif.Prop.C34
import Verif.Model.Runtime
import Verif.Proof.RuntimeHeap
import Verif.Proof.RuntimeMesh
import Verif.Proof.RuntimeRel
import Verif.Proof.RuntimeSim
import Verif.Proof.RuntimeStep
import Verif.Proof.RuntimeClose
import Verif.Spec.Runtime
import Verif.Proof.RuntimeNew
import Verif.Proof.RuntimeStart
import Verif.Proof.RuntimeRun
import Verif.Proof.RuntimeLive
import Verif.Proof.RuntimeFull
import Verif.Proof.RuntimeFair
import Verif.Prop.C44
import Verif.Model.Failure
import Verif.Spec.Failure
import Verif.Proof.FailureStep
import Verif.Proof.FailureOwner
import Verif.Proof.FailureLive
import Verif.Proof.FailureClean
import Verif.Proof.FailureFair
import Verif.Proof.FailureWait
import Verif.Proof.FailureSched
import Verif.Proof.HeapDoomed
import Verif.Prop.C45
import Verif.Prop.C46
import Verif.Spec.NuscrChoice
import Verif.Proof.NuscrChoice
import Verif.Proof.NuscrParts
import Verif.Prop.C47
import Verif.Model.NuscrText
import Verif.Spec.NuscrText
import Verif.Proof.NuscrText
import Verif.Proof.NuscrNoMatch
import Verif.Proof.NuscrMessage
import Verif.Proof.NuscrLines
import Verif.Proof.NuscrHeader
import Verif.Prop.C48
import Verif.Prop.C49
import Verif.Prop.C49_Cases
import Verif.Spec.LocalRec
import Verif.Proof.CheckLoop
import Verif.Proof.CheckLoopRun
import Verif.Proof.CheckLoopTrace
import Verif.Proof.CheckGiven
import Verif.Prop.C50
import Verif.Prop.C50_Cases
import Verif.Model.CheckClean
import Verif.Spec.TypeName
import Verif.Spec.CheckerCall
import Verif.Proof.CheckClean
import Verif.Proof.CheckerCall
import Verif.Prop.C51
import Verif.Prop.C51_Cases
import Verif.Prop.C52
import Verif.Prop.C52_Cases
import Verif.Spec.EndToEnd
import Verif.Proof.MeshPossible
import Verif.Proof.EndToEnd
import Verif.Prop.C53
import Verif.Prop.C53_Cases
import Verif.Prop.C54
import Verif.Prop.C54_Cases
import Verif.Spec.NuscrStructs
import Verif.Proof.NuscrStructs
import Verif.Model.Transport
import Verif.Model.TransportChoice
import Verif.Spec.Transport
import Verif.Proof.Transport
import Verif.Proof.TransportShare
import Verif.Proof.TransportSend
import Verif.Proof.TransportRecv
import Verif.Proof.TransportUdp
import Verif.Proof.TransportValue
import Verif.Proof.TransportOwn
import Verif.Proof.TransportCall
import Verif.Proof.TransportDemo
import Verif.Prop.C55
import Verif.Prop.C55_Cases
import Verif.Prop.C56
import Verif.Prop.C56_Cases
import Verif.Model.NuscrFile
import Verif.Spec.NuscrFile
import Verif.Proof.NuscrFile
import Verif.Proof.NuscrLinked
import Verif.Prop.C57
import Verif.Prop.C57_Cases
import Verif.Model.Indexed
import Verif.Spec.Indexed
import Verif.Proof.Indexed
import Verif.Prop.C58
import Verif.Model.Stacks
import Verif.Spec.Stacks
import Verif.Prop.C59
import Verif.Model.NuscrRegular
import Verif.Spec.NuscrRegular
import Verif.Proof.NuscrRegular
import Verif.Prop.C60
import Verif.Prop.C60_Cases
import Verif.Model.Ready3
import Verif.Spec.Ready3
import Verif.Prop.C61
import Verif.Check.Checker
import Verif.Check.RecordedChecking
import Verif.Check.RecordedBasics
import Verif.Check.RecordedBaking
import Verif.Check.Nuscr
import Verif.Check.RecordedNuscr
import Verif.Spec.NuscrSchedule
import Verif.Proof.NuscrSchedule
import Verif.Prop.C62
import Verif.Model.Proto
import Verif.Spec.Proto
import Verif.Proof.Proto
import Verif.Proof.ProtoWrite
import Verif.Prop.C63
import Verif.Prop.C64
import Verif.Check.RecordedProto
import Verif.Spec.BottomUp
import Verif.Proof.BottomUp
import Verif.Proof.BottomUpInv
import Verif.Proof.BottomUpStep
import Verif.Proof.BottomUpChoice
import Verif.Proof.BottomUpRun
import Verif.Proof.BottomUpLive
import Verif.Proof.BottomUpOrphan
import Verif.Prop.C65
import Verif.Model.Interleaved
import Verif.Spec.Interleaved
import Verif.Proof.Interleaved
import Verif.Prop.C66
import Verif.Prop.C67
import Verif.Spec.TimedIdeal
import Verif.Proof.TimedIdeal
import Verif.Prop.C68
import Verif.Spec.TimedText
import Verif.Proof.TimedText
import Verif.Proof.TimedTextSchedule
import Verif.Prop.C69
import Verif.Proof.TimedTextStuck
import Verif.Prop.C69_Cases
import Verif.Spec.TimedExecution
import Verif.Proof.TimedExecution
import Verif.Prop.C70
import Verif.Proof.TimedExecutionStuck
import Verif.Prop.C70_Cases
import Verif.Prop.C70_Loops
import Verif.Proof.TimedDiary
import Verif.Prop.C70_Times
import Verif.Prop.C70_Stuck
import Verif.Prop.C70_Roles
import Verif.Prop.C71
import Verif.Prop.C71_Cases
import Verif.Prop.C72
import Verif.Spec.NuscrLayout
import Verif.Proof.NuscrLayout
import Verif.Prop.C73
import Verif.Prop.C73_Runs
import Verif.Prop.C73_Continue
import Verif.Prop.C73_Or
import Verif.Prop.C73_Remote
import Verif.Prop.C73_Chooser
import Verif.Audit
