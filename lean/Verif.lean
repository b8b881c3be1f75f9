import Verif.Model.Task
import Verif.Lemmas.Step
import Verif.Props.Access
import Verif.Props.Instr
import Verif.Props.Move
import Verif.Props.Table
import Verif.Lemmas.Track
import Verif.Props.Timer
import Verif.Props.Counter
import Verif.Props.Latch
import Verif.Lemmas.Change
import Verif.Lemmas.ScanChange
import Verif.Spec.Run
import Verif.Props.ScanFrame
import Verif.Props.ScanError
import Verif.Spec.Schedule
import Verif.Props.ScanOrder
import Verif.Props.ScanSafe
import Verif.Lemmas.NoDiv
import Verif.Props.ScanBound
import Verif.Props.ScanBranch
import Verif.Spec.Shade
import Verif.Lemmas.Check
import Verif.Lemmas.Comm
import Verif.Props.ScanFresh
import Verif.Spec.Cycle
import Verif.Lemmas.Task
import Verif.Lemmas.Frame
import Verif.Lemmas.Gear
import Verif.Props.TaskOrder
import Verif.Props.TaskEnd
import Verif.Props.TaskStop
import Verif.Props.TaskTime
import Verif.Lemmas.Ports
import Verif.Lemmas.Area
import Verif.Spec.History
import Verif.Props.TaskHist
import Verif.Spec.Fault
import Verif.Props.TaskFault
import Verif.Spec.Recover
import Verif.Spec.Setup
import Verif.Spec.Grid
import Verif.Props.Clear
import Verif.Props.Setup
import Verif.Props.Silent
import Verif.Props.Teardown
import Verif.Spec.Json
import Verif.Props.Json
import Verif.Props.Place
import Verif.Spec.Check
import Verif.Spec.CronField
import Verif.Spec.CronJobs
import Verif.Spec.Idle
import Verif.Lemmas.Cron
import Verif.Props.Cron
import Verif.Props.Check
import Verif.Props.CronJobs
import Verif.Props.Fresh
import Verif.Spec.Ready
import Verif.Lemmas.Ready
import Verif.Props.Checked
import Verif.Spec.Logic
import Verif.Lemmas.Logic
import Verif.Props.Logic
import Verif.Spec.Control
import Verif.Spec.Halt
import Verif.Lemmas.Blocks
import Verif.Lemmas.Upkeep
import Verif.Props.TaskSafe
import Verif.Props.Control
import Verif.Props.Stop
import Verif.Props.CronGroup
import Verif.Spec.Spent
import Verif.Props.Spent
import Verif.Props.Arith
import Verif.Model.Schema
import Verif.Model.Shipped
import Verif.Spec.Schema
import Verif.Spec.Form
import Verif.Lemmas.Schema
import Verif.Lemmas.SchemaCheck
import Verif.Lemmas.Shipped
import Verif.Lemmas.JsonAccept
import Verif.Lemmas.FormLoad
import Verif.Props.Schema
import Verif.Model.Port
import Verif.Spec.Port
import Verif.Props.Port
import Verif.Props.PortHeap
import Verif.Lemmas.Stay
import Verif.Lemmas.WellOk
import Verif.Spec.PortRun
import Verif.Props.PortRun
import Verif.Model.App
import Verif.Props.App
import Verif.Model.Print
import Verif.Spec.Print
import Verif.Lemmas.Float
import Verif.Lemmas.Print
import Verif.Lemmas.Sheet
import Verif.Props.Print
import Verif.Spec.Flash
import Verif.Lemmas.Flash
import Verif.Lemmas.Panel
import Verif.Lemmas.Pace
import Verif.Props.AppRun
import Verif.Model.HeapJson
import Verif.Lemmas.HeapJson
import Verif.Lemmas.HeapSame
import Verif.Props.HeapJson
import Verif.Model.HeapSave
import Verif.Lemmas.HeapSave
import Verif.Lemmas.HeapWhole
import Verif.Props.HeapSave
import Verif.Props.PortPlace
import Verif.Spec.Lap
import Verif.Props.Watchdog
import Verif.Props.Forever
import Verif.Props.Reckon
import Verif.Model.SelfTest
import Verif.Lemmas.SelfTest
import Verif.Props.SelfTest
import Verif.Model.HeapSelfTest
import Verif.Lemmas.HeapSelfTest
import Verif.Props.HeapSelfTest
import Verif.Model.Main
import Verif.Props.Main
import Verif.Spec.HeapMain
import Verif.Model.HeapMain
import Verif.Lemmas.HeapPlain
import Verif.Props.HeapMain
