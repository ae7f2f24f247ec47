import Verif.Props.Alu
import Verif.Props.Operand
import Verif.Props.Ram
import Verif.Props.Stack
import Verif.Props.Pipeline
import Verif.Props.Debug
import Verif.Props.Str
import Verif.Props.Message
import Verif.Props.Builder
import Verif.Props.Source
import Verif.Props.Asm
import Verif.Props.Native
import Verif.Props.Stepping
import Verif.Props.Expr
import Verif.Props.Eval
import Verif.Props.Access
import Verif.Props.Assign
import Verif.Props.Live
import Verif.Props.Programs
import Verif.Model.InfoParse
import Verif.Spec.Info
import Verif.Lemmas.InfoRead
import Verif.Lemmas.InfoAsm
import Verif.Lemmas.InfoStops
import Verif.Props.Info
import Verif.Model.SourceDbg
import Verif.Spec.SourceDbg
import Verif.Lemmas.SourceStep
import Verif.Props.SourceDbg
import Verif.Props.SourceEval
import Verif.Model.Cli
import Verif.Spec.Cli
import Verif.Lemmas.Cli
import Verif.Lemmas.CliKeep
import Verif.Lemmas.CliMild
import Verif.Lemmas.CliRun
import Verif.Lemmas.CliSettled
import Verif.Props.Cli
import Verif.Props.CliCases
import Verif.Props.CliData
import Verif.Props.CliShow
import Verif.Props.CliStart
import Verif.Props.CliStop
import Verif.Props.CliMove
import Verif.Props.Run
import Verif.Spec.Hazard
import Verif.Lemmas.Hazard
import Verif.Lemmas.HazardExec
import Verif.Lemmas.HazardTick
import Verif.Props.Hazard
import Verif.Spec.Observe
import Verif.Lemmas.Track
import Verif.Props.Observe
import Verif.Props.CliObserve
import Verif.Model.Stats
import Verif.Spec.Stats
import Verif.Lemmas.Stats
import Verif.Lemmas.StatsRun
import Verif.Props.Stats
import Verif.Spec.Over
import Verif.Lemmas.OverAll
import Verif.Props.Over
import Verif.Lemmas.First
import Verif.Lemmas.Fit
import Verif.Lemmas.HazardVm
import Verif.Spec.Return
import Verif.Lemmas.Return
import Verif.Props.Return
import Verif.Props.StackRun
import Verif.Model.Config
import Verif.Spec.Config
import Verif.Props.Config
import Verif.Model.RegArith
import Verif.Spec.RegArith
import Verif.Props.RegArith
import Verif.Model.Position
import Verif.Spec.Position
import Verif.Lemmas.Position
import Verif.Props.Position
import Verif.Model.StatsDetail
import Verif.Spec.Kinds
import Verif.Props.StatsDetail
import Verif.Spec.Display
import Verif.Lemmas.Display
import Verif.Props.Display
import Verif.Spec.Variable
import Verif.Lemmas.Variable
import Verif.Props.Variable
import Verif.Spec.CliLoop
import Verif.Lemmas.CliLoop
import Verif.Lemmas.CliBlind
import Verif.Props.CliLoop
import Verif.Lemmas.ReturnOver
import Verif.Props.ReturnOver
import Verif.Spec.ReturnOut
import Verif.Lemmas.ReturnOut
import Verif.Props.ReturnOut
import Verif.Props.ReturnCli
import Verif.Lemmas.ReturnMet
import Verif.Props.ReturnMet
import Verif.Lemmas.ReturnWatch
import Verif.Props.ReturnWatch
import Verif.Spec.ReturnMet
import Verif.Lemmas.ReturnMeet
import Verif.Props.ReturnMeet
import Verif.Lemmas.ReturnLine
import Verif.Props.ReturnLine
import Verif.Spec.ReturnWrites
import Verif.Lemmas.ReturnWrites
import Verif.Props.ReturnWrites
import Verif.Axioms
