import Verif.BT.Props
import Verif.BT.CostProps
import Verif.BT.BlackboardProps
import Verif.BT.DumpLoadProps
import Verif.BT.OpenProps
import Verif.Sol.VersionsProps
import Verif.Sol.SetSolvedProps
import Verif.Sol.EndToEnd
import Verif.Sol.MatchingProps
import Verif.Eqn.Props
import Verif.Eqn.Equality
import Verif.Kin.Props
import Verif.Kin.Velocity
import Verif.Kin.SoaProps
import Verif.Leaf.Toy
import Verif.Leaf.Transform
import Verif.Leaf.Ident
import Verif.Solver.EndToEnd
import Verif.Solver.Complete
import Verif.Solver.Sound
import Verif.Solver.Progress
import Verif.Solver.Method
import Verif.Out.CppProps
import Verif.Out.CppParse
import Verif.Out.RobotProps
import Verif.Out.Pickle
import Verif.Out.PyProps
import Verif.Out.Packed
import Verif.Out.FkProps
import Verif.Out.HistProps
import Verif.Out.PyFileProps
import Verif.Out.LatexFk
import Verif.Out.LatexVerbatim
import Verif.Solver.Report
import Verif.Sol.Order
import Verif.Kin.SoaOrder
import Verif.Out.Order
import Verif.Solver.Order
import Verif.Solver.CppSize
import Verif.Out.CppUndeclared
import Verif.Kin.NumericProps
import Verif.Kin.Squeeze
import Verif.Kin.Puma
import Verif.Kin.PumaLemmas
import Verif.Kin.PumaProps
import Verif.Kin.WristProps
import Verif.BT.StatsProps
import Verif.Solver.TypedProps
import Verif.Sol.SubsOrder
import Verif.Sol.SumSolveProps
import Verif.Sol.Identity
import Verif.Solver.OutAlways
import Verif.Out.Tikz
import Verif.Kin.Padding
import Verif.Kin.Frames
import Verif.Solver.Abort
import Verif.Solver.AbortKinds
import Verif.Solver.AbortFree
import Verif.Solver.AbortSteps
import Verif.Solver.AbortLeaves
import Verif.Solver.AbortRun
import Verif.Solver.AbortWarm
import Verif.Solver.AbortTop
import Verif.Solver.AbortDemo
import Verif.Solver.Exact
import Verif.Solver.ExactDemo
import Verif.Main.Model
import Verif.Main.Props
import Verif.Main.Exits
import Verif.Main.Demo
import Verif.Main.FkOnly
import Verif.Main.FkOnlyProps
import Verif.Main.FkOnlyDemo
import Verif.Main.PoseInputs
import Verif.BT.LogModel
import Verif.BT.LogProps
import Verif.Main.ImportData
import Verif.Main.Imports
import Verif.Main.ImportProps
import Verif.BT.RunSpec
import Verif.BT.RunProps
import Verif.BT.RunClaims
import Verif.BT.RunBound
import Verif.BT.RunOpen
import Verif.BT.RunComplete
import Verif.BT.MemXrange
import Verif.BT.Board
import Verif.BT.BoardProps
import Verif.BT.BoardClaims
import Verif.BT.Crash
import Verif.BT.CrashProps
import Verif.BT.CrashClaims
import Verif.Main.Disk
import Verif.Main.DiskProps
import Verif.Main.DiskClaims
import Verif.Main.Parallel
import Verif.Main.ParallelProps
import Verif.Main.ParallelSame
import Verif.Main.ParallelClaims
import Verif.Main.ParallelFirst
import Verif.Main.ThirdProgram
import Verif.Solver.Session
