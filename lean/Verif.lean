import Verif.Base
import Verif.Grid.Model
import Verif.Grid.Spec
import Verif.Grid.Lemmas
import Verif.Grid.Enlarge
import Verif.Grid.Move
import Verif.Grid.Geometry
import Verif.Grid.Ops
import Verif.Grid.Ray
import Verif.Grid.Query
import Verif.Grid.Props
import Verif.Graph.Model
import Verif.Graph.Spec
import Verif.Graph.Lemmas
import Verif.Graph.Iter
import Verif.Graph.Props
import Verif.Slam.Model
import Verif.Slam.Spec
import Verif.Slam.Lemmas
import Verif.Slam.Props
import Verif.Loop.Model
import Verif.Loop.Spec
import Verif.Loop.Lemmas
import Verif.Loop.Props
import Verif.Loop.Trial
import Verif.Loop.TrialProps
import Verif.Loop.Chain
import Verif.Loop.ChainProps
import Verif.Cell.Model
import Verif.Cell.Spec
import Verif.Cell.Lemmas
import Verif.Cell.Props
import Verif.Cell.Evidence
import Verif.NDTGrid.Model
import Verif.NDTGrid.Spec
import Verif.NDTGrid.Lemmas
import Verif.NDTGrid.Trace
import Verif.NDTGrid.Place
import Verif.NDTGrid.Mapper
import Verif.NDTGrid.Sums
import Verif.NDTGrid.Scan
import Verif.NDTGrid.Props
import Verif.NDTGrid.Rays
import Verif.NDTGrid.RayProps
import Verif.NDTGrid.Real
import Verif.Pose.Model
import Verif.Pose.Spec
import Verif.Pose.Lemmas
import Verif.Pose.Props
import Verif.Utils.Model
import Verif.Utils.Props
import Verif.Algo.Model
import Verif.Algo.Spec
import Verif.Algo.Lemmas
import Verif.Algo.Props
import Verif.Algo.Used
import Verif.Node.Model
import Verif.Node.Spec
import Verif.Node.Props
import Verif.Node.Filter
import Verif.Node.Slam
import Verif.Robust.Model
import Verif.Robust.Props
import Verif.Opt.Model
import Verif.Opt.Props
import Verif.Corr.Model
import Verif.Corr.Spec
import Verif.Corr.Lemmas
import Verif.Corr.Init
import Verif.Corr.Search
import Verif.Corr.Props
import Verif.Newton.Float
import Verif.Newton.Model
import Verif.Newton.Spec
import Verif.Newton.Search
import Verif.Newton.Lemmas
import Verif.Newton.Tools
import Verif.Newton.Props
import Verif.Score.Model
import Verif.Score.Spec
import Verif.Score.Calc
import Verif.Score.Point
import Verif.Score.Pair
import Verif.Score.Sums
import Verif.Score.Props
import Verif.World.Model
import Verif.World.Spec
import Verif.World.Stored
import Verif.World.Lemmas
import Verif.World.Merge
import Verif.World.Motion
import Verif.World.Area
import Verif.World.Messages
import Verif.World.Total
import Verif.World.Take
import Verif.World.Examples
import Verif.Whole.Model
import Verif.Whole.Spec
import Verif.Whole.Lemmas
import Verif.Whole.Invariant
import Verif.Whole.Props
import Verif.Whole.Total
import Verif.Whole.Examples
import Verif.Whole.Extent
import Verif.Whole.Window
import Verif.Whole.Detect
import Verif.Whole.DetectSpec
import Verif.Whole.DetectProps
import Verif.Launch.Model
import Verif.Launch.Spec
import Verif.Launch.Props
import Verif.Match.Model
import Verif.Match.Spec
import Verif.Match.Lemmas
import Verif.Match.Props
import Verif.Match.Session
import Verif.Slam.Output
import Verif.Slam.OutputProps
import Verif.Algo.Output
import Verif.Opt.Text
import Verif.Opt.TextProps
import Verif.Opt.Damaged
import Verif.World.Free
import Verif.Whole.Published
import Verif.Program.Model
import Verif.Program.Spec
import Verif.Program.Lemmas
import Verif.Program.Props
import Verif.Newton.Trial
import Verif.Newton.TrialProps
import Verif.Algo.Offset
import Verif.Score.Self
import Verif.Algo.Range
import Verif.Opt.Kinds
import Verif.Opt.KindsProps
import Verif.Opt.KindsText
import Verif.Round.Model
import Verif.Round.Spec
import Verif.Round.Lemmas
import Verif.Round.Props
import Verif.Round.Binary
import Verif.Round.Maps
import Verif.Round.MapsProps
import Verif.Round.Move
import Verif.Round.Ray
import Verif.Round.Examples
import Verif.Round.Pose
import Verif.Round.PoseLemmas
import Verif.Round.PoseProps
import Verif.Round.PoseMatch
import Verif.Round.PoseRun
import Verif.Round.PoseClose
import Verif.Round.CellStats
import Verif.Round.CellLemmas
import Verif.Round.CellErr
import Verif.Round.CellProps
import Verif.NDTGrid.Nearest
import Verif.NDTGrid.NearestProps
import Verif.Grid.Lines
import Verif.NDTGrid.Print
import Verif.NDTGrid.PrintProps
import Verif.Slam.FromOdom
import Verif.Slam.FromOdomProps
import Verif.Round.Occ
import Verif.Round.OccProps
import Verif.Newton.Stop
import Verif.Grid.Machine
import Verif.Grid.MachineLemmas
import Verif.Grid.MachineProps
import Verif.Cell.MergeAll
import Verif.Opt.Influence
import Verif.Opt.InfluenceProps
import Verif.Tests.Grid
import Verif.Tests.Graph
import Verif.Tests.Pose
import Verif.Grid.Enumerate
import Verif.Grid.EnumerateProps
import Verif.Round.Search
import Verif.Round.SearchProps
import Verif.Round.Threads
import Verif.Round.ThreadsProps
import Verif.Opt.Destroy
import Verif.Opt.DestroyProps
import Verif.Whole.Overlap
import Verif.Whole.OverlapProps
import Verif.NDTGrid.Nan
import Verif.NDTGrid.NanProps
import Verif.NDTGrid.Machine
import Verif.NDTGrid.MachineProps
import Verif.Whole.Memory
import Verif.Whole.MemoryProps
import Verif.NDTGrid.RayChain
import Verif.NDTGrid.RayChainProps
import Verif.NDTGrid.Recalc
import Verif.NDTGrid.RecalcProps
import Verif.World.History
import Verif.World.HistoryProps
import Verif.World.Fixed
import Verif.Whole.History
import Verif.Whole.MapMemory
import Verif.Whole.MapMemoryProps
import Verif.Score.Layer
import Verif.Score.LayerProps
import Verif.Match.Real
import Verif.Match.Search
import Verif.Whole.Blind
import Verif.Match.Reference
import Verif.Match.Inputs
import Verif.Match.InputsProps
import Verif.Match.Forget
import Verif.Program.WindowMsg
import Verif.Cell.Vanish
import Verif.World.Vanish
import Verif.Round.Traced
import Verif.Round.TracedProps
import Verif.Round.CentreRay
import Verif.Round.CentreRayProps
