import Verif.Props.Nearest
import Verif.Props.TopoApprox
import Verif.Props.Builder
import Verif.Props.Midpoint
import Verif.Props.Box
import Verif.Props.Infinity
import Verif.Props.Query
import Verif.Props.MetricLaws
import Verif.Props.Rounding
import Verif.Proof.Grid
import Verif.Props.Grid
import Verif.Proof.TopoRounding
import Verif.Props.TopoRounding
import Verif.Model.MachineInt
import Verif.Model.Narrow
import Verif.Props.MachineInt
import Verif.Props.Stream
import Verif.Props.Segment
import Verif.Props.Memory
import Verif.Props.DArray
import Verif.Props.Array
import Verif.Props.Python
import Verif.Props.Lifetime
import Verif.Proof.CoverInv
import Verif.Props.Cover
import Verif.Props.CoverInv
import Verif.Props.Forest
import Verif.Proof.Work
import Verif.Props.Work
import Verif.SpecFormats
import Verif.Model.Formats
import Verif.Proof.Formats
import Verif.Props.Formats
import Verif.Proof.Frame
import Verif.Props.Frame
import Verif.Model.Float
import Verif.Proof.Nan
import Verif.Props.Nan
import Verif.Proof.Embed
import Verif.Proof.Ext
import Verif.Props.Overflow
import Verif.Proof.Saturate
import Verif.Props.Saturate
import Verif.Props.TopoError
import Verif.Props.TrueDistance
import Verif.Model.Eigen
import Verif.Model.Matrix
import Verif.Model.Counter
import Verif.Props.Eigen
import Verif.Props.Matrix
import Verif.Props.Counter
import Verif.Props.Lookup
import Verif.Props.Consistent
import Verif.Props.ApproxError
import Verif.Props.IndexType
import Verif.Props.MidpointFloat
import Verif.Props.MidpointInt
import Verif.Proof.LowFinal
import Verif.Props.CoverRounding
import Verif.Props.Ratio
import Verif.Proof.ForestRounding
import Verif.Proof.RotationError
import Verif.Props.ForestRounding
import Verif.Proof.GridNear
import Verif.Props.GridNear
import Verif.Model.ForestExample
import Verif.Props.ForestExample
import Verif.Model.TestHelpers
import Verif.Props.TestHelpers
import Verif.Proof.Looked
import Verif.Props.Looked
import Verif.Proof.Cells
import Verif.Props.Cells
import Verif.Model.CoverRegular
import Verif.Proof.CoverRegular
import Verif.Props.CoverRegular
import Verif.Proof.BoxRead
import Verif.Props.BoxRead
import Verif.Props.BoxWork
import Verif.Proof.Similar
import Verif.Props.Similar
import Verif.Model.Uosr
import Verif.Proof.Near
import Verif.Props.Uosr
import Verif.Props.Ascii
import Verif.Props.Sizes
import Verif.Model.Gtest
import Verif.Props.UnitTests
import Verif.Proof.Scale
import Verif.Props.Scale
import Verif.Model.Faulty
import Verif.Proof.Faulty
import Verif.Props.Faulty
import Verif.Model.Exhausted
import Verif.Proof.Exhausted
import Verif.Props.Exhausted
import Verif.Props.Isometry
import Verif.Props.OtherMetric
import Verif.Props.SearchWork
import Verif.Props.FarQuery
import Verif.Props.Dispatch
import Verif.Props.PyCount
import Verif.Model.PyTree
import Verif.Proof.PyTree
import Verif.Props.PyTree
import Verif.Props.PyFile
import Verif.Props.Reads
import Verif.Props.MetricDim
import Verif.Props.Moved
import Verif.Proof.Spread
import Verif.Props.Spread
import Verif.Model.View
import Verif.Props.View
import Verif.Model.ForestOrder
import Verif.Proof.ForestOrder
import Verif.Props.ForestOrder
import Verif.Model.BoxMem
import Verif.Proof.BoxMem
import Verif.Props.BoxMem
import Verif.Model.TreeObj
import Verif.SpecTreeObj
import Verif.Proof.TreeObj
import Verif.Props.TreeObj
import Verif.Model.Walk
import Verif.Proof.Walk
import Verif.Props.Walk
import Verif.Model.CoverMem
import Verif.SpecCoverMem
import Verif.Proof.CoverMem
import Verif.Proof.CoverMemBuild
import Verif.Proof.CoverMemMake
import Verif.Props.CoverMem
import Verif.SpecCoverShape
import Verif.Proof.CoverShape
import Verif.Props.CoverShape
import Verif.Model.DArrayObj
import Verif.SpecDArrayObj
import Verif.Proof.DArrayObj
import Verif.Props.DArrayObj
import Verif.Props.DArrayKeep
import Verif.Model.ForestMem
import Verif.SpecForestMem
import Verif.Proof.ForestMem
import Verif.Proof.ForestObj
import Verif.Props.ForestMem
import Verif.SpecMerge
import Verif.Proof.Merge
import Verif.Props.Merge
import Verif.Props.Lipschitz
import Verif.Model.Examples
import Verif.Props.Stored
import Verif.Props.Examples
import Verif.Props.Lengths
import Verif.Props.PyFloat
import Verif.Model.ExampleSearch
import Verif.Props.ExampleSearch
import Verif.Props.PyApprox
import Verif.Props.Canonical
import Verif.Props.CircleError
import Verif.Props.Narrow
import Verif.Props.IntApprox
import Verif.Proof.PointOrder
import Verif.Props.PointOrder
import Verif.Model.Benchmark
import Verif.Props.Benchmark
import Verif.Model.BuildReads
import Verif.Props.BuildReads
import Verif.Model.CoverTest
import Verif.Props.CoverTest
import Verif.Props.MaxNormTight
import Verif.Props.ApproxTight
import Verif.Props.ApproxCircle
import Verif.Model.Plot
import Verif.Props.Plot
import Verif.Model.DynamicSpace
import Verif.Props.DynamicSpace
import Verif.Model.AdaptorTest
import Verif.Props.AdaptorTest
import Verif.Axioms
import Verif.Props.ExampleSpace
