import Verif.Lemmas.Containers
import Verif.Lemmas.Pairs
import Verif.Model.Graph
import Verif.Props.Pool
import Verif.Props.PoolOrder
import Verif.Props.Util
import Verif.Props.Search
import Verif.Props.Neighbourhood
import Verif.Lemmas.Isotropic
import Verif.Lemmas.AspectRatio
import Verif.Lemmas.Correction
import Verif.Model.TopLevel
import Verif.Props.Agglomeration
import Verif.Props.Lines
import Verif.Props.Anisotropic
import Verif.Props.Arguments
import Verif.Props.Growth
import Verif.Props.CoarseGraph
import Verif.Props.Levels
import Verif.Props.LineGrowth
import Verif.Props.Correction
import Verif.Props.Threshold
import Verif.Spec.AnyThreshold
import Verif.Lemmas.AnyThreshold
import Verif.Props.AnyThreshold
import Verif.Props.Connectivity
import Verif.Props.Deprecated
import Verif.Props.Subgraph
import Verif.Props.HashFree
import Verif.Props.Features
import Verif.Props.Python
import Verif.Props.Hierarchy
import Verif.Props.Ignored
import Verif.Props.PoolSteps
import Verif.Props.Candidates
import Verif.Lemmas.Unique
import Verif.Props.Complete
import Verif.Props.WholeCall
import Verif.Props.AfterLines
import Verif.Lemmas.AnisoStart
import Verif.Lemmas.WholeCall
import Verif.Spec.WholeCall
import Verif.Spec.SameData
import Verif.Lemmas.Transfer
import Verif.Lemmas.DataUse
import Verif.Props.SameData
import Verif.Props.StoredCells
import Verif.Spec.Units
import Verif.Lemmas.Units
import Verif.Props.Units
import Verif.Spec.Numbering
import Verif.Lemmas.Numbering
import Verif.Props.Numbering
import Verif.Lemmas.Front
import Verif.Spec.Front
import Verif.Props.Front
import Verif.Lemmas.NumberingLines
import Verif.Spec.NumberingLines
import Verif.Props.NumberingLines
import Verif.Model.Overflow
import Verif.Lemmas.Overflow
import Verif.Lemmas.OverflowGrow
import Verif.Lemmas.OverflowCorrect
import Verif.Lemmas.OverflowCall
import Verif.Spec.Overflow
import Verif.Props.Overflow
import Verif.Props.TwoEnds
import Verif.Props.InAdvance
import Verif.Props.Direction
import Verif.Props.Parts
import Verif.Spec.Skipping
import Verif.Props.Skipping
import Verif.Model.History
import Verif.Lemmas.History
import Verif.Props.History
import Verif.Lemmas.HistoryAny
import Verif.Props.HistoryAny
import Verif.Lemmas.AnyOrder
import Verif.Props.AnyOrder
import Verif.Props.AnyMode
import Verif.Props.Halving
import Verif.Props.Gap
import Verif.Lemmas.NumberingAny
import Verif.Props.NumberingAny
import Verif.Model.Double
import Verif.Spec.Double
import Verif.Lemmas.Double
import Verif.Lemmas.Rounding
import Verif.Conformance.Meshes
import Verif.Conformance.Agglomeration
import Verif.Conformance.Correction
import Verif.Conformance.Pool
import Verif.Conformance.Features
import Verif.Conformance.Others
import Verif.Lemmas.DoubleExact
import Verif.Props.Rounding
import Verif.Lemmas.NumberingFloat
import Verif.Props.NumberingDouble
import Verif.Spec.RoundedFeatures
import Verif.Lemmas.RoundedFeatures
import Verif.Lemmas.DoubleArith
import Verif.Props.RoundedFeatures
import Verif.Spec.RoundedShape
import Verif.Lemmas.RoundedShape
import Verif.Lemmas.DoubleRange
import Verif.Lemmas.RoundedRange
import Verif.Lemmas.RoundedRatio
import Verif.Props.RoundedShape
import Verif.Props.Checked
import Verif.Lemmas.Only
import Verif.Props.AnyInput
import Verif.Props.Fuel
import Verif.Spec.Rounding
import Verif.Props.UnitsFloat
import Verif.Spec.Turn
import Verif.Lemmas.Turn
import Verif.Props.Turn
import Verif.Lemmas.TurnLevels
import Verif.Props.TurnLevels
import Verif.Spec.Straight
import Verif.Lemmas.Straight
import Verif.Props.Straight
import Verif.Lemmas.DoubleDir
import Verif.Props.StraightDouble
import Verif.Spec.Nearest
import Verif.Props.Nearest
import Verif.Spec.CorrectedSize
import Verif.Props.CorrectedSize
import Verif.Spec.SmallParts
import Verif.Props.SmallParts
import Verif.Spec.RoundedTagging
import Verif.Lemmas.DoubleSqrt
import Verif.Props.RoundedTagging
import Verif.Spec.Whole
import Verif.Lemmas.Whole
import Verif.Lemmas.WholeRatios
import Verif.Lemmas.WholeLines
import Verif.Lemmas.WholeTurns
import Verif.Lemmas.WholeDistances
import Verif.Props.Whole
import Verif.Props.Sizes
import Verif.Spec.Grid
import Verif.Lemmas.Grid
import Verif.Lemmas.GridPool
import Verif.Lemmas.GridRun
import Verif.Lemmas.GridGrow
import Verif.Lemmas.GridBlock
import Verif.Lemmas.GridCube
import Verif.Props.Structured
import Verif.Props.StructuredLarger
import Verif.Props.StructuredLevels
import Verif.Spec.Chains
import Verif.Lemmas.Chains
import Verif.Lemmas.Layers
import Verif.Props.Chains
import Verif.Props.Layers
import Verif.Spec.LineLevels
import Verif.Lemmas.LineLevels
import Verif.Props.LineLevels
import Verif.Props.LayersAny
import Verif.Spec.Columns
import Verif.Lemmas.Columns
import Verif.Props.Columns
import Verif.Lemmas.TakenCells
import Verif.Props.Walls
import Verif.Spec.LineCuts
import Verif.Lemmas.LineCuts
import Verif.Props.LineCuts
import Verif.Spec.LineParts
import Verif.Lemmas.LineParts
import Verif.Props.LineParts
import Verif.Spec.Tile
import Verif.Lemmas.TileGrid
import Verif.Lemmas.TilePool
import Verif.Lemmas.TileRun
import Verif.Lemmas.TileGrow
import Verif.Lemmas.TileBlock
import Verif.Lemmas.TileSize
import Verif.Props.Tiles
import Verif.Lemmas.TileRow
import Verif.Props.TileRows
import Verif.Props.TileLevels
import Verif.Spec.RowGroups
import Verif.Lemmas.RowGrow
import Verif.Lemmas.RowRun
import Verif.Props.Rows
import Verif.Lemmas.RowLevels
import Verif.Props.RowChain
import Verif.Props.RowLevels
import Verif.Props.RowsCorrected
import Verif.Props.RowLevelsCorrected
import Verif.Props.Reach
