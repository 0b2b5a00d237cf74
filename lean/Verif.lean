import Verif.Lemmas.Angles
import Verif.Lemmas.Arc
import Verif.Lemmas.ArchDepth
import Verif.Lemmas.Architecture
import Verif.Lemmas.Bisect
import Verif.Lemmas.Connector
import Verif.Lemmas.ConnectorLoop
import Verif.Lemmas.ConnectorSolve
import Verif.Lemmas.DmsText
import Verif.Lemmas.ErrorModel
import Verif.Lemmas.ErrorScale
import Verif.Lemmas.FormulaParse
import Verif.Lemmas.FormulaRead
import Verif.Lemmas.FormulaReads
import Verif.Lemmas.FormulaTable
import Verif.Lemmas.FormulaText
import Verif.Lemmas.FormulaTrees
import Verif.Lemmas.FormulaValues
import Verif.Lemmas.Interpolate
import Verif.Lemmas.Labels
import Verif.Lemmas.MinCurve
import Verif.Lemmas.MinCurveList
import Verif.Lemmas.Searchsorted
import Verif.Lemmas.Sensors
import Verif.Lemmas.SubArc
import Verif.Lemmas.Survey
import Verif.Lemmas.Toolface
import Verif.Lemmas.Vec
import Verif.Lemmas.WbpFile
import Verif.Lemmas.WbpParent
import Verif.Lemmas.WbpRead
import Verif.Lemmas.WbpText
import Verif.Lemmas.WellPath
import Verif.Model.Angles
import Verif.Model.Architecture
import Verif.Model.Bearing
import Verif.Model.Clearance
import Verif.Model.ClosestPoint
import Verif.Model.Conformance
import Verif.Model.Connector
import Verif.Model.ConnectorLoop
import Verif.Model.ConnectorSolve
import Verif.Model.DensityProfile
import Verif.Model.Dms
import Verif.Model.DmsText
import Verif.Model.Edm
import Verif.Model.EdmCase
import Verif.Model.EdmGraph
import Verif.Model.EdmTables
import Verif.Model.ErrorModel
import Verif.Model.ExportCsv
import Verif.Model.Extend
import Verif.Model.Extract
import Verif.Model.Factors
import Verif.Model.Fluid
import Verif.Model.FormulaTable
import Verif.Model.FormulaText
import Verif.Model.Frame
import Verif.Model.FromConnections
import Verif.Model.Header
import Verif.Model.HookLoad
import Verif.Model.IndexEntry
import Verif.Model.Ingest
import Verif.Model.InterpTvd
import Verif.Model.Interpolate
import Verif.Model.Interpreter
import Verif.Model.IoData
import Verif.Model.JsonScal
import Verif.Model.JsonTerm
import Verif.Model.KickOff
import Verif.Model.MaxCurve
import Verif.Model.Mesh
import Verif.Model.MeshClearance
import Verif.Model.MinCurve
import Verif.Model.NodeTvd
import Verif.Model.Owsg
import Verif.Model.Project
import Verif.Model.Report
import Verif.Model.Resample
import Verif.Model.ResampleTvd
import Verif.Model.Scene
import Verif.Model.Sections
import Verif.Model.SharedHeader
import Verif.Model.Sheets
import Verif.Model.Slice
import Verif.Model.SlicedMesh
import Verif.Model.Survey
import Verif.Model.SurveyCov
import Verif.Model.Target
import Verif.Model.TestSurvey
import Verif.Model.TiData
import Verif.Model.ToolIndex
import Verif.Model.Toolface
import Verif.Model.TorqueDrag
import Verif.Model.Tortuosity
import Verif.Model.Vec
import Verif.Model.Visual
import Verif.Model.Wbp
import Verif.Model.WbpParent
import Verif.Model.WbpText
import Verif.Model.Weights
import Verif.Model.Workbook
import Verif.Props.Accuracy
import Verif.Props.Angles
import Verif.Props.Approach
import Verif.Props.ArcBack
import Verif.Props.ArcBuild
import Verif.Props.ArcStages
import Verif.Props.Architecture
import Verif.Props.Bearing
import Verif.Props.BlockColumns
import Verif.Props.Cautious
import Verif.Props.ClcBack
import Verif.Props.Clearance
import Verif.Props.ClearanceUnits
import Verif.Props.ClosestCausal
import Verif.Props.ClosestCov
import Verif.Props.ClosestLonger
import Verif.Props.ClosestPoint
import Verif.Props.Conformance
import Verif.Props.ConnectPoints
import Verif.Props.ConnectionsCausal
import Verif.Props.Connector
import Verif.Props.ConnectorCurve
import Verif.Props.ConnectorFixed
import Verif.Props.ConnectorGrid
import Verif.Props.ConnectorMore
import Verif.Props.ConnectorOrigin
import Verif.Props.ConnectorSearch
import Verif.Props.ConnectorSeed
import Verif.Props.ConnectorSolve
import Verif.Props.ConnectorTable
import Verif.Props.ConnectorTurned
import Verif.Props.ConnectorUnits
import Verif.Props.ConnectorVec
import Verif.Props.Contact
import Verif.Props.Continuity
import Verif.Props.CovParts
import Verif.Props.Datum
import Verif.Props.Decimals
import Verif.Props.Declination
import Verif.Props.Deeper
import Verif.Props.DenserMud
import Verif.Props.DensityProfile
import Verif.Props.DensityTrend
import Verif.Props.DepthStages
import Verif.Props.DepthUnit
import Verif.Props.Dls
import Verif.Props.Dms
import Verif.Props.DmsOrder
import Verif.Props.DmsText
import Verif.Props.DragRepeated
import Verif.Props.DragStations
import Verif.Props.Edm
import Verif.Props.EdmCase
import Verif.Props.EdmFrame
import Verif.Props.EdmGraph
import Verif.Props.EdmSurvey
import Verif.Props.EdmTables
import Verif.Props.EitherEnd
import Verif.Props.ErrorDatum
import Verif.Props.ErrorModel
import Verif.Props.ExportCsv
import Verif.Props.Extend
import Verif.Props.ExtendTvd
import Verif.Props.Extract
import Verif.Props.Factors
import Verif.Props.Fluid
import Verif.Props.Formula
import Verif.Props.FormulaTable
import Verif.Props.FormulaText
import Verif.Props.Frame
import Verif.Props.Friction
import Verif.Props.Frictionless
import Verif.Props.FromConnections
import Verif.Props.FullTurns
import Verif.Props.Handover
import Verif.Props.Header
import Verif.Props.HookLoad
import Verif.Props.IndexEntry
import Verif.Props.Ingest
import Verif.Props.InterpTvd
import Verif.Props.Interpolate
import Verif.Props.InterpolateCausal
import Verif.Props.InterpolateCov
import Verif.Props.Interpreter
import Verif.Props.IoData
import Verif.Props.Irrelevant
import Verif.Props.JsonScal
import Verif.Props.JsonTerm
import Verif.Props.KickOff
import Verif.Props.Kop
import Verif.Props.LevelOrder
import Verif.Props.LikeSources
import Verif.Props.MaxCurve
import Verif.Props.MaxCurvePieces
import Verif.Props.Mesh
import Verif.Props.MeshCausal
import Verif.Props.MeshClearance
import Verif.Props.MeshClearanceCausal
import Verif.Props.MeshRings
import Verif.Props.Mirror
import Verif.Props.MirroredWell
import Verif.Props.Misalign
import Verif.Props.MoreErrors
import Verif.Props.MovedWells
import Verif.Props.NearStraight
import Verif.Props.NestedRings
import Verif.Props.NoStep
import Verif.Props.NodeTvd
import Verif.Props.Owsg
import Verif.Props.ParentFile
import Verif.Props.PedalReach
import Verif.Props.PointStages
import Verif.Props.ProfilePieces
import Verif.Props.Progress
import Verif.Props.Project
import Verif.Props.ProjectAhead
import Verif.Props.ProlongHold
import Verif.Props.Refine
import Verif.Props.Refined
import Verif.Props.RefinedTool
import Verif.Props.Repeated
import Verif.Props.Report
import Verif.Props.Resample
import Verif.Props.ResampleAttr
import Verif.Props.ResampleCausal
import Verif.Props.ResampleGentle
import Verif.Props.ResampleTvd
import Verif.Props.ResampleTvdCausal
import Verif.Props.ResampleTwice
import Verif.Props.ResampledNodes
import Verif.Props.ResampledTurn
import Verif.Props.Rotation
import Verif.Props.RotationLateral
import Verif.Props.Scene
import Verif.Props.SceneAxes
import Verif.Props.SearchSeverity
import Verif.Props.SectionAzimuths
import Verif.Props.SectionData
import Verif.Props.Sections
import Verif.Props.SectionsCausal
import Verif.Props.Sensors
import Verif.Props.SensorsAxial
import Verif.Props.SharedHeader
import Verif.Props.Sheets
import Verif.Props.ShortestCurveHold
import Verif.Props.Slice
import Verif.Props.SlicedMesh
import Verif.Props.SourceOrder
import Verif.Props.SparseSeverity
import Verif.Props.SpliceSteps
import Verif.Props.Stability
import Verif.Props.StationWise
import Verif.Props.StraightDrilling
import Verif.Props.StraightHole
import Verif.Props.SurveyAzi
import Verif.Props.SurveyCov
import Verif.Props.SurveyList
import Verif.Props.SurveyOfPoints
import Verif.Props.SwappedWells
import Verif.Props.Target
import Verif.Props.TestSurvey
import Verif.Props.TiCausal
import Verif.Props.TiData
import Verif.Props.TiKeywords
import Verif.Props.TiOrigin
import Verif.Props.TighterBend
import Verif.Props.ToolIndex
import Verif.Props.Toolface
import Verif.Props.TorqueDrag
import Verif.Props.TorqueDragMore
import Verif.Props.TorqueRadius
import Verif.Props.Tortuosity
import Verif.Props.Trajectory
import Verif.Props.TrueApproach
import Verif.Props.TvdAnyWell
import Verif.Props.TvdCausal
import Verif.Props.TvdRising
import Verif.Props.Upright
import Verif.Props.VerticalHole
import Verif.Props.VerticalSection
import Verif.Props.Visual
import Verif.Props.Wbp
import Verif.Props.WbpAppended
import Verif.Props.WbpMore
import Verif.Props.WbpParent
import Verif.Props.WbpText
import Verif.Props.Weights
import Verif.Props.Workbook
import Verif.Props.WorkbookRefs
import Verif.Spec.Bearing
import Verif.Spec.Closest
import Verif.Spec.Contact
import Verif.Spec.Covariance
import Verif.Spec.DmsText
import Verif.Spec.EdmCase
import Verif.Spec.Formula
import Verif.Spec.FormulaTable
import Verif.Spec.FormulaText
import Verif.Spec.FormulaValue
import Verif.Spec.Geometry
import Verif.Spec.Grid
import Verif.Spec.Header
import Verif.Spec.Levels
import Verif.Spec.MeasuredWell
import Verif.Spec.MeshClearance
import Verif.Spec.Motion
import Verif.Spec.Owsg
import Verif.Spec.Path
import Verif.Spec.PlanFile
import Verif.Spec.Search
import Verif.Spec.Sections
import Verif.Spec.Sensors
import Verif.Spec.SlicedMesh
import Verif.Spec.SurveyCov
import Verif.Spec.Tiling
import Verif.Spec.Tilt
import Verif.Spec.Toolface
import Verif.Spec.Tortuosity
import Verif.Spec.Triangulation
import Verif.Spec.TrueWell
import Verif.Spec.WellPath
import Verif.Spec.Workbook
