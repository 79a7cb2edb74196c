import Verif.Lemmas.Bilinear
import Verif.Lemmas.BilinearSearch
import Verif.Lemmas.CString
import Verif.Lemmas.Clip
import Verif.Lemmas.Combine
import Verif.Lemmas.CombineDriver
import Verif.Lemmas.CombineMain
import Verif.Lemmas.CombineNcc
import Verif.Lemmas.CombineOut
import Verif.Lemmas.CombineSet
import Verif.Lemmas.Compress
import Verif.Lemmas.CompressedDim
import Verif.Lemmas.ConformalGrid
import Verif.Lemmas.ConformalGridArea
import Verif.Lemmas.Conserve
import Verif.Lemmas.Convex
import Verif.Lemmas.CouplerRows
import Verif.Lemmas.CouplerTile
import Verif.Lemmas.CubeGrid
import Verif.Lemmas.CubeLength
import Verif.Lemmas.CubicSpline
import Verif.Lemmas.EdgeClip
import Verif.Lemmas.Extent
import Verif.Lemmas.Extrapolate
import Verif.Lemmas.FieldAtts
import Verif.Lemmas.FregridHalo
import Verif.Lemmas.FregridHaloCopy
import Verif.Lemmas.FregridHaloSetup
import Verif.Lemmas.GlobalField
import Verif.Lemmas.Gnomonic
import Verif.Lemmas.GpuConserve
import Verif.Lemmas.GpuXgrid
import Verif.Lemmas.GreatCircleArea
import Verif.Lemmas.GreatCircleClip
import Verif.Lemmas.GreatCircleHits
import Verif.Lemmas.GreatCircleIx
import Verif.Lemmas.GreatCircleSum
import Verif.Lemmas.GreatCircleWalk
import Verif.Lemmas.GridFromFile
import Verif.Lemmas.HgridHalo
import Verif.Lemmas.Hydrog
import Verif.Lemmas.HydrogCross
import Verif.Lemmas.HydrogIter
import Verif.Lemmas.HydrogSort
import Verif.Lemmas.Interp
import Verif.Lemmas.LandDomain
import Verif.Lemmas.Lon
import Verif.Lemmas.MergeRank
import Verif.Lemmas.Monotone
import Verif.Lemmas.Mpp
import Verif.Lemmas.MppIo
import Verif.Lemmas.MppIoDefl
import Verif.Lemmas.MppIoTable
import Verif.Lemmas.NcArray
import Verif.Lemmas.Nest
import Verif.Lemmas.OrdPart
import Verif.Lemmas.Partition
import Verif.Lemmas.Plevel
import Verif.Lemmas.PlevelHeight
import Verif.Lemmas.PolyArea
import Verif.Lemmas.QuickSort
import Verif.Lemmas.RealTopog
import Verif.Lemmas.Refine
import Verif.Lemmas.RemapCohort
import Verif.Lemmas.RemapDest
import Verif.Lemmas.RemapWrite
import Verif.Lemmas.RiverArea
import Verif.Lemmas.RiverFlow
import Verif.Lemmas.RiverHalo
import Verif.Lemmas.RiverInflow
import Verif.Lemmas.RiverMain
import Verif.Lemmas.RiverSort
import Verif.Lemmas.RiverTravel
import Verif.Lemmas.RowRange
import Verif.Lemmas.Runoff
import Verif.Lemmas.Scatter
import Verif.Lemmas.ScatterMain
import Verif.Lemmas.ScatterNcc
import Verif.Lemmas.Spline
import Verif.Lemmas.SplitVars
import Verif.Lemmas.SplitVarsNames
import Verif.Lemmas.SplitVarsRun
import Verif.Lemmas.StrList
import Verif.Lemmas.TimavgScript
import Verif.Lemmas.Tokenize
import Verif.Lemmas.TopogCells
import Verif.Lemmas.TopogFilter
import Verif.Lemmas.TopogHalo
import Verif.Lemmas.TopogIsolated
import Verif.Lemmas.TopogLevels
import Verif.Lemmas.TopogMain
import Verif.Lemmas.TransferMosaic
import Verif.Lemmas.TransferMosaicProduct
import Verif.Lemmas.Tripolar
import Verif.Lemmas.TripolarPoint
import Verif.Lemmas.TripolarRow
import Verif.Lemmas.TripolarScale
import Verif.Lemmas.XGrid
import Verif.Model.Affinity
import Verif.Model.AxisAtts
import Verif.Model.Bilinear
import Verif.Model.BilinearSearch
import Verif.Model.BlockSize
import Verif.Model.BoundaryType
import Verif.Model.CString
import Verif.Model.CheckMask
import Verif.Model.Clip
import Verif.Model.Combine
import Verif.Model.CombineDriver
import Verif.Model.CombineNcc
import Verif.Model.CombineRestarts
import Verif.Model.Compress
import Verif.Model.CompressedDim
import Verif.Model.ConformalGrid
import Verif.Model.Conserve
import Verif.Model.Contact
import Verif.Model.CouplerGrid
import Verif.Model.CouplerRows
import Verif.Model.CouplerTile
import Verif.Model.CubeGrid
import Verif.Model.DataFiles
import Verif.Model.Decompress
import Verif.Model.Domain2D
import Verif.Model.DomeTopog
import Verif.Model.Extent
import Verif.Model.Extrapolate
import Verif.Model.FieldAtts
import Verif.Model.FilePath
import Verif.Model.FloatExtent
import Verif.Model.FregridDrive
import Verif.Model.FregridHalo
import Verif.Model.FregridInput
import Verif.Model.FregridMeta
import Verif.Model.GlobalField
import Verif.Model.Gnomonic
import Verif.Model.GpuConserve
import Verif.Model.GpuXgrid
import Verif.Model.Gradient
import Verif.Model.GreatCircleArea
import Verif.Model.GreatCircleClip
import Verif.Model.GridBound
import Verif.Model.GridFromFile
import Verif.Model.GridLegacy
import Verif.Model.HgridHalo
import Verif.Model.Hydrog
import Verif.Model.HydrogCross
import Verif.Model.IdealTopog
import Verif.Model.Interp
import Verif.Model.LakeCells
import Verif.Model.LakeInterp
import Verif.Model.LandDomain
import Verif.Model.ListVars
import Verif.Model.Lon
import Verif.Model.LonLatGrid
import Verif.Model.Loop
import Verif.Model.MakeRemap
import Verif.Model.MaskOptions
import Verif.Model.MergeRank
import Verif.Model.MosaicContact
import Verif.Model.Mpp
import Verif.Model.MppIo
import Verif.Model.NcArray
import Verif.Model.Nest
import Verif.Model.NestLength
import Verif.Model.NestOptions
import Verif.Model.NodePool
import Verif.Model.OutputAxes
import Verif.Model.OutputTime
import Verif.Model.PackedData
import Verif.Model.Plevel
import Verif.Model.PlevelMeta
import Verif.Model.PolarArea
import Verif.Model.PolyArea
import Verif.Model.PolyCentroid
import Verif.Model.Provenance
import Verif.Model.QSort
import Verif.Model.QuickMosaic
import Verif.Model.RealTopog
import Verif.Model.Regional
import Verif.Model.RemapCohort
import Verif.Model.RemapDest
import Verif.Model.RemapLand
import Verif.Model.RemapRuns
import Verif.Model.RestartScripts
import Verif.Model.River
import Verif.Model.RotationAngle
import Verif.Model.RowRange
import Verif.Model.Runoff
import Verif.Model.Scatter
import Verif.Model.ScatterDims
import Verif.Model.ScatterNcc
import Verif.Model.ScatterOptions
import Verif.Model.SplitVars
import Verif.Model.StrList
import Verif.Model.TimavgScript
import Verif.Model.TimeAvg
import Verif.Model.Tokenize
import Verif.Model.Topog
import Verif.Model.TopogDriver
import Verif.Model.TopogShapes
import Verif.Model.TransferMosaic
import Verif.Model.Tripolar
import Verif.Model.VaporTable
import Verif.Model.Vec3
import Verif.Model.VectorRemap
import Verif.Model.VgridMain
import Verif.Model.XGrid
import Verif.Props.Affinity
import Verif.Props.Arcs
import Verif.Props.AxisAtts
import Verif.Props.Bilinear
import Verif.Props.BilinearSearch
import Verif.Props.BlockSize
import Verif.Props.BoundaryType
import Verif.Props.CheckMask
import Verif.Props.Clip
import Verif.Props.Coarsening
import Verif.Props.Combine
import Verif.Props.CombineDriver
import Verif.Props.CombineNcc
import Verif.Props.CombineRestarts
import Verif.Props.Compress
import Verif.Props.CompressedDim
import Verif.Props.ConformalGrid
import Verif.Props.ConformalGridArea
import Verif.Props.Conserve
import Verif.Props.Contact
import Verif.Props.CouplerGrid
import Verif.Props.CouplerRows
import Verif.Props.CouplerTile
import Verif.Props.CubeGrid
import Verif.Props.CubeLength
import Verif.Props.CubePoints
import Verif.Props.CubicHalo
import Verif.Props.CubicSpline
import Verif.Props.DataFiles
import Verif.Props.Decomposition
import Verif.Props.Decompress
import Verif.Props.DomeTopog
import Verif.Props.EdgeClip
import Verif.Props.Extrapolate
import Verif.Props.FieldAtts
import Verif.Props.FilePath
import Verif.Props.FloatExtent
import Verif.Props.FregridDrive
import Verif.Props.FregridHalo
import Verif.Props.FregridInput
import Verif.Props.FregridMeta
import Verif.Props.FregridSettings
import Verif.Props.GlobalField
import Verif.Props.Gnomonic
import Verif.Props.GpuConserve
import Verif.Props.GpuXgrid
import Verif.Props.Gradient
import Verif.Props.GreatCircleArea
import Verif.Props.GreatCircleClip
import Verif.Props.GreatCircleEnds
import Verif.Props.GreatCircleInside
import Verif.Props.GridBound
import Verif.Props.GridFromFile
import Verif.Props.GridLegacy
import Verif.Props.HgridHalo
import Verif.Props.Hydrog
import Verif.Props.HydrogCross
import Verif.Props.HydrogIter
import Verif.Props.HydrogMissing
import Verif.Props.IdealTopog
import Verif.Props.LakeCells
import Verif.Props.LakeInterp
import Verif.Props.LandDomain
import Verif.Props.LinAlg
import Verif.Props.ListVars
import Verif.Props.Lon
import Verif.Props.LonLatGrid
import Verif.Props.MakeRemap
import Verif.Props.MaskOptions
import Verif.Props.MergeRank
import Verif.Props.Monotone
import Verif.Props.MosaicContact
import Verif.Props.MppIo
import Verif.Props.MppIoCases
import Verif.Props.MppIoDeflation
import Verif.Props.Nearest
import Verif.Props.Nest
import Verif.Props.NestLength
import Verif.Props.NestOptions
import Verif.Props.NodePool
import Verif.Props.OutputAxes
import Verif.Props.OutputTime
import Verif.Props.PackedData
import Verif.Props.Plevel
import Verif.Props.PlevelMeta
import Verif.Props.PolarArea
import Verif.Props.PolyArea
import Verif.Props.PolyCentroid
import Verif.Props.Provenance
import Verif.Props.QSort
import Verif.Props.QuickMosaic
import Verif.Props.RealTopog
import Verif.Props.Refine
import Verif.Props.Regional
import Verif.Props.RemapCohort
import Verif.Props.RemapDest
import Verif.Props.RemapFile
import Verif.Props.RemapNearest
import Verif.Props.RemapRuns
import Verif.Props.RemapTiles
import Verif.Props.RemapWrite
import Verif.Props.RestartScripts
import Verif.Props.River
import Verif.Props.RiverFlow
import Verif.Props.Rotate
import Verif.Props.RotationAngle
import Verif.Props.RoundTrip
import Verif.Props.RowRange
import Verif.Props.Runoff
import Verif.Props.Scatter
import Verif.Props.ScatterDims
import Verif.Props.ScatterNcc
import Verif.Props.ScatterOptions
import Verif.Props.Schmidt
import Verif.Props.SecondOrder
import Verif.Props.SpectralGrid
import Verif.Props.Spline
import Verif.Props.SplitVars
import Verif.Props.SplitVarsCases
import Verif.Props.StrList
import Verif.Props.TimavgScript
import Verif.Props.TimeAvg
import Verif.Props.Tokenize
import Verif.Props.Topog
import Verif.Props.TopogDriver
import Verif.Props.TopogShapes
import Verif.Props.TransferMosaic
import Verif.Props.TransferMosaicCases
import Verif.Props.TransferMosaicFiles
import Verif.Props.Tripolar
import Verif.Props.VaporTable
import Verif.Props.VectorRemap
import Verif.Props.Vertex
import Verif.Props.Vertical
import Verif.Props.VgridMain
import Verif.Props.XGrid
import Verif.Spec.Bilinear
import Verif.Spec.BilinearSearch
import Verif.Spec.CheckMask
import Verif.Spec.Clip
import Verif.Spec.CombineNcc
import Verif.Spec.CombineRestarts
import Verif.Spec.Compress
import Verif.Spec.CompressedDim
import Verif.Spec.ConformalGridArea
import Verif.Spec.Conserve
import Verif.Spec.Contact
import Verif.Spec.CouplerGrid
import Verif.Spec.CouplerRows
import Verif.Spec.CouplerTile
import Verif.Spec.Cube
import Verif.Spec.Decompress
import Verif.Spec.Driver
import Verif.Spec.Extrapolate
import Verif.Spec.Field
import Verif.Spec.FieldAtts
import Verif.Spec.FilePath
import Verif.Spec.FregridHalo
import Verif.Spec.FregridMeta
import Verif.Spec.Gnomonic
import Verif.Spec.GpuConserve
import Verif.Spec.GpuXgrid
import Verif.Spec.GreatCircleArea
import Verif.Spec.GreatCircleClip
import Verif.Spec.GridBound
import Verif.Spec.GridFromFile
import Verif.Spec.GridLegacy
import Verif.Spec.HgridHalo
import Verif.Spec.Hydrog
import Verif.Spec.Interp
import Verif.Spec.LandDomain
import Verif.Spec.ListVars
import Verif.Spec.Lon
import Verif.Spec.LonLatGrid
import Verif.Spec.MosaicContact
import Verif.Spec.MppIo
import Verif.Spec.Nest
import Verif.Spec.NodePool
import Verif.Spec.OutputAxes
import Verif.Spec.PackedData
import Verif.Spec.Partition
import Verif.Spec.Pieces
import Verif.Spec.Plevel
import Verif.Spec.QSort
import Verif.Spec.QuickMosaic
import Verif.Spec.RealTopog
import Verif.Spec.RemapLand
import Verif.Spec.RemapRuns
import Verif.Spec.River
import Verif.Spec.RotationAngle
import Verif.Spec.Rounding
import Verif.Spec.RowRange
import Verif.Spec.Runoff
import Verif.Spec.ScatterDims
import Verif.Spec.ScatterNcc
import Verif.Spec.ScatterOptions
import Verif.Spec.SplitVars
import Verif.Spec.StrList
import Verif.Spec.Tile
import Verif.Spec.TimavgScript
import Verif.Spec.TimeAvg
import Verif.Spec.Tokenize
import Verif.Spec.Topog
import Verif.Spec.TopogShapes
import Verif.Spec.TransferMosaic
import Verif.Spec.Tripolar
import Verif.Spec.Vec3
import Verif.Spec.VectorRemap
import Verif.Spec.XGrid
