import Verif.Model.Basic
import Verif.Model.Partitioner
import Verif.Spec.Directions
import Verif.Spec.Cube
import Verif.Lemmas.Partitioner
import Verif.Lemmas.CubeBoundary
import Verif.Lemmas.CubeRecip
import Verif.Lemmas.CubeDistinct
import Verif.Lemmas.CubeGeometry
import Verif.Lemmas.TileBoundary
import Verif.Props.Partitioner
import Verif.Model.Decomposition
import Verif.Spec.Decomposition
import Verif.Lemmas.Decomposition
import Verif.Lemmas.Slices
import Verif.Lemmas.EdgeSearch
import Verif.Props.Decomposition
import Verif.Model.BoundarySlice
import Verif.Spec.Halo
import Verif.Lemmas.BoundarySlice
import Verif.Props.BoundarySlice
import Verif.Props.Views
import Verif.Model.NDArray
import Verif.Spec.NDArray
import Verif.Lemmas.Rotate
import Verif.Props.Rotate
import Verif.Model.Transformer
import Verif.Lemmas.NDArray
import Verif.Lemmas.Transformer
import Verif.Props.Transformer
import Verif.Spec.HaloFill
import Verif.Model.HaloUpdate
import Verif.Lemmas.CubeFill
import Verif.Lemmas.Exchange
import Verif.Lemmas.HaloUpdate
import Verif.Lemmas.HaloGeometry
import Verif.Lemmas.HaloSetting
import Verif.Lemmas.HaloFields
import Verif.Lemmas.HaloOutside
import Verif.Props.HaloUpdate
import Verif.Props.HaloKept
import Verif.Props.HaloTile
import Verif.Props.HaloVector
import Verif.Props.HaloExtension
import Verif.Model.VectorInterface
import Verif.Spec.VectorInterface
import Verif.Lemmas.VectorInterface
import Verif.Props.VectorInterface
import Verif.Model.Gpu
import Verif.Model.IndexCache
import Verif.Spec.Gpu
import Verif.Lemmas.Gpu
import Verif.Props.Gpu
import Verif.Model.Updater
import Verif.Spec.Updater
import Verif.Props.Updater
import Verif.Model.BufferPool
import Verif.Spec.BufferPool
import Verif.Props.BufferPool
import Verif.Model.Network
import Verif.Spec.Network
import Verif.Lemmas.Network
import Verif.Props.Network
import Verif.Model.ScatterGather
import Verif.Spec.ScatterGather
import Verif.Lemmas.ScatterGather
import Verif.Lemmas.ScatterParts
import Verif.Props.ScatterGather
import Verif.Model.StateTransfer
import Verif.Props.StateTransfer
import Verif.Model.LocalComm
import Verif.Spec.LocalComm
import Verif.Props.LocalComm
import Verif.Model.CachingComm
import Verif.Spec.CachingComm
import Verif.Props.CachingComm
import Verif.Model.Sizer
import Verif.Props.Sizer
import Verif.Model.QuantityOps
import Verif.Props.QuantityOps
import Verif.Model.Factory
import Verif.Props.Factory
import Verif.Model.FieldBundle
import Verif.Spec.FieldBundle
import Verif.Props.FieldBundle
import Verif.Model.StateUpdate
import Verif.Spec.StateUpdate
import Verif.Props.StateUpdate
import Verif.Model.Compile
import Verif.Spec.Compile
import Verif.Lemmas.Compile
import Verif.Props.Compile
import Verif.Model.Backend
import Verif.Props.Backend
import Verif.Model.GridIndexing
import Verif.Props.GridIndexing
import Verif.Model.ColumnStencils
import Verif.Spec.ColumnStencils
import Verif.Props.ColumnStencils
import Verif.Model.CornerStencils
import Verif.Spec.CornerStencils
import Verif.Lemmas.CornerStencils
import Verif.Props.CornerStencils
import Verif.Model.CornerArrays
import Verif.Spec.CornerArrays
import Verif.Lemmas.CornerArrays
import Verif.Props.CornerArrays
import Verif.Model.AxisMerge
import Verif.Spec.AxisMerge
import Verif.Lemmas.AxisMerge
import Verif.Lemmas.AxisMergePass
import Verif.Lemmas.AxisMergeRename
import Verif.Props.AxisMerge
import Verif.Model.KSplit
import Verif.Spec.KSplit
import Verif.Props.KSplit
import Verif.Model.Timer
import Verif.Spec.Timer
import Verif.Props.Timer
import Verif.Model.Thresholds
import Verif.Spec.Thresholds
import Verif.Lemmas.Thresholds
import Verif.Props.Thresholds
import Verif.Model.Snapshots
import Verif.Spec.Snapshots
import Verif.Props.Snapshots
import Verif.Model.NetCDF
import Verif.Spec.NetCDF
import Verif.Lemmas.NetCDF
import Verif.Props.NetCDF
import Verif.Model.Zarr
import Verif.Spec.Zarr
import Verif.Lemmas.Zarr
import Verif.Props.Zarr
import Verif.Model.Namelist
import Verif.Spec.Namelist
import Verif.Props.Namelist
import Verif.Model.Debugger
import Verif.Spec.Debugger
import Verif.Props.Debugger
import Verif.Model.Eta
import Verif.Spec.Eta
import Verif.Props.Eta
import Verif.Model.Restart
import Verif.Model.RestartTable
import Verif.Spec.Restart
import Verif.Props.Restart
import Verif.Model.ListByDims
import Verif.Props.ListByDims
import Verif.Model.Comparison
import Verif.Spec.Comparison
import Verif.Props.Comparison
import Verif.Model.Performance
import Verif.Spec.Performance
import Verif.Props.Performance
import Verif.Model.Stretch
import Verif.Spec.Stretch
import Verif.Props.Stretch
import Verif.Model.Sphere
import Verif.Spec.Sphere
import Verif.Props.Sphere
import Verif.Props.SphereArea
import Verif.Model.Gnomonic
import Verif.Spec.Gnomonic
import Verif.Props.Gnomonic
import Verif.Props.GnomonicTiles
import Verif.Props.GnomonicEdges
import Verif.Props.GridArea
import Verif.Model.CubedToLatLon
import Verif.Spec.CubedToLatLon
import Verif.Props.CubedToLatLon
import Verif.Props.MockExchange
import Verif.Model.GridHelper
import Verif.Props.GridHelper
import Verif.Model.EdgeFactors
import Verif.Spec.EdgeFactors
import Verif.Props.EdgeFactors
import Verif.Model.SupergridCorners
import Verif.Spec.SupergridCorners
import Verif.Props.SupergridCorners
import Verif.Model.SupergridAngles
import Verif.Spec.SupergridAngles
import Verif.Props.SupergridAngles
import Verif.Model.RefineTransients
import Verif.Spec.RefineTransients
import Verif.Lemmas.RefineTransients
import Verif.Props.RefineTransients
import Verif.Model.Orchestration
import Verif.Spec.Orchestration
import Verif.Props.Orchestration
import Verif.Model.DistBuild
import Verif.Spec.DistBuild
import Verif.Props.DistBuild
import Verif.Model.BuildInfo
import Verif.Spec.BuildInfo
import Verif.Props.BuildInfo
import Verif.Model.Runtime
import Verif.Spec.Runtime
import Verif.Props.Runtime
import Verif.Model.MetricTerms
import Verif.Spec.MetricTerms
import Verif.Props.MetricTerms
import Verif.Model.DerivedTerms
import Verif.Spec.DerivedTerms
import Verif.Lemmas.DerivedTerms
import Verif.Props.DerivedTerms
import Verif.Props.DerivedTrig
import Verif.Model.StateAlloc
import Verif.Spec.StateAlloc
import Verif.Props.StateAlloc
import Verif.Model.StateFiles
import Verif.Spec.StateFiles
import Verif.Props.StateFiles
import Verif.Props.GridSizes
import Verif.Props.StorageData
import Verif.Model.StateIO
import Verif.Spec.StateIO
import Verif.Props.StateIO
import Verif.Model.Translate
import Verif.Props.Translate
import Verif.Model.GlobalMirror
import Verif.Props.GlobalMirror
import Verif.Model.ViewIndex
import Verif.Props.ViewIndex
import Verif.Model.Reduce
import Verif.Props.Reduce
import Verif.Model.Segments
import Verif.Props.Segments
import Verif.Model.Masking
import Verif.Props.Masking
import Verif.Model.Streams
import Verif.Spec.Streams
import Verif.Lemmas.Streams
import Verif.Lemmas.HaloStreams
import Verif.Lemmas.HaloLaunches
import Verif.Lemmas.HaloSafe
import Verif.Props.Streams
import Verif.Props.StencilCall
import Verif.Props.StencilFactory
import Verif.Model.CleanTree
import Verif.Props.CleanTree
import Verif.Model.TestCases
import Verif.Spec.TestCases
import Verif.Props.TestCases
import Verif.Model.CartesianGrid
import Verif.Spec.CartesianGrid
import Verif.Props.CartesianGrid
import Verif.Model.SerialData
import Verif.Spec.SerialData
import Verif.Props.SerialData
import Verif.Props.MemoryReport
import Verif.Props.DebugChecks
import Verif.Model.ZarrStates
import Verif.Spec.ZarrStates
import Verif.Props.ZarrStates
import Verif.Props.AxisMergeEnds
import Verif.Model.CacheDirs
import Verif.Props.CacheDirs
import Verif.Model.CompareReport
import Verif.Spec.CompareReport
import Verif.Props.CompareReport
import Verif.Model.Labels
import Verif.Spec.Labels
import Verif.Props.Labels
import Verif.Model.MakeQuantity
import Verif.Spec.MakeQuantity
import Verif.Props.MakeQuantity
import Verif.Model.Boilerplate
import Verif.Props.Boilerplate
import Verif.Model.Temporaries
import Verif.Spec.Temporaries
import Verif.Props.Temporaries
import Verif.Props.HaloTileVector
import Verif.Model.Xumpy
import Verif.Spec.Xumpy
import Verif.Props.Xumpy
import Verif.Props.RankMoves
import Verif.Props.GridWindows
import Verif.Model.PlotPrep
import Verif.Props.PlotPrep
import Verif.Model.Settings
import Verif.Spec.Settings
import Verif.Props.Settings
import Verif.Model.Constants
import Verif.Props.Constants
import Verif.Model.TestGrid
import Verif.Props.TestGrid
import Verif.Model.Perturb
import Verif.Spec.Perturb
import Verif.Props.Perturb
import Verif.Model.TestReport
import Verif.Props.TestReport
import Verif.Model.StencilOptions
import Verif.Props.StencilOptions
import Verif.Model.BestGuess
import Verif.Props.BestGuess
import Verif.Model.GridStorage
import Verif.Props.GridStorage
import Verif.Model.TestGridData
import Verif.Props.TestGridData
import Verif.Model.StorageShape
import Verif.Props.StorageShape
import Verif.Model.TreeSwap
import Verif.Props.TreeSwap
import Verif.Model.DeviceCopy
import Verif.Props.DeviceCopy
import Verif.Props.ScatterFresh
import Verif.Model.Sequential
import Verif.Props.Sequential
import Verif.Model.ArrayLib
import Verif.Props.ArrayLib
import Verif.Model.ParallelTranslate
import Verif.Props.ParallelTranslate
import Verif.Props.CutLine
import Verif.Props.WrappedHalo
import Verif.Props.UnsignedHalo
import Verif.Model.Orchestrate
import Verif.Props.Orchestrate
import Verif.Model.ExternalGrid
import Verif.Props.ExternalGrid
import Verif.Model.DGrid
import Verif.Props.DGrid
import Verif.Model.CentreGrid
import Verif.Props.CentreGrid
import Verif.Model.EdgeLengths
import Verif.Props.EdgeLengths
import Verif.Model.Instrument
import Verif.Props.Instrument
