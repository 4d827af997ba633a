import Verif.Model.Basic
import Verif.Model.Layout
import Verif.Spec.Layout
import Verif.Lemmas.Arith
import Verif.Lemmas.Loop
import Verif.Lemmas.Layout
import Verif.Model.Derive
import Verif.Props.Layout
import Verif.Model.Traits
import Verif.Model.VectorBuffer
import Verif.Model.HashMapBuffer
import Verif.Spec.Points
import Verif.Lemmas.Blocks
import Verif.Model.Ops
import Verif.Lemmas.Interleaved
import Verif.Lemmas.Reads
import Verif.Spec.Observe
import Verif.Lemmas.Points
import Verif.Lemmas.VectorShows
import Verif.Lemmas.Columns
import Verif.Lemmas.HashMap
import Verif.Lemmas.HashMapOps
import Verif.Lemmas.Solid
import Verif.Lemmas.Buffers
import Verif.Lemmas.Append
import Verif.Lemmas.Collect
import Verif.Lemmas.Pusher
import Verif.Model.Slices
import Verif.Lemmas.Slices
import Verif.Spec.Slices
import Verif.Lemmas.SlicesMut
import Verif.Props.Buffers
import Verif.Props.Collect
import Verif.Props.Pnts
import Verif.Props.Slices
import Verif.Model.Views
import Verif.Spec.Iter
import Verif.Spec.Sort
import Verif.Lemmas.Views
import Verif.Lemmas.ViewsShow
import Verif.Lemmas.Sort
import Verif.Props.Views
import Verif.Props.TypedViews
import Verif.Model.Float
import Verif.Lemmas.Float
import Verif.Spec.Float
import Verif.Lemmas.FloatValue
import Verif.Model.Numbers
import Verif.Model.Convert
import Verif.Spec.Numbers
import Verif.Lemmas.Numbers
import Verif.Lemmas.FloatExact
import Verif.Lemmas.FloatOps
import Verif.Props.Convert
import Verif.Model.BufferConvert
import Verif.Spec.Convert
import Verif.Lemmas.Convert
import Verif.Lemmas.BufferConvert
import Verif.Spec.ConvertObserve
import Verif.Lemmas.ConvertPlan
import Verif.Lemmas.RawConvert
import Verif.Props.BufferConvert
import Verif.Props.ConvertSlices
import Verif.Model.UntypedPoint
import Verif.Model.ConvertingView
import Verif.Props.UntypedPoint
import Verif.Model.Bits
import Verif.Props.Bits
import Verif.Model.Bounds
import Verif.Spec.Bounds
import Verif.Lemmas.Bounds
import Verif.Props.Bounds
import Verif.Model.Las
import Verif.Spec.Las
import Verif.Lemmas.FloatError
import Verif.Props.LasRecords
import Verif.Props.LasPositions
import Verif.Model.LasMetadata
import Verif.Spec.LasMetadata
import Verif.Props.LasMetadata
import Verif.Props.LasExtraBytes
import Verif.Model.LasReader
import Verif.Spec.LasReader
import Verif.Lemmas.LasReader
import Verif.Props.LasReader
import Verif.Model.BaseIo
import Verif.Props.BaseIo
import Verif.Model.LasWriter
import Verif.Spec.LasWriter
import Verif.Lemmas.LasWriter
import Verif.Lemmas.LasWriterState
import Verif.Lemmas.LasPlan
import Verif.Lemmas.LasRoundTrip
import Verif.Props.LasWriter
import Verif.Model.Ascii
import Verif.Spec.Ascii
import Verif.Lemmas.AsciiNumbers
import Verif.Lemmas.AsciiFloats
import Verif.Lemmas.AsciiLines
import Verif.Lemmas.AsciiRead
import Verif.Lemmas.AsciiWrite
import Verif.Lemmas.AsciiRoundTrip
import Verif.Lemmas.RecordBuffer
import Verif.Props.Ascii
import Verif.Model.Pnts
import Verif.Spec.Pnts
import Verif.Lemmas.Fill
import Verif.Lemmas.PntsWriter
import Verif.Lemmas.PntsCache
import Verif.Lemmas.PntsFile
import Verif.Lemmas.PntsJson
import Verif.Lemmas.PntsReader
import Verif.Lemmas.PntsRead
import Verif.Lemmas.PntsStored
import Verif.Lemmas.PntsCodec
import Verif.Model.Voxel
import Verif.Spec.Voxel
import Verif.Lemmas.FloatOrder
import Verif.Lemmas.Voxel
import Verif.Lemmas.VoxelSteps
import Verif.Lemmas.VoxelCentroid
import Verif.Props.Voxel
import Verif.Props.VoxelRefuse
import Verif.Props.VoxelMeans
import Verif.Model.Vec3
import Verif.Model.Ransac
import Verif.Spec.Ransac
import Verif.Spec.Geometry
import Verif.Lemmas.Ransac
import Verif.Lemmas.FloatSqrt
import Verif.Props.Ransac
import Verif.Props.RansacGeometry
import Verif.Model.ConvexHull
import Verif.Spec.ConvexHull
import Verif.Lemmas.ConvexHull
import Verif.Props.ConvexHull
import Verif.Lemmas.FloatWhole
import Verif.Lemmas.HullGeometry
import Verif.Lemmas.HullMesh
import Verif.Lemmas.HullStep
import Verif.Lemmas.HullLoop
import Verif.Lemmas.HullConvex
import Verif.Lemmas.HullExtreme
import Verif.Lemmas.HullError
import Verif.Lemmas.HullExact
import Verif.Props.HullExact
import Verif.Model.Reprojection
import Verif.Spec.Reprojection
import Verif.Props.Reprojection
import Verif.Model.Normals
import Verif.Spec.Normals
import Verif.Lemmas.NormalGeometry
import Verif.Lemmas.Eigenvalues
import Verif.Lemmas.NormalQuality
import Verif.Lemmas.CentroidError
import Verif.Lemmas.NormalFloat
import Verif.Props.Centroid
import Verif.Props.Normals
import Verif.Model.Boxes
import Verif.Model.Tileset
import Verif.Spec.Boxes
import Verif.Spec.Tileset
import Verif.Lemmas.Boxes
import Verif.Lemmas.Tileset
import Verif.Props.Boxes
import Verif.Props.Tileset
import Verif.Model.Info
import Verif.Spec.Info
import Verif.Props.Info
import Verif.Spec.LasExtra
import Verif.Lemmas.LasExtra
import Verif.Lemmas.LasShort
import Verif.Props.LasExtraRead
import Verif.Props.LasExtraWrite
import Verif.Spec.LasCopy
import Verif.Lemmas.LasCopy
import Verif.Props.LasCopy
import Verif.Model.LasFiles
import Verif.Spec.LasFiles
import Verif.Lemmas.LasRefuse
import Verif.Props.LasRefuse
import Verif.Props.LasFiles
import Verif.Model.LasVlrs
import Verif.Spec.LasVlrs
import Verif.Props.LasVlrs
import Verif.Spec.LasSingle
import Verif.Lemmas.FloatSingle
import Verif.Props.LasSingle
import Verif.Spec.LasEvlr
import Verif.Props.LasEvlr
import Verif.Model.LasPoint
import Verif.Spec.LasPoint
import Verif.Props.LasPoint
import Verif.Model.DeriveSyntax
import Verif.Spec.DeriveSyntax
import Verif.Props.DeriveSyntax
import Verif.Model.LazFlush
import Verif.Props.LazFlush
import Verif.Model.PntsFiles
import Verif.Props.PntsFiles
import Verif.Model.ViewAddress
import Verif.Spec.ViewAddress
import Verif.Lemmas.ViewAddress
import Verif.Props.ViewAddress
import Verif.Model.PntsOpen
import Verif.Spec.Malformed
import Verif.Lemmas.Malformed
import Verif.Props.Malformed
import Verif.Spec.LasTruncated
import Verif.Lemmas.LasTruncated
import Verif.Props.LasTruncated
import Verif.Model.LasOpen
import Verif.Spec.LasOpen
import Verif.Props.LasOpen
import Verif.Model.Serde
import Verif.Spec.Serde
import Verif.Lemmas.Serde
import Verif.Props.Serde
import Verif.Model.AttributeMut
import Verif.Props.AttributeMut
import Verif.Model.PntsMeta
import Verif.Spec.PntsMeta
import Verif.Props.PntsMeta
import Verif.Model.ShortWrites
import Verif.Spec.ShortWrites
import Verif.Props.ShortWrites
import Verif.Model.FailedReads
import Verif.Lemmas.FailedReads
import Verif.Props.FailedReads
import Verif.Model.FailedWrites
import Verif.Spec.FailedWrites
import Verif.Lemmas.FailedWrites
import Verif.Lemmas.FailedWritesLas
import Verif.Lemmas.FailedWritesText
import Verif.Props.FailedWrites
import Verif.Props.FailedWritesText
import Verif.Spec.Weightless
import Verif.Lemmas.Weightless
import Verif.Props.Weightless
import Verif.Spec.Orderly
import Verif.Lemmas.Orderly
import Verif.Props.Orderly
import Verif.Props.OrderlySlices
import Verif.Spec.RansacSample
import Verif.Lemmas.RansacSample
import Verif.Props.RansacSample
import Verif.Spec.NormalFinite
import Verif.Lemmas.NormalFinite
import Verif.Props.NormalFinite
import Verif.Spec.HullClosed
import Verif.Lemmas.HullClosed
import Verif.Props.HullClosed
import Verif.Spec.LasHeaderRecords
import Verif.Lemmas.LasHeaderRecords
import Verif.Props.LasHeaderRecords
import Verif.Spec.RoundTrip
import Verif.Lemmas.RoundTrip
import Verif.Props.RoundTrip
import Verif.Spec.LasDetour
import Verif.Lemmas.LasDetour
import Verif.Props.LasDetour
import Verif.Spec.Batches
import Verif.Props.Batches
import Verif.Spec.BoundsOrder
import Verif.Lemmas.BoundsOrder
import Verif.Props.BoundsOrder
import Verif.Spec.TwoSteps
import Verif.Lemmas.TwoSteps
import Verif.Props.TwoSteps
import Verif.Spec.AsciiLayouts
import Verif.Props.AsciiLayouts
import Verif.Props.ConvertParts
import Verif.Spec.WriteConverted
import Verif.Props.WriteConverted
import Verif.Props.AsciiDepends
import Verif.Props.PntsConverted
import Verif.Props.PntsCopy
import Verif.Props.PntsDetour
import Verif.Props.AsciiDetour
import Verif.Lemmas.AsciiAgain
import Verif.Props.AsciiAgain
import Verif.Props.AsciiIntegers
import Verif.Props.AsciiWhole
