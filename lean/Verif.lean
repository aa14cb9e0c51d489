import Verif.Axioms
import Verif.Data.Attributes
import Verif.Data.Distance
import Verif.Data.Headers
import Verif.Data.Madmap
import Verif.Data.MadmapFiles
import Verif.Data.Model
import Verif.Data.Profile
import Verif.Data.PropsMap
import Verif.Data.PropsMask
import Verif.Data.Psd2
import Verif.Data.Sampling
import Verif.Data.Save
import Verif.Dist.Model
import Verif.Dist.Observation
import Verif.Dist.Policy
import Verif.Dist.PropsAcq
import Verif.Dist.PropsFile
import Verif.Dist.PropsHeader
import Verif.Dist.PropsObs
import Verif.Dist.PropsPolicy
import Verif.Fits.Astrometry
import Verif.Fits.AstrometryExamples
import Verif.Fits.Examples
import Verif.Fits.Find
import Verif.Fits.Lemmas
import Verif.Fits.Model
import Verif.Fits.Props
import Verif.Fits.Safe
import Verif.Fits.Strings
import Verif.Geometry.Convex
import Verif.Geometry.Edges
import Verif.Geometry.Hull
import Verif.Geometry.Integral
import Verif.Geometry.LayoutGrid
import Verif.Geometry.Model
import Verif.Geometry.PropsIntegration
import Verif.Geometry.PropsPip
import Verif.Geometry.PropsPolygons
import Verif.Geometry.PropsShapes
import Verif.Geometry.Rows
import Verif.Geometry.Total
import Verif.Healpix.Conversions
import Verif.Healpix.Laplacian
import Verif.Healpix.Scenes
import Verif.Healpix.Smoothing
import Verif.Operators.Beams
import Verif.Operators.Blocks
import Verif.Operators.Directions
import Verif.Operators.Interferometry
import Verif.Operators.Spectral
import Verif.Operators.Spherical
import Verif.PackedTable.Attr
import Verif.PackedTable.AttrHeap
import Verif.PackedTable.AttrLemmas
import Verif.PackedTable.Computed
import Verif.PackedTable.Equiv
import Verif.PackedTable.Instrument
import Verif.PackedTable.Lemmas
import Verif.PackedTable.Missing
import Verif.PackedTable.Model
import Verif.PackedTable.Mpi
import Verif.PackedTable.Props
import Verif.PackedTable.PropsAttr
import Verif.PackedTable.PropsEquiv
import Verif.PackedTable.PropsMpi
import Verif.PackedTable.Restrict
import Verif.PackedTable.Spec
import Verif.Pointing.Lemmas
import Verif.Pointing.Model
import Verif.Pointing.Pack
import Verif.Pointing.Props
import Verif.Pointing.Props2
import Verif.Pointing.Roi
import Verif.Pointing.Spec
import Verif.Py.Basic
import Verif.Py.Lemmas
import Verif.Py.Split
import Verif.Signal.Fourier
import Verif.Signal.Lemmas
import Verif.Signal.Model
import Verif.Signal.PropsFolded
import Verif.Signal.PropsInstrument
import Verif.Signal.PropsInterp
import Verif.Signal.PropsNoise
import Verif.Signal.PropsPsd
import Verif.Signal.PropsRoll
import Verif.Signal.PropsTrexp
import Verif.Sort.Partition
import Verif.Sort.Props
import Verif.Sort.Quicksort
import Verif.Sort.Reorder
import Verif.Sort.Sorted
import Verif.Sort.Where
import Verif.Sparse.Bodies
import Verif.Sparse.Ctor
import Verif.Sparse.KernelThreads
import Verif.Sparse.Lemmas
import Verif.Sparse.Matvec
import Verif.Sparse.Memory
import Verif.Sparse.Model
import Verif.Sparse.Operator
import Verif.Sparse.Props
import Verif.Sparse.PropsCoverage
import Verif.Sparse.PropsCtor
import Verif.Sparse.PropsKernel
import Verif.Sparse.PropsPTp
import Verif.Sparse.PropsRestrict
import Verif.Sparse.PropsThreads
import Verif.Sparse.Restrict
import Verif.Sparse.Shapes
import Verif.Sparse.Spec
import Verif.Sparse.Threads
import Verif.Stat.Clip
import Verif.Stat.Kahan
import Verif.Stat.Median
import Verif.Stat.MedianProps
import Verif.Stat.Moment
import Verif.Stat.Shift
import Verif.Units.Base
import Verif.Units.Broadcast
import Verif.Units.Convert
import Verif.Units.Lemmas
import Verif.Units.Memory
import Verif.Units.MemoryLemmas
import Verif.Units.MemorySI
import Verif.Units.Model
import Verif.Units.Numpy
import Verif.Units.Parse
import Verif.Units.Pixel
import Verif.Units.Print
import Verif.Units.PropsBroadcast
import Verif.Units.PropsBroadcast2
import Verif.Units.PropsBroadcast3
import Verif.Units.PropsMemory
import Verif.Units.PropsMemory2
import Verif.Units.PropsNumpy
import Verif.Units.PropsNumpy2
import Verif.Units.PropsQuantity
import Verif.Units.PropsUnits
import Verif.Units.Real
import Verif.Units.SI
import Verif.Units.Spec
import Verif.Units.Table
import Verif.Wcs.Combine
import Verif.Wcs.Model
import Verif.Wcs.Operators
import Verif.Wcs.Pmatrix
import Verif.Wcs.PropsDegrees
import Verif.Wcs.PropsGnomonic
import Verif.Wcs.PropsHeader
import Verif.Wcs.PropsPlane
import Verif.Wcs.PropsScale
import Verif.Wcs.PropsSphere
import Verif.Wcs.Rotation
