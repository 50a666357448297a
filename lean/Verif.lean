import Verif.Props.Basis
import Verif.Props.Curve
import Verif.Props.KnotInsertion
import Verif.Props.Refine
import Verif.Props.Poly
import Verif.Props.Matrix
import Verif.Props.CurveParam
import Verif.Props.Geom
import Verif.Props.BasisDers
import Verif.Props.OneBasis
import Verif.Props.PowerBasis
import Verif.Props.Surface
import Verif.Props.SurfaceDers
import Verif.Props.DiffGeom
import Verif.Props.KnotVector
import Verif.Props.Interp
import Verif.Props.CurveEdit
import Verif.Props.ReduceDegree
import Verif.Props.Hermite
import Verif.Props.Volume
import Verif.Props.VolumeSplit
import Verif.Props.VolumeDers
import Verif.Props.Mesh
import Verif.Props.ResultSet
import Verif.Props.Octree
import Verif.Props.SurfaceInsert
import Verif.Props.SurfaceRefine
import Verif.Props.Decompose
import Verif.Props.Elevate
import Verif.Props.RemoveKnot
import Verif.Props.SurfaceCreate
import Verif.Props.Arc
import Verif.Props.Cylinder
import Verif.Props.Revolve
import Verif.Props.Conic
import Verif.Props.Merge
import Verif.Props.Tessellate
import Verif.Props.SurfaceQuery
import Verif.Props.Closed
import Verif.Props.SurfaceElevate
import Verif.Props.VolumeElevate
import Verif.Props.KnotEnds
import Verif.Props.Clamp
import Verif.Props.Sweep
import Verif.Props.Tangent
import Verif.Props.Reshape
import Verif.Props.Linear
import Verif.Props.Loft
import Verif.Props.SurfaceInterp
import Verif.Props.Nearest
import Verif.Props.Warp
import Verif.Props.Constrain
import Verif.Props.IsArc
import Verif.Props.Coons
import Verif.Props.Torsion
import Verif.Props.OrientedBox
import Verif.Props.AdaptiveTessellate
import Verif.Props.ExcessiveKnots
import Verif.Props.Continuity
import Verif.Props.Periodic
import Verif.Props.Extend
import Verif.Props.SurfaceRemove
import Verif.Props.ProjectNormal
import Verif.Props.SurfaceDecompose
import Verif.Props.InterpTangents
import Verif.Props.ExtendLength
import Verif.Props.LeastSquares
import Verif.Props.SweepSections
import Verif.Props.SweepFrames
import Verif.Props.SweepExample
import Verif.Props.Swung
import Verif.Props.SwungExample
import Verif.Props.CubicLocal
import Verif.Props.SurfaceApprox
import Verif.Props.Bicubic
import Verif.Props.ConicFit
import Verif.Props.MiddlePoints
import Verif.Props.FitConic
import Verif.Props.CubicEquation
import Verif.Props.FitCubic
import Verif.Props.NeighborWeights
import Verif.Props.KnotErrorBound
import Verif.Props.LengthParam
import Verif.Props.CanDerive
import Verif.Props.Offset
import Verif.Props.SurfaceFirst
import Verif.Props.SurfaceNearest
import Verif.Props.SurfaceAllParams
import Verif.Props.VolumeClosed
import Verif.Props.VolumeParam
import Verif.Props.AllParamsCurve
import Verif.Props.Gsa
import Verif.Props.KnotsByBound
import Verif.Props.FastLine
import Verif.Props.KnotsByBoundShape
import Verif.Props.ErrorBound
import Verif.Props.Gordon
import Verif.Props.SweepByLength
import Verif.Props.SubLength
import Verif.Props.PointMatrix
import Verif.Props.CornerFillet
import Verif.Props.ParamSearches
import Verif.Props.OffsetSamples
import Verif.Props.VectorTests
import Verif.Props.NearestStart
import Verif.Props.SignedDistance
import Verif.Props.Delaunay
import Verif.Props.CApi
import Verif.Props.CApiArrays
import Verif.Props.WeightedFit
import Verif.Props.WeightedFitExact
import Verif.Props.WeightedFitTangents
