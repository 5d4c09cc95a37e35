import Verif.Dbvt.Props
import Verif.Dbvt.Props2
import Verif.Dbvt.BoxTree
import Verif.Dbvt.RayClosest
import Verif.Dbvt.RayAny
import Verif.Geom.AabbProps
import Verif.Geom.RayBox
import Verif.Geom.RealVec
import Verif.Geom.Sphere
import Verif.Geom.Plane
import Verif.Geom.Frustum
import Verif.Geom.Line
import Verif.BroadPhase.Props
import Verif.BroadPhase.Props2
import Verif.BroadPhase.Props3
import Verif.BroadPhase.Rounding
import Verif.Dbvt.Healing
import Verif.BroadPhase.Nan
import Verif.BroadPhase.NanTree
import Verif.Dbvt.VolumeTree
import Verif.Geom.Transform
import Verif.Geom.Transformed
import Verif.Primitive.Props
import Verif.Geom.RayBoxExit
import Verif.Primitive.Polygon
import Verif.Primitive.Climb
import Verif.Primitive.Mesh
import Verif.Primitive.Polyhedron
import Verif.Primitive.PolyhedronExample
import Verif.Primitive.PolyhedronRay
import Verif.Primitive.PolyhedronWalk
import Verif.Primitive.PolyhedronC63
import Verif.Primitive.Dedup
import Verif.Primitive.Enum
import Verif.Minkowski.Model
import Verif.Minkowski.Gjk2
import Verif.Minkowski.Gjk2Total
import Verif.Minkowski.Gjk3
import Verif.Minkowski.Gjk3Cycle
import Verif.Minkowski.Shapes
import Verif.Minkowski.Distance
import Verif.Minkowski.Toi
import Verif.Minkowski.Complex
import Verif.Minkowski.Epa2
import Verif.Minkowski.Epa2Shapes
import Verif.Minkowski.Epa3
import Verif.Minkowski.Epa3Cone
import Verif.Minkowski.Epa3Comb
import Verif.Minkowski.Epa3Hull
import Verif.Minkowski.Epa3Exact
import Verif.Minkowski.Epa3Shapes
import Verif.Primitive.Particle
import Verif.Primitive.RoundRay
import Verif.Primitive.EnumRay
import Verif.Geom.Interpolate
import Verif.Geom.InterpolateBasis
import Verif.Dbvt.RotateGain
import Verif.Dbvt.Gain
import Verif.Geom.Clip
import Verif.Minkowski.Complex3
import Verif.Geom.Empty
import Verif.Geom.Area
import Verif.Minkowski.Epa3Point
import Verif.Minkowski.Epa2Point
import Verif.Minkowski.Toi2Total
import Verif.Minkowski.Distance2
import Verif.Minkowski.DistanceCycle
import Verif.Minkowski.BallDistance
import Verif.Minkowski.Similar
import Verif.Minkowski.Fail3
import Verif.Minkowski.Epa2Total
import Verif.Minkowski.Balls
import Verif.Minkowski.Balls3
import Verif.Minkowski.Translate
import Verif.Minkowski.Exchange
import Verif.Minkowski.Gjk2Bound
import Verif.Minkowski.Epa2Bound
import Verif.Minkowski.Toi2Bound
import Verif.Minkowski.Rest
import Verif.Scene.Pipeline
import Verif.Geom.Perspective
import Verif.Dbvt.Rounded
import Verif.Dbvt.RoundedExact
import Verif.Scene.Culling
import Verif.Scene.Picking
import Verif.Scene.Moving
import Verif.Minkowski.Round3
import Verif.Minkowski.Gjk2Thin
import Verif.Minkowski.Centred
import Verif.Scene.Thin
import Verif.Dbvt.Binary64
import Verif.Dbvt.RoundedSphere
import Verif.Scene.F64
import Verif.Dbvt.RoundedNan
import Verif.Scene.F64Nan
import Verif.Minkowski.Tolerance
import Verif.Minkowski.F64Gjk
import Verif.Minkowski.F64Gjk3
import Verif.Dbvt.Binary64Err
import Verif.Minkowski.Grain
import Verif.Minkowski.RoundedMiss
import Verif.Minkowski.F64Hit
import Verif.Scene.F64Pipeline
import Verif.Scene.F64Culling
import Verif.Scene.F64Ray
import Verif.Dbvt.Within
import Verif.Dbvt.RayOutside
import Verif.Scene.F64Closest
import Verif.Scene.F64Place3
import Verif.Scene.F64Miss3
import Verif.Scene.F64Pipeline3
import Verif.Dbvt.Binary32
import Verif.Minkowski.F32
import Verif.Scene.Subnormal
import Verif.Scene.Formats
import Verif.Scene.RoundErr
import Verif.Scene.Round
import Verif.Scene.Round3
import Verif.Scene.RoundFormats
import Verif.Scene.RoundPipeline
import Verif.Scene.SphereFormats
import Verif.Scene.F32Queries
import Verif.Scene.SphereRay
import Verif.Scene.SphereCulling
import Verif.Scene.SphereTreeRay
import Verif.Scene.MatrixPlanes
import Verif.Scene.MatrixTree
import Verif.Scene.GjkDistance
import Verif.Scene.PlaneRay
import Verif.Scene.PlanePairs
import Verif.Scene.SegmentRay
import Verif.Dbvt.WrappedFat
import Verif.Witnesses
import Verif.Witnesses2
import Verif.Witnesses3
import Verif.Witnesses4
import Verif.Witnesses5
