import Verif.Base.Cmp
import Verif.Base.Dot
import Verif.Base.Ext
import Verif.Base.Float
import Verif.Base.Loop32
import Verif.Base.Res
import Verif.Base.Tac
import Verif.Base.Vec
import Verif.Base.VecTac
import Verif.Model.AABB
import Verif.Model.AABBCollision
import Verif.Model.AABBFloat
import Verif.Model.Animation
import Verif.Model.AnimationFloat
import Verif.Model.BSplineFloat
import Verif.Model.Bezier
import Verif.Model.BezierFloat
import Verif.Model.BoundingBoxThreads
import Verif.Model.BoxInt
import Verif.Model.BoxSizeFloat
import Verif.Model.Clip
import Verif.Model.ClipFloat
import Verif.Model.ClipMeshFloat
import Verif.Model.ClipShared
import Verif.Model.ClosestFloat
import Verif.Model.ConvexHull
import Verif.Model.Gen
import Verif.Model.GridFloat
import Verif.Model.Keyframe
import Verif.Model.KeyframeFloat
import Verif.Model.LinePlaneFloat
import Verif.Model.Lines
import Verif.Model.LinesFloat
import Verif.Model.MeshModifier
import Verif.Model.MeshMove
import Verif.Model.PatchMesh
import Verif.Model.PickFloat
import Verif.Model.Plane
import Verif.Model.PlaneCast
import Verif.Model.PlaneFloat
import Verif.Model.Playback
import Verif.Model.PlaybackClient
import Verif.Model.PlaybackFloat
import Verif.Model.RayPlaneFloat
import Verif.Model.Shapes
import Verif.Model.Skeleton
import Verif.Model.SkeletonHeap
import Verif.Model.SkeletonMake
import Verif.Model.Sphere
import Verif.Model.SphereFloat
import Verif.Model.Spline
import Verif.Model.SplineFloat
import Verif.Model.TangentSpace
import Verif.Model.Transform
import Verif.Model.Triangle
import Verif.Model.TriangleAngle
import Verif.Model.TriangleMesh
import Verif.Model.UniformSpline
import Verif.Model.VectorizedAABB
import Verif.Model.VertexOps
import Verif.Proof.AABB
import Verif.Proof.Clip
import Verif.Proof.ClipEdges
import Verif.Proof.ClipRun
import Verif.Proof.GridEdges
import Verif.Proof.GridSides
import Verif.Proof.Keyframe
import Verif.Proof.Playback
import Verif.Proof.PlaybackForm
import Verif.Proof.PlaybackHist
import Verif.Proof.PlaybackInv
import Verif.Proof.PlaybackList
import Verif.Proof.PlaybackRange
import Verif.Proof.PlaybackRuns
import Verif.Proof.PlaybackSeq
import Verif.Proof.PlaybackStep
import Verif.Proof.Skeleton
import Verif.Proof.SkeletonHeap
import Verif.Proof.SkeletonMake
import Verif.Proof.Solid
import Verif.Props.AABB
import Verif.Props.AABBCollision
import Verif.Props.AABBFloat
import Verif.Props.Animation
import Verif.Props.AnimationBack
import Verif.Props.AnimationFloat
import Verif.Props.BSplineFloat
import Verif.Props.Bezier
import Verif.Props.BezierFloat
import Verif.Props.BezierPatch
import Verif.Props.BoundingBoxThreads
import Verif.Props.BoxInt
import Verif.Props.BoxSizeFloat
import Verif.Props.Clip
import Verif.Props.ClipAgain
import Verif.Props.ClipEdges
import Verif.Props.ClipFloat
import Verif.Props.ClipMesh
import Verif.Props.ClipMeshCrack
import Verif.Props.ClipMeshFloat
import Verif.Props.ClipShared
import Verif.Props.ClipVolume
import Verif.Props.Closed
import Verif.Props.ClosedCurve
import Verif.Props.ClosestFloat
import Verif.Props.Convex
import Verif.Props.ConvexHull
import Verif.Props.Cull
import Verif.Props.GenAsm
import Verif.Props.GenAttr
import Verif.Props.GenBase
import Verif.Props.GenBox
import Verif.Props.GenCurve
import Verif.Props.GenGrid
import Verif.Props.GenHistory
import Verif.Props.GenNormal
import Verif.Props.GenParts
import Verif.Props.GenRound
import Verif.Props.GenTorus
import Verif.Props.GenWind
import Verif.Props.GridFloat
import Verif.Props.Keyframe
import Verif.Props.KeyframeFloat
import Verif.Props.LinePlaneFloat
import Verif.Props.Lines
import Verif.Props.LinesFloat
import Verif.Props.LinesGrid
import Verif.Props.MeshModifier
import Verif.Props.MeshMove
import Verif.Props.PatchMesh
import Verif.Props.Pick
import Verif.Props.PickFloat
import Verif.Props.PickSolid
import Verif.Props.Plane
import Verif.Props.PlaneCast
import Verif.Props.PlaneFloat
import Verif.Props.PlaneIntersect
import Verif.Props.PlaneMatrix
import Verif.Props.PlaneSolid
import Verif.Props.Playback
import Verif.Props.PlaybackClient
import Verif.Props.PlaybackFloat
import Verif.Props.RayPlaneFloat
import Verif.Props.Shapes
import Verif.Props.Silhouette
import Verif.Props.SilhouetteBox
import Verif.Props.Skeleton
import Verif.Props.SkeletonHeap
import Verif.Props.SkeletonMake
import Verif.Props.Sphere
import Verif.Props.SphereFloat
import Verif.Props.Spline
import Verif.Props.SplineFloat
import Verif.Props.TangentSpace
import Verif.Props.Transform
import Verif.Props.Triangle
import Verif.Props.TriangleAngle
import Verif.Props.TriangleMeet
import Verif.Props.TriangleMesh
import Verif.Props.TriangleRay
import Verif.Props.TriangleSegment
import Verif.Props.UniformSpline
import Verif.Props.VectorizedAABB
import Verif.Props.VertexOps
import Verif.Props.Volume
import Verif.Props.Winding
import Verif.Spec.AABB
import Verif.Spec.AABBFloat
import Verif.Spec.Animation
import Verif.Spec.AnimationFloat
import Verif.Spec.BSplineFloat
import Verif.Spec.Bezier
import Verif.Spec.BezierFloat
import Verif.Spec.BoxEdges
import Verif.Spec.BoxInt
import Verif.Spec.BoxSizeFloat
import Verif.Spec.Clip
import Verif.Spec.ClipAgain
import Verif.Spec.ClipEdges
import Verif.Spec.ClipFloat
import Verif.Spec.ClipMeshFloat
import Verif.Spec.ClipShared
import Verif.Spec.ClipVolume
import Verif.Spec.Closed
import Verif.Spec.ClosestFloat
import Verif.Spec.Convex
import Verif.Spec.ConvexHull
import Verif.Spec.Cull
import Verif.Spec.Gen
import Verif.Spec.GenBox
import Verif.Spec.Keyframe
import Verif.Spec.KeyframeFloat
import Verif.Spec.LinePlaneFloat
import Verif.Spec.Lines
import Verif.Spec.LinesFloat
import Verif.Spec.MeshModifier
import Verif.Spec.MeshMove
import Verif.Spec.PatchMesh
import Verif.Spec.Pick
import Verif.Spec.PickFloat
import Verif.Spec.Plane
import Verif.Spec.PlaneCast
import Verif.Spec.PlaneFloat
import Verif.Spec.PlaneMatrix
import Verif.Spec.Playback
import Verif.Spec.PlaybackClient
import Verif.Spec.PlaybackFloat
import Verif.Spec.RayPlaneFloat
import Verif.Spec.Skeleton
import Verif.Spec.SkeletonHeap
import Verif.Spec.SkeletonMake
import Verif.Spec.Solid
import Verif.Spec.Sphere
import Verif.Spec.SphereFloat
import Verif.Spec.Spline
import Verif.Spec.TangentSpace
import Verif.Spec.Transform
import Verif.Spec.Triangle
import Verif.Spec.TriangleAngle
import Verif.Spec.TriangleMeet
import Verif.Spec.TriangleMesh
import Verif.Spec.UniformSpline
import Verif.Spec.Volume
import Verif.Spec.Winding
