# Formal model of GeometronLib: design

The model is a Lean 4 project in `lean/`. It is a hand translation of the C++
in /repo, function by function. Each definition cites the file and lines it
models. The code is not executed here, so the only tie between model and code
is this citation.

## Layout

    lean/Verif/Base/*      vectors, scalars, NaN, outcome type (UB is a value)
    lean/Verif/Model/*     model of the code, one file per C++ unit
    lean/Verif/Spec/*      small independent specifications
    lean/Verif/Proof/*     helper lemmas
    lean/Verif/Props/*     the property theorems (names start with the id) and
                           non-vacuity examples

## Trusted base

* Lean 4.33 kernel. Axioms used by property theorems: at most `propext`,
  `Classical.choice`, `Quot.sound`. No own axioms, no `sorry`, no
  `native_decide`/`bv_decide`.
* The reading of the C++ code (the citations).
* **Exact arithmetic.** `Gs::Real`/`T` is modelled by an arbitrary linearly
  ordered field `K` (by the reals where sqrt/sin/cos occur). Rounding is
  modelled in C99 to C101, C106 and C108 to C118, in the modules with names that end in `Float`
  (`Base/Float`: binary floats with any precision, subnormals, without overflow and NaN;
  each operation is followed by a rounding, sums are taken from left to right without fused
  operations, `std::sqrt` is correctly rounded). Elsewhere equality of computed positions
  (watertight surfaces, seams) is a statement about exact arithmetic. Algorithms which only compare numbers (AABB) are modelled over an
  arbitrary order, and with NaN as an additional value, so those results carry
  over to IEEE numbers. Division by zero is modelled explicitly where the code
  can reach it; Lean's `x/0 = 0` is never used to stand for an IEEE result.
* **Machine integers**: `size_t` and `uint32_t` are modelled with explicit wrap
  where the property is about it (playback frames, factorials, generator
  indices), by `Nat` with a stated bound otherwise.
* **Undefined behaviour** (out-of-range access, null dereference, past-the-end
  iterator, use after erase, integer division by zero) is a distinct outcome
  `Res.ub` of the model function; theorems state when it cannot occur, and
  findings state when it does. C++ exceptions are `Res.throw`.
* **GaussianLib** (submodule, not part of the checkout) supplies vectors,
  matrices, quaternions, `Lerp`, `Slerp`, `Normalize`, ... Its functions are
  modelled by their mathematical definition or left as parameters, see the
  comment at each use.
* The C++ standard library: `std::sort` = some sorted permutation,
  `std::unique` = adjacent deduplication, `std::set` = sorted set,
  `std::copy`, `std::vector::resize/insert/erase` as specified.

## What is not modelled

Rendering/tests, logging of vectors, conversions between float and double other than
those of boxes and planes (C116, C127), memory allocation failure, performance, floating-point rounding other than in C99 to C101, C106, C108 to C118,
C121, C123, C126, C127 and C129 to C132.

## Properties

See `properties.jsonl` for the statements and `MANIFEST.json` for the status.

| id | model | method |
|----|-------|--------|
| C01-C04 | `Model/AABB` over any linear order, and over `Flt` (order + NaN) | fold invariant; spec = least upper bound of singleton boxes |
| C05, C06 | `Model/VectorizedAABB`, SSE intrinsics lane-wise with mask semantics | lane-wise equality; refutation by witness for Repair/Contains |
| C07, C08 | `Model/AABBCollision` slab loop as fold over the axes with early exit | loop invariant: t-interval = intersection of slabs; refutation for the overload without output |
| C09 | `Model/AABB` | symbolic enumeration |
| C10-C16 | `Model/Plane`, `Model/PlaneCollision`; reals for Normalize | algebra (`ring`, `nlinarith`); refutations by witness |
| C17-C24, C82 | `Model/Triangle`, `Model/Lines` | case analysis on branches, convexity criterion for minimality |
| C25-C27 | `Model/Clip`, `Model/MeshModifier` | case analysis over relations; induction over triangles |
| C28, C29, C86 | `Model/Sphere` | quadratic formula over the reals; refutation |
| C83-C86 | `Model/Shapes` | completion of squares, Cauchy-Schwarz; refutations |
| C30, C31, C87 | `Model/ConvexHull` (with Frustum) | list induction; algebra; refutation |
| C32-C41 | `Model/TriangleMesh`, `Model/MeshModifier`, `Model/BoundingBoxThreads` | list induction, reachability; small-step interleaving semantics with invariant and variant |
| C42-C48, C88-C90 | `Model/Gen*` with 32-bit wrap in index arithmetic | loop invariants on counts and index bounds; trigonometric identities |
| C91-C93 | the same, faces as triples of positions | signs of triple products; pairing of edges; concavity of the profile |
| C49-C55 | `Model/Playback` as state machine with event log, 64-bit frames | invariants over histories; closed formulas by induction; refutations |
| C56-C59 | `Model/Keyframe` | loop invariant relating (from, to) to the sorted keyframes; refutations |
| C95 | the same | a quad between two rows of proportional points contributes (r+r')(r'y-ry') times a cross product: rows and columns factor, both telescope |
| C96 | the same with `Model/TriangleMesh` | tightest box (C39) around points of the surface (C42-C46); extreme points are corners of faces |
| C97 | `Model/Clip`, `Model/MeshModifier` | each group of replacing triangles is inside of its triangle (C27), so all have its height over any point |
| C98 | `Model/PatchMesh` (generator with `BezierPatch::Evaluate`) | construction of de Casteljau; convex hull; linear precision for regular grids |
| C99 | `Model/PlaybackFloat` on `Base/Float` | subtracting one is exact up to 2^p, so the loops run as in exact arithmetic; above 2^(p+1) it has no effect |
| C100 | `Model/SplineFloat` on `Base/Float` | the greatest float below one times a float is rounded to a smaller float |
| C101 | `Model/ClipFloat` on `Base/Float` | on a grid the rounded quotient is in [0,1] iff the exact one is; in general a small distance is lost in the direction |
| C102 | `Model/MeshModifier` | the sum of a function that changes its sign with the direction, over the edges of the parts of a triangle, is a sum over its three edges of functions which also do |
| C103 | `Model/Gen`, `Model/Triangle`, `Model/AABBCollision` | where a ray enters a box it passes a side from the front; each point of a side is in a triangle of a cell |
| C104 | `Model/Gen`, `Model/TriangleMesh` | edges of grid triangles by their coordinates: border edges have one triangle, the others two with equal normals |
| C105 | `Model/Gen`, `Model/Triangle`, `Model/Sphere` | the triangles in the plane of a face cover the part of the plane behind all faces: a generic line in the plane enters and leaves the triangles in pairs (each edge has a partner); with this the solid is the intersection of the half-spaces, and a ray enters it through the last plane it crosses |
| C106 | `Model/AABBFloat` | error bounds of roundings in any mode; the order of the two planes of a slab is kept by monotonicity; margins in space instead of parameters |
| C107 | `Model/TriangleMesh`, `Model/AABB`, `Model/MeshModifier`, `Model/ConvexHull` | composition of C01/C39, C07, C13, C22, C25, C30; the loop of `ClipMesh` by induction over the triangles |
| C108 | `Model/PlaneFloat`, `Model/ClipFloat` | roundings are monotone, so the rounded product with the normal is extremal at the two corners the code takes |
| C109 | `Model/PlaneFloat`, `Model/ClipFloat` | propagation of rounding errors; sums of floats have a relative error without underflow |
| C110 | `Model/GridFloat` | relative error of the reciprocal; floats next to one; finite check of reciprocals with integers |
| C111 | `Model/PickFloat` | a calculus of approximations (number of roundings, size of the exact term, power of two that divides the value); exact arithmetic on grids |
| C112 | `Model/Clip`, `Model/MeshModifier` | C27 for both calls; a triangle parallel to the plane is never cut (C112_back_exact); commutation with a swap of the polygons (C112_flip); induction over calls with a grammar of triangle kinds (C112_growth) |
| C113 | `Model/ClipMeshFloat` | error analysis of the weighted sum for any rounding; simulation of the exact loop over the triangles, with C101 for each triangle; evaluation of a tetrahedron with rounding facts for the refutations |
| C114 | `Model/BoxSizeFloat` | doubling a float is exact, so each rounding of the sum keeps the bounds; differences of floats do not underflow |
| C115 | `Model/BoxInt` | loop with undefined overflow; integer arithmetic |
| C116 | `Model/BoxInt` | conversions are monotone and their domains are intervals |
| C117 | `Model/LinesFloat` | parameters in [0, 1] and error bounds of their use; for exact products the minimum over the strip s in [0, 1] and over its edges, with Cauchy-Schwarz for the error of t; witnesses by exact powers of two |
| C118 | `Model/SphereFloat` | error bounds of the coefficients; the square of the rounded root by floats around the root; the root of a rounded square is at most the number (next float and midpoint); witnesses by powers of two |
| C119 | `Model/TriangleAngle` | vectors as elements of Mathlib's Euclidean space, whose angles add up to pi; Lagrange's identity for the normal; 2D triangles are lifted to the plane of x and y |
| C120 | `Model/ClipShared` | a store of objects; the pieces of a triangle do not depend on the meshes to which they are added; the shared output is a permutation of the two parts |
| C121 | `Model/BSplineFloat` | Any rounding. Each weight is within (1-u)^(5q) and (1-u)^(-5q) of the exact one, up to underflow, by induction over the recursion; no cancellation as all terms are not negative; at most q+1 points are near, so that at most q+1 additions round |
| C122 | `Model/SkeletonMake` | The function is the sequence of the results of its calls; the state when an exception leaves `CopyFrom` is part of the result |
| C123 | `Model/BezierFloat` | Any rounding; `std::pow` is a function with the properties `IsPow`. No cancellation for parameters from 0 to 1, so that the weights have a small relative error; at 0 and 1 they are exactly 0 or 1 |
| C124 | `Model/Triangle` | The common points are an interval of the line of both planes, given by six linear conditions, one for each edge. At each end of it a condition gets sharp, and there the edge is a hit. |
| C125 | `Model/PlaybackClient`: handlers are programs over the interface of the playback and a state of the client, run with a budget of steps | Invariant of the event log by induction on the budget; progress by induction on the program and on the number of frames. The model is checked against `Model/Playback` by C125_library. |
| C126 | `Model/KeyframeFloat` on `Model/Keyframe` and `Base/Float` | If the rounded difference d of the keys exceeds the exact one, it is not subnormal, and d times a parameter below one rounds to less than d (`shrink`). No float is between the exact difference and d, so the product is at most the exact difference. |
| C127 | `Model/PlaneCast` on `Model/Plane` and `Base/Float` | Each member times a coordinate moves by a unit of the product plus underflow. Across an axis the product is a float, and a monotone rounding does not move a distance past a float. |
| C128 | `Model/MeshMove` on `Model/TriangleMesh` | A store of numbered meshes; the decisions of the library about vectors after a move are parameters. A swap is a transposition of the variables, also for equal variables, since the temporary mesh is assigned last. |
| C129 | `Model/AnimationFloat` on `Model/PlaybackFloat`, `Model/KeyframeFloat` and `Model/Animation` | Simulation: each rounded update is an exact update with another time step (the subtractions of the loop are exact), so the theorems about exact films (C94_no_jump) apply to the changed steps. Backward (`Props/AnimationBack`) the subtractions are not exact; the step is chosen so that the exact playback ends at the rounded parameter, which is possible unless a playback that has just been started gets a step which the rounding loses. |
| C130 | `Model/ClosestFloat` | Error propagation on the bound of the distance (C109); exactness for normals along an axis, where only one difference can be rounded; refutation by absorption. |
| C131 | `Model/RayPlaneFloat` | Error propagation through distance, quotient and point; signs of the computed distance and rise; refutations by absorption and by underflow of the quotient. |
| C132 | `Model/LinePlaneFloat` | Error propagation as for C131 with a rounded direction; for axis normals the monotonicity and symmetry of the rounding; refutations by absorption, and by a factor rounded above one (checked for each rounding to the nearest, since no step of the witness is a tie). |
| C94 | `Model/Animation` on top of both | composition of the closed formulas of C54, C55 and C56; a piecewise linear function is Lipschitz |
| C60-C65 | `Model/Skeleton` tree model and pointer-level heap model | tree induction; invariants over histories; refutation for Remove |
| C78-C81 | `Model/Plane` | algebra, Cauchy-Schwarz for the cone; refutations for TransformPlane |
| C66-C69 | `Model/Transform` (with Projection), dirty flag | refinement to the cache-free object; algebra; refutation |
| C70-C75 | `Model/Bernstein`, `Model/Bezier`, `Model/Spline`, `Model/UniformSpline` | binomial theorem, Cox-de Boor induction, Thomas algorithm invariant |
| C76 | `Model/TangentSpace` | algebra |

## Findings

Places where the code does not do what the property (or its documentation) says.
Each is a theorem in `Props`, named `..._refuted` or as given.

* Playback: `OnNextFrame` is posted after `OnStop` in the same `Update`
  (C49_nextFrame_after_stop); changing the sign of the speed after a backward
  `Play` uses a stale next frame, a list loop of one frame keeps a stale next
  frame (C50); ping-pong with first = last runs away (C51); one-shot `Play` with
  negative speed stops at once, and ping-pong playback is not reversed (C55); shortening the public frame list during
  playback reads out of bounds (C77).
* Boxes: `Contains` accepts a NaN point (C04); the SSE `Repair` writes the larger
  value to min and leaves max, SSE `Contains(points)` has both comparisons
  reversed (C06); the segment/box overload without output compares the parameter
  with the length instead of 1 (C08).
* Keyframes: with a first frame > 0 the keys are those of the wrong frames (C57);
  `ClearKeys` keeps the frame range, `Interpolate` then reads out of bounds (C58);
  a channel without keyframes keeps the keys of an earlier `BuildKeys` (C59).
* Skeletons: `RemoveRootJoint`/`RemoveSubJoint` erase first and then move from the
  erased iterator: the joint is destroyed, its successor is returned, a null
  pointer stays in the list, the last joint is undefined behaviour; the parent
  link of the returned joint is stale, so it cannot be added again (C64).
  `CopyFrom` of a nonempty skeleton to itself is undefined (C63_self_undefined).
* Transforms: `Transform2T::Turn` scales the offset from the pivot by (sin, cos)
  instead of rotating it; turning by 0 moves the object (C69). Whether
  `Transform3T::Turn` turns the whole object about the pivot depends on the order
  of the quaternion `*=` in GaussianLib: it does if the old rotation is applied
  first, it does not for the Hamilton product `q r` (C68).
* Planes: the constructor from four coefficients builds n*x = d, not n*x + d = 0
  (C11); the three-plane query finds the point only in one direction (C15); a ray
  parallel to a plane can be a hit at infinity (C16); `TransformPlane` ignores the
  plane equation and transforms the normal like a vector (C80).
* Lines and triangles: `ClosestPointOnLine` divides 0 by 0 for a degenerate segment
  (C20_degenerate_refuted); segments shorter than the tolerance are replaced by
  their first point (C21_short_refuted); the barycentric ray query rejects a ray
  that starts on the triangle, the other one accepts it (C22_origin_refuted); the
  precomputed query misses hits on edges that the direct one reports (C23).
* Clipping: with a positive tolerance the two polygons can overlap, since a corner
  in the tolerance band is added to both and the edge is cut as well
  (C25_area_refuted); a triangle that touches the plane from behind counts as
  clipped, with a front polygon of one or two vertices (C25_behind_refuted,
  C26_refuted); polygons are appended to, so reused ones overflow
  (C25_reuse_undefined).
* Meshes: `Append` of a nonempty mesh to itself is undefined (C38_refuted);
  `SilhouetteEdges` compares the distance of the cosine between the normals from
  one with sin(tolerance): this is neither the angle (C35_angle_refuted) nor monotone on the
  documented range [0, pi] (C35_mono_refuted); two triangles with two common
  corners need not share an edge if one of them is degenerate
  (C34_edge_degenerate_refuted); an invalid index passed to `TriangleNeighbors`
  is undefined (C34_undefined). `ClipMesh` inherits the overlap of the clipped
  polygons (C27_area_refuted), and gaps arise beside the plane (C102_band_needed); if an output mesh is the input mesh, the input is
  cleared first (C120).
* Spheres: the ray query needs a unit direction, although the documentation says
  that it does not (C29_refuted).
* Hulls and frusta: `IsSphereInside` accepts spheres near corners that are disjoint
  from the hull (C30_sphere_refuted). `Frustum::SetFromMatrix` gets the sign of d
  wrong because of the plane constructor: for the identity matrix the frustum
  is empty (C31_refuted). One of two opposite corners can silently be the zero
  vector (C87_refuted), then the bounding box is wrong as well.
* Rays and cones: `ClosestSegmentBetweenRays` treats rays as lines (C83_refuted),
  parallel rays give the origins (C83_parallel_refuted); `ClosestPointOnCone` is
  right in front of the plane only (C84_behind_refuted, C84_crossing_refuted).
* Generators: loops `i <= segments` with 32-bit counters do not end for 2^32 - 1
  segments (C43_endless_refuted); indices inside of a grid wrap at 2^32 vertices
  (C43_range_refuted); a null curve function throws (C47_null); the tube of a
  curve collapses to the curve where it runs along the Y axis, since the frame is
  built from (0,1,0) (C47_tube_refuted); the tube is always closed up from the
  last ring to the first (C47_closed), whether the curve is closed or not; too
  many turns of a spiral are an undefined conversion (C47_spiral_refuted).
  Rotations of cuboid faces and of the tube depend on the sense of rotation of
  GaussianLib, which is a parameter (any sign) of the model.
  Normals are those of the sphere and the circle also for ellipsoids and
  elliptical cylinders (C89_ellipsoid_refuted, C89_cylinder_refuted); the normals
  of a cone are interpolated by a square root, neither of unit length nor
  orthogonal to the mantle (C89_cone_length_refuted, C89_cone_refuted); the
  normal of a spiral cover has the wrong sign in Z (C89_spiral_refuted); the top
  cover of a spiral is detached unless turns * segments is whole (C90_gap_refuted).
  For the same reason a normal can point behind its own triangle if the radii
  differ (C91_normals_refuted, three segments and radii 4 and 1).
* Bezier: factorials are computed with 64 bits, so curves of more than 21 points
  are wrong and those of 67 or more points divide by zero
  (C71_exact, C71_undefined_refuted); a curve of one point and a patch of order
  zero (the default) give the zero vector (C71_single_refuted, C72_zero_refuted);
  the mesh of a patch of the
  default order 0 is a point (C98_order_zero_refuted), from order 66 on its generation
  is undefined (C98_undefined_refuted); the size of a patch of order 65535 wraps to zero (C72_lost_refuted); the index
  of a Bezier triangle leaves its buffer from order 3 on (C73_refuted), and
  `BezierTriangle::Evaluate` is empty.
* Splines: `SetOrder` before the first `AddPoint` sets the order zero
  (C74_clamp_refuted); at the last knot and beyond the value is the zero vector,
  not the last point (C74_end_refuted); since no knots are added at the end, the
  weights of a spline of order q >= 2 sum up to less than one from the knot n - q on:
  the curve is pulled to the origin of coordinates (C74_sum_refuted).
* Uniform splines: with the expansion 0, documented as "linear spline", the
  pieces are straight, but the parameter is not linear (C75_linear_refuted);
  `Build` with less than two points keeps the former spline (C75_stale).
* Rounding: `Playback::Update` does not return after a step of more than 2^25 frames with
  `float` (2^54 with `double`), because subtracting one has no effect
  (C99_returns_refuted); a playback stands still if its steps are less than half a unit in the last place
  (C99_advances_refuted, less than 2^-25 frames with `float`). The index of
  `UniformSpline::Evaluate` stays in its array with rounding to the nearest (C100_defined), but
  not with upward rounding (C100_upward_refuted).
* Rounding: `ClipTriangle` may write beyond the four vertices of a polygon
  (C101_bounds_refuted). With `float` and epsilon 1e-5 the triangle (1024,0,0), (2^-16,1,0),
  (-2^-16,0,1) and the plane x = 0 give a fifth front vertex: the edge between the two corners in front is
  cut at t = 1, since 2^-16 is lost in the difference of the corners. `ClipMesh` calls this
  function for each triangle. On grids with few enough points it does not happen (C101_agrees_partial).
* Rounding: `IntersectionWithAABB` misses rays that graze a box, in floating-point arithmetic: with `float` the ray from (0,0) in
  direction (41,1) and the box from (0,1) to (41,2), whose corner (41,1) it meets, since 41 * (1/41) is rounded to
  1 - 2^-24 (C106_float_refuted); with `double` the same happens for 49 (C106_double_refuted).
* Rounding: the sides of a cuboid with 41 segments and `float` (49 and `double`) end at 1/2 - 2^-24 instead of 1/2, so that there is a gap
  between neighbouring sides, and the texture coordinates end below 1; the reciprocal of the number of segments is rounded before it is
  multiplied (C110).
* Rounding: `IntersectionWithTriangleBarycentric` leaves gaps between triangles: with `float` the ray from 0 in direction (0, -w, 1),
  w = 11184811/2^25, meets the rectangle with the corners (2,-3,1), (2,1,1), (-1,1,1), (-1,-3,1), but hits none of the two triangles it is cut
  into, because the product at the diagonal is computed as negative from both sides (C111). A simulation finds such misses for
  about 2 % of the rays that are aimed at common edges.
* Rounding: `IntersectionWithTriangleBarycentric` may report a hit after it divided by a sum of zero, with coordinates that are not numbers,
  for rays nearly parallel to the triangle (C111).
* `ClipMesh` of its own back mesh with the same plane is not the same mesh: a triangle with one corner on the plane and two behind it is
  reported as `Clipped`, and replaced by itself and a triangle without an area; in each further call these are multiplied, so n
  calls make 2n triangles of one (C112_growth), and triangles without an area get into the front mesh (C112_back_refuted). A check for
  a corner in front before the clipping would avoid this.
* Rounding: `ClipMesh` leaves cracks. The edge from (7, 0, 1) to (7, 0, -11) is cut by the plane z = 0 at x = 7 for one of its triangles and
  beside x = 7 for the other, with `float` and with `double` (C113_crack_float_refuted); the second vertex is also outside of the bounding
  box of the mesh (C113_box_float_refuted). Cutting each edge from its front corner would give both triangles the same vertex.
* `VectorizedAABB3f::Widths`, `Heights` and `Depths` are negative where min > max, as in the default boxes; `AABB::Size` takes the absolute
  value (C114_sizes_refuted).
* `AABB::Center` and `CentersX/Y/Z` add min and max before they halve the sum: beyond half of the largest float the center of a valid box
  is infinite (C114_overflow_float_refuted); for integers the behaviour is undefined, as is `Size` of boxes wider than 2^31 - 1 and of the
  default box (C115_refuted).
* `AABB::Cast` rounds both bounds in the same way; the box converted from `double` to `float` need not contain the box (C116_refuted).
* Rounding: `ClosestSegmentBetweenLines` treats segments as parallel if `a*e - b*b` is rounded to zero. With `float` that is the case up to
  angles of 2^-13: the segments from (0, 0, 0) to (2^31, 0, 0) and from (0, -2^17, 0) to (2^31, 2^17, 0) cross, and the returned points are
  at least 65536 apart (C117_nearest_float_refuted). With s = 1 the returned point is `(b - a) + a`, which may be beyond `b`
  (C117_between_float_refuted).
* `BoundingBoxMultiThreaded` inserts the vertices in another order than `BoundingBox`; the sign of a zero of the box may differ
  (C40_zero_sign), the numbers are the same, also with NaN as coordinates (C40_ieee).
* Rounding: the ray query of spheres subtracts the squares of the distance and the radius. For a sphere with radius 1 at the
  distance 8192, in single precision, the radius is lost: the query returns the centre of the sphere (C118_centre_float_refuted), and
  a ray that misses the sphere by 1/2 counts as a hit (C118_miss_float_refuted). The error is of the order u R^2 with the distance R.
  The parameter can be negative, but only near the smallest floats (C118_front_float_refuted, C118_front_partial).
* `ClipMesh` with an output that is the input: `Clear` of the output empties the input before the loop, and all outputs are empty (C120_input_refuted).
  The documentation does not exclude this call.
* `Triangle3T::Area` (Triangle.h 238-241) returns `Gs::Cross(b - a, c - a)/T(2)`, a vector, from a function of type `T`. A program which calls it does
  not compile. `Area` of a 2D triangle (116-119) depends on a `Gs::Cross` of 2D vectors and has a sign if this is the usual product. Neither is modelled;
  C119 shows that the length of `Normal` is twice the area.
* `CopyFrom` with a function of the client: an exception of this function leaves a part of the copy in the skeleton (C122_throw,
  C122_unchanged_refuted); sub joints of the returned joints stay in front of the copied ones (C122_furnished_refuted).
* Rounding: meshes of Bezier patches with a common border can have a crack there, e.g. with 41 segments (C123_seam_float_refuted); with a
  power of two of segments they fit exactly (C123_seam_power).
* The intersection of two triangles is not found if they are in one plane (C124_coplanar_refuted); if edges of both cross, one end of the
  common segment can be returned twice and the other one is lost (C124_segment_refuted).
* Handlers that call the playback: `Pause` in `OnNextFrame` does not end the loop of `Update`, which goes on to move frames and to post
  events while paused (C125_pause_refuted); a playback started in `OnStop`, while `Play` replaces the listener, is never announced as
  stopped (C125_restart_refuted).
* Rounding: `Interpolate` with the parameter 1 need not return the second key and can leave the range of both keys (C126_end_refuted); with a
  parameter less than one it stays in the range (C126_box).
* `Plane::Cast` from double to float rounds the normal and the distance, but does not correct the distance: a point of single precision in front of the plane
  can be behind the converted plane (C127_side_refuted).
* The move assignment of `TriangleMesh` does not test for an assignment to itself: `mesh = std::move(mesh)` loses the mesh in the usual libraries
  (C128_self_refuted). `std::swap` of a mesh with itself is safe (C128_swap).
* Rounding: a loop with negative speed stops at the parameter 1 and so shows positions outside of the box of its keyframes (C129_box_refuted). Forward
  playbacks have parameters less than one and stay in the box (C129_box_partial).
* Rounding: `ClosestPointOnPlane` moves the point by the rounded distance, so the error grows with the distance of the point: for the plane x = -1
  and the point (2^25, 0, 0) the result is the origin (C130_float_refuted). Replacing the coordinate would be exact for planes normal to an axis.
* Rounding: `IntersectionWithPlane(plane, ray)` can return a point at distance one from the plane (C131_float_refuted), and a hit for a ray that
  leads away from the plane, if the negative quotient is rounded to zero, which passes the test `t >= 0` (C131_away_refuted).
* Rounding: `IntersectionWithPlane(plane, line)` can miss a plane whose two sides contain the end points by the library's own `RelationToPlane`
  (C132_crossing_refuted), and hit a plane with both end points in front (C132_float_refuted): the factor is compared with one after rounding. Comparing the
  signs of the distances of the two end points would decide both cases.
* Rounding: `IsPointInside` of a convex hull accepts points in front of a plane: with `float` the plane x + y = 2^24 and the point
  (2^24, 1/2, 0), whose sum is rounded to 2^24 (C109_float_refuted). Tests of boxes and of their points stay consistent (C108).
* Tangent space: the bitangent has the wrong sign, it points against the second
  texture coordinate (C76_bitangent_refuted); negating tangent and bitangent does
  not change the handedness, which is what the adjustment tests (C76_handedness); up to
  the tolerance of that test mirrored triangles get reversed vectors
  (C76_tolerance_refuted).
