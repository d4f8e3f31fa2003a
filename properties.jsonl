{"id": "C01", "title": "A freshly reset box grows to the tightest box around the inserted points", "statement": "After Reset (or default construction) and any sequence of Insert(point) calls the box contains every inserted point, and every other box which contains all inserted points also encloses this one. Hence the result depends only on the set of inserted points: order and repetition are irrelevant. Inserting a valid box has the same effect as inserting its two corners.", "quantifier": "all dimensions, all finite sequences of non-NaN points whose coordinates lie within the limits used by Reset, all orders of insertion", "why_tests_cant": "A test samples a few point lists; the claim ranges over all sequences, permutations and dimensions.", "anchors": ["include/Geom/AABB.h: AABB::Reset, AABB::Insert, AABB::Contains, AABB::InsideOf"]}
{"id": "C02", "title": "Overlap, InsideOf and Contains decide the set relations they name", "statement": "For valid boxes (min <= max on each axis): Overlap(b) is true exactly if the two boxes share at least one point, InsideOf(b) is true exactly if every point of this box is a point of b, Contains(p) is true exactly if min <= p <= max holds on each axis. Overlap is symmetric, InsideOf is a partial order.", "quantifier": "all pairs of valid boxes and points, any dimension, any totally ordered component type", "why_tests_cant": "The existence/universality of a shared point ranges over infinitely many points and box pairs.", "anchors": ["include/Geom/AABB.h: AABB::Overlap, AABB::InsideOf, AABB::Contains"]}
{"id": "C03", "title": "Repair turns any box into the valid box with the same corner coordinates", "statement": "After Repair the box is valid (min <= max on each axis), on each axis {min,max} is the same pair of values as before, a valid box is unchanged, and Repair twice equals Repair once. The Center of a valid box is contained in it and Size is non-negative.", "quantifier": "all boxes, valid or not, any dimension", "why_tests_cant": "Universally quantified over all pairs of corner vectors.", "anchors": ["include/Geom/AABB.h: AABB::Repair, AABB::Center, AABB::Size"]}
{"id": "C04", "title": "A NaN coordinate never corrupts a scalar box", "statement": "If a point with NaN coordinates is inserted into a box without NaN, the box still has no NaN coordinates: a NaN coordinate leaves min and max of its axis unchanged and the other axes behave as usual.", "quantifier": "all boxes without NaN and all points with NaN in any subset of their coordinates", "why_tests_cant": "Tests would have to enumerate NaN positions and arbitrary histories; it depends on the operand order of each comparison.", "anchors": ["include/Geom/AABB.h: AABB::Insert, AABB::Contains"]}
{"id": "C05", "title": "VectorizedAABB3: Insert, InsideOf and Overlap act on each lane like the scalar box", "statement": "For NaN-free data each of the four lanes of Insert(vectorized points), Insert(vectorized boxes), InsideOf and Overlap gives exactly the result the scalar AABB3 operation gives for the box/point in this lane.", "quantifier": "all four-lane boxes and points without NaN", "why_tests_cant": "Lane-wise agreement must hold for all 4x6 float combinations.", "anchors": ["include/Geom/VectorizedAABB.h: Insert, InsideOf, Overlap", "include/Geom/AABB.h"]}
{"id": "C06", "title": "VectorizedAABB3: Repair and Contains act on each lane like the scalar box", "statement": "For NaN-free data Repair makes each lane valid exactly as AABB::Repair does, and Contains(points) answers for each lane exactly as AABB::Contains does.", "quantifier": "all four-lane boxes and points without NaN", "why_tests_cant": "Lane-wise agreement must hold for all 4x6 float combinations.", "anchors": ["include/Geom/VectorizedAABB.h: Repair, Contains", "include/Geom/AABB.h: Repair, Contains"]}
{"id": "C07", "title": "Ray against box: hit exactly if the ray meets the box, at the first such point", "statement": "For a valid box and a ray whose direction components are zero or at least epsilon in magnitude (exact arithmetic): the query succeeds exactly if some point origin + t*direction with 0 <= t <= numeric maximum lies in the box; on success the returned interpolation parameter is the smallest such t and the returned point lies in the box.", "quantifier": "all rays and valid boxes with the stated direction condition", "why_tests_cant": "Existence/minimality over a continuum of t for all rays and boxes.", "anchors": ["include/Geom/AABBCollision.h: IntersectionWithAABBInterp, IntersectionWithAABB(AABB3T, RayT)"]}
{"id": "C08", "title": "Line segment against box: both overloads agree and decide whether the segment meets the box", "statement": "IntersectionWithAABB(box, line) and IntersectionWithAABB(box, line, intersection) return the same answer, which is true exactly if some point of the segment [a,b] lies in the box.", "quantifier": "all segments and valid boxes with direction components zero or at least epsilon in magnitude", "why_tests_cant": "Quantifies over all segments; a disagreement shows only for particular length/parameter relations.", "anchors": ["include/Geom/AABBCollision.h: IntersectionWithAABB(AABB3T, Line3T)", "include/Geom/AABBCollision.h: IntersectionWithAABB(AABB3T, Line3T, Vector3T)"]}
{"id": "C09", "title": "The edge enumeration of a box yields each of its twelve edges exactly once", "statement": "AABBEdges delivers twelve segments; each connects two corners of the box which differ in exactly one axis, and each of the twelve such corner pairs occurs exactly once.", "quantifier": "all boxes", "why_tests_cant": "Holds symbolically for all corner coordinates.", "anchors": ["include/Geom/AABB.h: AABBEdges"]}
{"id": "C10", "title": "A plane built from three points passes through them, and Flip only swaps its sides", "statement": "For both plane equations and any three non-collinear points, Build produces a unit normal and a signed distance of zero at each of the points; Flip negates the signed distance of each point and applying it twice restores the plane.", "quantifier": "all non-collinear triples, both plane equations, all query points", "why_tests_cant": "Universal over real triples and query points.", "anchors": ["include/Geom/Plane.h: PlaneT, Build, Flip, Normalize", "include/Geom/PlaneCollision.h: SgnDistanceToPlane"]}
{"id": "C11", "title": "The four-scalar plane constructor realises its documented equation", "statement": "PlaneT(x, y, z, d) always initializes the plane with N*X + d = 0, that is the points with signed distance zero are exactly those with x*px + y*py + z*pz + d = 0, for both plane equations.", "quantifier": "all coefficient quadruples and both plane equations", "why_tests_cant": "Universal over coefficients and points.", "anchors": ["include/Geom/Plane.h: PlaneT(x,y,z,d)", "include/Geom/Frustum.h: SetFromMatrix"]}
{"id": "C12", "title": "ClosestPointOnPlane returns the unique nearest point of the plane", "statement": "For a plane with unit normal the returned point lies on the plane and is at most as far from the argument as any other point of the plane; its distance equals the absolute signed distance.", "quantifier": "all planes with unit normal and all points, both equations", "why_tests_cant": "Minimality over all points of the plane.", "anchors": ["include/Geom/PlaneCollision.h: ClosestPointOnPlane, SgnDistanceToPlane"]}
{"id": "C13", "title": "Plane/box relation and distance agree with the points of the box", "statement": "For a valid box: RelationToPlane is InFrontOfPlane exactly if each point of the box has positive signed distance, and BehindPlane exactly if none of its points has. DistanceToPlane(box) is a lower bound of the absolute signed distance of each box point, attained whenever it is positive.", "quantifier": "all valid boxes and planes, both equations", "why_tests_cant": "Quantifies over all points of all boxes.", "anchors": ["include/Geom/PlaneCollision.h: RelationToPlane(PlaneT, AABB3T), DistanceToPlane(PlaneT, AABB3T)"]}
{"id": "C14", "title": "Two-plane intersection returns exactly the common line", "statement": "If IntersectionWithPlane(a, b, ray) succeeds, a point lies on both planes exactly if it is origin + t*direction of the returned ray for some t. It fails only if the squared length of the cross product of the normals is at most epsilon.", "quantifier": "all pairs of planes, both equations", "why_tests_cant": "Both inclusions range over infinitely many points.", "anchors": ["include/Geom/PlaneCollision.h: IntersectionWithPlane(PlaneT, PlaneT, RayT)"]}
{"id": "C15", "title": "Three planes with linearly independent normals are reported to meet in their common point", "statement": "If the three normals are linearly independent (the first two not nearly parallel) the three-plane query succeeds and returns the unique point on all three planes; if it succeeds the point lies on all three planes.", "quantifier": "all triples of planes, both equations", "why_tests_cant": "Depends on the sign of an intermediate parameter, which only particular triples expose.", "anchors": ["include/Geom/PlaneCollision.h: IntersectionWithPlane(PlaneT, PlaneT, PlaneT, Vector3T)"]}
{"id": "C16", "title": "Ray/segment against plane reports exactly the crossing points", "statement": "For a ray (segment) which is not parallel to the plane, the query succeeds exactly if some t >= 0 (0 <= t <= 1) puts the point onto the plane, and then returns this point. A ray parallel to the plane and off it is never reported as a hit.", "quantifier": "all planes, rays and segments", "why_tests_cant": "Universal over rays; the parallel case depends on IEEE division by zero.", "anchors": ["include/Geom/PlaneCollision.h: IntersectionWithPlaneInterp, IntersectionWithPlane(PlaneT, RayT), IntersectionWithPlane(PlaneT, Line3T)"]}
{"id": "C17", "title": "Barycentric and Cartesian triangle coordinates are inverse to each other", "statement": "For each non-degenerate 2D or 3D triangle and each point of its plane, converting to barycentric coordinates yields coordinates with sum 1 which convert back to the point, and converting any barycentric triple of sum 1 to a point and back returns the triple, for whichever projection axis is picked.", "quantifier": "all non-degenerate triangles, all points of the plane, all triples with sum 1", "why_tests_cant": "Round trip for all inputs and each of the three projection branches.", "anchors": ["include/Geom/Triangle.h: BarycentricToCartesian, CartesianToBarycentric"]}
{"id": "C18", "title": "IsInsideTriangle decides membership in the triangle", "statement": "For a non-degenerate 3D triangle and a point in its plane IsInsideTriangle returns true exactly if the point is a convex combination of the three corners.", "quantifier": "all non-degenerate triangles, all points of their planes", "why_tests_cant": "Equivalence over a continuum.", "anchors": ["include/Geom/TriangleCollision.h: IsInsideTriangle"]}
{"id": "C19", "title": "ClosestPointOnTriangle returns a nearest point of the triangle", "statement": "The returned point is a convex combination of the corners, and no convex combination of the corners is closer to the query point.", "quantifier": "all non-degenerate triangles and all query points (all seven Voronoi regions)", "why_tests_cant": "Minimality over all points of all triangles.", "anchors": ["include/Geom/TriangleCollision.h: ClosestPointOnTriangle"]}
{"id": "C20", "title": "ClosestPointOnLine returns the nearest point of the segment", "statement": "The returned point lies on the segment and no point of the segment is closer to the query point, including the degenerate segment a = b as far as the code defines a result.", "quantifier": "all segments, all query points", "why_tests_cant": "Minimality over a continuum.", "anchors": ["include/Geom/LineCollision.h: ClosestPointOnLine"]}
{"id": "C21", "title": "ClosestSegmentBetweenLines connects two nearest points", "statement": "The returned end points lie on the first and on the second segment, and no pair of points of the two segments is closer together.", "quantifier": "all pairs of segments, degenerate ones included as far as the epsilon tests treat them as exact", "why_tests_cant": "Minimality over pairs of points for all segment pairs and all clamping branches.", "anchors": ["include/Geom/LineCollision.h: ClosestSegmentBetweenLines"]}
{"id": "C22", "title": "Ray/triangle query hits exactly if the ray passes through the triangle from its front side", "statement": "For a ray whose direction opposes the counter clock-wise normal, the barycentric query succeeds exactly if some point of the ray at t >= 0 is a convex combination of the corners, and the returned barycentric coordinates and t describe this point.", "quantifier": "all rays and triangles", "why_tests_cant": "Existence over a continuum for all inputs; edge hits are a measure-zero set.", "anchors": ["include/Geom/TriangleCollision.h: IntersectionWithTriangleBarycentric, IntersectionWithTriangleInterp, IntersectionWithTriangle(TriangleT, RayT)"]}
{"id": "C23", "title": "Precomputed and direct ray/triangle queries agree off the edges", "statement": "A success of the precomputed query implies success of the direct query with the same barycentric coordinates, and a direct success in the interior of the triangle implies success of the precomputed query.", "quantifier": "all rays and triangles", "why_tests_cant": "Agreement of two different formulas for all inputs.", "anchors": ["include/Geom/TriangleCollision.h: IntersectionWithTriangleBarycentric(PrecomputedTriangle...), IntersectionWithTriangleBarycentric(TriangleT...)"]}
{"id": "C24", "title": "A point reported by the triangle/triangle query lies on both triangles", "statement": "If IntersectionWithTriangle(triangleA, triangleB, line) succeeds both end points of the returned line are convex combinations of the corners of both triangles.", "quantifier": "all pairs of triangles", "why_tests_cant": "Universal over all pairs.", "anchors": ["include/Geom/TriangleCollision.h: IntersectionWithTriangle(TriangleT, TriangleT)"]}
{"id": "C25", "title": "Clipping a triangle never overflows, stays inside, separates by side and preserves area", "statement": "For each plane and epsilon >= 0: the two clip polygons never receive more than four vertices; each vertex is a convex combination of the corners; each front vertex has signed distance >= -epsilon, each back vertex <= epsilon; the signed areas of the fan-triangulated front and back polygons add up to the area of the triangle; the result is InFrontOf (Behind) exactly if no corner is behind (in front).", "quantifier": "all triangles, planes and epsilon >= 0, including corners exactly on the plane and edges parallel to the plane", "why_tests_cant": "27 sign combinations times a continuum, and IEEE division by zero for edges parallel to the plane.", "anchors": ["include/Geom/TriangleCollision.h: ClipTriangle, ClippedPolygon"]}
{"id": "C26", "title": "A clipped polygon has three or four vertices", "statement": "Whenever ClipTriangle reports PlaneRelation::Clipped both polygons have 3 or 4 vertices, as the documentation of ClippedPolygon::count promises.", "quantifier": "all triangles, planes and epsilon >= 0", "why_tests_cant": "Fails only for corners inside the epsilon band.", "anchors": ["include/Geom/TriangleCollision.h: ClippedPolygon::count, ClipTriangle"]}
{"id": "C27", "title": "ClipMesh yields two valid meshes which partition the input", "statement": "For a mesh with valid indices and distinct output meshes, both outputs have only valid indices, each front (back) vertex is on the front (back) side up to epsilon, each output vertex is an affine combination of the attributes of one input triangle's corners, and front and back areas add up to the area of each input triangle. No access is out of bounds.", "quantifier": "all meshes, planes, and epsilon >= 0", "why_tests_cant": "Universal over meshes of any size.", "anchors": ["sources/MeshModifier.cpp: ClipMesh", "sources/TriangleMesh.cpp: Barycentric"]}
{"id": "C28", "title": "Ray/sphere query returns the first intersection of a ray starting outside", "statement": "For a unit direction and an origin outside the sphere the query succeeds exactly if some t >= 0 reaches the sphere, and returns the first such point; from strictly inside it fails.", "quantifier": "all spheres and rays", "why_tests_cant": "Minimality over a continuum.", "anchors": ["include/Geom/SphereCollision.h: IntersectionWithSphere(SphereT, RayT)"]}
{"id": "C29", "title": "Ray/sphere query does not require a normalized direction", "statement": "Documented: the ray direction does not need to be normalized, so rays with the same origin and positively proportional directions give the same answer and the same intersection point.", "quantifier": "all spheres, rays and positive scale factors", "why_tests_cant": "Quantifies over all scale factors.", "anchors": ["include/Geom/SphereCollision.h: IntersectionWithSphere(SphereT, RayT)"]}
{"id": "C30", "title": "A convex hull contains a point exactly if each of its planes does", "statement": "IsPointInside is true exactly if no plane of the hull has the point strictly on its front side, is unaffected by order or repetition of planes, and adding a plane can only shrink the set of contained points; a hull reports a sphere inside only if it is on the inner side of each plane by its radius.", "quantifier": "all lists of planes, all points and spheres", "why_tests_cant": "All plane lists and all points.", "anchors": ["include/Geom/ConvexHull.h: IsPointInside, IsSphereInside"]}
{"id": "C31", "title": "A frustum built from a view-projection matrix has the clip volume as its inside", "statement": "For the planes built by SetFromMatrix a point is on the inner side of all six planes exactly if its homogeneous clip coordinates satisfy the clip inequalities.", "quantifier": "all matrices and all points", "why_tests_cant": "All matrices and points.", "anchors": ["include/Geom/Frustum.h: SetFromMatrix", "include/Geom/Plane.h: PlaneT(x,y,z,d)"]}
{"id": "C32", "title": "Edges() returns each undirected mesh edge exactly once", "statement": "The returned list is sorted and free of duplicates, each entry has a <= b, and {a,b} occurs in it exactly if some triangle of the mesh has a and b as two of its corners (cyclically adjacent).", "quantifier": "all triangle lists", "why_tests_cant": "All meshes of all sizes; duplicates depend on sharing patterns.", "anchors": ["sources/TriangleMesh.cpp: TriangleMesh::Edges"]}
{"id": "C33", "title": "FindTriangles returns exactly the incident triangles in ascending order", "statement": "FindTriangles(vertex) returns exactly the indices of triangles with the vertex as corner, FindTriangles(edge) exactly the indices of triangles which have both end points as the end points of one of their edges, ascending and without repetition.", "quantifier": "all meshes, vertices and edges", "why_tests_cant": "All meshes.", "anchors": ["sources/TriangleMesh.cpp: TriangleMesh::FindTriangles"]}
{"id": "C34", "title": "TriangleNeighbors returns exactly the triangles within the search depth", "statement": "The result contains exactly the triangles reachable from a searched triangle by at most searchDepth steps of the chosen neighbour relation (shared corner, or shared edge for edge bonds; identical indices or equal positions), each once in ascending order; the order of the input is irrelevant; larger depth returns a superset; an invalid input index is the only source of out-of-range access.", "quantifier": "all meshes, index sets and depths", "why_tests_cant": "Graph reachability over all meshes and depths.", "anchors": ["sources/TriangleMesh.cpp: TriangleMesh::TriangleNeighbors"]}
{"id": "C35", "title": "SilhouetteEdges removes exactly the interior edges between (nearly) coplanar triangles", "statement": "An edge of the mesh is returned exactly if fewer than two triangles have it or one of its triangles' normals deviates from the normal of its first triangle by at least the tolerance; a larger tolerance in [0, pi/2] never returns more edges.", "quantifier": "all meshes and tolerances", "why_tests_cant": "All meshes, all tolerances.", "anchors": ["sources/TriangleMesh.cpp: TriangleMesh::SilhouetteEdges"]}
{"id": "C36", "title": "Index validity survives every editing history", "statement": "Starting from the empty mesh, after any sequence of AddVertex, AddTriangle with existing vertex indices, Append of a valid other mesh, Clear and any generator call, each index of each triangle is smaller than the number of vertices.", "quantifier": "all finite histories of editing calls", "why_tests_cant": "Histories are unbounded.", "anchors": ["sources/TriangleMesh.cpp: AddVertex, AddTriangle, Append, Clear", "sources/MeshGenerator*.cpp"]}
{"id": "C37", "title": "Append concatenates geometry and keeps existing content", "statement": "After Append(other) of a distinct mesh with valid indices, the old vertices and triangles are unchanged as prefixes, and the list of triangle corner vertices (TriangleList) is the old list followed by the list of other; indices stay valid.", "quantifier": "all pairs of distinct meshes", "why_tests_cant": "All meshes of all sizes.", "anchors": ["sources/TriangleMesh.cpp: TriangleMesh::Append, TriangleMesh::TriangleList"]}
{"id": "C38", "title": "Appending a mesh to itself doubles it", "statement": "mesh.Append(mesh) behaves as Append of a copy.", "quantifier": "all meshes", "why_tests_cant": "Undefined behaviour may go unnoticed in a test run.", "anchors": ["sources/TriangleMesh.cpp: TriangleMesh::Append"]}
{"id": "C39", "title": "The bounding box of a mesh is the tightest box around its vertices", "statement": "BoundingBox() contains each vertex position and is enclosed by each box that does; BoundingBox(matrix) is the same for the transformed positions; both depend only on the set of vertices.", "quantifier": "all meshes, all matrices", "why_tests_cant": "All meshes.", "anchors": ["sources/TriangleMesh.cpp: TriangleMesh::BoundingBox"]}
{"id": "C40", "title": "The multi-threaded bounding box equals the sequential one under each schedule", "statement": "BoundingBoxMultiThreaded returns the box of BoundingBox for each thread count, each interleaving of the worker threads' insertions and each completion order; the vertex ranges handed to workers cover each vertex exactly once, and are in range.", "quantifier": "all meshes, also with NaN as coordinates, all thread counts and interleavings", "why_tests_cant": "Schedules cannot be enumerated by tests.", "anchors": ["sources/TriangleMesh.cpp: BoundingBoxMultiThreaded, BoundingBoxThreadProc"]}
{"id": "C41", "title": "Vertex stride and attribute interpolation follow the descriptor", "statement": "InterpolateBarycentric writes exactly the components described (offset, count per attribute) with the barycentric combination of the three input vertices and leaves everything else of the output buffer unchanged; stride 0 means the tightly packed stride. TriangleMesh::Barycentric returns exactly what Vertex::operator*= and operator+= compute from the corners, also with rounding.", "quantifier": "all descriptors, buffers and barycentric weights", "why_tests_cant": "All descriptors and buffers.", "anchors": ["sources/MeshModifier.cpp: InterpolateBarycentric, GetVertexStride", "sources/TriangleMesh.cpp: Vertex::operator+=, Vertex::operator*=, Barycentric"]}
{"id": "C42", "title": "Cuboid generator: counts, valid indices, append semantics, surface", "statement": "GenerateCuboid appends 6 faces with (segsU+1)*(segsV+1) vertices and 2*segsU*segsV triangles each (segments clamped to >= 1); existing content is kept as a prefix, new indices refer to new vertices only, and each new vertex lies on the surface of the box.", "quantifier": "all descriptors within 32-bit index range, all existing meshes", "why_tests_cant": "All segment counts and sizes.", "anchors": ["sources/MeshGeneratorCuboid.cpp", "sources/MeshGeneratorDetails.cpp: AddTriangulatedQuad"]}
{"id": "C43", "title": "Ellipsoid generator: counts, valid indices, append semantics, surface", "statement": "GenerateEllipsoid appends (segsU+1)*(segsV+1) vertices and 2*segsU*segsV triangles (after clamping), keeps existing content, uses only new vertices, and each new vertex satisfies the ellipsoid equation for the given radii.", "quantifier": "all descriptors within 32-bit index range, all existing meshes", "why_tests_cant": "All segment counts and radii.", "anchors": ["sources/MeshGeneratorEllipsoid.cpp"]}
{"id": "C44", "title": "Cylinder and cone generators: counts, valid indices, append semantics, surface", "statement": "GenerateCylinder and GenerateCone append the documented grids and caps, keep existing content, new triangles use only new vertices, each vertex lies within the height range and on the mantle or cap.", "quantifier": "all descriptors within 32-bit index range, all existing meshes", "why_tests_cant": "All segment counts.", "anchors": ["sources/MeshGeneratorCylinder.cpp", "sources/MeshGeneratorCone.cpp"]}
{"id": "C45", "title": "Pipe, pie and capsule generators: counts, valid indices, append semantics", "statement": "GeneratePipe, GeneratePie and GenerateCapsule keep existing content, new triangles use only new vertices, and vertex and triangle counts follow the clamped descriptor.", "quantifier": "all descriptors within 32-bit index range, all existing meshes", "why_tests_cant": "All segment counts.", "anchors": ["sources/MeshGeneratorPipe.cpp", "sources/MeshGeneratorPie.cpp", "sources/MeshGeneratorCapsule.cpp"]}
{"id": "C46", "title": "Torus generator: counts, valid indices, append semantics, surface, closedness", "statement": "GenerateTorus appends (segsU+1)*(segsV+1) vertices and 2*segsU*segsV triangles; each vertex satisfies the torus equation; seam vertices coincide with their partners, so the position-wise surface is closed: each directed edge of the grid quotient is matched by exactly one opposite one.", "quantifier": "all descriptors within 32-bit index range, all existing meshes", "why_tests_cant": "All segment counts and radii.", "anchors": ["sources/MeshGeneratorTorus.cpp"]}
{"id": "C47", "title": "Curve, torus-knot, spiral and Bezier-patch generators: counts, valid indices, append semantics", "statement": "GenerateCurve, GenerateTorusKnot, GenerateSpiral and GenerateBezierPatch keep existing content, new triangles use only new vertices, and counts follow the clamped descriptor; sample lookups of the curve stay inside the sample buffer.", "quantifier": "all descriptors within 32-bit index range, all existing meshes, all curve functions", "why_tests_cant": "All segment counts and curve functions.", "anchors": ["sources/MeshGeneratorCurve.cpp", "sources/MeshGeneratorTorusKnot.cpp", "sources/MeshGeneratorSpiral.cpp", "sources/MeshGeneratorBezierPatch.cpp"]}
{"id": "C48", "title": "Quad triangulation covers the quad with consistent orientation", "statement": "AddTriangulatedQuad(i0,i1,i2,i3) adds two triangles which have the quad's four directed boundary edges exactly once each and share one diagonal in opposite directions; alternateGrid only changes which diagonal is used.", "quantifier": "all indices, offsets and cell parities", "why_tests_cant": "All indices and parities.", "anchors": ["sources/MeshGeneratorDetails.cpp: AddTriangulatedQuad"]}
{"id": "C49", "title": "Playback events follow the documented protocol in each history", "statement": "In each history of calls: Update has no effect unless the playback is playing and the time step is positive; OnStop is posted only from playing/paused to stopped; OnPause only from playing; resuming only from paused; at most one state-change event per call to Pause/Stop; Play always posts OnPlay, preceded by OnStop of the previous listener if it was active.", "quantifier": "all finite histories of Play/Pause/Stop/Update calls with any listener of the library", "why_tests_cant": "Histories are unbounded.", "anchors": ["sources/Playback.cpp: Play, Pause, Stop, SetState, Update"]}
{"id": "C50", "title": "The current frame never leaves the played range", "statement": "While one of the library listeners one-shot, loop or ping-pong loop (first != last) drives the playback, after each history of calls (speed sign changes included) the current frame lies between first and last frame inclusive; list loops only show frames of the list (after the first frame).", "quantifier": "all histories of Update/Pause/Stop/SetSpeed with all time steps", "why_tests_cant": "Unbounded histories; wrap-around at 0 is only reached by particular ones.", "anchors": ["sources/Playback.cpp: SetNextFrame, HasEndReached, OneShotPlaybackEventListener, LoopPlaybackEventListener, PingPongLoopPlaybackEventListener, ListLoopPlaybackEventListener"]}
{"id": "C51", "title": "The ping-pong loop stays in range for each frame range", "statement": "As documented for the frame range, a ping-pong loop over [first,last] keeps the current frame inside the range for each choice of first and last, the single-frame range included.", "quantifier": "all ranges, all time steps", "why_tests_cant": "Fails only for the degenerate range after enough updates.", "anchors": ["sources/Playback.cpp: PingPongLoopPlaybackEventListener::OnNextFrame, SetNextFrame"]}
{"id": "C52", "title": "The interpolator stays in the unit interval and Update terminates", "statement": "In exact arithmetic each Update terminates and leaves the interpolator in [0,1) for non-negative and in (0,1] for negative speed; the number of OnNextFrame events equals the number of whole frames that passed.", "quantifier": "all states and positive time steps, all speeds", "why_tests_cant": "Loop termination and range for all reals.", "anchors": ["sources/Playback.cpp: Playback::Update"]}
{"id": "C53", "title": "Splitting a time step does not change the animation", "statement": "Update(s) followed by Update(t) leads to the same state, frames and interpolator as Update(s+t) for looping playback (and the same frames for one-shot playback).", "quantifier": "all states, all positive s and t, constant speed", "why_tests_cant": "All pairs of time steps; frame-rate independence.", "anchors": ["sources/Playback.cpp: Playback::Update"]}
{"id": "C54", "title": "Each looping mode visits the documented frame sequence", "statement": "Forward playback visits first, first+1, ..., last and then: one-shot stops at last; loop restarts at first; ping-pong reverses and returns; in list loop the frames of the list are visited cyclically. The k-th visited frame is given by the closed formula for each k.", "quantifier": "all ranges and all numbers of steps", "why_tests_cant": "Unbounded number of steps.", "anchors": ["sources/Playback.cpp: listeners' OnNextFrame, SetNextFrame, HasEndReached"]}
{"id": "C55", "title": "A negative speed plays the range backward", "statement": "Documented: speed may be negative to animate backward. Play with a negative speed plays the frames in reverse order, for one-shot, loop and ping-pong playback.", "quantifier": "all ranges, all negative speeds", "why_tests_cant": "All ranges; unbounded time.", "anchors": ["sources/Playback.cpp: Play, HasEndReached", "include/Geom/Playback.h: Playback::Play"]}
{"id": "C56", "title": "Keyframe interpolation reproduces keys, interpolates between and holds outside", "statement": "For keyframes with pairwise distinct frames whose smallest frame is 0, after BuildKeys of a new sequence (or one whose channels without keyframes have no keys) each channel evaluated at a keyframe's frame gives exactly its key, between two neighbouring keyframes the linear (slerp) interpolation of both, before the first and after the last key of this channel the first/last key; an empty channel gives the default value.", "quantifier": "all keyframe lists in any order with distinct frames and smallest frame 0, all sort algorithms", "why_tests_cant": "All keyframe sets; all frames.", "anchors": ["sources/KeyframeSequence.cpp: BuildKeys, BuildInterpolatedKeys, Interpolate"]}
{"id": "C57", "title": "Keyframe interpolation is correct for each start frame", "statement": "The same as the previous property for keyframe sets whose smallest frame is any number.", "quantifier": "all keyframe lists with distinct frames", "why_tests_cant": "The defect only shows for a positive first frame.", "anchors": ["sources/KeyframeSequence.cpp: BuildKeys, BuildInterpolatedKeys"]}
{"id": "C58", "title": "Interpolate never reads outside the key arrays and has no effect without keys", "statement": "In each history of BuildKeys, ClearKeys and Interpolate calls no key array is read out of bounds, and Interpolate leaves the transformation unchanged if there are no keys (documented).", "quantifier": "all histories, all frame arguments and interpolators", "why_tests_cant": "Unbounded histories; out-of-bounds reads may go unnoticed.", "anchors": ["sources/KeyframeSequence.cpp: Interpolate, ClearKeys, BuildKeys, ClampFrame"]}
{"id": "C59", "title": "BuildKeys depends only on its arguments", "statement": "The result of BuildKeys does not depend on earlier BuildKeys calls.", "quantifier": "all pairs of successive BuildKeys calls", "why_tests_cant": "Stale state shows only for particular successive calls.", "anchors": ["sources/KeyframeSequence.cpp: BuildKeys, BuildInterpolatedKeys"]}
{"id": "C60", "title": "All joint enumerations use the same depth-first order", "statement": "ForEachJoint visits each joint exactly once, parents before children, with consecutive indices from 0; JointList lists the joints in this order and NumJoints is its length.", "quantifier": "all skeletons without null pointers in their lists", "why_tests_cant": "All trees of all shapes.", "anchors": ["sources/Skeleton.cpp: ForEachJoint, JointList, NumJoints"]}
{"id": "C61", "title": "Transform buffers contain one matrix per joint in traversal order and never overflow", "statement": "FillGlobalTransformBuffer/FillLocalTransformBuffer write exactly the first min(NumJoints, bufferSize/16) matrices of the traversal and return 16 times this number; nothing beyond bufferSize is written; the global matrix of a joint is the product of the transforms from its root; null or size not divisible by 16 is rejected.", "quantifier": "all skeletons without null pointers in their lists, all buffer sizes", "why_tests_cant": "All trees and sizes.", "anchors": ["sources/Skeleton.cpp: FillGlobalTransformBuffer, FillLocalTransformBuffer"]}
{"id": "C62", "title": "The bind pose maps to identity and pose transforms can be rebuilt", "statement": "After BuildJointSpaceTransforms on a skeleton with invertible poses the relative global buffer of the bind pose consists of identity matrices, and RebuildPoseTransforms afterwards restores each pose transform.", "quantifier": "all skeletons with invertible pose matrices and without null pointers in their lists", "why_tests_cant": "All trees.", "anchors": ["sources/Skeleton.cpp: BuildJointSpaceTransforms, RebuildPoseTransforms", "sources/SkeletonJoint.cpp"]}
{"id": "C63", "title": "Copying a skeleton yields a disjoint structurally equal joint forest", "statement": "CopyFrom(model) keeps the existing roots and appends a copy of the model's forest with the same shape and the copied joint data; the model is unchanged.", "quantifier": "all pairs of skeletons", "why_tests_cant": "All trees.", "anchors": ["sources/Skeleton.cpp: CopyFrom", "sources/SkeletonJoint.cpp"]}
{"id": "C64", "title": "Removing a joint hands back that joint and removes only it", "statement": "RemoveRootJoint/RemoveSubJoint return ownership of the specified joint if it is in the list, leave the other joints in place and in order, and otherwise return null and change nothing.", "quantifier": "all joint lists and arguments", "why_tests_cant": "The defect depends on the position in the list.", "anchors": ["sources/Skeleton.cpp: RemoveRootJoint", "sources/SkeletonJoint.cpp: RemoveSubJoint"]}
{"id": "C65", "title": "Parent links always mirror child ownership", "statement": "In each history of AddRootJoint/AddSubJoint calls each owned child has its owner as parent, each joint is owned at most once, and adding a joint which already has a parent is rejected with no change.", "quantifier": "all histories of add calls", "why_tests_cant": "Unbounded histories.", "anchors": ["sources/SkeletonJoint.cpp: AddSubJoint, GlobalTransform", "sources/Skeleton.cpp: AddRootJoint"]}
{"id": "C66", "title": "Transform2/Transform3 matrices are never stale", "statement": "After each history of setters, moves, turns and matrix reads GetMatrix returns the matrix that belongs to the current position, rotation and scale.", "quantifier": "all histories of calls", "why_tests_cant": "Stale caches show only in particular interleavings of reads and writes.", "anchors": ["include/Geom/Transform2.h", "include/Geom/Transform3.h"]}
{"id": "C67", "title": "Projection matrices are never stale", "statement": "After each history of setter and getter calls GetMatrix returns the matrix determined by the current parameters and mode.", "quantifier": "all histories of calls", "why_tests_cant": "Stale caches show only in particular interleavings, e.g. changing ortho size in perspective mode.", "anchors": ["include/Geom/Projection.h"]}
{"id": "C68", "title": "Transform3::Turn rotates about the pivot", "statement": "Turn(rotation, pivot) keeps the pivot fixed in local coordinates and maps the position to pivot + rotation applied to (position - pivot), hence keeps the distance to the pivot; turning by the identity changes nothing.", "quantifier": "all transforms, pivots and unit rotations", "why_tests_cant": "All reals.", "anchors": ["include/Geom/Transform3.h: Turn"]}
{"id": "C69", "title": "Transform2::Turn rotates about the pivot", "statement": "Turn(angle, pivot) rotates the position about the pivot: the distance to the pivot is unchanged, and an angle of zero changes nothing.", "quantifier": "all transforms, pivots and angles", "why_tests_cant": "All reals.", "anchors": ["include/Geom/Transform2.h: Turn"]}
{"id": "C70", "title": "Bernstein weights form a partition of unity and Bezier curves stay in the convex hull", "statement": "For up to 21 control points and each t in [0,1] the Bernstein weights are non-negative with sum 1, so the curve point is a convex combination of the control points; at t = 0 and t = 1 the curve passes through the first and last control point (two or more points); no 64-bit intermediate overflows.", "quantifier": "all t, all control polygons of 2..21 points", "why_tests_cant": "All t and control points.", "anchors": ["include/Geom/BernsteinPolynomial.h", "include/Geom/BezierCurve.h"]}
{"id": "C71", "title": "Bezier evaluation is correct for each number of control points", "statement": "The Bernstein weights sum to 1 for each number of control points and no evaluation divides by zero; a curve with a single control point is constant.", "quantifier": "all numbers of control points", "why_tests_cant": "Overflow shows only beyond 21 control points.", "anchors": ["include/Geom/BernsteinPolynomial.h: Factorial, BinomialCoefficient, BernsteinPolynomial", "include/Geom/BezierCurve.h"]}
{"id": "C72", "title": "Bezier patch control points are independent cells", "statement": "SetControlPoint(u,v,p) followed by GetControlPoint(u',v') returns p exactly for (u',v') = (u,v) and the previous value otherwise, within range, and never accesses the buffer out of bounds; evaluation stays in the convex hull for t in [0,1]^2 and order 1..20; corners are interpolated.", "quantifier": "all orders and index pairs in range", "why_tests_cant": "All orders and indices.", "anchors": ["include/Geom/BezierPatch.h"]}
{"id": "C73", "title": "Bezier triangle control points are independent cells", "statement": "SetControlPoint(u,v,p) followed by GetControlPoint(u,v) returns p for each (u,v) with u+v <= order, and other cells are unaffected.", "quantifier": "all orders and index pairs in range", "why_tests_cant": "The defect starts at order 3.", "anchors": ["include/Geom/BezierTriangle.h: GetIndex, SetControlPoint, GetControlPoint"]}
{"id": "C74", "title": "B-spline order stays consistent and weights are non-negative with the right sum", "statement": "SetOrder clamps the order to 1..number of points; for increasing knots the basis weights are non-negative; a first-order spline interpolates its points linearly between the knots.", "quantifier": "all splines with increasing knots, all parameters in the knot range", "why_tests_cant": "All knots and parameters.", "anchors": ["include/Geom/Spline.h: SetOrder, Evaluate, BernsteinPolynomial, Interval"]}
{"id": "C75", "title": "Uniform spline interpolates its points smoothly and never reads out of bounds", "statement": "After Build with at least two points: Evaluate(i/(n-1)) is the i-th point, the curve is C1, with expansion 1 it is a natural cubic spline (C2, zero curvature at both ends), with expansion 0 each piece stays on the straight segment between its points; the polynomial index is always in range for exact arithmetic.", "quantifier": "all point lists with at least two points, all t", "why_tests_cant": "All point lists.", "anchors": ["include/Geom/UniformSpline.h: Build, Evaluate"]}
{"id": "C76", "title": "The tangent space follows the texture coordinates", "statement": "The normal computed for a triangle is the unit normal of its edges; tangent and bitangent have unit length, are orthogonal to the normal, and are the directions in which the first and the second texture coordinate increase.", "quantifier": "all triangles that are not degenerate, with texture coordinates that are not degenerate", "why_tests_cant": "All reals.", "anchors": ["include/Geom/TangentSpace.h"]}
{"id": "C77", "title": "List loops never read outside their list", "statement": "While a list loop drives the playback, no history of calls (new playbacks, updates with any speed sign, pauses, stops) reads the frame list out of its bounds; this includes assignments to the public list.", "quantifier": "all finite histories of calls, all lists (the empty one included), all speeds and time steps", "why_tests_cant": "Memory safety over unbounded histories with sign changes of the speed.", "anchors": ["sources/Playback.cpp: ListLoopPlaybackEventListener::OnNextFrame"]}
{"id": "C78", "title": "Plane normalisation keeps the plane, MemberPoint is its point nearest to the origin", "statement": "Normalize of a plane with nonzero normal gives a unit normal and keeps the points and the sides of the plane; a plane with zero normal is left alone. For a unit normal MemberPoint lies on the plane and no point of the plane is nearer to the origin.", "quantifier": "all planes, both equations, all points", "why_tests_cant": "All reals; both plane equations.", "anchors": ["include/Geom/Plane.h: Normalize, MemberPoint"]}
{"id": "C79", "title": "Plane-OBB distance is exact outside and detects contact", "statement": "DistanceToPlane(plane, obb) is a lower bound of the absolute signed distance of each point of the oriented box and is attained if it is not negative; it is at most zero exactly if the plane meets the box.", "quantifier": "all planes and all oriented boxes with non-negative half sizes, any axes", "why_tests_cant": "All boxes and planes.", "anchors": ["include/Geom/PlaneCollision.h: DistanceToPlane(PlaneT, OBB3T)"]}
{"id": "C80", "title": "TransformPlane maps a plane to its image", "statement": "A point lies on a plane exactly if its image under the matrix lies on TransformPlane(matrix, plane).", "quantifier": "all matrices, planes with unit normal and points, both equations", "why_tests_cant": "Both equations and all matrices.", "anchors": ["include/Geom/Plane.h: TransformPlane"]}
{"id": "C81", "title": "Cone is front facing exactly if all of its points are", "statement": "IsFrontFacingPlane(plane, cone) is true exactly if each point of the solid cone has positive signed distance.", "quantifier": "all planes and all cones with normalised direction and non-negative radius, both equations", "why_tests_cant": "Infinitely many points of the cone.", "anchors": ["include/Geom/PlaneCollision.h: IsFrontFacingPlane(PlaneT, ConeT)"]}
{"id": "C82", "title": "ClosestSegmentToTriangle connects two nearest points", "statement": "For a segment that does not meet the triangle the first returned end point lies on the triangle, the second one on the segment, and no pair of points of triangle and segment is closer together.", "quantifier": "all non-degenerate triangles with a plane of unit normal through the corners, all segments that do not meet the triangle, edges longer than the tolerance", "why_tests_cant": "Minimality over pairs of points.", "anchors": ["include/Geom/TriangleCollision.h: ClosestSegmentToTriangle"]}
{"id": "C83", "title": "ClosestSegmentBetweenRays connects two nearest points of the rays", "statement": "For normalised directions the returned points lie on the two rays, and no pair of points of the rays is closer together.", "quantifier": "all pairs of rays with unit directions, in any dimension, parallel ones included", "why_tests_cant": "Minimality over pairs of points of a continuum; parallel and behind-the-origin cases.", "anchors": ["include/Geom/RayCollision.h: ClosestSegmentBetweenRays"]}
{"id": "C84", "title": "ClosestPointOnCone returns the point of the cone nearest to the plane", "statement": "The returned point is a point of the solid cone, and no point of the cone has a smaller distance to the plane.", "quantifier": "all planes and all cones with unit direction and non-negative radius, both equations", "why_tests_cant": "Infinitely many points of the cone; cones on both sides of the plane.", "anchors": ["include/Geom/ConeCollision.h: ClosestPointOnCone"]}
{"id": "C85", "title": "The constructors of an oriented box keep the set of points they are given", "statement": "An OBB constructed from two corners has exactly the points of the AABB with these corners. An OBB constructed from three axes of nonzero length has unit axes and exactly the points center + s*x + t*y + u*z with |s|, |t|, |u| <= 1.", "quantifier": "all corners, all centers and axes", "why_tests_cant": "All reals.", "anchors": ["include/Geom/OBB.h: OBB(min,max), OBB(center,axes), UpdateHalfSize"]}
{"id": "C86", "title": "Volume, area and angle setters invert their getters", "statement": "SetVolume then GetVolume and SetArea then GetArea return the value set (for values >= 0); setting the current volume or area of a sphere with non-negative radius leaves it unchanged. For a cone with nonzero height the same holds for the angle, for angles below a right angle.", "quantifier": "all spheres and cones, all values", "why_tests_cant": "Round trips through roots and trigonometric functions over the reals.", "anchors": ["include/Geom/Sphere.h: SetVolume, GetVolume, SetArea, GetArea", "include/Geom/Cone.h: SetAngle, GetAngle"]}
{"id": "C87", "title": "The corner queries of a frustum return the points where three planes meet", "statement": "Each of the queries LeftTop, RightTop, LeftBottom, RightBottom returns the common point of the three planes involved; the bounding box contains origin and corners.", "quantifier": "all frusta whose planes meet in a point, both equations", "why_tests_cant": "All planes.", "anchors": ["include/Geom/Frustum.h: GetFarCornerLeftTop and so on, GetBoundingBox"]}
{"id": "C88", "title": "Texture coordinates parametrise the generated surfaces", "statement": "Each vertex of a generated cuboid, ellipsoid, cylinder, cone, pipe, pie, capsule or torus has texture coordinates inside of the texture (negated in u for the torus) from which its position follows: the point of the surface with angle and height proportional to the coordinates for mantles, the plane picture with the inscribed ellipse for covers, a rotated right-handed picture over the full side for cuboids. The normal follows from the coordinates in the same way.", "quantifier": "all descriptors with segment counts below 2^32 - 1; pipes with nonzero outer radii (and inner radii at most as large, for coordinates inside of the texture)", "why_tests_cant": "All segment counts and sizes.", "anchors": ["sources/MeshGeneratorCuboid.cpp", "sources/MeshGeneratorEllipsoid.cpp", "sources/MeshGeneratorCylinder.cpp", "sources/MeshGeneratorCone.cpp", "sources/MeshGeneratorPipe.cpp", "sources/MeshGeneratorPie.cpp", "sources/MeshGeneratorCapsule.cpp", "sources/MeshGeneratorTorus.cpp"]}
{"id": "C89", "title": "Normals of generated surfaces are unit vectors orthogonal to the surface", "statement": "The normal of each vertex of a generated surface has length one, and the surface is tangent to the plane through the vertex with this normal: a convex solid lies behind this plane, the torus has derivative zero in direction of the normal.", "quantifier": "all descriptors with segment counts below 2^32 - 1", "why_tests_cant": "Tangency is a statement on all points of the surface.", "anchors": ["sources/MeshGeneratorEllipsoid.cpp", "sources/MeshGeneratorCylinder.cpp", "sources/MeshGeneratorCapsule.cpp", "sources/MeshGeneratorCone.cpp", "sources/MeshGeneratorTorus.cpp", "sources/MeshGeneratorSpiral.cpp"]}
{"id": "C90", "title": "The covers of a spiral close its tube", "statement": "The points of the rims of bottom and top cover of a generated spiral are positions of vertices of the mantle.", "quantifier": "all descriptors with segment counts below 2^32 - 1, any number of turns", "why_tests_cant": "Any real number of turns.", "anchors": ["sources/MeshGeneratorSpiral.cpp"]}
{"id": "C91", "title": "The corners of generated triangles are ordered as the normals demand", "statement": "Each triangle added by a generator whose corners are different has its front side (corners counter-clockwise in right-handed axes) where the normals of its corners point to; the normals have to be stretched by the ratio of the radii if these differ.", "quantifier": "cuboid, ellipsoid, cylinder, cone, pipe, pie, capsule and torus; all positive sizes, all segment counts whose indices fit 32 bits, both kinds of grids; pipes with inner radii in the ratio of the outer ones, pies that are not cut away completely, tori with a tube in proportion to the ring and thinner than it", "why_tests_cant": "All sizes and all segment counts; a single wrong quad of a grid makes a hole in a rendered surface.", "anchors": ["sources/MeshGeneratorDetails.cpp: AddTriangulatedQuad", "sources/MeshGeneratorCuboid.cpp", "sources/MeshGeneratorEllipsoid.cpp", "sources/MeshGeneratorCylinder.cpp", "sources/MeshGeneratorCone.cpp", "sources/MeshGeneratorPipe.cpp", "sources/MeshGeneratorPie.cpp", "sources/MeshGeneratorCapsule.cpp", "sources/MeshGeneratorTorus.cpp"]}
{"id": "C92", "title": "Generated solids are closed surfaces", "statement": "In the triangles added by a generator each edge between different points is used as often in one direction as in the other: the surface has no holes and no rims, and neighbouring triangles are oriented alike.", "quantifier": "cuboid, ellipsoid, torus, capsule, tubes of curves and torus knots; cylinder, cone, pipe, pie and spiral with covers (spirals whose number of segments, turns times segments per turn, is whole); all sizes (zero and negative as well), all segment counts whose indices fit 32 bits, both kinds of grids", "why_tests_cant": "All segment counts; the seam of a grid is where the last column has to meet the first one, and the rims of covers have to meet those of the mantle.", "anchors": ["sources/MeshGeneratorDetails.cpp: AddTriangulatedQuad", "sources/MeshGeneratorCuboid.cpp", "sources/MeshGeneratorEllipsoid.cpp", "sources/MeshGeneratorCylinder.cpp", "sources/MeshGeneratorCone.cpp", "sources/MeshGeneratorPipe.cpp", "sources/MeshGeneratorPie.cpp", "sources/MeshGeneratorCapsule.cpp", "sources/MeshGeneratorTorus.cpp", "sources/MeshGeneratorCurve.cpp", "sources/MeshGeneratorTorusKnot.cpp", "sources/MeshGeneratorSpiral.cpp"]}
{"id": "C93", "title": "Generated solids are convex", "statement": "All vertices added by a generator are behind (or in) the plane of each triangle added by it: together with the front sides of C91 and the closed surface of C92, the mesh bounds a convex solid.", "quantifier": "cuboid, ellipsoid, cylinder, cone and capsule; all sizes that are not negative, all segment counts whose indices fit 32 bits, both kinds of grids", "why_tests_cant": "All pairs of a triangle and a vertex, for all sizes and all segment counts: depends on the step of the angle dividing the full turn exactly.", "anchors": ["sources/MeshGeneratorCuboid.cpp", "sources/MeshGeneratorEllipsoid.cpp", "sources/MeshGeneratorCylinder.cpp", "sources/MeshGeneratorCone.cpp", "sources/MeshGeneratorCapsule.cpp"]}
{"id": "C94", "title": "Animations by a playback show the film of the keyframes without jumps", "statement": "KeyframeSequence::Interpolate(matrix, playback) after BuildKeys, Play(first, last, speed, listener) and any updates gives the values of the three channels at the time T = total time * |speed|: at whole T the keys of the T-th frame of the film (loop, ping-pong, one-shot or list order), in between the mixture of two consecutive frames; a one-shot film stands at its last frame after the end; a loop with negative speed is the reversed film. Two films of the same keyframes differ in position by at most D per frame of time between them, where D bounds the difference of neighbouring frames (one-shot and ping-pong; in a loop the last and the first frame are neighbours as well).", "quantifier": "all keyframe lists with distinct frames in each channel and the first keyframe at frame 0, all frame ranges, all speeds, all lists of positive time steps, all states of the playback before Play", "why_tests_cant": "Two stateful classes together, over all divisions of the time into updates; the end of a one-shot playback leaves an interpolator behind which has to be harmless.", "anchors": ["sources/KeyframeSequence.cpp: KeyframeSequence::Interpolate", "sources/KeyframeSequence.cpp: KeyframeSequence::BuildKeys", "sources/Playback.cpp: Playback::Update", "sources/Playback.cpp: Playback::Play"]}
{"id": "C95", "title": "Generated solids enclose the volume of the solid they approximate", "statement": "The triangles added by a generator (with covers, where there are any) enclose: a cuboid width times height times depth; a cylinder the area of the inscribed polygon times the height, a cone a third of this, a pipe the difference of outer and inner one, a pie the part that is not cut out; an ellipsoid, a capsule and a torus (with a tube in proportion to the ring) the corresponding closed formulas in the segment counts. A sphere and a cone never have more volume than Sphere::GetVolume and Cone::GetVolume report, and the relative error falls with the square of the segment counts. Moving a closed surface does not change its volume.", "quantifier": "all descriptors, positive or not, all segment counts whose indices fit 32 bits, both kinds of grids", "why_tests_cant": "A closed formula for all segment counts; a face that is missing, doubled or turned around changes the sum.", "anchors": ["sources/MeshGeneratorCuboid.cpp", "sources/MeshGeneratorEllipsoid.cpp", "sources/MeshGeneratorCylinder.cpp", "sources/MeshGeneratorCone.cpp", "sources/MeshGeneratorPipe.cpp", "sources/MeshGeneratorPie.cpp", "sources/MeshGeneratorCapsule.cpp", "sources/MeshGeneratorTorus.cpp", "include/Geom/Sphere.h: GetVolume", "include/Geom/Cone.h: GetVolume"]}
{"id": "C96", "title": "The bounding box of a generated mesh is the box of the solid", "statement": "BoundingBox of a mesh generated into an empty mesh is inside of the box of the solid. For a cuboid it is exactly this box, for any number of segments. For cylinder, cone, pipe, pie, capsule and ellipsoid it has exactly the height of the solid, for a torus exactly its upper side; if the segments around the axis are a multiple of four (and those of ellipsoid and torus along the other angle a multiple of two or four) it is exactly the box of the solid (pie excepted).", "quantifier": "all descriptors (sizes of capsule and torus not negative, inner radius of the pipe at most the outer one), all segment counts whose indices fit 32 bits, sizes inside of the limits of the number type", "why_tests_cant": "All sizes and all segment counts; needs that extreme points are vertices.", "anchors": ["include/Geom/TriangleMesh.h: BoundingBox", "sources/MeshGeneratorCuboid.cpp", "sources/MeshGeneratorEllipsoid.cpp", "sources/MeshGeneratorCylinder.cpp", "sources/MeshGeneratorCone.cpp", "sources/MeshGeneratorPipe.cpp", "sources/MeshGeneratorPie.cpp", "sources/MeshGeneratorCapsule.cpp", "sources/MeshGeneratorTorus.cpp"]}
{"id": "C97", "title": "Clipping a mesh keeps the enclosed volume", "statement": "For each valid mesh and each plane, the tetrahedra of any point with the triangles of the two meshes returned by ClipMesh have together the same signed volume as those with the triangles of the mesh, unless a corner of the mesh is nearer to the plane than the tolerance without being on it. Without a tolerance this holds for each mesh.", "quantifier": "all meshes with valid indices, planes, tolerances >= 0, contents of the output meshes, and all points", "why_tests_cant": "All meshes and planes; a single polygon of a fan with wrong weights, or a triangle lost or added twice, changes the volume.", "anchors": ["sources/MeshModifier.cpp: ClipMesh", "include/Geom/TriangleCollision.h: ClipTriangle"]}
{"id": "C98", "title": "The mesh of a Bezier patch lies on the patch, in the hull of the control points, and fits its neighbour", "statement": "GenerateBezierPatch appends (segsX+1)*(segsY+1) vertices and 2*segsX*segsY triangles whose indices are those of new vertices. Each vertex is the point of the patch (construction of de Casteljau) at its parameters, in the convex hull of the control points; the corners are the corner control points. Two patches of equal order and segmentation which share the control points of an edge have the same vertices along it. Control points in a plane give vertices in this plane with normals orthogonal to it; control points on a regular grid of a parallelogram give the regular grid with unit normals, and triangles that have these normals on their front side.", "quantifier": "all control points, all orders, segment counts and flags", "why_tests_cant": "All control points and orders; composes the generator with the evaluation of the patch.", "anchors": ["sources/MeshGeneratorBezierPatch.cpp", "include/Geom/BezierPatch.h: Evaluate", "include/Geom/BernsteinPolynomial.h"]}
{"id": "C99", "title": "Playback::Update in floating-point arithmetic is Update in exact arithmetic, up to the rounding of the sum", "statement": "With binary floats of any precision, Update returns, and frames, events and state are those which exact arithmetic gives for the rounded sum of interpolator and step; the interpolator is the exact one, rounded, and stays in [0,1) forward and (0,1] backward. After any number of updates with steps of at most 2^k frames the position (events and interpolator) differs from the exact one by at most 3/2 * 2^(k-p) frames for each update.", "quantifier": "all precisions p, all rounding modes (the drift: all choices in the middle), all states, listeners, speeds and time steps", "why_tests_cant": "The set of floats is too large for tests; a loop that ends in exact arithmetic need not end with rounding.", "anchors": ["sources/Playback.cpp: Playback::Update", "include/Geom/Playback.h: IsForward"]}
{"id": "C100", "title": "UniformSpline::Evaluate in floating-point arithmetic stays inside of its polynomials", "statement": "With rounding to the nearest, for each float parameter in (0,1) and each number of polynomials, also those that are no floats, the index is less than the number of polynomials, the parameter of the polynomial is in [0,1), and index plus parameter is the rounded product of parameter and number; its error is at most half a unit in the last place, and greater parameters never give smaller places.", "quantifier": "all precisions, all choices in the middle, all parameters, all numbers of polynomials, any evaluation of polynomials", "why_tests_cant": "The critical case is the last float below one together with each number of polynomials.", "anchors": ["include/Geom/UniformSpline.h: Evaluate"]}
{"id": "C101", "title": "ClipTriangle in floating-point arithmetic stays within its polygons of four vertices", "statement": "With rounding to the nearest ClipTriangle never adds a fifth vertex to one of its polygons, gives the same relation and the same number of vertices as exact arithmetic, and barycentric coordinates that differ from the exact ones by at most 2^-p.", "quantifier": "all precisions p, all choices in the middle, all planes, triangles and tolerances >= 0", "why_tests_cant": "The relation of the corners and the intersection of the edges are rounded independently; the critical triangles have corners very near to and very far from the plane.", "anchors": ["include/Geom/TriangleCollision.h: ClipTriangle", "include/Geom/TriangleCollision.h: ClippedPolygon::AddVertex", "include/Geom/PlaneCollision.h: IntersectionWithPlaneInterp"]}
{"id": "C102", "title": "Clipping a closed mesh opens it only along the plane, and the two parts fit together", "statement": "If each edge between two positions is used by the triangles of a mesh as often in one direction as in the other one, the same holds for each of the two meshes returned by ClipMesh and all edges that are not in the plane, and for both meshes together and all edges, unless a corner of the mesh is nearer to the plane than the tolerance without being on it. In particular a generated cuboid is cut like that by each plane.", "quantifier": "all closed meshes with valid indices, planes, tolerances >= 0, and contents of the output meshes", "why_tests_cant": "All meshes and planes, also planes through corners and along edges; neighbouring triangles are clipped independently and in different orders of their corners.", "anchors": ["sources/MeshModifier.cpp: ClipMesh", "include/Geom/TriangleCollision.h: ClipTriangle"]}
{"id": "C103", "title": "Picking a generated cuboid: the triangle query and the box query agree", "statement": "For each ray from outside of a cuboid generated with positive sizes and any segmentation, all triangles of the mesh that are hit by IntersectionWithTriangleBarycentric are hit in the same point, the first point of the ray in the box; IntersectionWithAABB for the box with these sizes reports this point exactly if some triangle of the mesh is hit.", "quantifier": "all sizes, segment counts whose indices fit 32 bits, senses of rotation, and rays whose origin is outside of the box and whose components are zero or at least epsilon", "why_tests_cant": "Rays along faces, through edges of triangles and through corners; no triangle may be missing, and no gap may be between triangles.", "anchors": ["sources/MeshGeneratorCuboid.cpp", "include/Geom/TriangleCollision.h: IntersectionWithTriangleBarycentric", "include/Geom/AABBCollision.h: IntersectionWithAABB"]}
{"id": "C104", "title": "The silhouette of a generated cuboid is made of the twelve edges of the box", "statement": "SilhouetteEdges of a cuboid generated into an empty mesh returns exactly those edges of the mesh that are along one of the twelve edges of the box, and the returned edges cover all points of these twelve edges and no other ones. This does not depend on the tolerance, as long as it is not zero.", "quantifier": "all positive sizes, all segment counts whose indices fit 32 bits, both kinds of grids, all tolerances with a positive sum of the tolerance of the comparison and the sine of the angle", "why_tests_cant": "All sizes and segment counts; an index of a triangle of a grid that is off by one makes an edge inside of a side an edge of a single triangle.", "anchors": ["include/Geom/TriangleMesh.h: SilhouetteEdges", "sources/MeshGeneratorCuboid.cpp", "sources/TriangleMesh.cpp: SilhouetteEdges"]}
{"id": "C105", "title": "Picking a closed convex mesh finds exactly the first point of the ray in the solid", "statement": "In a closed mesh with a volume whose vertices are behind all of its triangles, IntersectionWithTriangleBarycentric hits some triangle for a ray exactly if the ray starts outside of the solid (the convex combinations of the vertices) and meets it; each triangle that is hit is hit at the first point of the ray in the solid. This holds for each generated cylinder and cone with covers, ellipsoid, capsule and cuboid of positive size. A hit of the mesh of a sphere implies a hit of IntersectionWithSphere which is not later.", "quantifier": "all closed convex meshes, all sizes, segment counts whose indices fit 32 bits, and all rays (origins inside, outside and on the surface, directions along faces and edges, direction zero)", "why_tests_cant": "Rays through edges and corners of the mesh, and faces cut into many triangles: no gap may be between them, and all hits must be in one point.", "anchors": ["include/Geom/TriangleCollision.h: IntersectionWithTriangleBarycentric", "include/Geom/SphereCollision.h: IntersectionWithSphere", "sources/MeshGeneratorCylinder.cpp", "sources/MeshGeneratorCone.cpp", "sources/MeshGeneratorEllipsoid.cpp", "sources/MeshGeneratorCapsule.cpp", "sources/MeshGeneratorCuboid.cpp"]}
{"id": "C106", "title": "IntersectionWithAABB in floating-point arithmetic decides whether a ray meets the box", "statement": "With binary floats of any precision IntersectionWithAABB for a ray reports a hit exactly if the ray meets the box, with a parameter of a point of the ray in the box. From an origin in the box it reports the origin, without an error.", "quantifier": "all precisions, all rounding modes, all dimensions, all boxes and rays of floats (components of the direction zero or at least epsilon, and at most 2^(1-p-emin), so that the reciprocal is not subnormal)", "why_tests_cant": "Each parameter is the result of three roundings, and those of different components are compared; the critical rays pass near edges and corners.", "anchors": ["include/Geom/AABBCollision.h: IntersectionWithAABBInterp", "include/Geom/AABBCollision.h: IntersectionWithAABB", "include/Geom/Ray.h: Lerp"]}
{"id": "C107", "title": "The bounds of a mesh are sound for culling", "statement": "If IntersectionWithTriangleBarycentric hits a triangle of a mesh, IntersectionWithAABB hits the bounding box of the mesh, and not later. If the bounding box is in front of a plane (RelationToPlane), ClipMesh copies all triangles in order to the front mesh and leaves the back mesh empty, whatever the tolerance; if the box is behind the plane and its DistanceToPlane exceeds the tolerance, ClipMesh copies all triangles to the back mesh. If the box is in front of a plane of a convex hull, or a sphere around all vertices is rejected by the hull, no point of a triangle is inside the hull.", "quantifier": "all meshes with positions in the limits of the number type, all triangles, rays (components of the direction zero or at least epsilon), planes, tolerances and hulls; any ordered field (real numbers for spheres)", "why_tests_cant": "Two independent algorithms with their own tolerances must agree for all meshes, where the critical ones have vertices on the sides of the box or at the plane.", "anchors": ["sources/TriangleMesh.cpp: BoundingBox", "include/Geom/AABBCollision.h: IntersectionWithAABBInterp", "include/Geom/PlaneCollision.h: RelationToPlane", "include/Geom/PlaneCollision.h: DistanceToPlane", "sources/MeshModifier.cpp: ClipMesh", "include/Geom/ConvexHull.h: IsPointInside", "include/Geom/ConvexHull.h: IsSphereInside"]}
{"id": "C108", "title": "Tests of boxes against planes agree with the tests of their points in floating-point arithmetic", "statement": "With binary floats of any precision and any rounding mode, RelationToPlane for a box returns InFrontOf exactly if IsFrontFacingPlane holds for all points of the box, Behind exactly if it holds for none, and Clipped otherwise. A box in front of a plane of a convex hull has no point for which IsPointInside holds. Triangles in a box in front of a plane are not clipped by ClipTriangle. IsFrontFacingPlane for a point agrees with RelationToPlane for tolerance zero.", "quantifier": "all precisions, all rounding modes, all planes, boxes and points (also points that are no floats), all tolerances", "why_tests_cant": "The results are computed from different points with different roundings; the critical boxes touch the plane, where each result is decided by rounding.", "anchors": ["include/Geom/PlaneCollision.h: RelationToPlane", "include/Geom/PlaneCollision.h: IsFrontFacingPlane", "include/Geom/ConvexHull.h: IsPointInside", "include/Geom/TriangleCollision.h: ClipTriangle"]}
{"id": "C109", "title": "The side of a plane and the inside of a convex hull are decided exactly in floating-point arithmetic", "statement": "With binary floats of any precision, RelationToPlane for points and boxes, IsPointInside and IsSphereInside return the results of exact arithmetic.", "quantifier": "all precisions, all rounding modes, all planes, points, boxes, spheres and tolerances", "why_tests_cant": "The sum of products has several roundings; cancellation makes the relative error unbounded near the plane.", "anchors": ["include/Geom/PlaneCollision.h: SgnDistanceToPlane", "include/Geom/PlaneCollision.h: RelationToPlane", "include/Geom/ConvexHull.h: IsPointInside", "include/Geom/ConvexHull.h: IsSphereInside"]}
{"id": "C110", "title": "Grids of generated meshes end at the border in floating-point arithmetic", "statement": "With binary floats of any precision the coordinates of the columns and rows of generated grids start at 0, increase, and end at 1; the columns of a side of a generated cuboid start at minus half of the size, increase, and end at half of the size, where the neighbouring side is; the texture coordinates are between 0 and 1.", "quantifier": "all precisions, rounding to the nearest, all segment counts up to 2^p, all sizes whose half is a float", "why_tests_cant": "Whether the product of a number and its rounded reciprocal is rounded to one depends on the number in an irregular way; the first counterexamples are 41 (float) and 49 (double).", "anchors": ["sources/MeshGeneratorCuboid.cpp: BuildFace", "sources/MeshGeneratorTorus.cpp", "sources/MeshGeneratorEllipsoid.cpp", "sources/MeshGeneratorBezierPatch.cpp"]}
{"id": "C111", "title": "Picking of triangles in floating-point arithmetic leaves no gaps and does not divide by zero", "statement": "With binary floats IntersectionWithTriangleBarycentric hits a triangle exactly if it is hit in exact arithmetic, with barycentric coordinates up to rounding; a ray that meets a rectangle that is cut into two triangles hits at least one of them; the coordinates are never divided by zero.", "quantifier": "all precisions, all rounding modes, all triangles and rays of floats", "why_tests_cant": "The products of the two triangles at a common edge are rounded in different ways; the critical rays pass the edge at a distance of a rounding error, or are nearly parallel to the triangle.", "anchors": ["include/Geom/TriangleCollision.h: IntersectionWithTriangleBarycentric", "include/Geom/TriangleCollision.h: IntersectionWithTriangleInterp"]}
{"id": "C112", "title": "Clipping a part of a clipped mesh by the same plane changes nothing, and the flipped plane swaps the parts", "statement": "If ClipMesh is called again with the same plane for the front mesh that it returned, all triangles are copied to the front and the back mesh is empty; if it is called again for the back mesh, all triangles are copied to the back and the front mesh is empty. If the plane is flipped, ClipMesh returns the same two meshes in the other order.", "quantifier": "all valid meshes, planes and tolerances >= 0, any number of repetitions", "why_tests_cant": "The vertices at the cut are on the plane for the second call; the result depends on which corner of which triangle touches the plane, and errors add up only after many calls.", "anchors": ["sources/MeshModifier.cpp: ClipMesh", "include/Geom/TriangleCollision.h: ClipTriangle", "include/Geom/Plane.h: Flip"]}
{"id": "C113", "title": "ClipMesh in floating-point arithmetic leaves no cracks and stays in the bounding box", "statement": "With binary floats ClipMesh opens a closed mesh only along the plane, that is, both triangles at an edge get the same vertex where the edge is cut; each vertex of the two meshes is in the bounding box of the mesh; positions, normals and texture coordinates are those of exact arithmetic up to rounding.", "quantifier": "all precisions, all rounding modes, all valid meshes and planes of floats", "why_tests_cant": "The two triangles at an edge pass through it in opposite directions, and interpolate with t and with 1 - t, which are rounded independently; the cracks have the width of a rounding error.", "anchors": ["sources/MeshModifier.cpp: ClipMesh", "include/Geom/TriangleCollision.h: ClipTriangle", "sources/TriangleMesh.cpp: Barycentric"]}
{"id": "C114", "title": "Size and center of boxes in floating-point arithmetic, scalar and vectorized", "statement": "With binary floats the Center of a valid box is in the box and is the exact center up to rounding. Size is not negative, zero exactly if min = max, and not larger for a box inside of another box. Widths, Heights, Depths, CentersX, CentersY and CentersZ of VectorizedAABB3f are the components of Size and Center of the four boxes.", "quantifier": "all precisions, all rounding modes, all boxes of finite floats, valid or not, all four lanes", "why_tests_cant": "The sum of min and max overflows only for numbers beyond half of the largest one, and a rounded half may leave a box that is only one float wide.", "anchors": ["include/Geom/AABB.h: AABB::Size, AABB::Center, AABB::Contains", "include/Geom/VectorizedAABB.h: Widths, Heights, Depths", "include/Geom/VectorizedAABB.h: CentersX, CentersY, CentersZ"]}
{"id": "C115", "title": "Size and center of boxes of integers", "statement": "For valid AABB2i and AABB3i Size is max - min, and Center is in the box, at most one half away from the exact center; both are defined for all boxes, also for the default box.", "quantifier": "all dimensions, all boxes of 32 bit integers, valid or not", "why_tests_cant": "Overflow happens only for boxes that are more than 2^31 wide or far from the origin; its behaviour is undefined, so that a test need not fail.", "anchors": ["include/Geom/AABB.h: AABB::Size, AABB::Center", "include/Geom/AABB.h: AABB2i, AABB3i"]}
{"id": "C116", "title": "Conversion of boxes to another number type", "statement": "Cast of a box contains the converted points of the box, and is valid if the box is valid; boxes inside of the box or overlapping it keep this relation. Cast to a type that has the numbers of the box changes nothing. The new box contains the box, boxes that do not overlap do not overlap after Cast, and an empty box stays empty.", "quantifier": "all dimensions, all boxes, conversions to all types of floats (any rounding mode) and integers", "why_tests_cant": "The result depends on the rounding of each bound; only boxes whose bounds are close to each other between two numbers of the new type are critical.", "anchors": ["include/Geom/AABB.h: AABB::Cast, AABB::Contains, AABB::InsideOf", "include/Geom/AABB.h: Overlap"]}
{"id": "C117", "title": "Nearest points of two segments in floating-point arithmetic", "statement": "With binary floats ClosestSegmentBetweenLines never divides by zero, and returns a point of the first segment and a point of the second segment, up to rounding. The returned points are between the ends of their segments, and their distance is the distance of the segments up to rounding.", "quantifier": "all precisions, all rounding modes, all tolerances >= 0, all 3D segments of floats, degenerate, parallel or crossing", "why_tests_cant": "The difference of the two products in the denominator cancels for nearly parallel segments, and is zero for segments that are not parallel; random segments have large angles.", "anchors": ["include/Geom/LineCollision.h: ClosestSegmentBetweenLines", "include/Geom/Line.h: Line::Direction"]}
{"id": "C118", "title": "Intersection of rays and spheres in floating-point arithmetic", "statement": "With binary floats the parameter of IntersectionWithSphereInterp is not negative. For directions of length one the point returned by IntersectionWithSphere is on the sphere up to rounding, the ray does not enter the sphere before it, the origin of the ray is then not inside of the sphere, and the ray does not lead away from it. If no point is returned, then the origin is inside of the sphere, or the ray leads away from it, or the line of the ray misses the sphere, up to rounding.", "quantifier": "all precisions with at least 11 bits, all spheres and rays of floats, correctly rounded square roots", "why_tests_cant": "The difference of the squares of distance and radius loses the radius of small or distant spheres; tests use spheres close to the ray. Negative parameters occur only near the smallest floats.", "anchors": ["include/Geom/SphereCollision.h: IntersectionWithSphereInterp, IntersectionWithSphere", "include/Geom/Ray.h: Ray::Lerp"]}
{"id": "C119", "title": "Angles and unit normals of triangles", "statement": "For three distinct corners, Angle(0), Angle(1) and Angle(2) are the angles between the edges at these corners, between 0 and pi, and their sum is pi; Angle is not a number just if another corner is at the same place, and other indices read outside of the triangle. If the corners are not on a line, UnitNormal has length one, is orthogonal to the edges and points to the side from which the corners are counterclockwise; otherwise it is zero. The length of Normal is twice the area: the product of two edges and the sine of Angle. Exchanging two corners negates the unit normal. A 2D triangle has the angles and the unit normal of the same triangle in the plane of x and y.", "quantifier": "all triangles with real coordinates", "why_tests_cant": "The sum of the angles and the direction of the normal are statements about all triangles; samples with special angles do not exclude exchanged corners or a wrong index.", "anchors": ["include/Geom/Triangle.h:109-113", "include/Geom/Triangle.h:134-138", "include/Geom/Triangle.h:187-194", "include/Geom/Triangle.h:231-235", "include/Geom/Triangle.h:253-257", "include/Geom/Triangle.h:333-340"]}
{"id": "C120", "title": "ClipMesh with the same mesh for several arguments", "statement": "ClipMesh(mesh, plane, front, back) leaves the front and the back part of the mesh in the outputs, also if they are the same object as the input or as each other. For three different objects no other object changes; if front and back are the same object, this gets the triangles of both parts; if an output is the input, it gets the part as for a copy of the input.", "quantifier": "all meshes, planes, tolerances and identities of the three arguments", "why_tests_cant": "The references make a case distinction that tests with different meshes do not see; the content of a shared output is a statement about all meshes.", "anchors": ["sources/MeshModifier.cpp: ClipMesh", "sources/TriangleMesh.cpp: Clear", "sources/TriangleMesh.cpp: AddTriangle"]}
{"id": "C121", "title": "B-splines in floating-point arithmetic are local, exact at their ends and near the exact curve", "statement": "In each rounding mode, for float knots which do not decrease, float points and parameter: Evaluate depends only on the points whose knots are around the parameter, and in none of their coordinates decreasingly; at the first knot it returns the first point exactly, with order one it returns each point but the last one exactly at its knot; otherwise each coordinate differs from the value in exact arithmetic by at most 9*(order+1) units of relative rounding (2^-23 for float) of the greatest coordinate of these points, plus underflow. So up to the knot n - order the curve leaves the box of the near points by no more than that.", "quantifier": "all splines of float points and knots, orders with 20*(order+1) units at most one, parameters and rounding modes", "why_tests_cant": "The quotients of the recursion can underflow or round up; a test with some curves shows neither that a weight never gets negative or leaks to a far point nor a bound for all curves.", "anchors": ["include/Geom/Spline.h:61-73", "include/Geom/Spline.h:129-151"]}
{"id": "C122", "title": "CopyFrom with a function which makes the joints", "statement": "CopyFrom(model, makeSkeletonJoint) calls the function once for each joint of the model. If each call returns a new joint without sub joints, the skeleton gets a copy with the shape and data of the model, whose joints are in depth-first order the returned ones. If a call throws, or returns a joint which has a parent, CopyFrom throws, and the skeleton keeps its joints and the copies of the joints before this call, at their places and with their data. If a call returns a null pointer, the behavior is undefined.", "quantifier": "all models, skeletons, functions and numbers of the failing call", "why_tests_cant": "The state after an exception depends on the shape of the model and on the call that fails; tests check one of each, and mostly with the default function.", "anchors": ["sources/Skeleton.cpp:158-172", "sources/Skeleton.cpp:246-261", "sources/SkeletonJoint.cpp:23-34", "sources/Skeleton.cpp:17-27"]}
{"id": "C123", "title": "Bezier curves and patches in floating-point arithmetic end at their control points and fit their neighbours", "statement": "In each rounding mode, for 2 to 21 control points per direction: a curve starts exactly at its first control point and ends exactly at its last one. At a border of the parameters a patch returns exactly the points of the curve of the control points there; so if two patches have these in common, the vertices of their meshes at the border are equal, provided that the last parameter of the grid is exactly one, which is the case for powers of two. For parameters from 0 to 1 each coordinate of a curve of n + 1 points differs from the exact one by at most 4*(n+3) units of relative rounding (2^-23 for float) of the greatest coordinate of the control points plus underflow, for a patch of order n by 2*(n+1)^2 + 6*(n+5) units; so a curve leaves the box of its control points by no more than that.", "quantifier": "all curves and patches of floats, parameters, rounding modes, precisions of at least 18 bits, and functions pow which are exact for the bases 0 and 1 and for the exponent 0 and have an error of at most one unit otherwise", "why_tests_cant": "Whether two meshes have a crack of one unit depends on the rounding for each number of segments and each point; a bound for the error of all curves does not follow from samples.", "anchors": ["include/Geom/BernsteinPolynomial.h:43-52", "include/Geom/BezierCurve.h:35-43", "include/Geom/BezierPatch.h:49-65", "sources/MeshGeneratorBezierPatch.cpp:41-50"]}
{"id": "C124", "title": "The triangle/triangle query finds each intersection and returns the common segment", "statement": "IntersectionWithTriangle(triangleA, triangleB, line) succeeds exactly if the two triangles have a point in common, and the returned line then consists of exactly the common points.", "quantifier": "all pairs of triangles which are not degenerate, including triangles that touch in a corner or an edge, have corners in the plane of the other, or lie in one plane", "why_tests_cant": "Where the edges hit depends on the signs of many products; tests cover some positions, mostly those in which two edges of one triangle pierce the other.", "anchors": ["include/Geom/TriangleCollision.h: IntersectionWithTriangle(TriangleT, TriangleT)", "include/Geom/TriangleCollision.h: IntersectionWithTriangle(TriangleT, PlaneT, Line3T)"]}
{"id": "C125", "title": "A playback with listeners of the client, whose handlers call the playback", "statement": "The events that a playback posts follow the protocol of states (OnPlay to the new listener only if none is playing, OnPause and OnNextFrame only to the playing listener, OnStop to the active one), and at the end of each call the announced state and listener are those of the playback, also if the handlers call Play, Pause, Stop and Update themselves. Update returns, and the number of OnNextFrame events and the rest in the interpolator are determined by the elapsed time, the speed and the interpolator. For OneShot, Loop and PingPongLoop these are the effects of the listeners of the library.", "quantifier": "all handlers which are programs over the public interface of the playback and a state of the client, and all histories of calls", "why_tests_cant": "The calls nest in each other; tests use listeners that only count events.", "anchors": ["sources/Playback.cpp: Play", "sources/Playback.cpp: Pause", "sources/Playback.cpp: Stop", "sources/Playback.cpp: Update", "sources/Playback.cpp: SetState", "include/Geom/Playback.h: EventListener"]}
{"id": "C126", "title": "Keyframe channels in floating-point arithmetic stay in the box of the keyframes", "statement": "For position and scale keyframes of floats which are at most 2^24 frames apart (float), with rounding to the nearest: Interpolate returns for all frames and parameters from 0 to 1 a position and scale in the box of the keyframes; with parameter 0 exactly the keys of the first frame and with parameter 1 exactly those of the second one; where a component is the same in all keyframes it is constant, and where it does not decrease from keyframe to keyframe it does not decrease from key to key. The keys are exact at the keyframes, and differ from the exact mixture by at most ten units of relative rounding of the greatest component, plus underflow.", "quantifier": "all keyframes of floats with distinct frames, all frames and parameters, all roundings to the nearest (accuracy and exactness: all rounding modes)", "why_tests_cant": "Whether a rounded difference, product and sum leave the range depends on all bits of both keys and of the quotient of frames.", "anchors": ["sources/KeyframeSequence.cpp:35-44", "sources/KeyframeSequence.cpp:52-88", "sources/KeyframeSequence.cpp:97-153"]}
{"id": "C127", "title": "Conversions of planes between floating-point types", "statement": "Plane::Cast to a wider type and back gives the plane again. A conversion moves the left hand side of the plane equation of each point by at most a unit of relative rounding (2^-23 for float) of the products and the distance, plus underflow, in each rounding mode. So no point changes from the front to the back of the plane; and for a plane across an axis no point of the target type changes to the other side at all. For roundings which treat both signs alike the conversion of the flipped plane is the flipped conversion.", "quantifier": "all planes, points, plane equations, precisions and rounding modes", "why_tests_cant": "The point for which the rounding of a normal matters is one among many; tests with short normals convert exactly.", "anchors": ["include/Geom/Plane.h:185-202", "include/Geom/PlaneCollision.h:29-33"]}
{"id": "C128", "title": "Moves of meshes", "statement": "A move construction or move assignment gives the target mesh exactly the former vertices and triangles of the source, also if both are the same mesh, and changes no third mesh; a mesh is empty after a construction from it. std::swap exchanges two meshes and keeps a mesh that is swapped with itself; a sequence of swaps only permutes the meshes. No sequence of moves, copies, swaps and clears makes a mesh whose triangles refer to missing vertices.", "quantifier": "all stores of meshes, variables, sequences of operations, and decisions of the library about the content of vectors after a move", "why_tests_cant": "What is left in a vector after a move depends on the library; a test runs with one library and rarely moves a mesh to itself.", "anchors": ["sources/TriangleMesh.cpp:48-65", "include/Geom/TriangleMesh.h:62-68"]}
{"id": "C129", "title": "Animations in floating-point arithmetic", "statement": "A client builds the keys of a keyframe sequence, starts a playback, calls Update for each time step and asks for the matrix. In floating-point arithmetic with rounding to the nearest the shown position and scale stay in the box of the keyframes. Played forward, or backward with no step below half a unit in the last place of 1, the playback of floats passes exactly the states of an exact playback whose time steps differ by at most 3/2 units in the last place of the greatest step; so if consecutive keys differ by at most D, the position shown by a one-shot, loop, ping-pong or (forward) list-loop playback differs from the exact one by at most D times the drift of the steps, plus twice the error of the keys.", "quantifier": "all sequences of float keyframes, playbacks, listeners, speeds, lists of time steps, and roundings to the nearest", "why_tests_cant": "The error depends on the number of steps and on all bits of the keys and times; a test sees only one film.", "anchors": ["include/Geom/KeyframeSequence.h:60-98", "sources/Playback.cpp:78-98", "sources/Playback.cpp:132-167", "sources/KeyframeSequence.cpp:97-153"]}
{"id": "C130", "title": "The closest point on a plane in floating-point arithmetic", "statement": "With binary floats ClosestPointOnPlane returns the foot of the perpendicular up to rounding, for normals of nearly unit length. The returned point counts as on the plane (RelationToPlane returns Onto for it), and a point that counts as on the plane without a tolerance is returned unchanged. For planes normal to an axis the other two coordinates are unchanged, and the result is exactly on the plane if the distance is a float.", "quantifier": "all planes with a float distance, all float points, both plane equations, all rounding modes", "why_tests_cant": "The error depends on the cancellation of the distance and the point; a test with points near the plane does not see it.", "anchors": ["include/Geom/PlaneCollision.h:28-33", "include/Geom/PlaneCollision.h:76-81", "include/Geom/PlaneCollision.h:214-225"]}
{"id": "C131", "title": "The intersection of a plane and a ray in floating-point arithmetic", "statement": "With binary floats IntersectionWithPlane(plane, ray) returns a point which lies, up to rounding, on the ray behind its origin and on the plane; it counts as on the plane (RelationToPlane returns Onto for it). A ray that leads to the plane hits it. A ray that leads away from the plane, or is parallel to it, does not hit it.", "quantifier": "all planes with a float distance, all rays with a float origin, both plane equations, all rounding modes", "why_tests_cant": "The error depends on the cancellation of the distance and on underflow of the quotient; a test with moderate numbers sees neither.", "anchors": ["include/Geom/PlaneCollision.h:95-99", "include/Geom/PlaneCollision.h:101-115", "include/Geom/Ray.h:44-50"]}
{"id": "C132", "title": "The intersection of a plane and a line segment in floating-point arithmetic", "statement": "With binary floats IntersectionWithPlane(plane, line) returns a point which lies, up to rounding, on the segment and on the plane. A segment whose end points are on different sides of the plane, as told by RelationToPlane, hits it; a segment whose end points are on the same side does not. A segment that starts on the plane hits it at its start.", "quantifier": "all planes with a float distance, all segments with float end points, both plane equations, all rounding modes", "why_tests_cant": "The computed factor exceeds one, or is rounded to one, only for special bits of the end points.", "anchors": ["include/Geom/PlaneCollision.h:95-99", "include/Geom/PlaneCollision.h:117-131", "include/Geom/Line.h:132-141", "include/Geom/PlaneCollision.h:214-225"]}
