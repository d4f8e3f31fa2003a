{
 "claims": [
  {
   "property": "C01",
   "status": "proved",
   "theorems": [
    "Geom.AABB.Props.C01_hull",
    "Geom.AABB.Props.C01_covers",
    "Geom.AABB.Props.C01_hull_resetTo",
    "Geom.AABB.Props.C01_set",
    "Geom.AABB.Props.C01_box_as_corners",
    "Geom.AABB.Props.C01_merge",
    "Geom.AABB.Props.C01_history"
   ],
   "note": "Any dimension and linear order. Tightness needs coordinates within the limits used by Reset (an infinite coordinate inserted into a fresh box is covered but the box is not tight)."
  },
  {
   "property": "C02",
   "status": "proved",
   "theorems": [
    "Geom.AABB.Props.C02_contains",
    "Geom.AABB.Props.C02_overlap",
    "Geom.AABB.Props.C02_insideOf",
    "Geom.AABB.Props.C02_containsBox",
    "Geom.AABB.Props.C02_overlap_symm",
    "Geom.AABB.Props.C02_insideOf_refl",
    "Geom.AABB.Props.C02_insideOf_trans",
    "Geom.AABB.Props.C02_insideOf_antisymm",
    "Geom.AABB.Props.C02_overlap_needs_valid"
   ],
   "note": "Any dimension and linear order. C02_overlap_needs_valid shows that validity is needed."
  },
  {
   "property": "C03",
   "status": "proved",
   "theorems": [
    "Geom.AABB.Props.C03_repair_valid",
    "Geom.AABB.Props.C03_repair_same_pair",
    "Geom.AABB.Props.C03_repair_valid_unchanged",
    "Geom.AABB.Props.C03_repair_idempotent",
    "Geom.AABB.Props.C03_center",
    "Geom.AABB.Props.C03_center_middle",
    "Geom.AABB.Props.C03_size"
   ],
   "note": "Exact arithmetic for Center and Size (integer instances: C115, floating-point arithmetic: C114)."
  },
  {
   "property": "C04",
   "status": "proved",
   "theorems": [
    "Geom.AABB.Props.C04_insert",
    "Geom.AABB.Props.C04_history",
    "Geom.AABB.Props.C04_contains"
   ],
   "note": "C04_contains is a finding: a NaN point is reported as contained in each box."
  },
  {
   "property": "C05",
   "status": "proved",
   "theorems": [
    "Geom.VAABB.Props.C05_make",
    "Geom.VAABB.Props.C05_reset",
    "Geom.VAABB.Props.C05_insert",
    "Geom.VAABB.Props.C05_insertBox",
    "Geom.VAABB.Props.C05_insert_history",
    "Geom.VAABB.Props.C05_insideOf",
    "Geom.VAABB.Props.C05_containsBox",
    "Geom.VAABB.Props.C05_overlap",
    "Geom.VAABB.Props.C05_nan_differs"
   ],
   "note": "Bit-level masks, any interpretation of the 32 bit patterns. C05_nan_differs: with NaN a lane is destroyed, unlike the scalar box."
  },
  {
   "property": "C06",
   "status": "partial",
   "theorems": [
    "Geom.VAABB.Props.C06_repair_actual",
    "Geom.VAABB.Props.C06_repair_partial",
    "Geom.VAABB.Props.C06_repair_refuted",
    "Geom.VAABB.Props.C06_contains_actual",
    "Geom.VAABB.Props.C06_contains_partial",
    "Geom.VAABB.Props.C06_contains_refuted"
   ],
   "note": "Refuted: Repair sets min to the larger value and leaves max; Contains(points) has its comparisons reversed. The actual behaviour and the exact cases in which the claim holds are proved."
  },
  {
   "property": "C07",
   "status": "proved",
   "theorems": [
    "Geom.AABB.Props.C07_least",
    "Geom.AABB.Props.C07_decides",
    "Geom.AABB.Props.C07_point",
    "Geom.AABB.Props.C07_bool",
    "Geom.AABB.Props.C07_snapped"
   ],
   "note": "Any dimension, exact arithmetic. C07_snapped covers directions with small components."
  },
  {
   "property": "C08",
   "status": "partial",
   "theorems": [
    "Geom.AABB.Props.C08_point_overload",
    "Geom.AABB.Props.C08_bool_overload_actual",
    "Geom.AABB.Props.C08_bool_overload_partial",
    "Geom.AABB.Props.C08_bool_overload_refuted"
   ],
   "note": "Proved for the overload with output point. Refuted for the overload without output, which compares the parameter with the length of the segment instead of 1; proved for it for segments of length 1."
  },
  {
   "property": "C09",
   "status": "proved",
   "theorems": [
    "Geom.AABB.Props.C09_edges3",
    "Geom.AABB.Props.C09_edges2"
   ],
   "note": "Two and three dimensions."
  },
  {
   "property": "C10",
   "status": "proved",
   "theorems": [
    "Geom.Plane.Props.C10_flip",
    "Geom.Plane.Props.C10_zero",
    "Geom.Plane.Props.C10_build_member",
    "Geom.Plane.Props.C10_build",
    "Geom.Plane.Props.C10_build_side",
    "Geom.Plane.Props.C10_build_degenerate"
   ],
   "note": "Over the reals (Build takes a root); Flip over any ring. For collinear points see C10_build_degenerate."
  },
  {
   "property": "C11",
   "status": "partial",
   "theorems": [
    "Geom.Plane.Props.C11_actual_refuted",
    "Geom.Plane.Props.C11_partial",
    "Geom.Plane.Props.C11_refuted"
   ],
   "note": "Refuted for both equations: the constructor builds n*x = d. C11_partial: the documented plane comes out exactly if d = 0 or the normal is zero."
  },
  {
   "property": "C12",
   "status": "proved",
   "theorems": [
    "Geom.Plane.Props.C12_closest"
   ],
   "note": "Any ordered field."
  },
  {
   "property": "C13",
   "status": "proved",
   "theorems": [
    "Geom.Plane.Props.C13_distance",
    "Geom.Plane.Props.C13_relation",
    "Geom.Plane.Props.C13_relation_point"
   ],
   "note": "Any ordered field. Also the relation of a point with tolerance."
  },
  {
   "property": "C14",
   "status": "proved",
   "theorems": [
    "Geom.Plane.Props.C14_line",
    "Geom.Plane.Props.C14_fails",
    "Geom.Plane.Props.C14_direction"
   ],
   "note": "Any ordered field, epsilon >= 0."
  },
  {
   "property": "C15",
   "status": "partial",
   "theorems": [
    "Geom.Plane.Props.C15_sound_partial",
    "Geom.Plane.Props.C15_complete_partial",
    "Geom.Plane.Props.C15_order_refuted",
    "Geom.Plane.Props.C15_refuted",
    "Geom.Plane.Props.C15_sound_refuted"
   ],
   "note": "Refuted: the common point is found only if it lies in the direction of the cross product of the first two normals (exactly one of the two argument orders works), and a third plane parallel to the line of the first two can be reported as hit. C15_complete_partial gives the exact behaviour for independent normals."
  },
  {
   "property": "C16",
   "status": "partial",
   "theorems": [
    "Geom.Plane.Props.C16_ray_partial",
    "Geom.Plane.Props.C16_segment_partial",
    "Geom.Plane.Props.C16_parallel_segment_partial",
    "Geom.Plane.Props.C16_parallel_ray_refuted",
    "Geom.Plane.Props.C16_refuted"
   ],
   "note": "Proved for rays and segments which are not parallel to the plane and for parallel segments. Refuted for rays parallel to the plane, with the exact condition under which they are reported as hits at infinity."
  },
  {
   "property": "C17",
   "status": "proved",
   "theorems": [
    "Geom.Triangle.Props.C17_point",
    "Geom.Triangle.Props.C17_triple",
    "Geom.Triangle.Props.C17_plane",
    "Geom.Triangle.Props.C17_2d"
   ],
   "note": "Any field with order; each of the three projection branches."
  },
  {
   "property": "C18",
   "status": "proved",
   "theorems": [
    "Geom.Triangle.Props.C18_inside"
   ],
   "note": "Any ordered field."
  },
  {
   "property": "C19",
   "status": "proved",
   "theorems": [
    "Geom.Triangle.Props.C19_closest"
   ],
   "note": "Any ordered field; also for degenerate triangles as far as the code returns a number."
  },
  {
   "property": "C20",
   "status": "proved",
   "theorems": [
    "Geom.Lines.Props.C20_closest",
    "Geom.Lines.Props.C20_distance",
    "Geom.Lines.Props.C20_distanceSq",
    "Geom.Lines.Props.C20_degenerate",
    "Geom.Lines.Props.C20_degenerate_refuted"
   ],
   "note": "Two and three dimensions. C20_degenerate_refuted: for a = b the code divides 0 by 0 and defines no result."
  },
  {
   "property": "C21",
   "status": "proved",
   "theorems": [
    "Geom.Lines.Props.C21_closest",
    "Geom.Lines.Props.C21_distanceSq",
    "Geom.Lines.Props.C21_distance",
    "Geom.Lines.Props.C21_short_refuted"
   ],
   "note": "Two and three dimensions. Segments of squared length <= epsilon must be points (the documented tolerance); C21_short_refuted shows that the claim fails for other short segments."
  },
  {
   "property": "C22",
   "status": "partial",
   "theorems": [
    "Geom.Triangle.Props.C22_barycentric_partial",
    "Geom.Triangle.Props.C22_coordinates",
    "Geom.Triangle.Props.C22_back",
    "Geom.Triangle.Props.C22_origin_refuted",
    "Geom.Triangle.Props.C22_ray",
    "Geom.Triangle.Props.C22_ray_back",
    "Geom.Triangle.Props.C22_segment"
   ],
   "note": "Refuted for rays that start on the triangle (t = 0), which the barycentric query rejects; proved for t > 0, and for all t >= 0 for the query by plane."
  },
  {
   "property": "C23",
   "status": "proved",
   "theorems": [
    "Geom.Triangle.Props.C23_precomputed_direct",
    "Geom.Triangle.Props.C23_direct_precomputed"
   ],
   "note": "Any ordered field."
  },
  {
   "property": "C24",
   "status": "proved",
   "theorems": [
    "Geom.Triangle.Props.C24_sound"
   ],
   "note": "Over the reals, no assumption on the triangles. That each intersection is found is C124."
  },
  {
   "property": "C25",
   "status": "partial",
   "theorems": [
    "Geom.Clip.Props.C25_defined",
    "Geom.Clip.Props.C25_sides",
    "Geom.Clip.Props.C25_relation_partial",
    "Geom.Clip.Props.C25_behind_refuted",
    "Geom.Clip.Props.C25_area_partial",
    "Geom.Clip.Props.C25_area_covers",
    "Geom.Clip.Props.C25_area_refuted",
    "Geom.Clip.Props.C25_reuse_undefined"
   ],
   "note": "Defined, inside and separated by side: proved for each tolerance >= 0 and fresh polygons (C25_reuse_undefined: the polygons must be fresh). Areas add up if corners that count as on the plane are on it; refuted for a positive tolerance (the polygons overlap, C25_area_covers gives what holds). Relation: Behind exactly if all corners are behind; refuted that no corner in front is enough."
  },
  {
   "property": "C26",
   "status": "partial",
   "theorems": [
    "Geom.Clip.Props.C26_partial",
    "Geom.Clip.Props.C26_refuted"
   ],
   "note": "Refuted for the front polygon if no corner is in front of the plane (it can be a point or a segment). Proved for the back polygon, and for both if some corner is in front."
  },
  {
   "property": "C27",
   "status": "partial",
   "theorems": [
    "Geom.TMesh.C27_partial",
    "Geom.TMesh.C27_area_refuted"
   ],
   "note": "Defined, valid indices, sides, interpolated attributes: proved for each valid mesh and tolerance >= 0. The triangles that replace a triangle are inside of it. Areas: proved exactly for each triangle without corners inside of the tolerance band (other than on the plane), and at least the area otherwise; C27_area_refuted shows that the tolerance can make the outputs overlap. Output meshes are distinct objects from the input."
  },
  {
   "property": "C28",
   "status": "proved",
   "theorems": [
    "Geom.Sphere.C28_first",
    "Geom.Sphere.C28_success",
    "Geom.Sphere.C28_inside",
    "Geom.Sphere.C28_surface"
   ],
   "note": "Over the reals, unit directions. Also: from a point of the sphere the query succeeds exactly if the direction does not lead away (C28_surface)."
  },
  {
   "property": "C29",
   "status": "partial",
   "theorems": [
    "Geom.Sphere.C29_refuted",
    "Geom.Sphere.C29_partial"
   ],
   "note": "Refuted: the documentation says that the direction need not be normalised, but the returned point depends on its length. C29_partial: the returned point is on the sphere exactly if the direction has length one or the origin is on the sphere."
  },
  {
   "property": "C30",
   "status": "partial",
   "theorems": [
    "Geom.Hull.C30_point",
    "Geom.Hull.C30_mono",
    "Geom.Hull.C30_convex",
    "Geom.Hull.C30_sphere",
    "Geom.Hull.C30_sphere_touch",
    "Geom.Hull.C30_sphere_complete",
    "Geom.Hull.C30_sphere_refuted"
   ],
   "note": "Points: proved. Spheres: the answer is the conjunction over the planes (C30_sphere), for unit normals it says that the sphere touches each half space (C30_sphere_touch), so each sphere that meets the hull is accepted (C30_sphere_complete); refuted that an accepted sphere meets the hull."
  },
  {
   "property": "C31",
   "status": "partial",
   "theorems": [
    "Geom.Hull.C31_actual_partial",
    "Geom.Hull.C31_partial",
    "Geom.Hull.C31_refuted"
   ],
   "note": "Refuted, for each plane equation: the constructor of planes from coefficients has the opposite sign of d (C11), for the identity matrix the frustum is empty. C31_actual_partial says which volume is enclosed instead; C31_partial: correct for matrices without translation part (fourth column zero)."
  },
  {
   "property": "C32",
   "status": "proved",
   "theorems": [
    "Geom.TMesh.C32_edges",
    "Geom.TMesh.C32_sorted",
    "Geom.TMesh.C32_once"
   ],
   "note": "Any mesh, valid or not."
  },
  {
   "property": "C33",
   "status": "proved",
   "theorems": [
    "Geom.TMesh.C33_vertex",
    "Geom.TMesh.C33_edge"
   ],
   "note": "Any mesh, valid or not."
  },
  {
   "property": "C34",
   "status": "partial",
   "theorems": [
    "Geom.TMesh.C34_result",
    "Geom.TMesh.C34_mono",
    "Geom.TMesh.C34_undefined",
    "Geom.TMesh.C34_edge_partial",
    "Geom.TMesh.C34_edge_degenerate_refuted"
   ],
   "note": "For searches via positions the mesh needs valid indices. C34_edge_degenerate_refuted is a finding: the edge bond (two common corners) of a triangle with a repeated corner is not a common edge; C34_edge_partial proves the equivalence for triangles with three different corners."
  },
  {
   "property": "C35",
   "status": "partial",
   "theorems": [
    "Geom.TMesh.C35_partial",
    "Geom.TMesh.C35_mono_partial",
    "Geom.TMesh.C35_mono_refuted",
    "Geom.TMesh.C35_angle_refuted"
   ],
   "note": "The edges which are returned are characterised exactly, with the threshold eps + sin|tolerance| for the distance of the cosine between the normals from one. Monotone on [0, pi/2]; refuted on the documented range [0, pi], and as a statement about the angle between normals."
  },
  {
   "property": "C36",
   "status": "proved",
   "theorems": [
    "Geom.Gen.C36"
   ],
   "note": "Histories are the inductive predicate Edited; no bound on descriptors: a call which returns has appended valid triangles. Append of a mesh to itself is included as far as it is defined (C38)."
  },
  {
   "property": "C37",
   "status": "proved",
   "theorems": [
    "Geom.TMesh.C37_append",
    "Geom.TMesh.C37_triangleList"
   ],
   "note": "Any valid meshes."
  },
  {
   "property": "C38",
   "status": "partial",
   "theorems": [
    "Geom.TMesh.C38_refuted",
    "Geom.TMesh.C38_partial"
   ],
   "note": "Refuted: undefined behaviour for each nonempty mesh. C38_partial: holds exactly for the empty mesh."
  },
  {
   "property": "C39",
   "status": "proved",
   "theorems": [
    "Geom.TMesh.C39_hull",
    "Geom.TMesh.C39_transformed",
    "Geom.TMesh.C39_set",
    "Geom.TMesh.C39_set_transformed"
   ],
   "note": "Tightness needs coordinates within the limits used by Reset. Transformations are arbitrary maps of positions."
  },
  {
   "property": "C40",
   "status": "proved",
   "theorems": [
    "Geom.TMesh.Threads.C40_schedule",
    "Geom.TMesh.Threads.C40_defined",
    "Geom.TMesh.Threads.C40_progress",
    "Geom.TMesh.Threads.C40_terminates",
    "Geom.TMesh.Threads.C40_ends",
    "Geom.TMesh.Threads.C40_result",
    "Geom.TMesh.Threads.C40_returns",
    "Geom.TMesh.Threads.C40_ieee",
    "Geom.TMesh.Threads.C40_zero_sign",
    "Geom.TMesh.Threads.C40_ranges",
    "Geom.TMesh.Threads.C40_work"
   ],
   "note": "All thread counts and all schedules of an interleaving semantics; also deadlock freedom and termination. C40_schedule: independent of the schedule for any comparison of scalars; C40_ieee: also with NaN and two zeros; only the sign of a zero may differ (C40_zero_sign)."
  },
  {
   "property": "C41",
   "status": "proved",
   "theorems": [
    "Geom.TMesh.C41_stride",
    "Geom.TMesh.C41_interpolates",
    "Geom.TMesh.C41_undefined",
    "Geom.TMesh.C41_barycentric",
    "Geom.TMesh.C41_operators",
    "Geom.TMesh.C41_vector_space"
   ],
   "note": "Byte offsets as multiples of the component size; accesses that do not fit are undefined behaviour (C41_undefined)."
  },
  {
   "property": "C42",
   "status": "proved",
   "theorems": [
    "Geom.Gen.C42_appends",
    "Geom.Gen.C42_faces"
   ],
   "note": "For each sense of rotation of the quaternions. Segment counts below 2^32 - 1; C42_faces (the exact faces) for faces with at most 2^32 vertices."
  },
  {
   "property": "C43",
   "status": "partial",
   "theorems": [
    "Geom.Gen.C43_appends",
    "Geom.Gen.C43_faces",
    "Geom.Gen.C43_endless_refuted",
    "Geom.Gen.C43_range_refuted"
   ],
   "note": "Proved for segment counts below 2^32 - 1, the exact faces for at most 2^32 vertices. C43_endless_refuted: with 2^32 - 1 segments the loop does not end. C43_range_refuted: with more than 2^32 vertices the last vertex is used by no triangle."
  },
  {
   "property": "C44",
   "status": "proved",
   "theorems": [
    "Geom.Gen.C44_cylinder",
    "Geom.Gen.C44_cone"
   ],
   "note": "Segment counts below 2^32 - 1; the exact faces for counts whose indices fit 32 bits."
  },
  {
   "property": "C45",
   "status": "proved",
   "theorems": [
    "Geom.Gen.C45_pipe",
    "Geom.Gen.C45_pie",
    "Geom.Gen.C45_capsule"
   ],
   "note": "Segment counts below 2^32 - 1; the exact faces for counts whose indices fit 32 bits."
  },
  {
   "property": "C46",
   "status": "proved",
   "theorems": [
    "Geom.Gen.C46_appends",
    "Geom.Gen.C46_faces",
    "Geom.Gen.C46_equation",
    "Geom.Gen.C46_seam",
    "Geom.Gen.C46_normal",
    "Geom.Gen.C46_closed"
   ],
   "note": "Segment counts below 2^32 - 1; faces and closedness for at most 2^32 vertices. The torus equation in closed form for equal radii (C46_equation), by parameters otherwise."
  },
  {
   "property": "C47",
   "status": "partial",
   "theorems": [
    "Geom.Gen.C47_tube",
    "Geom.Gen.C47_tube_refuted",
    "Geom.Gen.C47_curve",
    "Geom.Gen.C47_null",
    "Geom.Gen.C47_closed",
    "Geom.Gen.C47_knot_curve",
    "Geom.Gen.C47_knot",
    "Geom.Gen.C47_spiral",
    "Geom.Gen.C47_spiral_refuted",
    "Geom.Gen.C47_patch"
   ],
   "note": "Counts, indices, appending: proved for all four generators (Bezier patches as arbitrary functions). Tube: vertices at the given distance in direction of a unit normal orthogonal to the curve, refuted where the curve runs along the Y axis (the tube collapses). Closedness of the tube of each curve as index structure. C47_spiral_refuted: more than 2^32 segments is undefined behaviour."
  },
  {
   "property": "C48",
   "status": "proved",
   "theorems": [
    "Geom.Gen.C48"
   ],
   "note": ""
  },
  {
   "property": "C49",
   "status": "proved",
   "theorems": [
    "Geom.Playback.Props.C49_protocol",
    "Geom.Playback.Props.C49_update_idle",
    "Geom.Playback.Props.C49_stop",
    "Geom.Playback.Props.C49_pause",
    "Geom.Playback.Props.C49_play",
    "Geom.Playback.Props.C49_nextFrame_after_stop"
   ],
   "note": "Over an arbitrary ordered field with floor. C49_nextFrame_after_stop is a finding: OnNextFrame is still posted after OnStop within the same Update."
  },
  {
   "property": "C50",
   "status": "partial",
   "theorems": [
    "Geom.Playback.Props.C50_range_partial",
    "Geom.Playback.Props.C50_range_started_forward_partial",
    "Geom.Playback.Props.C50_list_partial",
    "Geom.Playback.Props.C50_sign_change_refuted",
    "Geom.Playback.Props.C50_short_list_refuted"
   ],
   "note": "Proved for one-shot, loop, ping-pong (first != last) with constant speed sign, and for playback started forward with any later sign changes; list loops with at least two frames started forward. Refuted in general: speed sign change after a backward Play uses a stale next frame; a one-element list leaves the next frame stale."
  },
  {
   "property": "C51",
   "status": "partial",
   "theorems": [
    "Geom.Playback.Props.C51_single_frame_runs_away",
    "Geom.Playback.Props.C51_any_range_refuted",
    "Geom.Playback.Props.C51_proper_range_partial"
   ],
   "note": "Refuted for first = last: the frame is first + n mod 2^64 after n steps. Proved for all other ranges."
  },
  {
   "property": "C52",
   "status": "proved",
   "theorems": [
    "Geom.Playback.Props.C52_terminates",
    "Geom.Playback.Props.C52_interpolator",
    "Geom.Playback.Props.C52_history",
    "Geom.Playback.Props.C52_events"
   ],
   "note": "Exact arithmetic, as stated."
  },
  {
   "property": "C53",
   "status": "proved",
   "theorems": [
    "Geom.Playback.Props.C53_split",
    "Geom.Playback.Props.C53_split_oneShot"
   ],
   "note": "Exact arithmetic, constant speed."
  },
  {
   "property": "C54",
   "status": "proved",
   "theorems": [
    "Geom.Playback.Props.C54_loop",
    "Geom.Playback.Props.C54_pingPong",
    "Geom.Playback.Props.C54_oneShot",
    "Geom.Playback.Props.C54_list"
   ],
   "note": "List loops need at least two frames (see C50_short_list_refuted for one)."
  },
  {
   "property": "C55",
   "status": "partial",
   "theorems": [
    "Geom.Playback.Props.C55_loop",
    "Geom.Playback.Props.C55_pingPong",
    "Geom.Playback.Props.C55_oneShot_stops_at_once",
    "Geom.Playback.Props.C55_oneShot_refuted",
    "Geom.Playback.Props.C55_pingPong_refuted"
   ],
   "note": "Proved for loops (C55_loop). Refuted for one-shot: Play with negative speed stops at once for each range. Refuted for ping-pong: it moves as with positive speed, one frame ahead (C55_pingPong)."
  },
  {
   "property": "C56",
   "status": "proved",
   "theorems": [
    "Geom.Keyframe.Props.C56_build",
    "Geom.Keyframe.Props.C56_interpolate",
    "Geom.Keyframe.Props.C56_interpolate_matrix",
    "Geom.Keyframe.Props.C56_duplicate_frames_differ"
   ],
   "note": "Distinct frames per channel, frames below SIZE_MAX. Channels without keyframes need an empty old array (see C59). C56_duplicate_frames_differ shows what happens with duplicate frames."
  },
  {
   "property": "C57",
   "status": "partial",
   "theorems": [
    "Geom.Keyframe.Props.C57_actual_partial",
    "Geom.Keyframe.Props.C57_refuted"
   ],
   "note": "Refuted: the key at index i is the value at frame i instead of frameBegin + i. C57_actual_partial proves what is computed for each start frame; with start frame 0 it gives C56."
  },
  {
   "property": "C58",
   "status": "partial",
   "theorems": [
    "Geom.Keyframe.Props.C58_no_ub_partial",
    "Geom.Keyframe.Props.C58_no_effect_partial",
    "Geom.Keyframe.Props.C58_clear_refuted"
   ],
   "note": "Refuted after ClearKeys, which keeps the frame range: each Interpolate then reads out of bounds. Proved for all histories that do not interpolate between ClearKeys and BuildKeys, and for sequences without keyframes."
  },
  {
   "property": "C59",
   "status": "partial",
   "theorems": [
    "Geom.Keyframe.Props.C59_independent_partial",
    "Geom.Keyframe.Props.C59_refuted"
   ],
   "note": "Refuted for channels without keyframes, which keep stale keys. Proved if each channel has keyframes or its old array is empty."
  },
  {
   "property": "C60",
   "status": "proved",
   "theorems": [
    "Geom.Skeleton.Props.C60_traversals",
    "Geom.Skeleton.Props.C60_once"
   ],
   "note": "Skeletons without null pointers in the lists (histories without the remove functions, see C64). The order is stated by paths in lexicographic order."
  },
  {
   "property": "C61",
   "status": "proved",
   "theorems": [
    "Geom.Skeleton.Props.C61_global",
    "Geom.Skeleton.Props.C61_local",
    "Geom.Skeleton.Props.C61_rejects",
    "Geom.SkeletonHeap.Props.C61_global_transform"
   ],
   "note": "Matrices are elements of an arbitrary monoid. The buffer must have the room the caller claims. C61_global_transform covers SkeletonJoint::GlobalTransform along the parent links."
  },
  {
   "property": "C62",
   "status": "proved",
   "theorems": [
    "Geom.Skeleton.Props.C62_joint_space",
    "Geom.Skeleton.Props.C62_bind_pose",
    "Geom.Skeleton.Props.C62_rebuild"
   ],
   "note": "For any monoid of matrices and an Inverse that is right on invertible matrices."
  },
  {
   "property": "C63",
   "status": "proved",
   "theorems": [
    "Geom.Skeleton.Props.C63_copy",
    "Geom.Skeleton.Props.C63_self_undefined"
   ],
   "note": "With the default joint factory and two different skeletons. C63_self_undefined: copying a nonempty skeleton into itself is undefined."
  },
  {
   "property": "C64",
   "status": "partial",
   "theorems": [
    "Geom.Skeleton.Props.C64_absent_partial",
    "Geom.Skeleton.Props.C64_refuted",
    "Geom.Skeleton.Props.C64_then_traversals_undefined",
    "Geom.SkeletonHeap.Props.C64_stale_parent"
   ],
   "note": "Refuted for each joint that is in the list (destroyed, the successor is returned, a null pointer stays; undefined for the last joint), with the exact behaviour. Proved for joints that are not in the list."
  },
  {
   "property": "C65",
   "status": "proved",
   "theorems": [
    "Geom.SkeletonHeap.Props.C65_ownership",
    "Geom.SkeletonHeap.Props.C65_rejected",
    "Geom.SkeletonHeap.Props.C65_orphans",
    "Geom.SkeletonHeap.Props.C65_add_accepted"
   ],
   "note": "Pointer-level model, all histories including removal and destruction. Addresses are not reused."
  },
  {
   "property": "C66",
   "status": "proved",
   "theorems": [
    "Geom.Transform.Props.C66_transform3",
    "Geom.Transform.Props.C66_transform3_matrix",
    "Geom.Transform.Props.C66_matrix_unique",
    "Geom.Transform.Props.C66_transform2"
   ],
   "note": "Transform3 over any commutative ring, Transform2 with any SetRotationAndScale that overwrites the two columns. The meaning of the GaussianLib matrix functions is assumed (see Model/Transform)."
  },
  {
   "property": "C67",
   "status": "proved",
   "theorems": [
    "Geom.Transform.Props.C67_projection"
   ],
   "note": "Any scalars and any projection functions; 'determined by' means the function of the current mode applied to the values set last."
  },
  {
   "property": "C68",
   "status": "partial",
   "theorems": [
    "Geom.Transform.Props.C68_position_partial",
    "Geom.Transform.Props.C68_distance_partial",
    "Geom.Transform.Props.C68_identity_partial",
    "Geom.Transform.Props.C68_turns_points_partial",
    "Geom.Transform.Props.C68_product_partial",
    "Geom.Transform.Props.C68_hamilton_refuted"
   ],
   "note": "Position, distance and identity are proved. That the local pivot stays fixed is proved if the quaternion product of GaussianLib (not in the repository) applies the old rotation first, and refuted for the Hamilton product q*r."
  },
  {
   "property": "C69",
   "status": "partial",
   "theorems": [
    "Geom.Transform.Props.C69_identity_refuted",
    "Geom.Transform.Props.C69_distance_refuted",
    "Geom.Transform.Props.C69_refuted",
    "Geom.Transform.Props.C69_partial"
   ],
   "note": "Refuted: the offset is multiplied by (sin, cos) instead of rotated. C69_refuted: the result is right for all angles only at the pivot itself."
  },
  {
   "property": "C70",
   "status": "proved",
   "theorems": [
    "Geom.Bezier.C70_casteljau",
    "Geom.Bezier.C70_sum",
    "Geom.Bezier.C70_ends",
    "Geom.Bezier.C70_nonneg",
    "Geom.Bezier.C70_hull"
   ],
   "note": "C70_casteljau: the value is that of de Casteljau's algorithm for 2 to 21 points and each parameter."
  },
  {
   "property": "C71",
   "status": "partial",
   "theorems": [
    "Geom.Bezier.C71_single_refuted",
    "Geom.Bezier.C71_undefined_refuted",
    "Geom.Bezier.C71_exact"
   ],
   "note": "Exact for no point and for 2 to 21 points (C71_exact). Refuted: a curve of one point is zero (C71_single_refuted); from 67 points on the evaluation divides by zero, since the 64-bit factorial is zero (C71_undefined_refuted)."
  },
  {
   "property": "C72",
   "status": "partial",
   "theorems": [
    "Geom.Bezier.C72_cells",
    "Geom.Bezier.C72_lost_refuted",
    "Geom.Bezier.C72_casteljau",
    "Geom.Bezier.C72_corners",
    "Geom.Bezier.C72_hull",
    "Geom.Bezier.C72_zero_refuted"
   ],
   "note": "Cells for orders below 65535; C72_lost_refuted: for the order 65535 the buffer has size zero, every control point is lost. Evaluation for orders 1 to 20; C72_zero_refuted: a patch of order zero evaluates to zero."
  },
  {
   "property": "C73",
   "status": "partial",
   "theorems": [
    "Geom.Bezier.C73_cells_partial",
    "Geom.Bezier.C73_partial",
    "Geom.Bezier.C73_refuted"
   ],
   "note": "Proved for orders up to 2; refuted for each order from 3 on (cells beyond the buffer are lost, C73_cells_partial says which). Evaluate is not implemented in the code."
  },
  {
   "property": "C74",
   "status": "partial",
   "theorems": [
    "Geom.Spline.C74_order",
    "Geom.Spline.C74_history",
    "Geom.Spline.C74_clamp",
    "Geom.Spline.C74_clamp_refuted",
    "Geom.Spline.C74_in_range",
    "Geom.Spline.C74_nonneg",
    "Geom.Spline.C74_start",
    "Geom.Spline.C74_hull",
    "Geom.Spline.C74_linear",
    "Geom.Spline.C74_end_refuted",
    "Geom.Spline.C74_sum_refuted"
   ],
   "note": "Order, weights (not negative, sum at most one), convex hull of the neighbouring points up to the knot n - order, linear interpolation, start point. Refuted: SetOrder without points gives the order zero; at and after the last knot the value is zero; for orders from two on the weights sum up to less than one after the knot n - order."
  },
  {
   "property": "C75",
   "status": "proved",
   "theorems": [
    "Geom.UniformSpline.C75_in_range",
    "Geom.UniformSpline.C75_interpolates",
    "Geom.UniformSpline.C75_straight",
    "Geom.UniformSpline.C75_linear_refuted",
    "Geom.UniformSpline.C75_stale",
    "Geom.UniformSpline.C75_smooth",
    "Geom.UniformSpline.C75_natural"
   ],
   "note": "C75_linear_refuted is about the documentation of the expansion, not part of the property; C75_stale: Build with less than two points keeps the former polynomials."
  },
  {
   "property": "C76",
   "status": "partial",
   "theorems": [
    "Geom.TangentSpace.C76_frame",
    "Geom.TangentSpace.C76_tangent_partial",
    "Geom.TangentSpace.C76_bitangent_refuted",
    "Geom.TangentSpace.C76_tolerance_refuted",
    "Geom.TangentSpace.C76_handedness"
   ],
   "note": "Unit length, normal and orthogonality for all triangles. The tangent is right if the texture triangle is oriented positively or the sine of the angle of the gradients exceeds the tolerance; otherwise reversed (C76_tolerance_refuted). The bitangent points against the second coordinate (C76_bitangent_refuted). C76_handedness: the adjustment by negating both vectors never changes the handedness."
  },
  {
   "property": "C77",
   "status": "partial",
   "theorems": [
    "Geom.Playback.Props.C77_no_ub_partial",
    "Geom.Playback.Props.C77_legal_of_fresh",
    "Geom.Playback.Props.C77_shrink_refuted"
   ],
   "note": "Proved for all histories that do not shorten the public list below the position reached; refuted (undefined behaviour) if it is shortened."
  },
  {
   "property": "C78",
   "status": "proved",
   "theorems": [
    "Geom.Plane.Props.C78_normalize",
    "Geom.Plane.Props.C78_normalize_zero",
    "Geom.Plane.Props.C78_memberPoint"
   ],
   "note": "Normalize over the reals, MemberPoint over any ordered field."
  },
  {
   "property": "C79",
   "status": "proved",
   "theorems": [
    "Geom.Plane.Props.C79_distance_obb",
    "Geom.Plane.Props.C79_touches"
   ],
   "note": "Any ordered field, any axes."
  },
  {
   "property": "C80",
   "status": "partial",
   "theorems": [
    "Geom.Plane.Props.C80_exact_partial",
    "Geom.Plane.Props.C80_alt_exact_partial",
    "Geom.Plane.Props.C80_similar_partial",
    "Geom.Plane.Props.C80_rigid_partial",
    "Geom.Plane.Props.C80_alt_refuted",
    "Geom.Plane.Props.C80_scale_refuted"
   ],
   "note": "Proved for rigid matrices and matrices with the same scale in all directions, with the equation n*x = d; C80_exact_partial and C80_alt_exact_partial say for exactly which matrices it holds with both equations. Refuted for the equation n*x + d = 0 (the sign is lost) and for matrices with non-uniform scaling (the normal is not transformed by the inverse transpose)."
  },
  {
   "property": "C81",
   "status": "proved",
   "theorems": [
    "Geom.Plane.Props.C81_cone"
   ],
   "note": "Over the reals; Normalize of GaussianLib leaves the zero vector (axis parallel to the normal) unchanged."
  },
  {
   "property": "C82",
   "status": "proved",
   "theorems": [
    "Geom.Triangle.Props.C82_closest",
    "Geom.Triangle.Props.C82_crossing_refuted"
   ],
   "note": "Any ordered field. C82_crossing_refuted shows that the (documented) assumption that the segment does not meet the triangle is needed."
  },
  {
   "property": "C83",
   "status": "partial",
   "theorems": [
    "Geom.Shapes.C83_lines",
    "Geom.Shapes.C83_partial",
    "Geom.Shapes.C83_refuted",
    "Geom.Shapes.C83_parallel_refuted"
   ],
   "note": "Refuted: the code treats the rays as lines (points behind the origin), and returns the origins for parallel rays. C83_lines: nearest points of the lines for non-parallel unit directions, in any dimension; C83_partial: of the rays if both points are on the rays."
  },
  {
   "property": "C84",
   "status": "partial",
   "theorems": [
    "Geom.Shapes.C84_partial",
    "Geom.Shapes.C84_member_partial",
    "Geom.Shapes.C84_behind_refuted",
    "Geom.Shapes.C84_crossing_refuted"
   ],
   "note": "Proved for cones in front of the plane (C84_partial); for all cones the result is a point of the cone and not farther away than its tip (C84_member_partial); refuted for cones behind the plane and for cones that meet it."
  },
  {
   "property": "C85",
   "status": "proved",
   "theorems": [
    "Geom.Shapes.C85_corners",
    "Geom.Shapes.C85_axes"
   ],
   "note": "An axis of zero length is the only exception (not a number), see the first part of C85_axes."
  },
  {
   "property": "C86",
   "status": "proved",
   "theorems": [
    "Geom.Shapes.C86_cone",
    "Geom.Sphere.C86_sphere",
    "Geom.Sphere.C86_sphere_inverse"
   ],
   "note": "Over the reals."
  },
  {
   "property": "C87",
   "status": "partial",
   "theorems": [
    "Geom.Hull.C87_corner",
    "Geom.Hull.C87_corners",
    "Geom.Hull.C87_refuted",
    "Geom.Hull.C87_box"
   ],
   "note": "Refuted: since the three-plane query finds the point in one direction only (C15), one of LeftTop and RightTop is the zero vector if the origin of coordinates is between them. C87_corner: the corner is right if the query succeeds; C87_corners: each of the four corners is on the two named planes and the far plane or is zero; C87_box: the box contains what the queries return."
  },
  {
   "property": "C88",
   "status": "proved",
   "theorems": [
    "Geom.Gen.C88_cylinder",
    "Geom.Gen.C88_cone",
    "Geom.Gen.C88_pipe",
    "Geom.Gen.C88_pie",
    "Geom.Gen.C88_capsule",
    "Geom.Gen.C88_ellipsoid",
    "Geom.Gen.C88_torus",
    "Geom.Gen.C88_cuboid"
   ],
   "note": "The pipe for outer radii that are not zero. Sides of a pie: the normals point into the piece that is cut off."
  },
  {
   "property": "C89",
   "status": "partial",
   "theorems": [
    "Geom.Gen.C89_sphere",
    "Geom.Gen.C89_cylinder",
    "Geom.Gen.C89_capsule",
    "Geom.Gen.C89_torus",
    "Geom.Gen.C89_ellipsoid_refuted",
    "Geom.Gen.C89_cylinder_refuted",
    "Geom.Gen.C89_cone_length_refuted",
    "Geom.Gen.C89_cone_refuted",
    "Geom.Gen.C89_spiral_refuted"
   ],
   "note": "Proved for spheres, circular cylinders, round capsules (the solid is behind the plane of each vertex) and tori of revolution (derivatives are zero); cuboids are part of C42. Refuted for ellipsoids and elliptical cylinders (normals of the sphere and the circle), for each cone (neither unit length nor orthogonal), for the top cover of a spiral with a quarter of a turn (normal into the tube)."
  },
  {
   "property": "C90",
   "status": "partial",
   "theorems": [
    "Geom.Gen.C90_attached",
    "Geom.Gen.C90_gap_refuted"
   ],
   "note": "Proved if turns * segments is whole. Refuted otherwise: the mantle ends before the top cover."
  },
  {
   "property": "C91",
   "status": "partial",
   "theorems": [
    "Geom.Gen.C91_cylinder",
    "Geom.Gen.C91_cone",
    "Geom.Gen.C91_pipe",
    "Geom.Gen.C91_pie",
    "Geom.Gen.C91_ellipsoid",
    "Geom.Gen.C91_capsule",
    "Geom.Gen.C91_circular",
    "Geom.Gen.C91_torus",
    "Geom.Gen.C91_torus_circular",
    "Geom.Gen.C91_cuboid",
    "Geom.Gen.C91_normals_refuted"
   ],
   "note": "Proved for the normals stretched by the radii: for equal radii (C91_circular, C91_torus_circular) and for cuboids these are the normals themselves. C91_normals_refuted: with different radii and few segments a normal points behind its triangle (the normals are those of a circle, see C89). Triangles with two equal corners (poles) are excepted. Curves and spirals are not covered."
  },
  {
   "property": "C92",
   "status": "proved",
   "theorems": [
    "Geom.Gen.C92_cylinder",
    "Geom.Gen.C92_cone",
    "Geom.Gen.C92_pipe",
    "Geom.Gen.C92_ellipsoid",
    "Geom.Gen.C92_torus",
    "Geom.Gen.C92_pie",
    "Geom.Gen.C92_capsule",
    "Geom.Gen.C92_cuboid",
    "Geom.Gen.C92_curve",
    "Geom.Gen.C92_knot",
    "Geom.Gen.C92_spiral"
   ],
   "note": "For the faces (triangles with their positions) added to the mesh. Covers have to be present where they can be left out; cuboids for both senses of the rotations of GaussianLib. Tubes of curves are closed for each curve function, whether its ends meet or not. Spirals with another number of turns have a gap (C90)."
  },
  {
   "property": "C93",
   "status": "proved",
   "theorems": [
    "Geom.Gen.C93_cylinder",
    "Geom.Gen.C93_cone",
    "Geom.Gen.C93_ellipsoid",
    "Geom.Gen.C93_capsule",
    "Geom.Gen.C93_cuboid"
   ],
   "note": "For real numbers. Pipes, pies, tori, curves and spirals are not convex and not part of the property."
  },
  {
   "property": "C94",
   "status": "proved",
   "theorems": [
    "Geom.Animation.C94_loop",
    "Geom.Animation.C94_pingPong",
    "Geom.Animation.C94_list",
    "Geom.Animation.C94_oneShot",
    "Geom.Animation.C94_loop_backward",
    "Geom.Animation.C94_pingPong_backward",
    "Geom.Animation.C94_no_jump_oneShot",
    "Geom.Animation.C94_no_jump_pingPong",
    "Geom.Animation.C94_no_jump_loop"
   ],
   "note": "The mixing functions (Lerp, Slerp of the absent vector library) are assumed to start at the first key, to keep equal keys and to be symmetric. A ping-pong loop with negative speed runs one frame ahead (C55), a one-shot playback with negative speed does not play (C55)."
  },
  {
   "property": "C95",
   "status": "proved",
   "theorems": [
    "Geom.Gen.C95_cylinder",
    "Geom.Gen.C95_cone",
    "Geom.Gen.C95_pipe",
    "Geom.Gen.C95_pie",
    "Geom.Gen.C95_ellipsoid",
    "Geom.Gen.C95_capsule",
    "Geom.Gen.C95_torus",
    "Geom.Gen.C95_cuboid",
    "Geom.Gen.C95_moved",
    "Geom.Gen.C95_sphere",
    "Geom.Gen.C95_cone_error"
   ],
   "note": "For real numbers. The volume is the sum of signed tetrahedra over the faces (Spec/Volume.lean). Tori with a tube that is not in proportion to the ring have quads that are not plane; no formula is given for them."
  },
  {
   "property": "C96",
   "status": "proved",
   "theorems": [
    "Geom.Gen.C96_cylinder",
    "Geom.Gen.C96_cone",
    "Geom.Gen.C96_pipe",
    "Geom.Gen.C96_pie",
    "Geom.Gen.C96_capsule",
    "Geom.Gen.C96_ellipsoid",
    "Geom.Gen.C96_torus",
    "Geom.Gen.C96_cuboid"
   ],
   "note": "For real numbers. For other segment counts the box of a round solid is smaller than the one of the solid to the sides."
  },
  {
   "property": "C97",
   "status": "proved",
   "theorems": [
    "Geom.TMesh.C97_volume",
    "Geom.TMesh.C97_exact",
    "Geom.TMesh.C97_band_needed"
   ],
   "note": "Exact arithmetic. C97_band_needed: with a corner inside of the tolerance the volume changes."
  },
  {
   "property": "C98",
   "status": "partial",
   "theorems": [
    "Geom.Gen.C98_mesh",
    "Geom.Gen.C98_corners",
    "Geom.Gen.C98_seam",
    "Geom.Gen.C98_flat",
    "Geom.Gen.C98_parallelogram",
    "Geom.Gen.C98_order_zero_refuted",
    "Geom.Gen.C98_undefined_refuted"
   ],
   "note": "Proved for orders from 1 to 20. Refuted for the default order 0 (all vertices at the origin, C98_order_zero_refuted) and from order 66 on (undefined behaviour, C98_undefined_refuted); between 21 and 65 the weights are wrong (C71)."
  },
  {
   "property": "C99",
   "status": "partial",
   "theorems": [
    "Geom.Playback.Props.C99_update_partial",
    "Geom.Playback.Props.C99_interpolator_partial",
    "Geom.Playback.Props.C99_returns_refuted",
    "Geom.Playback.Props.C99_drift_forward_partial",
    "Geom.Playback.Props.C99_drift_backward_partial",
    "Geom.Playback.Props.C99_advances_refuted"
   ],
   "note": "Proved for steps of at most 2^p frames (p bits of precision), in each rounding mode; the drift for rounding to the nearest. Refuted for larger steps: Update does not return above 2^(p+1) frames (C99_returns_refuted); and for very small steps: the playback stands still (C99_advances_refuted). No overflow, no NaN, each operation rounded on its own."
  },
  {
   "property": "C100",
   "status": "proved",
   "theorems": [
    "Geom.UniformSpline.Props.C100_defined",
    "Geom.UniformSpline.Props.C100_ends",
    "Geom.UniformSpline.Props.C100_accuracy",
    "Geom.UniformSpline.Props.C100_monotone",
    "Geom.UniformSpline.Props.C100_upward_refuted"
   ],
   "note": "For rounding to the nearest, the default of the machine; upward rounding reads beyond the end (C100_upward_refuted). The evaluation of the polynomials is arbitrary. Outside of (0, 1) the ends are returned (C100_ends). No overflow, no NaN."
  },
  {
   "property": "C101",
   "status": "partial",
   "theorems": [
    "Geom.Clip.Props.C101_agrees_partial",
    "Geom.Clip.Props.C101_bounds_refuted"
   ],
   "note": "Proved if plane and corners are on a grid with few enough points (6*N*X+D <= 2^p units), where distances and directions are exact. Refuted in general: for each precision and each epsilon there is a triangle for which the front polygon gets a fifth vertex, a write beyond the array (C101_bounds_refuted). No overflow to infinity; Gs::Dot sums in the order x, y, z."
  },
  {
   "property": "C102",
   "status": "proved",
   "theorems": [
    "Geom.TMesh.C102_edges",
    "Geom.TMesh.C102_exact",
    "Geom.TMesh.C102_band_needed",
    "Geom.TMesh.C102_cuboid"
   ],
   "note": "In exact arithmetic. With a corner nearer to the plane than the tolerance, but not on it, gaps arise beside the plane (C102_band_needed)."
  },
  {
   "property": "C103",
   "status": "proved",
   "theorems": [
    "Geom.Gen.C103_cuboid"
   ],
   "note": "In exact arithmetic, with the snapping of small components excluded as in C07. Rays from inside of the box hit no triangle (back faces are culled), but the box query reports their origin."
  },
  {
   "property": "C104",
   "status": "proved",
   "theorems": [
    "Geom.Gen.C104_cuboid"
   ],
   "note": "In exact arithmetic. Each side has vertices of its own, so that each part of an edge of the box is returned once for each of the two sides."
  },
  {
   "property": "C105",
   "status": "proved",
   "theorems": [
    "Geom.Gen.C105_pick",
    "Geom.Gen.C105_cylinder",
    "Geom.Gen.C105_cone",
    "Geom.Gen.C105_ellipsoid",
    "Geom.Gen.C105_capsule",
    "Geom.Gen.C105_cuboid",
    "Geom.Gen.C105_sphere"
   ],
   "note": "In exact arithmetic. Rays that start in the solid (or on its surface) hit no triangle, for back faces are culled and the parameter zero is excluded (C22)."
  },
  {
   "property": "C106",
   "status": "partial",
   "theorems": [
    "Geom.AABB.Props.C106_sound_partial",
    "Geom.AABB.Props.C106_complete_partial",
    "Geom.AABB.Props.C106_inside",
    "Geom.AABB.Props.C106_float_refuted",
    "Geom.AABB.Props.C106_double_refuted"
   ],
   "note": "Refuted for float and double, rounding to the nearest: a ray through a corner of a box is not reported. Proved: a hit is a hit of the box whose sides are moved outward by ((1+2^(1-p))^3-1) times their distance from the origin plus |direction|*2^emin (C106_sound_partial); a ray that meets the box diminished by this is reported, not later than there (C106_complete_partial); exact from inside (C106_inside). No overflow, no NaN."
  },
  {
   "property": "C107",
   "status": "proved",
   "theorems": [
    "Geom.TMesh.C107_ray",
    "Geom.TMesh.C107_hull",
    "Geom.TMesh.C107_front",
    "Geom.TMesh.C107_behind",
    "Geom.TMesh.C107_sphere",
    "Geom.TMesh.C107_direction_needed",
    "Geom.TMesh.C107_distance_needed"
   ],
   "note": "Rays: C107_ray. Planes: C107_front, C107_behind. Hulls: C107_hull, C107_sphere. The two restrictions of the statement are needed (C107_direction_needed, C107_distance_needed)."
  },
  {
   "property": "C108",
   "status": "proved",
   "theorems": [
    "Geom.Plane.Props.C108_box",
    "Geom.Plane.Props.C108_hull",
    "Geom.Plane.Props.C108_point",
    "Geom.Plane.Props.C108_clip"
   ],
   "note": "Only monotonicity of roundings is used, and that differences of floats are not rounded to zero. No overflow, no NaN."
  },
  {
   "property": "C109",
   "status": "partial",
   "theorems": [
    "Geom.Plane.Props.C109_distance_partial",
    "Geom.Plane.Props.C109_relation_partial",
    "Geom.Plane.Props.C109_inside_partial",
    "Geom.Plane.Props.C109_sphere_partial",
    "Geom.Plane.Props.C109_box_partial",
    "Geom.Plane.Props.C109_axis",
    "Geom.Plane.Props.C109_float_refuted",
    "Geom.Plane.Props.C109_double_refuted"
   ],
   "note": "Refuted for float and double, rounding to the nearest: with the plane x+y=2^p the point (2^p, 1/2, 0) counts as inside although it is in front of the plane. Proved: the error of SgnDistanceToPlane is at most ((1+u)^4-1)(sum of |n_i x_i| + |d|) + 3(1+u)^3 2^emin with u=2^(1-p) (C109_distance_partial), and all results are right up to this bound (C109_relation_partial, C109_box_partial, C109_inside_partial, C109_sphere_partial). For planes normal to the axes points are decided exactly (C109_axis). Sums of dot products are taken in the order x, y, z. No overflow, no NaN."
  },
  {
   "property": "C110",
   "status": "partial",
   "theorems": [
    "Geom.Gen.C110_range",
    "Geom.Gen.C110_strict",
    "Geom.Gen.C110_last_partial",
    "Geom.Gen.C110_power",
    "Geom.Gen.C110_face",
    "Geom.Gen.C110_last",
    "Geom.Gen.C110_tex",
    "Geom.Gen.C110_float",
    "Geom.Gen.C110_double",
    "Geom.Gen.C110_float_refuted",
    "Geom.Gen.C110_double_refuted"
   ],
   "note": "Refuted: with 41 segments and float, or 49 segments and double, the last coordinate is 1-2^-p, and the side of a cuboid of size 1 ends at 1/2-2^-p (C110_float_refuted, C110_double_refuted). Proved for all segment counts: the last coordinate is 1 or 1-2^-p (C110_last_partial), with the exact criterion (C110_last); the start, the order (strictly, for up to 2^p/8 segments), the range and the error of all coordinates, and the border of the sides of cuboids if the last coordinate is 1. It is 1 for powers of two, for up to 40 segments with float and up to 48 with double (there the middle below 1 is assumed to be rounded to 1, as in rounding half to even). Rotations of the sides are not part of this model."
  },
  {
   "property": "C111",
   "status": "partial",
   "theorems": [
    "Geom.Triangle.Props.C111_exact",
    "Geom.Triangle.Props.C111_sound_partial",
    "Geom.Triangle.Props.C111_complete_partial",
    "Geom.Triangle.Props.C111_float_refuted",
    "Geom.Triangle.Props.C111_double_refuted",
    "Geom.Triangle.Props.C111_zero_float_refuted",
    "Geom.Triangle.Props.C111_zero_double_refuted"
   ],
   "note": "Refuted for float and double, rounding to the nearest: a ray from the origin meets a rectangle of 3 x 4 that is cut by its diagonal, but hits none of the two triangles (C111_float_refuted, C111_double_refuted); and there are hits where the sum of the coordinates is zero, so that they are divided by zero (C111_zero_float_refuted, C111_zero_double_refuted). Proved: the result is exact, with coordinates up to two roundings, if all coordinates are small multiples of a power of two, e.g. integers up to 88 with float or 70000 with double (C111_exact); without this the products have an error of at most seven roundings, and all results are right up to these errors (C111_sound_partial, C111_complete_partial), without underflow. No overflow, no NaN. Gs::Cross is assumed to take two products and a difference for each component."
  },
  {
   "property": "C112",
   "status": "partial",
   "theorems": [
    "Geom.TMesh.C112_front",
    "Geom.TMesh.C112_back_partial",
    "Geom.TMesh.C112_back_exact",
    "Geom.TMesh.C112_flip",
    "Geom.TMesh.C112_growth",
    "Geom.TMesh.C112_back_refuted",
    "Geom.TMesh.C112_flip_needed"
   ],
   "note": "Front mesh: proved (C112_front; the triangles no longer share vertices). Back mesh: refuted, a triangle that touches the plane from behind is reported as clipped; the second call gives triangles to the front (C112_back_refuted), and each further call adds two triangles for each triangle that touches the plane with its first corner (C112_growth). Proved: what is given to the front is within the tolerance (C112_back_partial), and without a tolerance its triangles have no area and the back keeps the areas (C112_back_exact). Flipped plane: proved if no corner is within the tolerance (C112_flip); C112_flip_needed shows that the condition is needed. Exact arithmetic."
  },
  {
   "property": "C113",
   "status": "partial",
   "theorems": [
    "Geom.TMesh.C113_crack_float_refuted",
    "Geom.TMesh.C113_box_float_refuted",
    "Geom.TMesh.C113_crack_double_refuted",
    "Geom.TMesh.C113_box_double_refuted",
    "Geom.TMesh.C113_inside_partial",
    "Geom.TMesh.C113_agrees_partial"
   ],
   "note": "Cracks and the bounding box: refuted for float and double with rounding to the nearest, for a closed tetrahedron and the plane z = 0 and all tolerances below one (C113_crack_float_refuted, C113_crack_double_refuted, C113_box_float_refuted, C113_box_double_refuted). Proved: for every rounding mode each vertex is, up to 7 units of rounding of the largest component (mixErr), an interpolated point of a triangle of the mesh (C113_inside_partial); for meshes and planes on a grid the triangles are those of exact arithmetic and the vertices differ by at most mixErr, so cracks are at most twice as wide (C113_agrees_partial). Overflow is not modelled; the order of summation of Gs::Dot is assumed."
  },
  {
   "property": "C114",
   "status": "partial",
   "theorems": [
    "Geom.AABB.Props.C114_centers",
    "Geom.AABB.Props.C114_sizes_partial",
    "Geom.AABB.Props.C114_sizes_refuted",
    "Geom.AABB.Props.C114_size",
    "Geom.AABB.Props.C114_center_partial",
    "Geom.AABB.Props.C114_overflow_float_refuted",
    "Geom.AABB.Props.C114_overflow_double_refuted"
   ],
   "note": "Vectorized sizes: equal exactly for min <= max (C114_sizes_partial); for boxes with min > max, the default boxes among them, they are negative while Size is positive (C114_sizes_refuted). Center: in the box unless the sum overflows (C114_center_partial); the box of a point at the largest float has the infinite center (C114_overflow_float_refuted, C114_overflow_double_refuted). C114_size, C114_centers: as stated. Results beyond the largest number are infinities, as for rounding to the nearest; components of the boxes are finite."
  },
  {
   "property": "C115",
   "status": "partial",
   "theorems": [
    "Geom.AABB.Props.C115_size_partial",
    "Geom.AABB.Props.C115_center_partial",
    "Geom.AABB.Props.C115_refuted"
   ],
   "note": "Refuted (C115_refuted): overflow of max - min or min + max for valid boxes, and for the Size of the default box. C115_size_partial, C115_center_partial: exactly when both are defined, and correct then."
  },
  {
   "property": "C116",
   "status": "partial",
   "theorems": [
    "Geom.AABB.Props.C116_partial",
    "Geom.AABB.Props.C116_exact",
    "Geom.AABB.Props.C116_refuted"
   ],
   "note": "C116_partial, C116_exact: as stated if the conversions are defined, which they are for each point of the box if they are for its bounds. Refuted (C116_refuted): the box converted from double to float need not contain the box; after conversion to integers boxes without a common point may overlap and an empty box may contain a point; the default box of floats has no conversion to integers. Numbers out of the range of the type count as undefined."
  },
  {
   "property": "C117",
   "status": "partial",
   "theorems": [
    "Geom.Lines.Props.C117_near_partial",
    "Geom.Lines.Props.C117_nearest_float_refuted",
    "Geom.Lines.Props.C117_nearest_double_refuted",
    "Geom.Lines.Props.C117_between_float_refuted",
    "Geom.Lines.Props.C117_between_double_refuted",
    "Geom.Lines.Props.C117_integers_partial"
   ],
   "note": "C117_near_partial: no division by zero and points of the segments up to rounding, for each rounding mode. C117_integers_partial: the distance is the distance of the segments up to rounding for segments with small integers as coordinates, for which all products are exact. Refuted in general: the returned points need not be the nearest ones (C117_nearest_float_refuted, C117_nearest_double_refuted: crossing segments with coordinates up to 2^31, resp. 2^49, for which the returned points are at least 65536, resp. 2^20, apart), and they need not be between the ends of their segments (C117_between_float_refuted, C117_between_double_refuted)."
  },
  {
   "property": "C118",
   "status": "partial",
   "theorems": [
    "Geom.Sphere.Props.C118_front_partial",
    "Geom.Sphere.Props.C118_hit_partial",
    "Geom.Sphere.Props.C118_miss_partial",
    "Geom.Sphere.Props.C118_centre_float_refuted",
    "Geom.Sphere.Props.C118_centre_double_refuted",
    "Geom.Sphere.Props.C118_miss_float_refuted",
    "Geom.Sphere.Props.C118_miss_double_refuted",
    "Geom.Sphere.Props.C118_front_float_refuted",
    "Geom.Sphere.Props.C118_front_double_refuted"
   ],
   "note": "Proved for each rounding mode: C118_hit_partial, C118_miss_partial with error bounds of at most 170 u R^2 for squared distances, where u=2^(1-p) and R is the greater one of the radius and the distance of the origin. Rounding to the nearest: the parameter is at least -2^j, where j is -63 for float and -511 for double (C118_front_partial). Refuted in general: negative parameters near the smallest floats (C118_front_float_refuted, C118_front_double_refuted); the bound is relative to the distance, not to the radius: for a sphere with radius 1 at the distance 8192 (2^28 for double) the centre is returned (C118_centre_float_refuted, C118_centre_double_refuted), and a ray that misses it by 1/2 counts as a hit (C118_miss_float_refuted, C118_miss_double_refuted). No overflow, no NaN."
  },
  {
   "property": "C119",
   "status": "proved",
   "theorems": [
    "Geom.Triangle.Props.C119_sum",
    "Geom.Triangle.Props.C119_angle",
    "Geom.Triangle.Props.C119_number",
    "Geom.Triangle.Props.C119_index",
    "Geom.Triangle.Props.C119_unitNormal",
    "Geom.Triangle.Props.C119_flip",
    "Geom.Triangle.Props.C119_degenerate",
    "Geom.Triangle.Props.C119_area",
    "Geom.Triangle.Props.C119_flat",
    "Geom.Triangle.Props.C119_flat_normal"
   ],
   "note": "Real arithmetic; Gs::Angle of GaussianLib is assumed to be the arc cosine of the product divided by the lengths."
  },
  {
   "property": "C120",
   "status": "partial",
   "theorems": [
    "Geom.TMesh.C120_separate_partial",
    "Geom.TMesh.C120_input",
    "Geom.TMesh.C120_shared_partial",
    "Geom.TMesh.C120_input_refuted"
   ],
   "note": "Proved for three different objects and for one object as both outputs. If an output is the input, Clear empties the input before it is read and all outputs are empty (C120_input, C120_input_refuted)."
  },
  {
   "property": "C121",
   "status": "proved",
   "theorems": [
    "Geom.Spline.C121_local",
    "Geom.Spline.C121_accuracy",
    "Geom.Spline.C121_monotone",
    "Geom.Spline.C121_end",
    "Geom.Spline.C121_start",
    "Geom.Spline.C121_knot",
    "Geom.Spline.C121_hull"
   ],
   "note": "Each rounding mode, for the accuracy orders with 20 (order+1) units at most one and (order+1) 4^(order+1) times the least positive float at most one unit (float: order up to 50). From the last knot on the value is zero as in exact arithmetic (C121_end, see C74). No overflow, no NaN."
  },
  {
   "property": "C122",
   "status": "proved",
   "theorems": [
    "Geom.Skeleton.Props.C122_copy",
    "Geom.Skeleton.Props.C122_throw",
    "Geom.Skeleton.Props.C122_null",
    "Geom.Skeleton.Props.C122_unchanged_refuted",
    "Geom.Skeleton.Props.C122_furnished_refuted"
   ],
   "note": "The function does not use the two skeletons, which are different (see C63). Not guaranteed: that the skeleton is unchanged after an exception (C122_unchanged_refuted), and the shape of the model if the function returns joints with sub joints (C122_furnished_refuted)."
  },
  {
   "property": "C123",
   "status": "proved",
   "theorems": [
    "Geom.Bezier.C123_ends",
    "Geom.Bezier.C123_curve",
    "Geom.Bezier.C123_border",
    "Geom.Bezier.C123_patch",
    "Geom.Bezier.C123_seam",
    "Geom.Bezier.C123_seam_power",
    "Geom.Bezier.C123_seam_float_refuted",
    "Geom.Bezier.C123_hull"
   ],
   "note": "std::pow is given by its properties (IsPow); a power rounded once has them. Binary floats with at least 18 bits, so that the binomial coefficients are exact. C123_seam_float_refuted: with float and 41 segments the meshes of two patches with a common border do not meet, as the last parameter is less than one (see C110). No overflow, no NaN."
  },
  {
   "property": "C124",
   "status": "partial",
   "theorems": [
    "Geom.Triangle.Props.C124_decides",
    "Geom.Triangle.Props.C124_ends",
    "Geom.Triangle.Props.C124_segment_partial",
    "Geom.Triangle.Props.C124_coplanar_refuted",
    "Geom.Triangle.Props.C124_segment_refuted"
   ],
   "note": "Decided exactly for triangles in planes that are not parallel, without further assumption on their position (C124_decides). The reported points are ends of the common segment (C124_ends), and if they differ it is returned exactly (C124_segment_partial). Refuted: triangles in one plane are never reported, not even a triangle and itself (C124_coplanar_refuted); where edges cross the same end can be reported twice although there are more common points (C124_segment_refuted)."
  },
  {
   "property": "C125",
   "status": "partial",
   "theorems": [
    "Geom.Playback.Client.Props.C125_protocol_partial",
    "Geom.Playback.Client.Props.C125_update",
    "Geom.Playback.Client.Props.C125_library",
    "Geom.Playback.Client.Props.C125_assign",
    "Geom.Playback.Client.Props.C125_pause_refuted",
    "Geom.Playback.Client.Props.C125_restart_refuted",
    "Geom.Playback.Client.Props.C125_endless_refuted"
   ],
   "note": "Protocol: proved if the handlers of OnPlay, OnPause and OnStop only assign fields and OnNextFrame does not pause (C125_protocol_partial; it may start, stop, resume, update, also nested). Progress: proved if no handler starts, updates or sets the interpolator (C125_update). Refuted otherwise: after Pause in OnNextFrame the loop of Update goes on and posts events to a paused listener (C125_pause_refuted); a playback started in OnStop is never announced as stopped (C125_restart_refuted); handlers that answer each other never return (C125_endless_refuted). Not modelled: that Play releases the listener whose handler is running if the client holds no reference. C125_library: agrees with the model of the listeners OneShot, Loop and PingPongLoop."
  },
  {
   "property": "C126",
   "status": "partial",
   "theorems": [
    "Geom.Keyframe.Props.C126_frame",
    "Geom.Keyframe.Props.C126_box",
    "Geom.Keyframe.Props.C126_exact",
    "Geom.Keyframe.Props.C126_monotone",
    "Geom.Keyframe.Props.C126_accuracy",
    "Geom.Keyframe.Props.C126_end_refuted"
   ],
   "note": "Refuted for the parameter 1 (C126_end_refuted: between two keys at -2^26 and 5 the result is 8, and for 3 it is 0); all other parts are proved, the box for each float parameter less than one (also a playback forward uses only these). Assumes that Lerp computes b - a, times t, plus a, as in the absent vector library. Rotations (Slerp) are not part of it. No overflow, no NaN."
  },
  {
   "property": "C127",
   "status": "partial",
   "theorems": [
    "Geom.Plane.Props.C127_round_trip",
    "Geom.Plane.Props.C127_side_partial",
    "Geom.Plane.Props.C127_axis",
    "Geom.Plane.Props.C127_side_refuted",
    "Geom.Plane.Props.C127_flip"
   ],
   "note": "Refuted for points near the plane (C127_side_refuted: the plane with the normal (1 + 2^-30, 1, 0) and the distance 2^-31 in double, the point (1, -1, 0)); all other parts are proved, and the sides of points farther away than the bound (C127_side_partial). No overflow, no NaN."
  },
  {
   "property": "C128",
   "status": "partial",
   "theorems": [
    "Geom.TMesh.Props.C128_move_partial",
    "Geom.TMesh.Props.C128_self_refuted",
    "Geom.TMesh.Props.C128_swap",
    "Geom.TMesh.Props.C128_swaps",
    "Geom.TMesh.Props.C128_valid",
    "Geom.TMesh.Props.C128_valid_refuted"
   ],
   "note": "Refuted for a move of a mesh to itself (C128_self_refuted; libraries which do not test for it empty the vectors), and, for libraries other than the usual ones, for the validity of a mesh from which was moved (C128_valid_refuted). All other parts are proved; the validity (C128_valid) for libraries which empty the source of a move."
  },
  {
   "property": "C129",
   "status": "partial",
   "theorems": [
    "Geom.Playback.Props.C129_simulation_backward_partial",
    "Geom.Animation.Props.C129_loop_backward_partial",
    "Geom.Animation.Props.C129_pingPong_backward_partial",
    "Geom.Playback.Props.C129_simulation_partial",
    "Geom.Animation.Props.C129_box_partial",
    "Geom.Animation.Props.C129_oneShot_partial",
    "Geom.Animation.Props.C129_pingPong_partial",
    "Geom.Animation.Props.C129_loop_partial",
    "Geom.Animation.Props.C129_list_partial",
    "Geom.Animation.Props.C129_box_refuted"
   ],
   "note": "The box is refuted for playbacks backward (C129_box_refuted: a loop with speed -1 between the keys -2^26 and 5 shows 8 after two frames, because the playback stops at the parameter 1); it is proved forward (C129_box_partial). The accuracy is about playbacks with positive time steps of bounded size (forward: one-shot, loop, ping-pong, list loop; backward: loop, ping-pong, and each step at least 2^-p frames), the position, and the exact film of the same keyframes (exactEnv). Rotations (Slerp) are not part of it. No overflow, no NaN."
  },
  {
   "property": "C130",
   "status": "partial",
   "theorems": [
    "Geom.Plane.Props.C130_near_partial",
    "Geom.Plane.Props.C130_onto_partial",
    "Geom.Plane.Props.C130_axis_partial",
    "Geom.Plane.Props.C130_fixed",
    "Geom.Plane.Props.C130_float_refuted",
    "Geom.Plane.Props.C130_double_refuted"
   ],
   "note": "Refuted (C130_float_refuted, C130_double_refuted): for the plane x = -1 and the point (2^25, 0, 0), resp. (2^54, 0, 0), the result is the origin, at distance one from the plane, and RelationToPlane returns InFrontOf for each tolerance below one. Proved for each rounding mode: error bounds for the coordinates and for the distance of the result (C130_near_partial, C130_onto_partial), planes normal to an axis (C130_axis_partial), points on the plane (C130_fixed). No overflow, no NaN."
  },
  {
   "property": "C131",
   "status": "partial",
   "theorems": [
    "Geom.Plane.Props.C131_hit_partial",
    "Geom.Plane.Props.C131_towards_partial",
    "Geom.Plane.Props.C131_away_partial",
    "Geom.Plane.Props.C131_float_refuted",
    "Geom.Plane.Props.C131_double_refuted",
    "Geom.Plane.Props.C131_away_refuted",
    "Geom.Plane.Props.C131_parallel",
    "Geom.Plane.Props.C131_parallel_refuted"
   ],
   "note": "Refuted: with the plane x = -1 and the ray from (2^25, 0, 0), resp. (2^54, 0, 0), along (-1, 0, 0) the returned point is at distance one from the plane, and RelationToPlane returns InFrontOf for each tolerance below one (C131_float_refuted, C131_double_refuted); a ray that starts very near a plane and leads away from it hits the plane at its origin, since the quotient is rounded to -0 (C131_away_refuted); a ray parallel to a plane and off it can hit it at infinity (C131_parallel_refuted, as in C16). Proved for each rounding mode: error bounds for the returned point (C131_hit_partial), rays that clearly lead to the plane (C131_towards_partial) or away from it (C131_away_partial); no finite point is returned if the product is rounded to zero, and nothing for rays in the plane (C131_parallel). No overflow, and no NaN except for a zero divided by zero."
  },
  {
   "property": "C132",
   "status": "partial",
   "theorems": [
    "Geom.Plane.Props.C132_hit_partial",
    "Geom.Plane.Props.C132_start",
    "Geom.Plane.Props.C132_axis_partial",
    "Geom.Plane.Props.C132_crossing_partial",
    "Geom.Plane.Props.C132_same_partial",
    "Geom.Plane.Props.C132_float_refuted",
    "Geom.Plane.Props.C132_double_refuted",
    "Geom.Plane.Props.C132_crossing_refuted"
   ],
   "note": "Refuted: the segment from (2^25, 0, 0), resp. (2^54, 0, 0), to the origin hits the plane x = -1, though both end points are InFrontOf it and at least at distance one (C132_float_refuted, C132_double_refuted); with float there is a plane with nearly unit normal and a segment from a point InFrontOf it to a point Behind it, at distance more than two, that does not hit it (C132_crossing_refuted). Proved for each rounding mode: error bounds for the returned point (C132_hit_partial), segments whose end points are on different sides or on the same side by more than the error bounds (C132_crossing_partial, C132_same_partial), segments that start on the plane (C132_start); for symmetric modes (to the nearest even, toward zero) crossing segments hit planes normal to an axis (C132_axis_partial). No overflow, and no NaN except for a zero divided by zero. Gs::Lerp(a, b, t) is assumed to be (b - a)*t + a."
  }
 ]
}
