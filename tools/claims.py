M("C49", "proved", "Over an arbitrary ordered field with floor. C49_nextFrame_after_stop is a finding: OnNextFrame is still posted after OnStop within the same Update.")
M("C50", "partial", "Proved for one-shot, loop, ping-pong (first != last) with constant speed sign, and for playback started forward with any later sign changes; list loops with at least two frames started forward. Refuted in general: speed sign change after a backward Play uses a stale next frame; a one-element list leaves the next frame stale.")
M("C51", "partial", "Refuted for first = last: the frame is first + n mod 2^64 after n steps. Proved for all other ranges.")
M("C52", "proved", "Exact arithmetic, as stated.")
M("C53", "proved", "Exact arithmetic, constant speed.")
M("C54", "proved", "List loops need at least two frames (see C50_short_list_refuted for one).")
M("C55", "partial", "Proved for loops (C55_loop). Refuted for one-shot: Play with negative speed stops at once for each range. Refuted for ping-pong: it moves as with positive speed, one frame ahead (C55_pingPong).")
M("C77", "partial", "Proved for all histories that do not shorten the public list below the position reached; refuted (undefined behaviour) if it is shortened.")
M("C01", "proved", "Any dimension and linear order. Tightness needs coordinates within the limits used by Reset (an infinite coordinate inserted into a fresh box is covered but the box is not tight).")
M("C02", "proved", "Any dimension and linear order. C02_overlap_needs_valid shows that validity is needed.")
M("C03", "proved", "Exact arithmetic for Center and Size (integer instances: C115, floating-point arithmetic: C114).")
M("C04", "proved", "C04_contains is a finding: a NaN point is reported as contained in each box.")
M("C05", "proved", "Bit-level masks, any interpretation of the 32 bit patterns. C05_nan_differs: with NaN a lane is destroyed, unlike the scalar box.")
M("C06", "partial", "Refuted: Repair sets min to the larger value and leaves max; Contains(points) has its comparisons reversed. The actual behaviour and the exact cases in which the claim holds are proved.")
M("C07", "proved", "Any dimension, exact arithmetic. C07_snapped covers directions with small components.")
M("C08", "partial", "Proved for the overload with output point. Refuted for the overload without output, which compares the parameter with the length of the segment instead of 1; proved for it for segments of length 1.")
M("C09", "proved", "Two and three dimensions.")
M("C56", "proved", "Distinct frames per channel, frames below SIZE_MAX. Channels without keyframes need an empty old array (see C59). C56_duplicate_frames_differ shows what happens with duplicate frames.")
M("C57", "partial", "Refuted: the key at index i is the value at frame i instead of frameBegin + i. C57_actual_partial proves what is computed for each start frame; with start frame 0 it gives C56.")
M("C58", "partial", "Refuted after ClearKeys, which keeps the frame range: each Interpolate then reads out of bounds. Proved for all histories that do not interpolate between ClearKeys and BuildKeys, and for sequences without keyframes.")
M("C59", "partial", "Refuted for channels without keyframes, which keep stale keys. Proved if each channel has keyframes or its old array is empty.")
M("C60", "proved", "Skeletons without null pointers in the lists (histories without the remove functions, see C64). The order is stated by paths in lexicographic order.")
M("C61", "proved", "Matrices are elements of an arbitrary monoid. The buffer must have the room the caller claims. C61_global_transform covers SkeletonJoint::GlobalTransform along the parent links.")
M("C62", "proved", "For any monoid of matrices and an Inverse that is right on invertible matrices.")
M("C63", "proved", "With the default joint factory and two different skeletons. C63_self_undefined: copying a nonempty skeleton into itself is undefined.")
M("C64", "partial", "Refuted for each joint that is in the list (destroyed, the successor is returned, a null pointer stays; undefined for the last joint), with the exact behaviour. Proved for joints that are not in the list.")
M("C65", "proved", "Pointer-level model, all histories including removal and destruction. Addresses are not reused.")
M("C66", "proved", "Transform3 over any commutative ring, Transform2 with any SetRotationAndScale that overwrites the two columns. The meaning of the GaussianLib matrix functions is assumed (see Model/Transform).")
M("C67", "proved", "Any scalars and any projection functions; 'determined by' means the function of the current mode applied to the values set last.")
M("C68", "partial", "Position, distance and identity are proved. That the local pivot stays fixed is proved if the quaternion product of GaussianLib (not in the repository) applies the old rotation first, and refuted for the Hamilton product q*r.")
M("C69", "partial", "Refuted: the offset is multiplied by (sin, cos) instead of rotated. C69_refuted: the result is right for all angles only at the pivot itself.")
M("C10", "proved", "Over the reals (Build takes a root); Flip over any ring. For collinear points see C10_build_degenerate.")
M("C11", "partial", "Refuted for both equations: the constructor builds n*x = d. C11_partial: the documented plane comes out exactly if d = 0 or the normal is zero.")
M("C12", "proved", "Any ordered field.")
M("C13", "proved", "Any ordered field. Also the relation of a point with tolerance.")
M("C14", "proved", "Any ordered field, epsilon >= 0.")
M("C15", "partial", "Refuted: the common point is found only if it lies in the direction of the cross product of the first two normals (exactly one of the two argument orders works), and a third plane parallel to the line of the first two can be reported as hit. C15_complete_partial gives the exact behaviour for independent normals.")
M("C16", "partial", "Proved for rays and segments which are not parallel to the plane and for parallel segments. Refuted for rays parallel to the plane, with the exact condition under which they are reported as hits at infinity.")
M("C78", "proved", "Normalize over the reals, MemberPoint over any ordered field.")
M("C79", "proved", "Any ordered field, any axes.")
M("C80", "partial", "Proved for rigid matrices and matrices with the same scale in all directions, with the equation n*x = d; C80_exact_partial and C80_alt_exact_partial say for exactly which matrices it holds with both equations. Refuted for the equation n*x + d = 0 (the sign is lost) and for matrices with non-uniform scaling (the normal is not transformed by the inverse transpose).")
M("C81", "proved", "Over the reals; Normalize of GaussianLib leaves the zero vector (axis parallel to the normal) unchanged.")
M("C17", "proved", "Any field with order; each of the three projection branches.")
M("C18", "proved", "Any ordered field.")
M("C19", "proved", "Any ordered field; also for degenerate triangles as far as the code returns a number.")
M("C20", "proved", "Two and three dimensions. C20_degenerate_refuted: for a = b the code divides 0 by 0 and defines no result.")
M("C21", "proved", "Two and three dimensions. Segments of squared length <= epsilon must be points (the documented tolerance); C21_short_refuted shows that the claim fails for other short segments.")
M("C22", "partial", "Refuted for rays that start on the triangle (t = 0), which the barycentric query rejects; proved for t > 0, and for all t >= 0 for the query by plane.")
M("C23", "proved", "Any ordered field.")
M("C24", "proved", "Over the reals, no assumption on the triangles. That each intersection is found is C124.")
M("C82", "proved", "Any ordered field. C82_crossing_refuted shows that the (documented) assumption that the segment does not meet the triangle is needed.")
M("C25", "partial", "Defined, inside and separated by side: proved for each tolerance >= 0 and fresh polygons (C25_reuse_undefined: the polygons must be fresh). Areas add up if corners that count as on the plane are on it; refuted for a positive tolerance (the polygons overlap, C25_area_covers gives what holds). Relation: Behind exactly if all corners are behind; refuted that no corner in front is enough.")
M("C26", "partial", "Refuted for the front polygon if no corner is in front of the plane (it can be a point or a segment). Proved for the back polygon, and for both if some corner is in front.")
M("C27", "partial", "Defined, valid indices, sides, interpolated attributes: proved for each valid mesh and tolerance >= 0. The triangles that replace a triangle are inside of it. Areas: proved exactly for each triangle without corners inside of the tolerance band (other than on the plane), and at least the area otherwise; C27_area_refuted shows that the tolerance can make the outputs overlap. Output meshes are distinct objects from the input.")
M("C32", "proved", "Any mesh, valid or not.")
M("C33", "proved", "Any mesh, valid or not.")
M("C34", "partial", "For searches via positions the mesh needs valid indices. C34_edge_degenerate_refuted is a finding: the edge bond (two common corners) of a triangle with a repeated corner is not a common edge; C34_edge_partial proves the equivalence for triangles with three different corners.")
M("C35", "partial", "The edges which are returned are characterised exactly, with the threshold eps + sin|tolerance| for the distance of the cosine between the normals from one. Monotone on [0, pi/2]; refuted on the documented range [0, pi], and as a statement about the angle between normals.")
M("C37", "proved", "Any valid meshes.")
M("C38", "partial", "Refuted: undefined behaviour for each nonempty mesh. C38_partial: holds exactly for the empty mesh.")
M("C39", "proved", "Tightness needs coordinates within the limits used by Reset. Transformations are arbitrary maps of positions.")
M("C40", "proved", "All thread counts and all schedules of an interleaving semantics; also deadlock freedom and termination. C40_schedule: independent of the schedule for any comparison of scalars; C40_ieee: also with NaN and two zeros; only the sign of a zero may differ (C40_zero_sign).")
M("C41", "proved", "Byte offsets as multiples of the component size; accesses that do not fit are undefined behaviour (C41_undefined).")
M("C28", "proved", "Over the reals, unit directions. Also: from a point of the sphere the query succeeds exactly if the direction does not lead away (C28_surface).")
M("C29", "partial", "Refuted: the documentation says that the direction need not be normalised, but the returned point depends on its length. C29_partial: the returned point is on the sphere exactly if the direction has length one or the origin is on the sphere.")
M("C30", "partial", "Points: proved. Spheres: the answer is the conjunction over the planes (C30_sphere), for unit normals it says that the sphere touches each half space (C30_sphere_touch), so each sphere that meets the hull is accepted (C30_sphere_complete); refuted that an accepted sphere meets the hull.")
M("C31", "partial", "Refuted, for each plane equation: the constructor of planes from coefficients has the opposite sign of d (C11), for the identity matrix the frustum is empty. C31_actual_partial says which volume is enclosed instead; C31_partial: correct for matrices without translation part (fourth column zero).")
M("C83", "partial", "Refuted: the code treats the rays as lines (points behind the origin), and returns the origins for parallel rays. C83_lines: nearest points of the lines for non-parallel unit directions, in any dimension; C83_partial: of the rays if both points are on the rays.")
M("C84", "partial", "Proved for cones in front of the plane (C84_partial); for all cones the result is a point of the cone and not farther away than its tip (C84_member_partial); refuted for cones behind the plane and for cones that meet it.")
M("C85", "proved", "An axis of zero length is the only exception (not a number), see the first part of C85_axes.")
M("C86", "proved", "Over the reals.")
M("C87", "partial", "Refuted: since the three-plane query finds the point in one direction only (C15), one of LeftTop and RightTop is the zero vector if the origin of coordinates is between them. C87_corner: the corner is right if the query succeeds; C87_corners: each of the four corners is on the two named planes and the far plane or is zero; C87_box: the box contains what the queries return.")
M("C36", "proved", "Histories are the inductive predicate Edited; no bound on descriptors: a call which returns has appended valid triangles. Append of a mesh to itself is included as far as it is defined (C38).")
M("C42", "proved", "For each sense of rotation of the quaternions. Segment counts below 2^32 - 1; C42_faces (the exact faces) for faces with at most 2^32 vertices.")
M("C43", "partial", "Proved for segment counts below 2^32 - 1, the exact faces for at most 2^32 vertices. C43_endless_refuted: with 2^32 - 1 segments the loop does not end. C43_range_refuted: with more than 2^32 vertices the last vertex is used by no triangle.")
M("C44", "proved", "Segment counts below 2^32 - 1; the exact faces for counts whose indices fit 32 bits.")
M("C45", "proved", "Segment counts below 2^32 - 1; the exact faces for counts whose indices fit 32 bits.")
M("C46", "proved", "Segment counts below 2^32 - 1; faces and closedness for at most 2^32 vertices. The torus equation in closed form for equal radii (C46_equation), by parameters otherwise.")
M("C47", "partial", "Counts, indices, appending: proved for all four generators (Bezier patches as arbitrary functions). Tube: vertices at the given distance in direction of a unit normal orthogonal to the curve, refuted where the curve runs along the Y axis (the tube collapses). Closedness of the tube of each curve as index structure. C47_spiral_refuted: more than 2^32 segments is undefined behaviour.")
M("C48", "proved", "")
M("C88", "proved", "The pipe for outer radii that are not zero. Sides of a pie: the normals point into the piece that is cut off.")
M("C89", "partial", "Proved for spheres, circular cylinders, round capsules (the solid is behind the plane of each vertex) and tori of revolution (derivatives are zero); cuboids are part of C42. Refuted for ellipsoids and elliptical cylinders (normals of the sphere and the circle), for each cone (neither unit length nor orthogonal), for the top cover of a spiral with a quarter of a turn (normal into the tube).")
M("C90", "partial", "Proved if turns * segments is whole. Refuted otherwise: the mantle ends before the top cover.")
M("C70", "proved", "C70_casteljau: the value is that of de Casteljau's algorithm for 2 to 21 points and each parameter.")
M("C71", "partial", "Exact for no point and for 2 to 21 points (C71_exact). Refuted: a curve of one point is zero (C71_single_refuted); from 67 points on the evaluation divides by zero, since the 64-bit factorial is zero (C71_undefined_refuted).")
M("C72", "partial", "Cells for orders below 65535; C72_lost_refuted: for the order 65535 the buffer has size zero, every control point is lost. Evaluation for orders 1 to 20; C72_zero_refuted: a patch of order zero evaluates to zero.")
M("C73", "partial", "Proved for orders up to 2; refuted for each order from 3 on (cells beyond the buffer are lost, C73_cells_partial says which). Evaluate is not implemented in the code.")
M("C74", "partial", "Order, weights (not negative, sum at most one), convex hull of the neighbouring points up to the knot n - order, linear interpolation, start point. Refuted: SetOrder without points gives the order zero; at and after the last knot the value is zero; for orders from two on the weights sum up to less than one after the knot n - order.")
M("C75", "proved", "C75_linear_refuted is about the documentation of the expansion, not part of the property; C75_stale: Build with less than two points keeps the former polynomials.")
M("C76", "partial", "Unit length, normal and orthogonality for all triangles. The tangent is right if the texture triangle is oriented positively or the sine of the angle of the gradients exceeds the tolerance; otherwise reversed (C76_tolerance_refuted). The bitangent points against the second coordinate (C76_bitangent_refuted). C76_handedness: the adjustment by negating both vectors never changes the handedness.")
M("C91", "partial", "Proved for the normals stretched by the radii: for equal radii (C91_circular, C91_torus_circular) and for cuboids these are the normals themselves. C91_normals_refuted: with different radii and few segments a normal points behind its triangle (the normals are those of a circle, see C89). Triangles with two equal corners (poles) are excepted. Curves and spirals are not covered.")
M("C92", "proved", "For the faces (triangles with their positions) added to the mesh. Covers have to be present where they can be left out; cuboids for both senses of the rotations of GaussianLib. Tubes of curves are closed for each curve function, whether its ends meet or not. Spirals with another number of turns have a gap (C90).")
M("C95", "proved", "For real numbers. The volume is the sum of signed tetrahedra over the faces (Spec/Volume.lean). Tori with a tube that is not in proportion to the ring have quads that are not plane; no formula is given for them.")
M("C96", "proved", "For real numbers. For other segment counts the box of a round solid is smaller than the one of the solid to the sides.")
M("C97", "proved", "Exact arithmetic. C97_band_needed: with a corner inside of the tolerance the volume changes.")
M("C98", "partial", "Proved for orders from 1 to 20. Refuted for the default order 0 (all vertices at the origin, C98_order_zero_refuted) and from order 66 on (undefined behaviour, C98_undefined_refuted); between 21 and 65 the weights are wrong (C71).")
M("C99", "partial", "Proved for steps of at most 2^p frames (p bits of precision), in each rounding mode; the drift for rounding to the nearest. Refuted for larger steps: Update does not return above 2^(p+1) frames (C99_returns_refuted); and for very small steps: the playback stands still (C99_advances_refuted). No overflow, no NaN, each operation rounded on its own.")
M("C100", "proved", "For rounding to the nearest, the default of the machine; upward rounding reads beyond the end (C100_upward_refuted). The evaluation of the polynomials is arbitrary. Outside of (0, 1) the ends are returned (C100_ends). No overflow, no NaN.")
M("C101", "partial", "Proved if plane and corners are on a grid with few enough points (6*N*X+D <= 2^p units), where distances and directions are exact. Refuted in general: for each precision and each epsilon there is a triangle for which the front polygon gets a fifth vertex, a write beyond the array (C101_bounds_refuted). No overflow to infinity; Gs::Dot sums in the order x, y, z.")
M("C102", "proved", "In exact arithmetic. With a corner nearer to the plane than the tolerance, but not on it, gaps arise beside the plane (C102_band_needed).")
M("C103", "proved", "In exact arithmetic, with the snapping of small components excluded as in C07. Rays from inside of the box hit no triangle (back faces are culled), but the box query reports their origin.")
M("C104", "proved", "In exact arithmetic. Each side has vertices of its own, so that each part of an edge of the box is returned once for each of the two sides.")
M("C105", "proved", "In exact arithmetic. Rays that start in the solid (or on its surface) hit no triangle, for back faces are culled and the parameter zero is excluded (C22).")
M("C106", "partial", "Refuted for float and double, rounding to the nearest: a ray through a corner of a box is not reported. Proved: a hit is a hit of the box whose sides are moved outward by ((1+2^(1-p))^3-1) times their distance from the origin plus |direction|*2^emin (C106_sound_partial); a ray that meets the box diminished by this is reported, not later than there (C106_complete_partial); exact from inside (C106_inside). No overflow, no NaN.")
M("C107", "proved", "Rays: C107_ray. Planes: C107_front, C107_behind. Hulls: C107_hull, C107_sphere. The two restrictions of the statement are needed (C107_direction_needed, C107_distance_needed).")
M("C108", "proved", "Only monotonicity of roundings is used, and that differences of floats are not rounded to zero. No overflow, no NaN.")
M("C109", "partial", "Refuted for float and double, rounding to the nearest: with the plane x+y=2^p the point (2^p, 1/2, 0) counts as inside although it is in front of the plane. Proved: the error of SgnDistanceToPlane is at most ((1+u)^4-1)(sum of |n_i x_i| + |d|) + 3(1+u)^3 2^emin with u=2^(1-p) (C109_distance_partial), and all results are right up to this bound (C109_relation_partial, C109_box_partial, C109_inside_partial, C109_sphere_partial). For planes normal to the axes points are decided exactly (C109_axis). Sums of dot products are taken in the order x, y, z. No overflow, no NaN.")
M("C110", "partial", "Refuted: with 41 segments and float, or 49 segments and double, the last coordinate is 1-2^-p, and the side of a cuboid of size 1 ends at 1/2-2^-p (C110_float_refuted, C110_double_refuted). Proved for all segment counts: the last coordinate is 1 or 1-2^-p (C110_last_partial), with the exact criterion (C110_last); the start, the order (strictly, for up to 2^p/8 segments), the range and the error of all coordinates, and the border of the sides of cuboids if the last coordinate is 1. It is 1 for powers of two, for up to 40 segments with float and up to 48 with double (there the middle below 1 is assumed to be rounded to 1, as in rounding half to even). Rotations of the sides are not part of this model.")
M("C111", "partial", "Refuted for float and double, rounding to the nearest: a ray from the origin meets a rectangle of 3 x 4 that is cut by its diagonal, but hits none of the two triangles (C111_float_refuted, C111_double_refuted); and there are hits where the sum of the coordinates is zero, so that they are divided by zero (C111_zero_float_refuted, C111_zero_double_refuted). Proved: the result is exact, with coordinates up to two roundings, if all coordinates are small multiples of a power of two, e.g. integers up to 88 with float or 70000 with double (C111_exact); without this the products have an error of at most seven roundings, and all results are right up to these errors (C111_sound_partial, C111_complete_partial), without underflow. No overflow, no NaN. Gs::Cross is assumed to take two products and a difference for each component.")
M("C112", "partial", "Front mesh: proved (C112_front; the triangles no longer share vertices). Back mesh: refuted, a triangle that touches the plane from behind is reported as clipped; the second call gives triangles to the front (C112_back_refuted), and each further call adds two triangles for each triangle that touches the plane with its first corner (C112_growth). Proved: what is given to the front is within the tolerance (C112_back_partial), and without a tolerance its triangles have no area and the back keeps the areas (C112_back_exact). Flipped plane: proved if no corner is within the tolerance (C112_flip); C112_flip_needed shows that the condition is needed. Exact arithmetic.")
M("C113", "partial", "Cracks and the bounding box: refuted for float and double with rounding to the nearest, for a closed tetrahedron and the plane z = 0 and all tolerances below one (C113_crack_float_refuted, C113_crack_double_refuted, C113_box_float_refuted, C113_box_double_refuted). Proved: for every rounding mode each vertex is, up to 7 units of rounding of the largest component (mixErr), an interpolated point of a triangle of the mesh (C113_inside_partial); for meshes and planes on a grid the triangles are those of exact arithmetic and the vertices differ by at most mixErr, so cracks are at most twice as wide (C113_agrees_partial). Overflow is not modelled; the order of summation of Gs::Dot is assumed.")
M("C114", "partial", "Vectorized sizes: equal exactly for min <= max (C114_sizes_partial); for boxes with min > max, the default boxes among them, they are negative while Size is positive (C114_sizes_refuted). Center: in the box unless the sum overflows (C114_center_partial); the box of a point at the largest float has the infinite center (C114_overflow_float_refuted, C114_overflow_double_refuted). C114_size, C114_centers: as stated. Results beyond the largest number are infinities, as for rounding to the nearest; components of the boxes are finite.")
M("C115", "partial", "Refuted (C115_refuted): overflow of max - min or min + max for valid boxes, and for the Size of the default box. C115_size_partial, C115_center_partial: exactly when both are defined, and correct then.")
M("C116", "partial", "C116_partial, C116_exact: as stated if the conversions are defined, which they are for each point of the box if they are for its bounds. Refuted (C116_refuted): the box converted from double to float need not contain the box; after conversion to integers boxes without a common point may overlap and an empty box may contain a point; the default box of floats has no conversion to integers. Numbers out of the range of the type count as undefined.")
M("C117", "partial", "C117_near_partial: no division by zero and points of the segments up to rounding, for each rounding mode. C117_integers_partial: the distance is the distance of the segments up to rounding for segments with small integers as coordinates, for which all products are exact. Refuted in general: the returned points need not be the nearest ones (C117_nearest_float_refuted, C117_nearest_double_refuted: crossing segments with coordinates up to 2^31, resp. 2^49, for which the returned points are at least 65536, resp. 2^20, apart), and they need not be between the ends of their segments (C117_between_float_refuted, C117_between_double_refuted).")
M("C118", "partial", "Proved for each rounding mode: C118_hit_partial, C118_miss_partial with error bounds of at most 170 u R^2 for squared distances, where u=2^(1-p) and R is the greater one of the radius and the distance of the origin. Rounding to the nearest: the parameter is at least -2^j, where j is -63 for float and -511 for double (C118_front_partial). Refuted in general: negative parameters near the smallest floats (C118_front_float_refuted, C118_front_double_refuted); the bound is relative to the distance, not to the radius: for a sphere with radius 1 at the distance 8192 (2^28 for double) the centre is returned (C118_centre_float_refuted, C118_centre_double_refuted), and a ray that misses it by 1/2 counts as a hit (C118_miss_float_refuted, C118_miss_double_refuted). No overflow, no NaN.")
M("C119", "proved", "Real arithmetic; Gs::Angle of GaussianLib is assumed to be the arc cosine of the product divided by the lengths.")
M("C120", "partial", "Proved for three different objects and for one object as both outputs. If an output is the input, Clear empties the input before it is read and all outputs are empty (C120_input, C120_input_refuted).")
M("C121", "proved", "Each rounding mode, for the accuracy orders with 20 (order+1) units at most one and (order+1) 4^(order+1) times the least positive float at most one unit (float: order up to 50). From the last knot on the value is zero as in exact arithmetic (C121_end, see C74). No overflow, no NaN.")
M("C122", "proved", "The function does not use the two skeletons, which are different (see C63). Not guaranteed: that the skeleton is unchanged after an exception (C122_unchanged_refuted), and the shape of the model if the function returns joints with sub joints (C122_furnished_refuted).")
M("C123", "proved", "std::pow is given by its properties (IsPow); a power rounded once has them. Binary floats with at least 18 bits, so that the binomial coefficients are exact. C123_seam_float_refuted: with float and 41 segments the meshes of two patches with a common border do not meet, as the last parameter is less than one (see C110). No overflow, no NaN.")
M("C124", "partial", "Decided exactly for triangles in planes that are not parallel, without further assumption on their position (C124_decides). The reported points are ends of the common segment (C124_ends), and if they differ it is returned exactly (C124_segment_partial). Refuted: triangles in one plane are never reported, not even a triangle and itself (C124_coplanar_refuted); where edges cross the same end can be reported twice although there are more common points (C124_segment_refuted).")
M("C125", "partial", "Protocol: proved if the handlers of OnPlay, OnPause and OnStop only assign fields and OnNextFrame does not pause (C125_protocol_partial; it may start, stop, resume, update, also nested). Progress: proved if no handler starts, updates or sets the interpolator (C125_update). Refuted otherwise: after Pause in OnNextFrame the loop of Update goes on and posts events to a paused listener (C125_pause_refuted); a playback started in OnStop is never announced as stopped (C125_restart_refuted); handlers that answer each other never return (C125_endless_refuted). Not modelled: that Play releases the listener whose handler is running if the client holds no reference. C125_library: agrees with the model of the listeners OneShot, Loop and PingPongLoop.")
M("C126", "partial", "Refuted for the parameter 1 (C126_end_refuted: between two keys at -2^26 and 5 the result is 8, and for 3 it is 0); all other parts are proved, the box for each float parameter less than one (also a playback forward uses only these). Assumes that Lerp computes b - a, times t, plus a, as in the absent vector library. Rotations (Slerp) are not part of it. No overflow, no NaN.")
M("C127", "partial", "Refuted for points near the plane (C127_side_refuted: the plane with the normal (1 + 2^-30, 1, 0) and the distance 2^-31 in double, the point (1, -1, 0)); all other parts are proved, and the sides of points farther away than the bound (C127_side_partial). No overflow, no NaN.")
M("C128", "partial", "Refuted for a move of a mesh to itself (C128_self_refuted; libraries which do not test for it empty the vectors), and, for libraries other than the usual ones, for the validity of a mesh from which was moved (C128_valid_refuted). All other parts are proved; the validity (C128_valid) for libraries which empty the source of a move.")
M("C129", "partial", "The box is refuted for playbacks backward (C129_box_refuted: a loop with speed -1 between the keys -2^26 and 5 shows 8 after two frames, because the playback stops at the parameter 1); it is proved forward (C129_box_partial). The accuracy is about playbacks with positive time steps of bounded size (forward: one-shot, loop, ping-pong, list loop; backward: loop, ping-pong, and each step at least 2^-p frames), the position, and the exact film of the same keyframes (exactEnv). Rotations (Slerp) are not part of it. No overflow, no NaN.")
M("C130", "partial", "Refuted (C130_float_refuted, C130_double_refuted): for the plane x = -1 and the point (2^25, 0, 0), resp. (2^54, 0, 0), the result is the origin, at distance one from the plane, and RelationToPlane returns InFrontOf for each tolerance below one. Proved for each rounding mode: error bounds for the coordinates and for the distance of the result (C130_near_partial, C130_onto_partial), planes normal to an axis (C130_axis_partial), points on the plane (C130_fixed). No overflow, no NaN.")
M("C131", "partial", "Refuted: with the plane x = -1 and the ray from (2^25, 0, 0), resp. (2^54, 0, 0), along (-1, 0, 0) the returned point is at distance one from the plane, and RelationToPlane returns InFrontOf for each tolerance below one (C131_float_refuted, C131_double_refuted); a ray that starts very near a plane and leads away from it hits the plane at its origin, since the quotient is rounded to -0 (C131_away_refuted); a ray parallel to a plane and off it can hit it at infinity (C131_parallel_refuted, as in C16). Proved for each rounding mode: error bounds for the returned point (C131_hit_partial), rays that clearly lead to the plane (C131_towards_partial) or away from it (C131_away_partial); no finite point is returned if the product is rounded to zero, and nothing for rays in the plane (C131_parallel). No overflow, and no NaN except for a zero divided by zero.")
M("C132", "partial", "Refuted: the segment from (2^25, 0, 0), resp. (2^54, 0, 0), to the origin hits the plane x = -1, though both end points are InFrontOf it and at least at distance one (C132_float_refuted, C132_double_refuted); with float there is a plane with nearly unit normal and a segment from a point InFrontOf it to a point Behind it, at distance more than two, that does not hit it (C132_crossing_refuted). Proved for each rounding mode: error bounds for the returned point (C132_hit_partial), segments whose end points are on different sides or on the same side by more than the error bounds (C132_crossing_partial, C132_same_partial), segments that start on the plane (C132_start); for symmetric modes (to the nearest even, toward zero) crossing segments hit planes normal to an axis (C132_axis_partial). No overflow, and no NaN except for a zero divided by zero. Gs::Lerp(a, b, t) is assumed to be (b - a)*t + a.")
M("C94", "proved", "The mixing functions (Lerp, Slerp of the absent vector library) are assumed to start at the first key, to keep equal keys and to be symmetric. A ping-pong loop with negative speed runs one frame ahead (C55), a one-shot playback with negative speed does not play (C55).")
M("C93", "proved", "For real numbers. Pipes, pies, tori, curves and spirals are not convex and not part of the property.")
