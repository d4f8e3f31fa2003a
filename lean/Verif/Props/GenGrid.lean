import Verif.Props.GenParts
import Verif.Props.Plane

/-
  C42, C43, C46, C47 (patches): generators that consist of grids. C48: triangulation of quads.
-/
set_option autoImplicit false
set_option linter.unusedSectionVars false
set_option linter.unnecessarySeqFocus false

namespace Geom.Gen
open TMesh (Mesh Vertex Ix addVertex addTriangle)
open Spec

theorem normalize_unit (v : V3 ℝ) (h : v.x ^ 2 + v.y ^ 2 + v.z ^ 2 = 1) : Plane.normalizeVec v = v := by
  have : v.lenSq = 1 := by rw [← h]; simp only [V3.lenSq, V3.dot]; ring
  rw [Plane.normalizeVec, if_neg (by rw [this]; exact one_ne_zero), this, Real.sqrt_one]
  ext <;> simp

/-! C43. -/

/-- The vertex of row `v` and column `u`. -/
noncomputable def ellV (r : V3 ℝ) (U V v u : ℕ) : Vertex ℝ :=
  ⟨ellipsoidPoint r (Real.pi * v / V) (2 * Real.pi * u / U), ellipsoidPoint ⟨1, 1, 1⟩ (Real.pi * v / V) (2 * Real.pi * u / U), ⟨u / U, v / V⟩⟩

theorem ellipsoidPoint_unit (theta phi : ℝ) :
    (ellipsoidPoint ⟨1, 1, 1⟩ theta phi).x ^ 2 + (ellipsoidPoint ⟨1, 1, 1⟩ theta phi).y ^ 2 + (ellipsoidPoint ⟨1, 1, 1⟩ theta phi).z ^ 2 = 1 := by
  simp only [ellipsoidPoint]
  linear_combination (Real.sin theta) ^ 2 * Real.sin_sq_add_cos_sq phi + Real.sin_sq_add_cos_sq theta

theorem ellipsoidVerts_ok (r : V3 ℝ) (U V : ℕ) (m : M) (hU : U + 1 < 2 ^ 32) (hV : V + 1 < 2 ^ 32) :
    ellipsoidVerts r U V m = .ok (ext m (gridV (V + 1) (U + 1) (ellV r U V)) []) := by
  refine forLe_grid V U _ _ m hV hU fun v u m => ?_
  dsimp only
  rw [add_eq]
  have e : swapYZ (spherical (v * (1 / V) * Real.pi) (u * (1 / U) * (Real.pi * 2))) =
      ellipsoidPoint ⟨1, 1, 1⟩ (Real.pi * v / V) (2 * Real.pi * u / U) := by
    rw [show (v : ℝ) * (1 / V) * Real.pi = Real.pi * v / V by ring, show (u : ℝ) * (1 / U) * (Real.pi * 2) = 2 * Real.pi * u / U by ring]
    simp only [swapYZ, spherical, ellipsoidPoint, V3.mk.injEq, one_mul]
    exact ⟨mul_comm _ _, trivial, mul_comm _ _⟩
  rw [e, normalize_unit _ (ellipsoidPoint_unit _ _), ellV]
  congr 5
  · ext <;> simp [ellipsoidPoint] <;> ring
  · ring_nf
  · ring_nf

theorem ellV_on (r : V3 ℝ) (U V v u : ℕ) : OnEllipsoid r (ellV r U V v u).position := by
  refine ⟨_, _, _, ?_, rfl⟩
  have := ellipsoidPoint_unit (Real.pi * v / V) (2 * Real.pi * u / U)
  simpa [ellipsoidPoint] using this

/-- C43: for each number of segments for which the loops end, the ellipsoid is appended: counts, old content, new
indices; each vertex is on the ellipsoid and has a unit normal. -/
theorem C43_appends (d : EllipsoidDesc) (m : M) (hU : max 3 d.segsX + 1 < 2 ^ 32) (hV : max 2 d.segsY + 1 < 2 ^ 32) :
    ∃ m', genEllipsoid d m = .ok m' ∧ Grows m m' ((max 3 d.segsX + 1) * (max 2 d.segsY + 1)) (2 * (max 3 d.segsX * max 2 d.segsY))
      fun v => OnEllipsoid d.radius v.position ∧ UnitNormal v := by
  simp only [genEllipsoid]
  generalize max 3 d.segsX = U at *
  generalize max 2 d.segsY = V at *
  rw [ellipsoidVerts_ok _ _ _ _ hU hV, Res.bind_ok, gridTris_ok _ _ _ _ _ _ (by omega) (by omega), ext_ext]
  refine ⟨_, rfl, grows_ext m _ _ _ _ _ ?_ ?_ ?_ ?_⟩
  · rw [List.append_nil, gridV_length]; ring
  · rw [List.nil_append, gridTrisIx_length]
  · intro x hx
    rw [List.append_nil] at hx
    obtain ⟨r, c, _, _, rfl⟩ := gridV_mem.1 hx
    exact ⟨ellV_on .., ellipsoidPoint_unit ..⟩
  · intro t ht i hi
    rw [List.nil_append] at ht
    have := gridTrisIx_mem _ _ _ _ _ ht i hi
    rwa [Nat.mul_comm (V + 1)] at this

example := C43_appends ⟨⟨4, 2, 3⟩, 5, 4, true⟩ ⟨[], []⟩ (by norm_num) (by norm_num)

/-- C43: if the number of vertices does not exceed 2^32, the faces are those of the grid of polar angles and azimuths. -/
theorem C43_faces (d : EllipsoidDesc) (m : M) (hb : (max 2 d.segsY + 1) * (max 3 d.segsX + 1) ≤ 2 ^ 32) :
    ∃ m', genEllipsoid d m = .ok m' ∧
      let E := fun v u : ℕ => ellipsoidPoint d.radius (Real.pi * v / (max 2 d.segsY : ℕ)) (2 * Real.pi * u / (max 3 d.segsX : ℕ))
      NewFaces m m' (grid (max 2 d.segsY) (max 3 d.segsX) fun v u =>
        quad d.alternateGrid u v (E v u) (E v (u + 1)) (E (v + 1) (u + 1)) (E (v + 1) u)) := by
  have h1 : 3 ≤ max 3 d.segsX := le_max_left _ _
  have h2 : 2 ≤ max 2 d.segsY := le_max_left _ _
  simp only [genEllipsoid]
  generalize max 3 d.segsX = U at *
  generalize max 2 d.segsY = V at *
  have hU : U + 1 < 2 ^ 32 := by have := Nat.mul_le_mul_right (U + 1) (show 3 ≤ V + 1 by omega); omega
  have hV : V + 1 < 2 ^ 32 := by have := Nat.mul_le_mul_left (V + 1) (show 4 ≤ U + 1 by omega); omega
  rw [ellipsoidVerts_ok _ _ _ _ hU hV, Res.bind_ok, gridTris_ok _ _ _ _ _ _ (by omega) (by omega), ext_ext]
  refine ⟨_, rfl, _, rfl, ?_⟩
  rw [List.nil_append]
  rw [gridTrisIx_faces (f := ellV d.radius U V) _ _ _ _ _ ?_ hb]
  · rfl
  · exact stored_append _ _ _ _

example := C43_faces ⟨⟨4, 2, 3⟩, 5, 4, true⟩ ⟨[], []⟩ (by norm_num)

/-- C43 is violated for the largest number of segments: the loop does not end (the counter never exceeds the bound). -/
theorem C43_endless_refuted (d : EllipsoidDesc) (m : M) (h : d.segsX = 2 ^ 32 - 1) : genEllipsoid d m = .fuel := by
  simp only [genEllipsoid]
  rw [show max 3 d.segsX = 2 ^ 32 - 1 by rw [h]; norm_num]
  have : ellipsoidVerts d.radius (2 ^ 32 - 1) (max 2 d.segsY) m = .fuel := by
    unfold ellipsoidVerts
    exact forLe_fuel _ _ _ _ (by omega) (forLe_diverges _ _ _ (by norm_num) fun _ _ => ⟨_, rfl⟩)
  rw [this]
  rfl

example := C43_endless_refuted ⟨⟨4, 2, 3⟩, 2 ^ 32 - 1, 4, true⟩ ⟨[], []⟩ rfl

/-- C43 is violated for more than 2^32 vertices: the indices of the triangles have 32 bits, so the last vertex, a
corner of the last cell, is not used by any triangle. -/
theorem C43_range_refuted (d : EllipsoidDesc) (hU : max 3 d.segsX + 1 < 2 ^ 32) (hV : max 2 d.segsY + 1 < 2 ^ 32)
    (hb : 2 ^ 32 < (max 2 d.segsY + 1) * (max 3 d.segsX + 1)) : ∃ m' : M, genEllipsoid d ⟨[], []⟩ = .ok m' ∧
    m'.vertices.length = (max 2 d.segsY + 1) * (max 3 d.segsX + 1) ∧
    ∀ t ∈ m'.triangles, ∀ i ∈ [t.a, t.b, t.c], i ≠ m'.vertices.length - 1 := by
  simp only [genEllipsoid]
  generalize max 3 d.segsX = U at *
  generalize max 2 d.segsY = V at *
  rw [ellipsoidVerts_ok _ _ _ _ hU hV, Res.bind_ok, gridTris_ok _ _ _ _ _ _ (by omega) (by omega), ext_ext]
  have hl : (ext (⟨[], []⟩ : M) (gridV (V + 1) (U + 1) (ellV d.radius U V) ++ []) ([] ++ gridTrisIx false d.alternateGrid U V 0)).vertices.length =
      (V + 1) * (U + 1) := by
    simp only [ext, List.nil_append, List.append_nil]
    rw [gridV_length]
  refine ⟨_, rfl, hl, ?_⟩
  intro t ht i hi
  erw [hl]
  simp only [ext, List.nil_append] at ht
  obtain ⟨v, u, _, _, ht⟩ := gridT_mem.1 ht
  have hw : ∀ x, 0 + w32 x < 2 ^ 32 := fun x => by rw [Nat.zero_add]; exact Nat.mod_lt _ (by norm_num)
  have : i < 2 ^ 32 := by
    rcases cellIx_mem ht i hi with h | h | h | h <;> rw [h] <;> exact hw _
  omega

/-- Such a descriptor. -/
example : 2 ^ 32 < (max 2 65536 + 1) * (max 3 65536 + 1) ∧ max 3 65536 + 1 < 2 ^ 32 := by norm_num

/-- The sphere of the default descriptor. -/
example : max 3 20 + 1 < 2 ^ 32 ∧ (max 2 10 + 1) * (max 3 20 + 1) ≤ 2 ^ 32 := by norm_num

/-! C46. -/

noncomputable def torV (ring : V2 ℝ) (tube : V3 ℝ) (U V v u : ℕ) : Vertex ℝ :=
  ⟨torusPoint ring tube (2 * Real.pi * v / V) (2 * Real.pi * u / U), tubeNormal tube (2 * Real.pi * v / V) (2 * Real.pi * u / U),
    ⟨-(u / U), v / V⟩⟩

theorem torusVerts_ok (ring : V2 ℝ) (tube : V3 ℝ) (U V : ℕ) (m : M) (hU : U + 1 < 2 ^ 32) (hV : V + 1 < 2 ^ 32) :
    torusVerts ring tube U V m = .ok (ext m (gridV (V + 1) (U + 1) (torV ring tube U V)) []) := by
  refine forLe_grid V U _ _ m hV hU fun v u m => ?_
  dsimp only
  rw [add_eq, torV]
  rw [show (v : ℝ) * (1 / V) * (Real.pi * 2) = 2 * Real.pi * v / V by ring, show (u : ℝ) * (1 / U) * (Real.pi * 2) = 2 * Real.pi * u / U by ring]
  rw [show (u : ℝ) * (1 / U) = u / U by ring, show (v : ℝ) * (1 / V) = v / V by ring]
  congr 4
  ext <;> simp [torusPoint] <;> ring

/-- C46: for each number of segments for which the loops end, the torus is appended. -/
theorem C46_appends (d : TorusDesc) (m : M) (hU : max 3 d.segsX + 1 < 2 ^ 32) (hV : max 3 d.segsY + 1 < 2 ^ 32) :
    ∃ m', genTorus d m = .ok m' ∧ Grows m m' ((max 3 d.segsX + 1) * (max 3 d.segsY + 1)) (2 * (max 3 d.segsX * max 3 d.segsY))
      fun v => OnTorus d.ringRadius d.tubeRadius v.position := by
  simp only [genTorus]
  generalize max 3 d.segsX = U at *
  generalize max 3 d.segsY = V at *
  rw [torusVerts_ok _ _ _ _ _ hU hV, Res.bind_ok, gridTris_ok _ _ _ _ _ _ (by omega) (by omega), ext_ext]
  refine ⟨_, rfl, grows_ext m _ _ _ _ _ ?_ ?_ ?_ ?_⟩
  · rw [List.append_nil, gridV_length]; ring
  · rw [List.nil_append, gridTrisIx_length]
  · intro x hx
    rw [List.append_nil] at hx
    obtain ⟨r, c, _, _, rfl⟩ := gridV_mem.1 hx
    exact ⟨_, _, rfl⟩
  · intro t ht i hi
    rw [List.nil_append] at ht
    have := gridTrisIx_mem _ _ _ _ _ ht i hi
    rwa [Nat.mul_comm (V + 1)] at this

example := C46_appends ⟨⟨4, 2⟩, ⟨2, 3, 1⟩, 5, 4, true⟩ ⟨[], []⟩ (by norm_num) (by norm_num)

/-- C46: the faces, if the number of vertices does not exceed 2^32. -/
theorem C46_faces (d : TorusDesc) (m : M) (hb : (max 3 d.segsY + 1) * (max 3 d.segsX + 1) ≤ 2 ^ 32) :
    ∃ m', genTorus d m = .ok m' ∧
      let T := fun v u : ℕ => torusPoint d.ringRadius d.tubeRadius (2 * Real.pi * v / (max 3 d.segsY : ℕ)) (2 * Real.pi * u / (max 3 d.segsX : ℕ))
      NewFaces m m' (grid (max 3 d.segsY) (max 3 d.segsX) fun v u =>
        quad d.alternateGrid u v (T v (u + 1)) (T v u) (T (v + 1) u) (T (v + 1) (u + 1))) := by
  have h1 : 3 ≤ max 3 d.segsX := le_max_left _ _
  have h2 : 3 ≤ max 3 d.segsY := le_max_left _ _
  simp only [genTorus]
  generalize max 3 d.segsX = U at *
  generalize max 3 d.segsY = V at *
  have hU : U + 1 < 2 ^ 32 := by have := Nat.mul_le_mul_right (U + 1) (show 3 ≤ V + 1 by omega); omega
  have hV : V + 1 < 2 ^ 32 := by have := Nat.mul_le_mul_left (V + 1) (show 4 ≤ U + 1 by omega); omega
  rw [torusVerts_ok _ _ _ _ _ hU hV, Res.bind_ok, gridTris_ok _ _ _ _ _ _ (by omega) (by omega), ext_ext]
  refine ⟨_, rfl, _, rfl, ?_⟩
  rw [List.nil_append]
  rw [gridTrisIx_faces (f := torV d.ringRadius d.tubeRadius U V) _ _ _ _ _ ?_ hb]
  · rfl
  · exact stored_append _ _ _ _

example := C46_faces ⟨⟨4, 2⟩, ⟨2, 3, 1⟩, 5, 4, true⟩ ⟨[], []⟩ (by norm_num)

/-- C46: the equation of a torus of revolution. -/
theorem C46_equation (R r : ℝ) (p : V3 ℝ) (h : OnTorus ⟨R, R⟩ ⟨r, r, r⟩ p) :
    (p.x ^ 2 + p.y ^ 2 + p.z ^ 2 + R ^ 2 - r ^ 2) ^ 2 = 4 * R ^ 2 * (p.x ^ 2 + p.z ^ 2) ∧
    (r ≤ R → 0 ≤ r → (√(p.x ^ 2 + p.z ^ 2) - R) ^ 2 + p.y ^ 2 = r ^ 2) := by
  obtain ⟨t, f, rfl⟩ := h
  simp only [torusPoint]
  have h1 := Real.sin_sq_add_cos_sq t
  have h2 := Real.sin_sq_add_cos_sq f
  have e : (Real.sin f * (R + r * Real.sin t)) ^ 2 + (Real.cos f * (R + r * Real.sin t)) ^ 2 = (R + r * Real.sin t) ^ 2 := by
    linear_combination (R + r * Real.sin t) ^ 2 * h2
  constructor
  · have e2 : (Real.sin f * (R + r * Real.sin t)) ^ 2 + (r * Real.cos t) ^ 2 + (Real.cos f * (R + r * Real.sin t)) ^ 2 + R ^ 2 - r ^ 2 =
        2 * R * (R + r * Real.sin t) := by
      linear_combination e + r ^ 2 * h1
    rw [e2, e]; ring
  · intro hr h0
    have : 0 ≤ R + r * Real.sin t := by nlinarith [Real.neg_one_le_sin t]
    rw [e, Real.sqrt_sq this]
    linear_combination r ^ 2 * h1

example := C46_equation 4 1 (torusPoint ⟨4, 4⟩ ⟨1, 1, 1⟩ 1 2) ⟨1, 2, rfl⟩

/-- C46: at the seams the first and the last row and column coincide, so the surface has no gap. -/
theorem C46_seam (ring : V2 ℝ) (tube : V3 ℝ) (U V v u : ℕ) (hU : 0 < U) (hV : 0 < V) :
    torusPoint ring tube (2 * Real.pi * V / V) (2 * Real.pi * u / U) = torusPoint ring tube (2 * Real.pi * (0 : ℕ) / V) (2 * Real.pi * u / U) ∧
    torusPoint ring tube (2 * Real.pi * v / V) (2 * Real.pi * U / U) = torusPoint ring tube (2 * Real.pi * v / V) (2 * Real.pi * (0 : ℕ) / U) := by
  have a : (V : ℝ) ≠ 0 := by positivity
  have b : (U : ℝ) ≠ 0 := by positivity
  constructor <;> simp [torusPoint, mul_div_assoc, div_self a, div_self b]

example := C46_seam ⟨4, 2⟩ ⟨1, 2, 1⟩ 5 4 2 3 (by norm_num) (by norm_num)

/-- C46: the normals are unit vectors for nonzero radii. -/
theorem C46_normal (tube : V3 ℝ) (t f : ℝ) (hx : tube.x ≠ 0) (hy : tube.y ≠ 0) (hz : tube.z ≠ 0) : (tubeNormal tube t f).lenSq = 1 := by
  have hne : (⟨Real.sin f * Real.sin t / tube.x, Real.cos t / tube.y, Real.cos f * Real.sin t / tube.z⟩ : V3 ℝ) ≠ 0 := by
    intro h
    have h1 := congrArg V3.x h
    have h2 := congrArg V3.y h
    have h3 := congrArg V3.z h
    simp only [V3.zero_x, V3.zero_y, V3.zero_z, div_eq_zero_iff, hx, hy, hz, or_false] at h1 h2 h3
    have a := Real.sin_sq_add_cos_sq t
    have b := Real.sin_sq_add_cos_sq f
    rw [h2] at a
    have : (Real.sin f * Real.sin t) ^ 2 + (Real.cos f * Real.sin t) ^ 2 = (Real.sin t) ^ 2 := by
      linear_combination (Real.sin t) ^ 2 * b
    rw [h1, h3] at this
    nlinarith
  have := Plane.Props.normalizeVec_unit hne
  simpa [tubeNormal, V3.lenSq, V3.dot] using this

/-- The torus of the default descriptor, and a point of it. -/
example : (max 3 20 + 1) * (max 3 40 + 1) ≤ 2 ^ 32 := by norm_num
example : OnTorus ⟨1 / 2, 1 / 2⟩ ⟨1 / 4, 1 / 4, 1 / 4⟩ ⟨0, 1 / 4, 1 / 2⟩ := ⟨0, 0, by simp [torusPoint]⟩

/-! C42. -/

noncomputable def faceV (rotation : V3 ℝ → V3 ℝ) (sh sv oz : ℝ) (H V i j : ℕ) : Vertex ℝ :=
  ⟨rotation ⟨sh * (j / H) - sh / 2, sv * (i / V) - sv / 2, oz / 2⟩, rotation ⟨0, 0, -1⟩, ⟨j / H, 1 - i / V⟩⟩

theorem buildFace_ok (m : M) (rotation : V3 ℝ → V3 ℝ) (sh sv oz : ℝ) (H V : ℕ) (alt : Bool) (hH : H + 1 < 2 ^ 32) (hV : V + 1 < 2 ^ 32) :
    buildFace m rotation sh sv oz H V alt =
      .ok (ext m (gridV (V + 1) (H + 1) (faceV rotation sh sv oz H V)) (faceTrisIx false alt H V m.vertices.length)) := by
  have e : faceVerts rotation sh sv (oz / 2) H V m = .ok (ext m (gridV (V + 1) (H + 1) (faceV rotation sh sv oz H V)) []) := by
    refine forLe_grid V H _ _ m hV hH fun v u m => ?_
    dsimp only
    rw [add_eq, faceV]
    rw [show 1 / (H : ℝ) * u = u / H by ring, show 1 / (V : ℝ) * v = v / V by ring]
  simp only [buildFace]
  rw [e, Res.bind_ok, faceTris_ok _ _ _ _ _ _ (by omega) (by omega), ext_ext, List.append_nil, List.nil_append]

/-- One face: it appends a grid; the triangles use the vertices of this face. -/
theorem face_grows (m : M) (rotation : V3 ℝ → V3 ℝ) (sh sv oz : ℝ) (H V : ℕ) (alt : Bool) (hH : H + 1 < 2 ^ 32) (hV : V + 1 < 2 ^ 32)
    (P : Vertex ℝ → Prop) (hP : ∀ i j, i ≤ V → j ≤ H → P (faceV rotation sh sv oz H V i j)) :
    ∃ m', buildFace m rotation sh sv oz H V alt = .ok m' ∧ Grows m m' ((H + 1) * (V + 1)) (2 * (H * V)) P := by
  rw [buildFace_ok _ _ _ _ _ _ _ _ hH hV]
  refine ⟨_, rfl, grows_ext m _ _ _ _ _ ?_ ?_ ?_ ?_⟩
  · rw [gridV_length]; ring
  · rw [faceTrisIx_length]
  · intro x hx
    obtain ⟨r, c, hr, hc, rfl⟩ := gridV_mem.1 hx
    exact hP _ _ (by omega) (by omega)
  · intro t ht i hi
    have := faceTrisIx_mem _ _ _ _ _ ht i hi
    rwa [Nat.mul_comm (V + 1)] at this

/-- Appending twice. -/
theorem grows_trans {m m1 m2 : M} {a b c d : ℕ} {P : Vertex ℝ → Prop} (h : Grows m m1 a b P) (h' : Grows m1 m2 c d P) :
    Grows m m2 (a + c) (b + d) P := by
  obtain ⟨⟨v1, e1, l1, p1⟩, ⟨t1, f1, k1, q1⟩⟩ := h
  obtain ⟨⟨v2, e2, l2, p2⟩, ⟨t2, f2, k2, q2⟩⟩ := h'
  refine ⟨⟨v1 ++ v2, by rw [e2, e1, List.append_assoc], by rw [List.length_append, l1, l2], ?_⟩,
    ⟨t1 ++ t2, by rw [f2, f1, List.append_assoc], by rw [List.length_append, k1, k2], ?_⟩⟩
  · intro v hv
    rcases List.mem_append.1 hv with h | h
    · exact p1 v h
    · exact p2 v h
  · intro t ht i hi
    rcases List.mem_append.1 ht with h | h
    · have := q1 t h i hi; omega
    · have := q2 t h i hi
      rw [e1, List.length_append, l1] at this
      omega

/-- Faces appended twice: the first ones are not changed by the second step. -/
theorem newFaces_trans {m m1 m2 : M} {a b : List Face} {vs : List (Vertex ℝ)} (hv : m2.vertices = m1.vertices ++ vs)
    (h : NewFaces m m1 a) (h' : NewFaces m1 m2 b) : NewFaces m m2 (a ++ b) := by
  obtain ⟨t1, e1, f1⟩ := h
  obtain ⟨t2, e2, f2⟩ := h'
  refine ⟨t1 ++ t2, by rw [e2, e1, List.append_assoc], ?_⟩
  rw [List.map_append, List.map_append, f2, ← f1]
  congr 1
  apply List.map_congr_left
  intro t ht
  have hs : ∃ x, face m1 t = some x := by
    have : face m1 t ∈ t1.map (face m1) := List.mem_map_of_mem ht
    rw [f1] at this
    obtain ⟨x, _, hx⟩ := List.mem_map.1 this
    exact ⟨x, hx.symm⟩
  obtain ⟨x, hx⟩ := hs
  rw [hx]
  unfold face at hx
  split at hx
  · rename_i p q r h1 h2 h3
    injection hx with hx
    subst hx
    have up : ∀ {i : ℕ} {y : Vertex ℝ}, m1.vertices[i]? = some y → m2.vertices[i]? = some y := by
      intro i y hy
      rw [hv, List.getElem?_append_left ((List.getElem?_eq_some_iff.1 hy).1), hy]
    exact face_some (up h1) (up h2) (up h3)
  · cases hx

/-- The faces of one face of the cuboid. -/
theorem face_faces (m : M) (rotation : V3 ℝ → V3 ℝ) (sh sv oz : ℝ) (H V : ℕ) (alt : Bool) (hH : 1 ≤ H) (hV : 1 ≤ V)
    (hb : (V + 1) * (H + 1) ≤ 2 ^ 32) (F : ℕ → ℕ → V3 ℝ)
    (hF : ∀ i j : ℕ, rotation ⟨sh * (j / H) - sh / 2, sv * (i / V) - sv / 2, oz / 2⟩ = F i j) :
    ∃ m' vs, buildFace m rotation sh sv oz H V alt = .ok m' ∧ m'.vertices = m.vertices ++ vs ∧
      NewFaces m m' (grid V H fun v u => quad alt u v (F v u) (F (v + 1) u) (F (v + 1) (u + 1)) (F v (u + 1))) := by
  have hU' : H + 1 < 2 ^ 32 := by have := Nat.mul_le_mul_right (H + 1) (show 2 ≤ V + 1 by omega); omega
  have hV' : V + 1 < 2 ^ 32 := by have := Nat.mul_le_mul_left (V + 1) (show 2 ≤ H + 1 by omega); omega
  rw [buildFace_ok _ _ _ _ _ _ _ _ hU' hV']
  refine ⟨_, _, rfl, rfl, _, rfl, ?_⟩
  have hs : Stored (ext m (gridV (V + 1) (H + 1) (faceV rotation sh sv oz H V)) (faceTrisIx false alt H V m.vertices.length)) m.vertices.length
      (gridV (V + 1) (H + 1) (faceV rotation sh sv oz H V)) := by
    have := stored_append m.vertices (gridV (V + 1) (H + 1) (faceV rotation sh sv oz H V)) []
      (m.triangles ++ faceTrisIx false alt H V m.vertices.length)
    rwa [List.append_nil] at this
  rw [faceTrisIx_faces _ _ _ _ _ hs hb]
  simp only [cellF, faceV, hF]
  rfl

theorem frac_bounds (s : ℝ) (k n : ℕ) (h : k ≤ n) : |s * ((k : ℝ) / n) - s / 2| ≤ |s| / 2 := by
  have h0 : (0 : ℝ) ≤ (k : ℝ) / n := by positivity
  have h1 : (k : ℝ) / n ≤ 1 := by
    rcases Nat.eq_zero_or_pos n with h' | h'
    · subst h'; simp
    · rw [div_le_one (by exact_mod_cast h')]; exact_mod_cast h
  have e : s * ((k : ℝ) / n) - s / 2 = s * ((k : ℝ) / n - 1 / 2) := by ring
  rw [e, abs_mul]
  have : |(k : ℝ) / n - 1 / 2| ≤ 1 / 2 := abs_le.2 ⟨by linarith, by linarith⟩
  have := mul_le_mul_of_nonneg_left this (abs_nonneg s)
  linarith

theorem rotY_pi (σ : ℝ) (hσ : σ = 1 ∨ σ = -1) (v : V3 ℝ) : rotY (σ * Real.pi) v = ⟨-v.x, v.y, -v.z⟩ := by
  rcases hσ with rfl | rfl <;> simp [rotY]

theorem rotY_half (σ : ℝ) (hσ : σ = 1 ∨ σ = -1) (v : V3 ℝ) : rotY (σ * (Real.pi / 2)) v = ⟨σ * v.z, v.y, -σ * v.x⟩ := by
  rcases hσ with rfl | rfl <;> simp [rotY]

theorem rotY_neg (σ : ℝ) (hσ : σ = 1 ∨ σ = -1) (v : V3 ℝ) : rotY (σ * -(Real.pi / 2)) v = ⟨-σ * v.z, v.y, σ * v.x⟩ := by
  rcases hσ with rfl | rfl <;> simp [rotY]

theorem rotX_half (σ : ℝ) (hσ : σ = 1 ∨ σ = -1) (v : V3 ℝ) : rotX (σ * (Real.pi / 2)) v = ⟨v.x, -σ * v.z, σ * v.y⟩ := by
  rcases hσ with rfl | rfl <;> simp [rotX]

theorem rotX_neg (σ : ℝ) (hσ : σ = 1 ∨ σ = -1) (v : V3 ℝ) : rotX (σ * -(Real.pi / 2)) v = ⟨v.x, σ * v.z, -σ * v.y⟩ := by
  rcases hσ with rfl | rfl <;> simp [rotX]

/-- The property of the vertices of a cuboid: on the surface, with a unit normal that points outward. -/
def CuboidVertex (s : V3 ℝ) (v : Vertex ℝ) : Prop :=
  OnBox s v.position ∧ UnitNormal v ∧ (0 ≤ s.x → 0 ≤ s.y → 0 ≤ s.z → ∀ q, OnBox s q → V3.dot v.normal q ≤ V3.dot v.normal v.position)

theorem abs_half (s : ℝ) : |-s / 2| = |s| / 2 := by rw [abs_div, abs_neg]; norm_num

theorem sign_abs {σ : ℝ} (hσ : σ = 1 ∨ σ = -1) (x : ℝ) : |σ * x| = |x| ∧ |-σ * x| = |x| := by
  rcases hσ with rfl | rfl <;> simp

/-- C42: for each number of segments for which the loops end, and each sense of rotation of the quaternions, the cuboid is
appended; each vertex is on the surface of the box, and its normal is a unit vector that points outward. -/
theorem C42_appends (sx sy : ℝ) (hx : sx = 1 ∨ sx = -1) (hy : sy = 1 ∨ sy = -1) (d : CuboidDesc) (m : M)
    (h1 : max 1 d.segsX + 1 < 2 ^ 32) (h2 : max 1 d.segsY + 1 < 2 ^ 32) (h3 : max 1 d.segsZ + 1 < 2 ^ 32) :
    let X := max 1 d.segsX
    let Y := max 1 d.segsY
    let Z := max 1 d.segsZ
    ∃ m', genCuboid sx sy d m = .ok m' ∧ Grows m m' (2 * ((X + 1) * (Y + 1) + (Z + 1) * (Y + 1) + (X + 1) * (Z + 1)))
      (4 * (X * Y + Z * Y + X * Z)) (CuboidVertex d.size) := by
  intro X Y Z
  have key : ∀ (a b c n1 n2 n3 : ℝ) (o : V3 ℝ), (|a| ≤ |d.size.x| / 2 ∧ |b| ≤ |d.size.y| / 2 ∧ |c| ≤ |d.size.z| / 2) → 
      (n1 ^ 2 + n2 ^ 2 + n3 ^ 2 = 1) →
      ((|a| = |d.size.x| / 2 ∧ n2 = 0 ∧ n3 = 0 ∧ (0 ≤ d.size.x → n1 * a = d.size.x / 2)) ∨
       (|b| = |d.size.y| / 2 ∧ n1 = 0 ∧ n3 = 0 ∧ (0 ≤ d.size.y → n2 * b = d.size.y / 2)) ∨
       (|c| = |d.size.z| / 2 ∧ n1 = 0 ∧ n2 = 0 ∧ (0 ≤ d.size.z → n3 * c = d.size.z / 2))) → ∀ t,
      CuboidVertex d.size ⟨⟨a, b, c⟩, ⟨n1, n2, n3⟩, t⟩ := by
    intro a b c n1 n2 n3 _ hin hn hc t
    refine ⟨⟨hin.1, hin.2.1, hin.2.2, ?_⟩, hn, ?_⟩
    · rcases hc with h | h | h
      · exact .inl h.1
      · exact .inr (.inl h.1)
      · exact .inr (.inr h.1)
    · intro p1 p2 p3 q hq
      obtain ⟨q1, q2, q3, _⟩ := hq
      simp only [V3.dot]
      rw [abs_of_nonneg p1] at q1
      rw [abs_of_nonneg p2] at q2
      rw [abs_of_nonneg p3] at q3
      have one : ∀ n x s : ℝ, n ^ 2 = 1 → |x| ≤ s → n * x ≤ s := by
        intro n x s hn hx
        have := abs_le.1 hx
        rcases sq_eq_one_iff.1 hn with rfl | rfl <;> linarith
      rcases hc with ⟨_, e1, e2, h⟩ | ⟨_, e1, e2, h⟩ | ⟨_, e1, e2, h⟩
      · subst e1 e2
        have := one n1 q.x _ (by linarith) q1
        linarith [h p1]
      · subst e1 e2
        have := one n2 q.y _ (by linarith) q2
        linarith [h p2]
      · subst e1 e2
        have := one n3 q.z _ (by linarith) q3
        linarith [h p3]
  have fx := frac_bounds d.size.x
  have fy := frac_bounds d.size.y
  have fz := frac_bounds d.size.z
  have sx2 : sx ^ 2 = 1 := by rcases hx with rfl | rfl <;> norm_num
  have sy2 : sy ^ 2 = 1 := by rcases hy with rfl | rfl <;> norm_num
  simp only [genCuboid]
  obtain ⟨m1, e1, g1⟩ := face_grows m id d.size.x d.size.y (-d.size.z) X Y d.alternateGrid h1 h2 (CuboidVertex d.size) (by
    intro i j hi hj
    refine key _ _ _ _ _ _ 0 ⟨fx _ _ hj, fy _ _ hi, ?_⟩ ?_ (.inr (.inr ⟨?_, rfl, rfl, ?_⟩)) _
    · exact (abs_half _).le
    · norm_num
    · exact abs_half _
    · intro _; ring)
  obtain ⟨m2, e2, g2⟩ := face_grows m1 (rotY (sy * Real.pi)) d.size.x d.size.y (-d.size.z) X Y d.alternateGrid h1 h2 (CuboidVertex d.size) (by
    intro i j hi hj
    simp only [faceV, rotY_pi sy hy]
    refine key _ _ _ _ _ _ 0 ⟨?_, fy _ _ hi, ?_⟩ ?_ (.inr (.inr ⟨?_, neg_zero, rfl, ?_⟩)) _
    · rw [abs_neg]; exact fx _ _ hj
    · rw [abs_neg]; exact (abs_half _).le
    · norm_num
    · rw [abs_neg]; exact abs_half _
    · intro _; ring)
  obtain ⟨m3, e3, g3⟩ := face_grows m2 (rotY (sy * -(Real.pi / 2))) d.size.z d.size.y (-d.size.x) Z Y d.alternateGrid h3 h2 (CuboidVertex d.size) (by
    intro i j hi hj
    simp only [faceV, rotY_neg sy hy]
    refine key _ _ _ _ _ _ 0 ⟨?_, fy _ _ hi, ?_⟩ ?_ (.inl ⟨?_, rfl, by ring, ?_⟩) _
    · rw [(sign_abs hy _).2]; exact (abs_half _).le
    · rw [(sign_abs hy _).1]; exact fz _ _ hj
    · linear_combination sy2
    · rw [(sign_abs hy _).2]; exact abs_half _
    · intro _; linear_combination d.size.x / 2 * sy2)
  obtain ⟨m4, e4, g4⟩ := face_grows m3 (rotY (sy * (Real.pi / 2))) d.size.z d.size.y (-d.size.x) Z Y d.alternateGrid h3 h2 (CuboidVertex d.size) (by
    intro i j hi hj
    simp only [faceV, rotY_half sy hy]
    refine key _ _ _ _ _ _ 0 ⟨?_, fy _ _ hi, ?_⟩ ?_ (.inl ⟨?_, rfl, by ring, ?_⟩) _
    · rw [(sign_abs hy _).1]; exact (abs_half _).le
    · rw [(sign_abs hy _).2]; exact fz _ _ hj
    · linear_combination sy2
    · rw [(sign_abs hy _).1]; exact abs_half _
    · intro _; linear_combination d.size.x / 2 * sy2)
  obtain ⟨m5, e5, g5⟩ := face_grows m4 (rotX (sx * (Real.pi / 2))) d.size.x d.size.z (-d.size.y) X Z d.alternateGrid h1 h3 (CuboidVertex d.size) (by
    intro i j hi hj
    simp only [faceV, rotX_half sx hx]
    refine key _ _ _ _ _ _ 0 ⟨fx _ _ hj, ?_, ?_⟩ ?_ (.inr (.inl ⟨?_, rfl, by ring, ?_⟩)) _
    · rw [(sign_abs hx _).2]; exact (abs_half _).le
    · rw [(sign_abs hx _).1]; exact fz _ _ hi
    · linear_combination sx2
    · rw [(sign_abs hx _).2]; exact abs_half _
    · intro _; linear_combination d.size.y / 2 * sx2)
  obtain ⟨m6, e6, g6⟩ := face_grows m5 (rotX (sx * -(Real.pi / 2))) d.size.x d.size.z (-d.size.y) X Z d.alternateGrid h1 h3 (CuboidVertex d.size) (by
    intro i j hi hj
    simp only [faceV, rotX_neg sx hx]
    refine key _ _ _ _ _ _ 0 ⟨fx _ _ hj, ?_, ?_⟩ ?_ (.inr (.inl ⟨?_, rfl, by ring, ?_⟩)) _
    · rw [(sign_abs hx _).1]; exact (abs_half _).le
    · rw [(sign_abs hx _).2]; exact fz _ _ hi
    · linear_combination sx2
    · rw [(sign_abs hx _).1]; exact abs_half _
    · intro _; linear_combination d.size.y / 2 * sx2)
  refine ⟨m6, ?_, ?_⟩
  · rw [e1, Res.bind_ok, e2, Res.bind_ok, e3, Res.bind_ok, e4, Res.bind_ok, e5, Res.bind_ok, e6]
  · have := grows_trans (grows_trans (grows_trans (grows_trans (grows_trans g1 g2) g3) g4) g5) g6
    convert this using 1 <;> ring

example := C42_appends 1 1 (by norm_num) (by norm_num) ⟨⟨4, 1, 3⟩, 3, 2, 1, true⟩ ⟨[], []⟩ (by norm_num) (by norm_num) (by norm_num)

/-- C42: the faces of the cuboid, if no face has more than 2^32 vertices. The sense of rotation of the quaternions decides
which side comes first in the pairs left/right and top/bottom. -/
theorem C42_faces (sx sy : ℝ) (hx : sx = 1 ∨ sx = -1) (hy : sy = 1 ∨ sy = -1) (d : CuboidDesc) (m : M)
    (h1 : (max 1 d.segsY + 1) * (max 1 d.segsX + 1) ≤ 2 ^ 32) (h2 : (max 1 d.segsY + 1) * (max 1 d.segsZ + 1) ≤ 2 ^ 32)
    (h3 : (max 1 d.segsZ + 1) * (max 1 d.segsX + 1) ≤ 2 ^ 32) :
    let X := max 1 d.segsX
    let Y := max 1 d.segsY
    let Z := max 1 d.segsZ
    let at' := fun (s : ℝ) (k n : ℕ) => s * ((k : ℝ) / n) - s / 2
    let cells := fun (H V : ℕ) (F : ℕ → ℕ → V3 ℝ) =>
      grid V H fun v u => quad d.alternateGrid u v (F v u) (F (v + 1) u) (F (v + 1) (u + 1)) (F v (u + 1))
    ∃ m', genCuboid sx sy d m = .ok m' ∧ NewFaces m m'
      (cells X Y (fun i j => ⟨at' d.size.x j X, at' d.size.y i Y, -d.size.z / 2⟩) ++
       cells X Y (fun i j => ⟨-at' d.size.x j X, at' d.size.y i Y, d.size.z / 2⟩) ++
       cells Z Y (fun i j => ⟨sy * (d.size.x / 2), at' d.size.y i Y, sy * at' d.size.z j Z⟩) ++
       cells Z Y (fun i j => ⟨-sy * (d.size.x / 2), at' d.size.y i Y, -sy * at' d.size.z j Z⟩) ++
       cells X Z (fun i j => ⟨at' d.size.x j X, sx * (d.size.y / 2), sx * at' d.size.z i Z⟩) ++
       cells X Z (fun i j => ⟨at' d.size.x j X, -sx * (d.size.y / 2), -sx * at' d.size.z i Z⟩)) := by
  intro X Y Z at' cells
  have p1 : 1 ≤ X := le_max_left _ _
  have p2 : 1 ≤ Y := le_max_left _ _
  have p3 : 1 ≤ Z := le_max_left _ _
  simp only [genCuboid]
  obtain ⟨m1, v1, e1, w1, g1⟩ := face_faces m id d.size.x d.size.y (-d.size.z) X Y d.alternateGrid p1 p2 h1
    (fun i j => ⟨at' d.size.x j X, at' d.size.y i Y, -d.size.z / 2⟩) (fun i j => rfl)
  obtain ⟨m2, v2, e2, w2, g2⟩ := face_faces m1 (rotY (sy * Real.pi)) d.size.x d.size.y (-d.size.z) X Y d.alternateGrid p1 p2 h1
    (fun i j => ⟨-at' d.size.x j X, at' d.size.y i Y, d.size.z / 2⟩) (fun i j => by rw [rotY_pi sy hy]; ext <;> simp only [at'] <;> ring)
  obtain ⟨m3, v3, e3, w3, g3⟩ := face_faces m2 (rotY (sy * -(Real.pi / 2))) d.size.z d.size.y (-d.size.x) Z Y d.alternateGrid p3 p2 h2
    (fun i j => ⟨sy * (d.size.x / 2), at' d.size.y i Y, sy * at' d.size.z j Z⟩)
    (fun i j => by rw [rotY_neg sy hy]; ext <;> simp only [at'] <;> ring)
  obtain ⟨m4, v4, e4, w4, g4⟩ := face_faces m3 (rotY (sy * (Real.pi / 2))) d.size.z d.size.y (-d.size.x) Z Y d.alternateGrid p3 p2 h2
    (fun i j => ⟨-sy * (d.size.x / 2), at' d.size.y i Y, -sy * at' d.size.z j Z⟩)
    (fun i j => by rw [rotY_half sy hy]; ext <;> simp only [at'] <;> ring)
  obtain ⟨m5, v5, e5, w5, g5⟩ := face_faces m4 (rotX (sx * (Real.pi / 2))) d.size.x d.size.z (-d.size.y) X Z d.alternateGrid p1 p3 h3
    (fun i j => ⟨at' d.size.x j X, sx * (d.size.y / 2), sx * at' d.size.z i Z⟩)
    (fun i j => by rw [rotX_half sx hx]; ext <;> simp only [at'] <;> ring)
  obtain ⟨m6, v6, e6, w6, g6⟩ := face_faces m5 (rotX (sx * -(Real.pi / 2))) d.size.x d.size.z (-d.size.y) X Z d.alternateGrid p1 p3 h3
    (fun i j => ⟨at' d.size.x j X, -sx * (d.size.y / 2), -sx * at' d.size.z i Z⟩)
    (fun i j => by rw [rotX_neg sx hx]; ext <;> simp only [at'] <;> ring)
  refine ⟨m6, ?_, ?_⟩
  · rw [e1, Res.bind_ok, e2, Res.bind_ok, e3, Res.bind_ok, e4, Res.bind_ok, e5, Res.bind_ok, e6]
  · exact newFaces_trans w6 (newFaces_trans w5 (newFaces_trans w4 (newFaces_trans w3 (newFaces_trans w2 g1 g2) g3) g4) g5) g6

/-- The default descriptor, and a point of the surface. -/
example : (max 1 1 + 1) * (max 1 1 + 1) ≤ 2 ^ 32 := by norm_num
example : OnBox ⟨2, 2, 2⟩ ⟨1, 1 / 2, 0⟩ := by norm_num [OnBox]

/-! C47, patches. -/

/-- C47: a Bezier patch (any parametrised surface) is appended: counts, old content, new indices; each vertex is the point
of the patch at its parameters. -/
theorem C47_patch (d : PatchDesc) (m : M) (h1 : max 1 d.segsX + 1 < 2 ^ 32) (h2 : max 1 d.segsY + 1 < 2 ^ 32) :
    ∃ m', genBezierPatch d m = .ok m' ∧ Grows m m' ((max 1 d.segsX + 1) * (max 1 d.segsY + 1)) (2 * (max 1 d.segsX * max 1 d.segsY))
      (fun v => v.position = d.bezierPatch v.texCoord.x (if d.backFacing then v.texCoord.y else 1 - v.texCoord.y)) ∧
      ((max 1 d.segsY + 1) * (max 1 d.segsX + 1) ≤ 2 ^ 32 →
        let F := fun v u : ℕ => d.bezierPatch (u / (max 1 d.segsX : ℕ)) (v / (max 1 d.segsY : ℕ))
        NewFaces m m' (grid (max 1 d.segsY) (max 1 d.segsX) fun v u =>
          if d.backFacing then quad d.alternateGrid u v (F (v + 1) u) (F v u) (F v (u + 1)) (F (v + 1) (u + 1))
          else quad d.alternateGrid u v (F v u) (F (v + 1) u) (F (v + 1) (u + 1)) (F v (u + 1)))) := by
  simp only [genBezierPatch]
  generalize max 1 d.segsX = H at *
  generalize max 1 d.segsY = V at *
  obtain ⟨f, hf, hp, hq⟩ : ∃ f : ℕ → ℕ → Vertex ℝ, (patchVerts d H V m = .ok (ext m (gridV (V + 1) (H + 1) f) [])) ∧
      (∀ i j, (f i j).position = d.bezierPatch (f i j).texCoord.x (if d.backFacing then (f i j).texCoord.y else 1 - (f i j).texCoord.y)) ∧
      ∀ i j : ℕ, (f i j).position = d.bezierPatch (j / H) (i / V) := by
    refine ⟨fun i j =>
      let tx := (j : ℝ) / H
      let ty := (i : ℝ) / V
      let normal := Plane.normalizeVec (V3.cross (d.bezierPatch (tx + 1 / 100) ty - d.bezierPatch tx ty) (d.bezierPatch tx (ty + 1 / 100) - d.bezierPatch tx ty))
      ⟨d.bezierPatch tx ty, if d.backFacing then normal else -normal, ⟨tx, if d.backFacing then ty else 1 - ty⟩⟩, ?_, ?_, ?_⟩
    · refine forLe_grid V H _ _ m h2 h1 fun v u m => ?_
      dsimp only
      rw [show (u : ℝ) * (1 / H) = u / H by ring, show (v : ℝ) * (1 / V) = v / V by ring]
      cases d.backFacing <;> simp [add_eq]
    · intro i j
      cases d.backFacing <;> simp
    · intro i j; rfl
  rw [hf, Res.bind_ok, faceTris_ok _ _ _ _ _ _ (by omega) (by omega), ext_ext, List.append_nil, List.nil_append]
  refine ⟨_, rfl, grows_ext m _ _ _ _ _ ?_ ?_ ?_ ?_, fun hb => ⟨_, rfl, ?_⟩⟩
  · rw [gridV_length]; ring
  · rw [faceTrisIx_length]
  · intro x hx
    obtain ⟨r, c, hr, hc, rfl⟩ := gridV_mem.1 hx
    exact hp _ _
  · intro t ht i hi
    have := faceTrisIx_mem _ _ _ _ _ ht i hi
    rwa [Nat.mul_comm (V + 1)] at this
  · have hs : Stored (ext m (gridV (V + 1) (H + 1) f) (faceTrisIx d.backFacing d.alternateGrid H V m.vertices.length)) m.vertices.length
        (gridV (V + 1) (H + 1) f) := by
      have := stored_append m.vertices (gridV (V + 1) (H + 1) f) [] (m.triangles ++ faceTrisIx d.backFacing d.alternateGrid H V m.vertices.length)
      rwa [List.append_nil] at this
    rw [faceTrisIx_faces _ _ _ _ _ hs hb]
    simp only [cellF, hq]

/-- A plane patch. -/
example : ∃ d : PatchDesc, d.bezierPatch = (fun u v => ⟨u, v, 0⟩) ∧ max 1 d.segsX + 1 < 2 ^ 32 ∧ (max 1 d.segsY + 1) * (max 1 d.segsX + 1) ≤ 2 ^ 32 :=
  ⟨⟨fun u v => ⟨u, v, 0⟩, 10, 10, false, true⟩, rfl, by norm_num, by norm_num⟩

/-! C48. -/

/-- C48: `AddTriangulatedQuad` adds two triangles; their six directed edges are the four edges of the quad and one of its
diagonals in both directions; the alternating grid only selects the diagonal. -/
theorem C48 (m : M) (alt : Bool) (u v i0 i1 i2 i3 off : ℕ) : ∃ ts, (addQuad m alt u v i0 i1 i2 i3 off).triangles = m.triangles ++ ts ∧
    (addQuad m alt u v i0 i1 i2 i3 off).vertices = m.vertices ∧ ts.length = 2 ∧
    (ts.flatMap dirEdges).Perm ([(off + i0, off + i1), (off + i1, off + i2), (off + i2, off + i3), (off + i3, off + i0)] ++
      if alt = true ∧ (u + v) % 2 = 1 then [(off + i1, off + i3), (off + i3, off + i1)] else [(off + i0, off + i2), (off + i2, off + i0)]) := by
  rw [addQuad_eq]
  refine ⟨_, rfl, by simp [ext], quadIx_length .., ?_⟩
  unfold quadIx
  generalize off + i0 = a
  generalize off + i1 = b
  generalize off + i2 = c
  generalize off + i3 = d
  rw [List.perm_iff_count]
  intro e
  split_ifs <;> simp only [List.flatMap_cons, List.flatMap_nil, dirEdges, List.cons_append, List.nil_append, List.append_nil, List.count_cons, List.count_nil] <;> omega

/-- Both diagonals. -/
example : (addQuad ⟨[], []⟩ true 0 0 0 1 2 3 4).triangles = [⟨4, 5, 6⟩, ⟨4, 6, 7⟩] ∧
    (addQuad ⟨[], []⟩ true 0 1 0 1 2 3 4).triangles = [⟨4, 5, 7⟩, ⟨5, 6, 7⟩] := by
  constructor <;> rfl

end Geom.Gen
