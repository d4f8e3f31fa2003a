import Verif.Props.GenAttr
import Verif.Props.GenCurve
import Mathlib.Analysis.SpecialFunctions.Trigonometric.Deriv
import Mathlib.Analysis.SpecialFunctions.Trigonometric.Inverse

/-
  C89: normals of generated surfaces. C90: the covers of a spiral.
-/
set_option autoImplicit false
set_option linter.unusedSectionVars false

namespace Geom.Gen
open Spec
open TMesh (Mesh Vertex Ix)

theorem le_of_sq {t r : ℝ} (h : t ^ 2 ≤ r ^ 2) (hr : 0 ≤ r) : t ≤ r := by
  by_contra hc
  push Not at hc
  nlinarith

/-- A unit vector times a vector inside of the ball. -/
theorem unit_dot_le {a b c x y z r : ℝ} (h : a ^ 2 + b ^ 2 + c ^ 2 = 1) (hr : 0 ≤ r) (hq : x ^ 2 + y ^ 2 + z ^ 2 ≤ r ^ 2) : a * x + b * y + c * z ≤ r := by
  refine le_of_sq ?_ hr
  have l : (a * x + b * y + c * z) ^ 2 + ((a * y - b * x) ^ 2 + (a * z - c * x) ^ 2 + (b * z - c * y) ^ 2) = (a ^ 2 + b ^ 2 + c ^ 2) * (x ^ 2 + y ^ 2 + z ^ 2) := by ring
  rw [h, one_mul] at l
  linarith [sq_nonneg (a * y - b * x), sq_nonneg (a * z - c * x), sq_nonneg (b * z - c * y)]

theorem normalize_scaled {s : ℝ} (hs : 0 < s) (v : V3 ℝ) (h : v.x ^ 2 + v.y ^ 2 + v.z ^ 2 = 1) : Plane.normalizeVec (s • v) = v := by
  have : (s • v).lenSq = s ^ 2 := by
    simp only [V3.lenSq, V3.dot, V3.smul_x, V3.smul_y, V3.smul_z]
    linear_combination s ^ 2 * h
  rw [Plane.normalizeVec, if_neg (by rw [this]; positivity), this, Real.sqrt_sq hs.le]
  have hs' := hs.ne'
  ext <;> simp [hs']

/-- C89: sphere (an ellipsoid with equal radii): unit normals, and the whole ball is behind the plane of each vertex. -/
theorem C89_sphere (d : EllipsoidDesc) (m : M) (hU : max 3 d.segsX + 1 < 2 ^ 32) (hV : max 2 d.segsY + 1 < 2 ^ 32) (r : ℝ) (hr : 0 ≤ r)
    (hd : d.radius = ⟨r, r, r⟩) : ∃ m', genEllipsoid d m = .ok m' ∧ Adds m m' fun v =>
      UnitNormal v ∧ Supports (fun q => q.x ^ 2 + q.y ^ 2 + q.z ^ 2 ≤ r ^ 2) v := by
  obtain ⟨m', e, h⟩ := C88_ellipsoid d m hU hV
  refine ⟨m', e, adds_imp h fun v hv => ?_⟩
  obtain ⟨_, hp, hn⟩ := hv
  have u := ellipsoidPoint_unit (Real.pi * v.texCoord.y) (2 * Real.pi * v.texCoord.x)
  rw [← hn] at u
  refine ⟨u, fun q hq => ?_⟩
  have e : v.position = r • v.normal := by
    rw [hp, hn, hd]
    ext <;> simp [ellipsoidPoint]
  rw [e]
  refine (unit_dot_le u hr hq).trans (le_of_eq ?_)
  simp only [V3.dot, V3.smul_x, V3.smul_y, V3.smul_z]
  linear_combination -r * u

example := C89_sphere ⟨⟨2, 2, 2⟩, 5, 4, true⟩ ⟨[], []⟩ (by norm_num) (by norm_num) 2 (by norm_num) rfl

/-- A vertex of the mantle or a cover of the cylinder with the radius `r` and the height `h`. -/
theorem cylinder_supports {r h : ℝ} (hr : 0 ≤ r) {v : Vertex ℝ}
    (hv : MantleVertex ⟨r, r⟩ h 0 (2 * Real.pi) 1 v ∨ CoverVertex ⟨r, r⟩ (-h / 2) (-1) v ∨ CoverVertex ⟨r, r⟩ (h / 2) 1 v) :
    UnitNormal v ∧ Supports (fun q => q.x ^ 2 + q.z ^ 2 ≤ r ^ 2 ∧ -h / 2 ≤ q.y ∧ q.y ≤ h / 2) v := by
  rcases hv with ⟨_, hp, hn⟩ | ⟨_, hp, hn⟩ | ⟨_, hp, hn⟩
  · generalize 2 * Real.pi + (0 - 2 * Real.pi) * v.texCoord.x = phi at *
    have u := Real.sin_sq_add_cos_sq phi
    refine ⟨?_, ?_⟩
    · simp only [UnitNormal, hn]
      linear_combination u
    · rintro q ⟨hq, _⟩
      rw [hn, hp]
      simp only [V3.dot, atAngle, one_mul, zero_mul, add_zero]
      have := unit_dot_le (a := Real.sin phi) (b := 0) (c := Real.cos phi) (x := q.x) (y := 0) (z := q.z) (by linear_combination u) hr (by linarith)
      calc _ ≤ r := by linarith
        _ = _ := by linear_combination -r * u
  · refine ⟨by simp [UnitNormal, hn], ?_⟩
    rintro q ⟨_, hq, _⟩
    rw [hn, hp]
    simp only [V3.dot]
    linarith
  · refine ⟨by simp [UnitNormal, hn], ?_⟩
    rintro q ⟨_, _, hq⟩
    rw [hn, hp]
    simp only [V3.dot]
    linarith

/-- C89: circular cylinder: unit normals, and the whole solid is behind the plane of each vertex. -/
theorem C89_cylinder (d : CylinderDesc) (m : M) (hH : max 3 d.segsX + 1 < 2 ^ 32) (hV : max 1 d.segsY + 1 < 2 ^ 32)
    (hB : d.bottomCov + 1 < 2 ^ 32) (hT : d.topCov + 1 < 2 ^ 32) (r : ℝ) (hr : 0 ≤ r) (hd : d.radius = ⟨r, r⟩) :
    ∃ m', genCylinder d m = .ok m' ∧ Adds m m' fun v =>
      UnitNormal v ∧ Supports (fun q => q.x ^ 2 + q.z ^ 2 ≤ r ^ 2 ∧ -d.height / 2 ≤ q.y ∧ q.y ≤ d.height / 2) v := by
  obtain ⟨m', e, h⟩ := C88_cylinder d m hH hV hB hT
  rw [hd] at h
  exact ⟨m', e, adds_imp h fun v hv => cylinder_supports hr hv⟩

example := C89_cylinder ⟨⟨2, 2⟩, 3, 5, 2, 1, 2, true⟩ ⟨[], []⟩ (by norm_num) (by norm_num) (by norm_num) (by norm_num) 2 (by norm_num) rfl

/-- C89: round capsule: unit normals, and all points at most `r` away from the segment of the axis are behind the plane of each vertex. -/
theorem C89_capsule (d : CapsuleDesc) (m : M) (hH : max 3 d.segsX + 1 < 2 ^ 32) (hV : max 1 d.segsY + 1 < 2 ^ 32)
    (hE : max 2 d.ellipsoidSegs + 1 < 2 ^ 32) (r : ℝ) (hr : 0 ≤ r) (hd : d.radius = ⟨r, r, r⟩) :
    ∃ m', genCapsule d m = .ok m' ∧ Adds m m' fun v => UnitNormal v ∧
      Supports (fun q => ∃ c : ℝ, -d.height / 2 ≤ c ∧ c ≤ d.height / 2 ∧ q.x ^ 2 + (q.y - c) ^ 2 + q.z ^ 2 ≤ r ^ 2) v := by
  obtain ⟨m', e, h⟩ := C88_capsule d m hH hV hE
  refine ⟨m', e, adds_imp h fun v hv => ?_⟩
  rw [hd] at hv
  have hemi : ∀ side : ℝ, side = 1 ∨ side = -1 → HemiVertex ⟨r, r, r⟩ d.height side v → UnitNormal v ∧
      Supports (fun q => ∃ c : ℝ, -d.height / 2 ≤ c ∧ c ≤ d.height / 2 ∧ q.x ^ 2 + (q.y - c) ^ 2 + q.z ^ 2 ≤ r ^ 2) v := by
    rintro side hs ⟨⟨_, _, t0, t1⟩, hn, hp⟩
    have c0 : 0 ≤ Real.cos (Real.pi / 2 * v.texCoord.y) := by
      have := Real.pi_pos
      apply Real.cos_nonneg_of_neg_pi_div_two_le_of_le <;> nlinarith
    generalize Real.pi / 2 * v.texCoord.y = theta at *
    generalize 2 * Real.pi * v.texCoord.x = phi at *
    have u := Real.sin_sq_add_cos_sq phi
    have w := Real.sin_sq_add_cos_sq theta
    have s2 : side ^ 2 = 1 := by rcases hs with rfl | rfl <;> norm_num
    have un : UnitNormal v := by
      simp only [UnitNormal, hn]
      linear_combination Real.sin theta ^ 2 * u + w + (Real.sin theta ^ 2 * Real.sin phi ^ 2 + Real.cos theta ^ 2) * s2
    refine ⟨un, ?_⟩
    rintro q ⟨c, c1, c2, hq⟩
    have b := unit_dot_le un hr hq
    have hy : v.normal.y = side * Real.cos theta := by rw [hn]
    have e2 : v.position = r • v.normal + ⟨0, side * (d.height / 2), 0⟩ := by
      rw [hp, hn]; ext <;> simp
    rw [e2]
    simp only [V3.dot, V3.add_x, V3.add_y, V3.add_z, V3.smul_x, V3.smul_y, V3.smul_z, UnitNormal] at un ⊢
    have k : v.normal.y * c ≤ Real.cos theta * (d.height / 2) := by
      rw [hy]
      rcases hs with rfl | rfl <;> nlinarith
    have k2 : v.normal.y * (side * (d.height / 2)) = Real.cos theta * (d.height / 2) := by
      rw [hy]; linear_combination Real.cos theta * (d.height / 2) * s2
    have k3 : v.normal.x * (r * v.normal.x + 0) + v.normal.y * (r * v.normal.y + side * (d.height / 2)) + v.normal.z * (r * v.normal.z + 0) =
        r + Real.cos theta * (d.height / 2) := by linear_combination r * un + k2
    rw [k3]
    linarith
  rcases hv with h | h | h
  · rcases h with ⟨_, hp, hn⟩
    generalize 2 * Real.pi + (0 - 2 * Real.pi) * v.texCoord.x = phi at *
    have u := Real.sin_sq_add_cos_sq phi
    refine ⟨?_, ?_⟩
    · simp only [UnitNormal, hn]
      linear_combination u
    · rintro q ⟨c, _, _, hq⟩
      rw [hn, hp]
      simp only [V3.dot, atAngle, one_mul, zero_mul, add_zero]
      have := unit_dot_le (a := Real.sin phi) (b := 0) (c := Real.cos phi) (x := q.x) (y := 0) (z := q.z) (by linear_combination u) hr
        (by nlinarith [sq_nonneg (q.y - c)])
      calc _ ≤ r := by linarith
        _ = _ := by linear_combination -r * u
  · exact hemi 1 (.inl rfl) h
  · exact hemi (-1) (.inr rfl) h

example := C89_capsule ⟨⟨2, 2, 2⟩, 1, 5, 2, 3, true⟩ ⟨[], []⟩ (by norm_num) (by norm_num) (by norm_num) 2 (by norm_num) rfl

/-- C89: torus of revolution: unit normals, orthogonal to both directions in which the surface extends from the vertex. -/
theorem C89_torus (d : TorusDesc) (m : M) (hU : max 3 d.segsX + 1 < 2 ^ 32) (hV : max 3 d.segsY + 1 < 2 ^ 32) (R t : ℝ) (ht : 0 < t)
    (hr : d.ringRadius = ⟨R, R⟩) (hd : d.tubeRadius = ⟨t, t, t⟩) :
    ∃ m', genTorus d m = .ok m' ∧ Adds m m' fun v => UnitNormal v ∧ ∃ theta phi, v.position = torusPoint ⟨R, R⟩ ⟨t, t, t⟩ theta phi ∧
      v.position = torusPoint ⟨R, R⟩ ⟨0, 0, 0⟩ theta phi + t • v.normal ∧
      HasDerivAt (fun x => V3.dot v.normal (torusPoint ⟨R, R⟩ ⟨t, t, t⟩ x phi)) 0 theta ∧
      HasDerivAt (fun y => V3.dot v.normal (torusPoint ⟨R, R⟩ ⟨t, t, t⟩ theta y)) 0 phi := by
  simp only [genTorus]
  generalize max 3 d.segsX = U at *
  generalize max 3 d.segsY = V at *
  rw [torusVerts_ok _ _ _ _ _ hU hV, Res.bind_ok, gridTris_ok _ _ _ _ _ _ (by omega) (by omega), ext_ext]
  refine ⟨_, rfl, adds_ext _ _ _ _ (by rw [List.append_nil]; exact gridV_ne _ _ _) ?_⟩
  intro x hx
  rw [List.append_nil] at hx
  obtain ⟨r, c, h1, h2, rfl⟩ := gridV_mem.1 hx
  clear hx
  simp only [torV, hr, hd, UnitNormal]
  generalize 2 * Real.pi * (r : ℝ) / V = theta
  generalize 2 * Real.pi * (c : ℝ) / U = phi
  have u := Real.sin_sq_add_cos_sq phi
  have w := Real.sin_sq_add_cos_sq theta
  have hn : tubeNormal ⟨t, t, t⟩ theta phi = ⟨Real.sin phi * Real.sin theta, Real.cos theta, Real.cos phi * Real.sin theta⟩ := by
    rw [tubeNormal, ← normalize_scaled (show 0 < t⁻¹ by positivity) ⟨Real.sin phi * Real.sin theta, Real.cos theta, Real.cos phi * Real.sin theta⟩
      (by dsimp only; linear_combination Real.sin theta ^ 2 * u + w)]
    congr 1
    ext <;> simp only [V3.smul_x, V3.smul_y, V3.smul_z] <;> ring
  rw [hn]
  refine ⟨by linear_combination Real.sin theta ^ 2 * u + w, theta, phi, rfl, ?_, ?_, ?_⟩
  · simp only [torusPoint]
    ext <;> simp <;> ring
  · simp only [torusPoint, V3.dot]
    have s := Real.hasDerivAt_sin theta
    have c := Real.hasDerivAt_cos theta
    have := (((s.const_mul t).const_add R).const_mul (Real.sin phi)).const_mul (Real.sin phi * Real.sin theta) |>.add ((c.const_mul t).const_mul (Real.cos theta))
      |>.add ((((s.const_mul t).const_add R).const_mul (Real.cos phi)).const_mul (Real.cos phi * Real.sin theta))
    refine HasDerivAt.congr_deriv this ?_
    linear_combination (t * Real.sin theta * Real.cos theta) * u
  · simp only [torusPoint, V3.dot]
    have s := Real.hasDerivAt_sin phi
    have c := Real.hasDerivAt_cos phi
    have := ((s.mul_const (R + t * Real.sin theta)).const_mul (Real.sin phi * Real.sin theta)).add_const (Real.cos theta * (t * Real.cos theta))
      |>.add ((c.mul_const (R + t * Real.sin theta)).const_mul (Real.cos phi * Real.sin theta))
    refine HasDerivAt.congr_deriv this ?_
    ring

example := C89_torus ⟨⟨4, 4⟩, ⟨1, 1, 1⟩, 5, 4, true⟩ ⟨[], []⟩ (by norm_num) (by norm_num) 4 1 (by norm_num) rfl rfl

theorem sqrt2_gt : (1.4 : ℝ) < √2 := Real.lt_sqrt_of_sq_lt (by norm_num)

/-- C89 is violated by ellipsoids: the normals are those of the sphere, so that a part of the ellipsoid is in front of the plane of a vertex. -/
theorem C89_ellipsoid_refuted (m : M) : ∃ m', genEllipsoid ⟨⟨2, 1, 1⟩, 4, 4, false⟩ m = .ok m' ∧
    ∃ v ∈ m'.vertices, OnEllipsoid ⟨2, 1, 1⟩ v.position ∧ ¬Supports (OnEllipsoid ⟨2, 1, 1⟩) v := by
  simp only [genEllipsoid]
  rw [show max 3 4 = 4 from rfl, show max 2 4 = 4 from rfl, ellipsoidVerts_ok _ _ _ _ (by norm_num) (by norm_num), Res.bind_ok, gridTris_ok _ _ _ _ _ _ (by norm_num) (by norm_num)]
  refine ⟨_, rfl, ellV ⟨2, 1, 1⟩ 4 4 1 0, ?_, ellV_on .., ?_⟩
  · simp only [ext]
    exact List.mem_append_left _ (List.mem_append_right _ (gridV_mem.2 ⟨1, 0, by norm_num, by norm_num, rfl⟩))
  · intro h
    have h := h ⟨24 / 13, 5 / 13, 0⟩ ⟨12 / 13, 5 / 13, 0, by norm_num, by ext <;> norm_num⟩
    have h2 := Real.sq_sqrt (show (0 : ℝ) ≤ 2 by norm_num)
    simp only [ellV, ellipsoidPoint, V3.dot, Nat.cast_one, Nat.cast_ofNat, CharP.cast_eq_zero, mul_zero, zero_div, Real.cos_zero, Real.sin_zero, mul_one, one_mul,
      Real.sin_pi_div_four, Real.cos_pi_div_four, add_zero] at h
    have := sqrt2_gt
    nlinarith

/-- C89 is violated by cylinders with different radii. -/
theorem C89_cylinder_refuted (m : M) : ∃ m', genCylinder ⟨⟨2, 1⟩, 1, 8, 1, 0, 0, false⟩ m = .ok m' ∧
    ∃ v ∈ m'.vertices, MantleVertex ⟨2, 1⟩ 1 0 (2 * Real.pi) 1 v ∧ ¬Supports (fun q => ∃ y phi, q = atAngle ⟨2, 1⟩ y phi) v := by
  refine ⟨_, genCylinder_ok _ m (by norm_num) (by norm_num) (by norm_num) (by norm_num), ?_⟩
  have mem : mantleV (turn 8) ⟨2, 1⟩ 1 1 8 1 1 0 ∈ (mantleP false false (turn 8) ⟨2, 1⟩ 1 1 8 1).vs := gridV_mem.2 ⟨1, 0, by norm_num, by norm_num, rfl⟩
  refine ⟨mantleV (turn 8) ⟨2, 1⟩ 1 1 8 1 1 0, ?_, mantleP_attr (by norm_num) (turn_form _) mem, ?_⟩
  · simp only [ext, cylParts, allVs, List.flatMap_cons]
    exact List.mem_append_right _ (List.mem_append_left _ mem)
  · intro h
    have h := h _ ⟨0, Real.arcsin (12 / 13), rfl⟩
    have h2 := Real.sq_sqrt (show (0 : ℝ) ≤ 2 by norm_num)
    have e : turn 8 1 = Real.pi / 4 := by unfold turn; push_cast; ring
    have e2 : √(1 - (12 / 13 : ℝ) ^ 2) = 5 / 13 := by
      rw [show (1 - (12 / 13 : ℝ) ^ 2) = (5 / 13) ^ 2 by norm_num]
      exact Real.sqrt_sq (by norm_num)
    simp only [mantleV, atAngle, V3.dot, e, Real.sin_pi_div_four, Real.cos_pi_div_four, Real.sin_arcsin (show (-1 : ℝ) ≤ 12 / 13 by norm_num) (by norm_num),
      Real.cos_arcsin, e2, V3.smul_x, V3.smul_y, V3.smul_z] at h
    have := sqrt2_gt
    nlinarith

theorem coneV_mem' {tip : ℕ → Vertex ℝ} {f : ℕ → ℕ → Vertex ℝ} {H V u v : ℕ} (hu : u ≤ H) (h1 : 1 ≤ v) (hv : v ≤ V) : f u v ∈ coneV H V tip f := by
  refine mem_tab.2 ⟨u, by omega, ?_⟩
  refine List.mem_append_left _ (mem_tab.2 ⟨v - 1, by omega, ?_⟩)
  rw [Nat.zero_add, Nat.add_sub_cancel' h1]
  exact List.mem_singleton_self _

theorem cone_vertex (d : ConeDesc) (m : M) (hH : max 3 d.segsX + 1 < 2 ^ 32) (hV : max 1 d.segsY + 1 < 2 ^ 32) (hB : d.cov + 1 < 2 ^ 32) {v : ℕ}
    (h1 : 1 ≤ v) (hv : v ≤ max 1 d.segsY) : ∃ m', genCone d m = .ok m' ∧ ∃ x ∈ m'.vertices, ConeVertex d.radius d.height x ∧
      x = coneVx d.radius d.height (max 3 d.segsX) (max 1 d.segsY) 0 v := by
  refine ⟨_, genCone_ok d m hH hV hB, _, ?_, coneVx_attr _ _ (by omega) (Nat.zero_le _) hv, rfl⟩
  simp only [ext, coneParts, allVs, List.flatMap_cons, coneP]
  exact List.mem_append_right _ (List.mem_append_left _ (coneV_mem' (Nat.zero_le _) h1 hv))

/-- C89 is violated by each cone with two or more segments of its mantle: some normals are not of unit length. -/
theorem C89_cone_length_refuted (d : ConeDesc) (m : M) (hH : max 3 d.segsX + 1 < 2 ^ 32) (hV : d.segsY + 1 < 2 ^ 32) (hB : d.cov + 1 < 2 ^ 32)
    (h2 : 2 ≤ d.segsY) : ∃ m', genCone d m = .ok m' ∧ ∃ v ∈ m'.vertices, ConeVertex d.radius d.height v ∧ ¬UnitNormal v := by
  obtain ⟨m', e, x, hx, hc, rfl⟩ := cone_vertex d m hH (by omega) hB (le_refl 1) (le_max_left _ _)
  refine ⟨m', e, _, hx, hc, fun hu => ?_⟩
  have hV' : max 1 d.segsY = d.segsY := by omega
  rw [hV'] at hu
  have e0 : turn (max 3 d.segsX) 0 = 0 := by simp [turn]
  simp only [UnitNormal, coneVx, lerpV, V3.add_x, V3.add_y, V3.add_z, V3.smul_x, V3.smul_y, V3.smul_z, V3.sub_x, V3.sub_y, V3.sub_z, e0, Real.sin_zero, Real.cos_zero, Nat.cast_one, one_mul] at hu
  have hb : (2 : ℝ) ≤ d.segsY := by exact_mod_cast h2
  have t0 : 0 < 1 / (d.segsY : ℝ) := by positivity
  have t1 : 1 / (d.segsY : ℝ) < 1 := by rw [div_lt_one (by linarith)]; linarith
  have s2 := Real.sq_sqrt t0.le
  have s0 := Real.sqrt_pos.2 t0
  have s1 : √(1 / (d.segsY : ℝ)) < 1 := by rw [Real.sqrt_lt' one_pos]; linarith
  generalize √(1 / (d.segsY : ℝ)) = s at *
  have : s * (1 - s) = 0 := by linear_combination -1 / 2 * hu
  nlinarith

example := C89_cone_length_refuted ⟨⟨4, 2⟩, 3, 5, 2, 1, true⟩ ⟨[], []⟩ (by norm_num) (by norm_num) (by norm_num) (by norm_num)

/-- C89 is violated by each cone which is not flat: the plane of a vertex at the bottom does not contain the straight line to the apex,
which belongs to the mantle. -/
theorem C89_cone_refuted (d : ConeDesc) (m : M) (hH : max 3 d.segsX + 1 < 2 ^ 32) (hV : max 1 d.segsY + 1 < 2 ^ 32) (hB : d.cov + 1 < 2 ^ 32)
    (hr : d.radius.y ≠ 0) : ∃ m', genCone d m = .ok m' ∧ ∃ v ∈ m'.vertices, ConeVertex d.radius d.height v ∧
      V3.dot v.normal ⟨0, d.height / 2, 0⟩ ≠ V3.dot v.normal v.position := by
  obtain ⟨m', e, x, hx, hc, rfl⟩ := cone_vertex d m hH (by omega) hB (le_max_left _ _) (le_refl _)
  refine ⟨m', e, _, hx, hc, fun hu => hr ?_⟩
  have e0 : turn (max 3 d.segsX) 0 = 0 := by simp [turn]
  have e1 : (((max 1 d.segsY : ℕ) : ℝ) / (max 1 d.segsY : ℕ)) = 1 := div_self (by positivity)
  have e2 : (((max 1 d.segsY : ℕ) : ℝ) * (1 / (max 1 d.segsY : ℕ))) = 1 := by rw [mul_one_div, e1]
  simp only [coneVx, e0, e1, e2, lerpV, V3.add_x, V3.add_y, V3.add_z, V3.smul_x, V3.smul_y, V3.smul_z, V3.sub_x, V3.sub_y, V3.sub_z, Real.sin_zero, Real.cos_zero, Real.sqrt_one, V3.dot, atAngle, scaled] at hu
  linarith

example := C89_cone_refuted ⟨⟨4, 2⟩, 3, 5, 2, 1, true⟩ ⟨[], []⟩ (by norm_num) (by norm_num) (by norm_num) (by norm_num)

/-! Covers of the spiral. -/

/-- C89 is violated by the covers of a spiral: the center line has the direction (cos phi, _, -sin phi), but the normal is (cos phi, 0, sin phi).
For a quarter of a turn the top cover, which faces backward, has a normal that points into the tube. -/
theorem C89_spiral_refuted (d : SpiralDesc) (m : M) (ht : d.turns = 1 / 4) (hU : max 3 d.segsX + 1 < 2 ^ 32) (hV : max 3 d.segsY + 1 < 2 ^ 32)
    (hB : d.bottomCov + 1 < 2 ^ 32) (hT : d.topCov + 1 < 2 ^ 32) (hT0 : 0 < d.topCov) (hr : 0 < d.ringRadius.y) :
    ∃ m', genSpiral d m = .ok m' ∧ ∃ v ∈ m'.vertices, v.position = spiralCenter d.ringRadius d.displacement (1 / 4) (Real.pi / 2) ∧
      ∃ s < 0, HasDerivAt (fun phi => V3.dot v.normal (spiralCenter d.ringRadius d.displacement (1 / 4) phi)) s (Real.pi / 2) := by
  have e1 : max 0 d.turns = 1 / 4 := by rw [ht]; norm_num
  have hb : ((max 3 d.segsX : ℕ) : ℝ) < 2 ^ 32 := by exact_mod_cast (show max 3 d.segsX < 2 ^ 32 by omega)
  have ok := genSpiral_ok d m (by rw [e1]; linarith) hV hB hT
  refine ⟨_, ok, coverCenter d (1 / 4) (Real.pi / 2) 1, ?_, rfl, -d.ringRadius.y, by linarith, ?_⟩
  · simp only [ext, spiralParts, allVs, List.flatMap_cons, List.flatMap_nil, List.append_nil]
    refine List.mem_append_right _ (List.mem_append_right _ (List.mem_append_right _ ?_))
    rw [e1, coverP0, if_neg hT0.ne', coverP, show (1 / 4 : ℝ) * (Real.pi * 2) = Real.pi / 2 by ring]
    exact List.mem_cons_self
  · simp only [coverCenter, spiralCenter, V3.dot, V3.smul_x, V3.smul_y, V3.smul_z, Real.cos_pi_div_two, Real.sin_pi_div_two, mul_zero, zero_mul, zero_add, one_mul]
    simpa using (Real.hasDerivAt_cos (Real.pi / 2)).mul_const d.ringRadius.y

example := C89_spiral_refuted ⟨⟨4, 4⟩, ⟨1, 1, 1⟩, 3, 1 / 4, 8, 6, 1, 2, true⟩ ⟨[], []⟩ rfl (by norm_num) (by norm_num) (by norm_num)
  (by norm_num) (by norm_num) (by norm_num)

/-- C90: if the number of segments of all turns is whole, the points of the rim of the top cover are vertices of the mantle, so that the cover
closes the tube. -/
theorem C90_attached (d : SpiralDesc) (m : M) (N : ℕ) (hN : max 0 d.turns * (max 3 d.segsX : ℕ) = N) (hN' : N + 1 < 2 ^ 32) (hV : max 3 d.segsY + 1 < 2 ^ 32)
    (hB : d.bottomCov + 1 < 2 ^ 32) (hT : d.topCov + 1 < 2 ^ 32) :
    ∃ m' mantle covers, genSpiral d m = .ok m' ∧ m'.vertices = m.vertices ++ mantle ++ covers ∧ mantle.length = (N + 1) * (max 3 d.segsY + 1) ∧
      (∀ v ∈ covers, ∃ s theta phi : ℝ, 0 ≤ s ∧ s ≤ 1 ∧ (phi = 0 ∨ phi = 2 * Real.pi * max 0 d.turns) ∧
        v.position = spiralDisc d.ringRadius d.tubeRadius d.displacement (max 0 d.turns) s theta phi) ∧
      ∀ k ≤ max 3 d.segsY, ∀ phi : ℝ, (phi = 0 ∨ phi = 2 * Real.pi * max 0 d.turns) → ∃ x ∈ mantle,
        x.position = spiralPoint d.ringRadius d.tubeRadius d.displacement (max 0 d.turns) (2 * Real.pi * k / (max 3 d.segsY : ℕ)) phi := by
  have ok := genSpiral_ok d m (by rw [hN]; have : ((N + 1 : ℕ) : ℝ) < ((2 ^ 32 : ℕ) : ℝ) := (by exact_mod_cast hN'); push_cast at this; linarith) hV hB hT
  rw [hN, Nat.floor_natCast] at ok
  have hU0 : ((max 3 d.segsX : ℕ) : ℝ) ≠ 0 := by positivity
  generalize max 0 d.turns = turns at *
  generalize max 3 d.segsX = U at *
  generalize max 3 d.segsY = V at *
  refine ⟨_, (spiralP d turns U V N).vs, _, ok, by rw [List.append_assoc]; rfl, by simp only [spiralP, gridV_length]; ring, ?_, ?_⟩
  · intro v hv
    change v ∈ List.flatMap Part.vs [_, _] at hv
    simp only [List.flatMap_cons, List.flatMap_nil, List.append_nil, List.mem_append] at hv
    rcases hv with hv | hv
    · obtain ⟨s, theta, h0, h1, e⟩ := coverP0_mem _ _ _ _ _ _ _ _ hv
      exact ⟨s, theta, 0, h0, h1, .inl rfl, e⟩
    · obtain ⟨s, theta, h0, h1, e⟩ := coverP0_mem _ _ _ _ _ _ _ _ hv
      exact ⟨s, theta, _, h0, h1, .inr (by ring), e⟩
  · rintro k hk phi (rfl | rfl)
    · exact ⟨spiralVx d turns U V k 0, gridV_mem.2 ⟨k, 0, by omega, by omega, rfl⟩, by simp [spiralVx, turn]⟩
    · refine ⟨spiralVx d turns U V k N, gridV_mem.2 ⟨k, N, by omega, by omega, rfl⟩, ?_⟩
      simp only [spiralVx, turn]
      rw [show 2 * Real.pi * turns = 2 * Real.pi * N / U by rw [← hN]; field_simp]

example := C90_attached ⟨⟨4, 4⟩, ⟨1, 1, 1⟩, 3, 5 / 2, 8, 6, 1, 2, true⟩ ⟨[], []⟩ 20 (by norm_num) (by norm_num) (by norm_num) (by norm_num)
  (by norm_num)

/-- C90 is violated if the number is not whole: the mantle ends before the cover, a point of the rim is above all vertices of the mantle. -/
theorem C90_gap_refuted (d : SpiralDesc) (m : M) (hN : max 0 d.turns * (max 3 d.segsX : ℕ) < 2 ^ 32 - 1) (hV : max 3 d.segsY + 1 < 2 ^ 32)
    (hB : d.bottomCov + 1 < 2 ^ 32) (hT : d.topCov + 1 < 2 ^ 32) (hT0 : 0 < d.topCov) (hd : 0 < d.displacement) (ht : 0 ≤ d.tubeRadius.y)
    (hw : ∀ n : ℕ, max 0 d.turns * (max 3 d.segsX : ℕ) ≠ n) :
    ∃ m' mantle covers, genSpiral d m = .ok m' ∧ m'.vertices = m.vertices ++ mantle ++ covers ∧
      mantle.length = (⌊max 0 d.turns * (max 3 d.segsX : ℕ)⌋₊ + 1) * (max 3 d.segsY + 1) ∧
      ∃ v ∈ covers, ∀ x ∈ mantle, x.position.y < v.position.y := by
  have ok := genSpiral_ok d m hN hV hB hT
  have hU0 : (0 : ℝ) < ((max 3 d.segsX : ℕ) : ℝ) := by positivity
  have hf := (Nat.floor_le (show 0 ≤ max 0 d.turns * (max 3 d.segsX : ℕ) by positivity)).lt_of_ne (fun h => hw _ h.symm)
  generalize max 0 d.turns = turns at *
  generalize max 3 d.segsX = U at *
  generalize max 3 d.segsY = V at *
  generalize ⌊turns * (U : ℝ)⌋₊ = N at *
  refine ⟨_, (spiralP d turns U V N).vs, _, ok, by rw [List.append_assoc]; rfl, by simp only [spiralP, gridV_length]; ring, ?_⟩
  refine ⟨coverVx d turns (turns * (Real.pi * 2)) 1 true V d.topCov 0 (d.topCov - 1 + 1), ?_, ?_⟩
  · change _ ∈ List.flatMap Part.vs [_, _]
    simp only [List.flatMap_cons, List.flatMap_nil, List.append_nil]
    refine List.mem_append_right _ ?_
    rw [coverP0, if_neg hT0.ne', coverP]
    exact List.mem_cons_of_mem _ (gridV_mem.2 ⟨0, d.topCov - 1, by omega, by omega, rfl⟩)
  · intro x hx
    obtain ⟨v, u, _, hu, rfl⟩ := gridV_mem.1 hx
    have c1 := Real.cos_le_one (turn V v)
    have e : ((d.topCov - 1 + 1 : ℕ) : ℝ) / d.topCov = 1 := by rw [Nat.sub_add_cancel hT0]; exact div_self (by positivity)
    have e0 : turn V 0 = 0 := by simp [turn]
    have hp := Real.pi_pos
    simp only [spiralVx, coverVx, spiralPoint, spiralDisc, spiralCenter, e, e0, Real.cos_zero]
    have e2 : turn U u / (2 * Real.pi) = u / U := by unfold turn; field_simp
    have e3 : turns * (Real.pi * 2) / (2 * Real.pi) = turns := by field_simp
    rw [e2, e3]
    have hu' : (u : ℝ) ≤ N := by exact_mod_cast (show u ≤ N by omega)
    have h2 : (u : ℝ) / U < turns := by rw [div_lt_iff₀ hU0]; linarith
    have a := mul_le_mul_of_nonneg_left c1 ht
    have b := mul_lt_mul_of_pos_right h2 hd
    linarith

/-- Such spirals: half a turn, three segments for a turn, so one segment of the mantle; one turn with the same segments. -/
example : max 0 (1 / 2 : ℝ) * (max 3 3 : ℕ) < 2 ^ 32 - 1 ∧ ∀ n : ℕ, max 0 (1 / 2 : ℝ) * (max 3 3 : ℕ) ≠ n := by
  refine ⟨by norm_num, fun n h => ?_⟩
  have : (3 : ℝ) = (2 * n : ℕ) := by push_cast; norm_num at h; linarith
  have : 3 = 2 * n := by exact_mod_cast this
  omega
example : max 0 (1 : ℝ) * (max 3 3 : ℕ) = (3 : ℕ) := by norm_num

end Geom.Gen
