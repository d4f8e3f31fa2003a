import Verif.Model.Shapes
import Verif.Spec.Plane
import Verif.Props.PlaneSolid

/-
  C83: nearest points of rays; C84: nearest point of a cone to a plane; C85: oriented boxes; C86: angle of a cone.
-/
set_option autoImplicit false
set_option linter.unusedSectionVars false

namespace Geom.Shapes
open Plane (Eqn Pl Cone OBox)
open Plane.Spec (side InCone InOBox InBox Valid)
open Plane.Props (sgnDistance_eq side_add normalizeVec_smul normalizeVec_unit lenSq_pos_of)

section rays
variable {K V : Type} [Field K] [LinearOrder K] [IsStrictOrderedRing K] [AddCommGroup V] [Module K V] [DotSpace K V]
open DotSpace

/-- The distance of two points of the lines, as a function of the parameters. -/
theorem dist_expand (A B : RayV V) (s t : K) :
    dot (A.origin + s • A.direction - (B.origin + t • B.direction)) (A.origin + s • A.direction - (B.origin + t • B.direction)) =
      dot (A.origin - B.origin) (A.origin - B.origin) + s * s * dot A.direction A.direction + t * t * dot B.direction B.direction
      + 2 * s * dot A.direction (A.origin - B.origin) - 2 * t * dot B.direction (A.origin - B.origin)
      - 2 * s * t * dot A.direction B.direction := by
  rw [show A.origin + s • A.direction - (B.origin + t • B.direction) =
    (A.origin - B.origin) + (s • A.direction - t • B.direction) by module]
  generalize A.origin - B.origin = r
  simp only [add_dot, dot_add, sub_dot, dot_sub, smul_dot, dot_smul]
  rw [dot_comm r A.direction, dot_comm r B.direction, dot_comm B.direction A.direction]
  ring

/-- C83: for unit directions which are not parallel the two results are the nearest points of the two *lines*. -/
theorem C83_lines (A B : RayV V) (hA : dot A.direction A.direction = 1) (hB : dot B.direction B.direction = 1)
    (h : dot A.direction B.direction * dot A.direction B.direction ≠ 1) :
    ∃ s t : K, closestSegment A B = (A.origin + s • A.direction, B.origin + t • B.direction) ∧
      ∀ s' t' : K, dot ((closestSegment A B).1 - (closestSegment A B).2) ((closestSegment A B).1 - (closestSegment A B).2) ≤
        dot (A.origin + s' • A.direction - (B.origin + t' • B.direction)) (A.origin + s' • A.direction - (B.origin + t' • B.direction)) := by
  set b := dot A.direction B.direction with hb
  set c := dot A.direction (A.origin - B.origin) with hc
  set f := dot B.direction (A.origin - B.origin) with hf
  have hd : (1 : K) - b * b ≠ 0 := sub_ne_zero.2 (Ne.symm h)
  set s := (b * f - c) / (1 - b * b) with hs
  have e : closestSegment A B = (A.origin + s • A.direction, B.origin + (b * s + f) • B.direction) := by
    simp only [closestSegment, ← hb, ← hc, ← hf]
    rw [if_pos hd]
    simp only [RayV.lerp, ← hs]
    rw [add_comm (s • A.direction), add_comm ((b * s + f) • B.direction)]
  have hs' : s * (1 - b * b) = b * f - c := div_mul_cancel₀ _ hd
  refine ⟨s, b * s + f, e, fun s' t' => ?_⟩
  rw [e]
  simp only [dist_expand, hA, hB, ← hb, ← hc, ← hf]
  -- convexity: b * b ≤ 1
  have hb1 : b * b ≤ 1 := by
    have := dot_self_nonneg (A.direction - b • B.direction)
    simp only [sub_dot, dot_sub, smul_dot, dot_smul, hA, hB] at this
    rw [dot_comm B.direction A.direction, ← hb] at this
    linarith
  generalize dot (A.origin - B.origin) (A.origin - B.origin) = r at *
  have key : r + s' * s' * 1 + t' * t' * 1 + 2 * s' * c - 2 * t' * f - 2 * s' * t' * b -
      (r + s * s * 1 + (b * s + f) * (b * s + f) * 1 + 2 * s * c - 2 * (b * s + f) * f - 2 * s * (b * s + f) * b) =
      (t' - (b * s + f) - b * (s' - s)) ^ 2 + (1 - b * b) * (s' - s) ^ 2 := by
    linear_combination (2 * (s' - s)) * hs'
  have h1 := sq_nonneg (t' - (b * s + f) - b * (s' - s))
  have h2 := mul_nonneg (sub_nonneg.2 hb1) (sq_nonneg (s' - s))
  linarith

/-- C83: if these points are on the rays, they are the nearest points of the rays. What is missing: the case that the
nearest points of the lines are behind an origin, and parallel rays. -/
theorem C83_partial (A B : RayV V) (hA : dot A.direction A.direction = 1) (hB : dot B.direction B.direction = 1)
    (h : dot A.direction B.direction * dot A.direction B.direction ≠ 1) (s t : K) (hs : 0 ≤ s) (ht : 0 ≤ t)
    (he : closestSegment A B = (A.origin + s • A.direction, B.origin + t • B.direction)) :
    (∃ s t : K, 0 ≤ s ∧ 0 ≤ t ∧ closestSegment A B = (A.origin + s • A.direction, B.origin + t • B.direction)) ∧
    ∀ s' t' : K, 0 ≤ s' → 0 ≤ t' →
      dot ((closestSegment A B).1 - (closestSegment A B).2) ((closestSegment A B).1 - (closestSegment A B).2) ≤
        dot (A.origin + s' • A.direction - (B.origin + t' • B.direction)) (A.origin + s' • A.direction - (B.origin + t' • B.direction)) := by
  obtain ⟨_, _, _, h2⟩ := C83_lines A B hA hB h
  exact ⟨⟨s, t, hs, ht, he⟩, fun s' t' _ _ => h2 s' t'⟩

end rays

/-- C83 is violated: the first result can be a point behind the origin of the ray. -/
theorem C83_refuted : ∃ A B : RayV (V3 ℚ), DotSpace.dot A.direction A.direction = (1 : ℚ) ∧ DotSpace.dot B.direction B.direction = (1 : ℚ) ∧
    ¬ ∃ s : ℚ, 0 ≤ s ∧ (closestSegment A B).1 = A.origin + s • A.direction := by
  refine ⟨⟨⟨1, 0, 0⟩, ⟨1, 0, 0⟩⟩, ⟨⟨0, 0, 1⟩, ⟨0, 1, 0⟩⟩, by decide +kernel, by decide +kernel, ?_⟩
  rintro ⟨s, hs, h⟩
  have h1 : (closestSegment (K := ℚ) (⟨⟨1, 0, 0⟩, ⟨1, 0, 0⟩⟩ : RayV (V3 ℚ)) ⟨⟨0, 0, 1⟩, ⟨0, 1, 0⟩⟩).1 = ⟨0, 0, 0⟩ := by decide +kernel
  rw [h1] at h
  have := congrArg V3.x h
  simp at this
  linarith

/-- C83 is violated for parallel rays: the origins are not the nearest points. -/
theorem C83_parallel_refuted : ∃ (A B : RayV (V3 ℚ)) (s : ℚ), DotSpace.dot A.direction A.direction = (1 : ℚ) ∧ B.direction = A.direction ∧ 0 ≤ s ∧
    DotSpace.dot (A.origin + s • A.direction - B.origin) (A.origin + s • A.direction - B.origin) <
      DotSpace.dot ((closestSegment A B).1 - (closestSegment A B).2) ((closestSegment A B).1 - (closestSegment A B).2) := by
  refine ⟨⟨⟨0, 0, 0⟩, ⟨1, 0, 0⟩⟩, ⟨⟨3, 1, 0⟩, ⟨1, 0, 0⟩⟩, 3, ?_, rfl, by norm_num, ?_⟩ <;> decide +kernel

/-- Two rays whose nearest points are inside. -/
example : closestSegment (⟨⟨-1, 0, 0⟩, ⟨1, 0, 0⟩⟩ : RayV (V3 ℚ)) ⟨⟨2, -3, 1⟩, ⟨0, 1, 0⟩⟩ = (⟨2, 0, 0⟩, ⟨2, 0, 1⟩) := by decide +kernel

/-! C84. -/

/-- The lowest point of a cone with respect to a plane is the tip or the point of the bottom that `offsetVec` finds. -/
theorem cone_lowest (eq : Eqn) (p : Pl ℝ) (P d : V3 ℝ) (h r : ℝ) (hr : 0 ≤ r) (hd : d.x * d.x + d.y * d.y + d.z * d.z = 1) :
    InCone ⟨P, d, h, r⟩ P ∧
    InCone ⟨P, d, h, r⟩ (P + h • d + r • Plane.normalizeVec (V3.cross (V3.cross p.normal d) d)) ∧
    ∀ x, InCone ⟨P, d, h, r⟩ x →
      min (side eq p P) (side eq p (P + h • d + r • Plane.normalizeVec (V3.cross (V3.cross p.normal d) d))) ≤ side eq p x := by
  set n := p.normal with hn
  set k := V3.dot n d with hk
  set w : V3 ℝ := V3.cross (V3.cross n d) d with hw
  have wx : w.x = k * d.x - n.x := by
    simp only [hw, hk, V3.cross_x, V3.cross_y, V3.cross_z, V3.dot]; linear_combination -n.x * hd
  have wy : w.y = k * d.y - n.y := by
    simp only [hw, hk, V3.cross_x, V3.cross_y, V3.cross_z, V3.dot]; linear_combination -n.y * hd
  have wz : w.z = k * d.z - n.z := by
    simp only [hw, hk, V3.cross_x, V3.cross_y, V3.cross_z, V3.dot]; linear_combination -n.z * hd
  have wd : w.x * d.x + w.y * d.y + w.z * d.z = 0 := by
    rw [wx, wy, wz]; simp only [hk, V3.dot]; linear_combination (n.x * d.x + n.y * d.y + n.z * d.z) * hd
  have hk' : k = n.x * d.x + n.y * d.y + n.z * d.z := rfl
  have nw : n.x * w.x + n.y * w.y + n.z * w.z = -w.lenSq := by
    have : w.lenSq = w.x * w.x + w.y * w.y + w.z * w.z := rfl
    rw [this]
    linear_combination k * wd + w.x * wx + w.y * wy + w.z * wz
  set o := Plane.normalizeVec w with ho
  have od : o.x * d.x + o.y * d.y + o.z * d.z = 0 := by
    obtain ⟨s, hs⟩ := normalizeVec_smul w
    rw [ho, hs]; simp only [V3.smul_x, V3.smul_y, V3.smul_z]; linear_combination s * wd
  have ol : o.x * o.x + o.y * o.y + o.z * o.z ≤ 1 := by
    by_cases h0 : w = 0
    · have : o = 0 := by rw [ho, h0]; simp [Plane.normalizeVec, V3.lenSq, V3.dot]
      simp [this]
    · exact (normalizeVec_unit h0).le
  have no : n.x * o.x + n.y * o.y + n.z * o.z = -√w.lenSq := by
    by_cases h0 : w = 0
    · have : o = 0 := by rw [ho, h0]; simp [Plane.normalizeVec, V3.lenSq, V3.dot]
      simp [this, h0, V3.lenSq, V3.dot]
    · have hp := lenSq_pos_of h0
      have h1 : √w.lenSq * √w.lenSq = w.lenSq := Real.mul_self_sqrt hp.le
      have h2 : √w.lenSq ≠ 0 := (Real.sqrt_pos.2 hp).ne'
      rw [ho, Plane.normalizeVec, if_neg hp.ne']
      simp only [V3.smul_x, V3.smul_y, V3.smul_z]
      have : n.x * (1 / √w.lenSq * w.x) + n.y * (1 / √w.lenSq * w.y) + n.z * (1 / √w.lenSq * w.z) =
          (1 / √w.lenSq) * (-w.lenSq) := by linear_combination (1 / √w.lenSq) * nw
      rw [this]
      generalize √w.lenSq = q at *
      rw [← h1]; field_simp
  have sa : ∀ v, side eq p (P + v) = side eq p P + (n.x * v.x + n.y * v.y + n.z * v.z) := fun v => side_add eq p P v
  have e : P + h • d + r • o = P + (h • d + r • o) := by ext <;> simp <;> ring
  have sR : side eq p (P + h • d + r • o) = side eq p P + (h * k + r * (-√w.lenSq)) := by
    rw [e, sa]
    simp only [V3.add_x, V3.add_y, V3.add_z, V3.smul_x, V3.smul_y, V3.smul_z]
    rw [show n.x * (h * d.x + r * o.x) + n.y * (h * d.y + r * o.y) + n.z * (h * d.z + r * o.z) =
        h * k + r * (-√w.lenSq) by rw [hk']; linear_combination r * no]
  refine ⟨⟨0, 0, le_refl _, zero_le_one, by simp, by simp, by ext <;> simp⟩, ?_, ?_⟩
  · refine ⟨1, r • o, zero_le_one, le_refl _, ?_, ?_, ?_⟩
    · simp only [V3.smul_x, V3.smul_y, V3.smul_z]; linear_combination r * od
    · simp only [V3.smul_x, V3.smul_y, V3.smul_z]
      have := mul_le_mul_of_nonneg_left ol (mul_self_nonneg r)
      linarith
    · rw [e, one_mul]
  · rintro x ⟨t, v, t0, t1, vd, vl, rfl⟩
    simp only at vd vl
    rw [sR, sa]
    simp only [V3.add_x, V3.add_y, V3.add_z, V3.smul_x, V3.smul_y, V3.smul_z]
    have nv : n.x * v.x + n.y * v.y + n.z * v.z = -(w.x * v.x + w.y * v.y + w.z * v.z) := by
      rw [wx, wy, wz]; linear_combination k * vd
    have cs : (w.x * v.x + w.y * v.y + w.z * v.z) ^ 2 ≤ (√w.lenSq * (t * r)) ^ 2 := by
      have h0 : 0 ≤ w.lenSq := by
        unfold V3.lenSq V3.dot; nlinarith [mul_self_nonneg w.x, mul_self_nonneg w.y, mul_self_nonneg w.z]
      have h3 : √w.lenSq * √w.lenSq = w.lenSq := Real.mul_self_sqrt h0
      have h4 : (√w.lenSq * (t * r)) ^ 2 = w.lenSq * ((t * r) * (t * r)) := by
        linear_combination (t * r) * (t * r) * h3
      rw [h4]
      have h5 : w.lenSq * (v.x * v.x + v.y * v.y + v.z * v.z) ≤ w.lenSq * ((t * r) * (t * r)) :=
        mul_le_mul_of_nonneg_left vl h0
      exact (Plane.Props.cauchy w v).trans h5
    have h6 : w.x * v.x + w.y * v.y + w.z * v.z ≤ √w.lenSq * (t * r) :=
      (abs_le_of_sq_le_sq' cs (by positivity)).2
    have e2 : n.x * (t * h * d.x + v.x) + n.y * (t * h * d.y + v.y) + n.z * (t * h * d.z + v.z) =
        t * (h * k) + (n.x * v.x + n.y * v.y + n.z * v.z) := by rw [hk']; ring
    rw [e2, nv]
    set S := side eq p P
    set R := S + (h * k + r * (-√w.lenSq)) with hR
    have h7 : (1 - t) * S + t * R ≤ S + (t * (h * k) + -(w.x * v.x + w.y * v.y + w.z * v.z)) := by
      rw [hR]; linarith
    have h8 := mul_le_mul_of_nonneg_left (min_le_left S R) (sub_nonneg.2 t1)
    have h9 := mul_le_mul_of_nonneg_left (min_le_right S R) t0
    linarith

/-- C84: if the cone is in front of the plane, the result is the point of the cone which is nearest to the plane. What
is missing: cones that are behind the plane or meet it. -/
theorem C84_partial (eq : Eqn) (c : Cone) (p : Pl ℝ) (hr : 0 ≤ c.radius)
    (hd : c.direction.x * c.direction.x + c.direction.y * c.direction.y + c.direction.z * c.direction.z = 1)
    (hf : ∀ x, InCone c x → 0 ≤ side eq p x) :
    InCone c (closestPointOnCone eq c p) ∧ ∀ x, InCone c x → |side eq p (closestPointOnCone eq c p)| ≤ |side eq p x| := by
  obtain ⟨P, d, h, r⟩ := c
  obtain ⟨h1, h2, h3⟩ := cone_lowest eq p P d h r hr hd
  simp only [closestPointOnCone, Plane.distance, sgnDistance_eq]
  set R := P + h • d + r • Plane.normalizeVec (V3.cross (V3.cross p.normal d) d)
  have hP := hf _ h1
  have hR := hf _ h2
  rw [abs_of_nonneg hP, abs_of_nonneg hR]
  split_ifs with hc
  · refine ⟨h2, fun x hx => ?_⟩
    rw [abs_of_nonneg hR, abs_of_nonneg (hf x hx)]
    have := h3 x hx
    rwa [min_eq_right hc.le] at this
  · refine ⟨h1, fun x hx => ?_⟩
    rw [abs_of_nonneg hP, abs_of_nonneg (hf x hx)]
    have := h3 x hx
    rwa [min_eq_left (not_lt.1 hc)] at this

/-- C84: for all cones and planes the result is a point of the cone which is not farther from the plane than its tip. -/
theorem C84_member_partial (eq : Eqn) (c : Cone) (p : Pl ℝ) (hr : 0 ≤ c.radius)
    (hd : c.direction.x * c.direction.x + c.direction.y * c.direction.y + c.direction.z * c.direction.z = 1) :
    InCone c (closestPointOnCone eq c p) ∧ |side eq p (closestPointOnCone eq c p)| ≤ |side eq p c.point| := by
  obtain ⟨P, d, h, r⟩ := c
  obtain ⟨h1, h2, -⟩ := cone_lowest eq p P d h r hr hd
  simp only [closestPointOnCone, Plane.distance, sgnDistance_eq]
  split_ifs with hc
  · exact ⟨h2, hc.le⟩
  · exact ⟨h1, le_refl _⟩

theorem normalize_ex : Plane.normalizeVec (V3.cross (V3.cross (⟨0, 0, 1⟩ : V3 ℝ) ⟨1, 0, 0⟩) ⟨1, 0, 0⟩) = ⟨0, 0, -1⟩ := by
  simp [Plane.normalizeVec, V3.lenSq, V3.dot, V3.cross]

/-- C84 is violated behind the plane: the result is the point of the bottom farthest from the plane or the tip. -/
theorem C84_behind_refuted : ∃ (c : Cone) (p : Pl ℝ) (x : V3 ℝ), 0 ≤ c.radius ∧ 0 ≤ c.height ∧
    (∀ x, InCone c x → side .nxEqD p x < 0) ∧ InCone c x ∧
    |side .nxEqD p x| < |side .nxEqD p (closestPointOnCone .nxEqD c p)| := by
  refine ⟨⟨⟨0, 0, -2⟩, ⟨1, 0, 0⟩, 1, 1⟩, ⟨⟨0, 0, 1⟩, 0⟩, ⟨1, 0, -1⟩, by norm_num, by norm_num, ?_, ?_, ?_⟩
  · rintro x ⟨t, v, h0, h1, h2, h3, rfl⟩
    simp [side] at *
    nlinarith [mul_self_nonneg v.y]
  · exact ⟨1, ⟨0, 0, 1⟩, by norm_num, by norm_num, by norm_num, by norm_num, by ext <;> norm_num⟩
  · simp only [closestPointOnCone, normalize_ex, Plane.distance, sgnDistance_eq]
    norm_num [side]

/-- C84 is violated for a cone that meets the plane: the nearest points are on the plane, the result is not. -/
theorem C84_crossing_refuted : ∃ (c : Cone) (p : Pl ℝ) (x : V3 ℝ), InCone c x ∧ side .nxEqD p x = 0 ∧
    side .nxEqD p (closestPointOnCone .nxEqD c p) ≠ 0 := by
  refine ⟨⟨⟨0, 0, 1⟩, ⟨1, 0, 0⟩, 1, 3⟩, ⟨⟨0, 0, 1⟩, 0⟩, ⟨1, 0, 0⟩, ?_, by norm_num [side], ?_⟩
  · exact ⟨1, ⟨0, 0, -1⟩, by norm_num, by norm_num, by norm_num, by norm_num, by ext <;> norm_num⟩
  · simp only [closestPointOnCone, normalize_ex, Plane.distance, sgnDistance_eq]
    norm_num [side]

/-- A cone in front of a plane. -/
theorem sample_cone : ∀ x, InCone ⟨⟨0, 0, 2⟩, ⟨1, 0, 0⟩, 1, 1⟩ x → 0 ≤ side .nxEqD ⟨⟨0, 0, 1⟩, 0⟩ x := by
  rintro x ⟨t, v, h0, h1, h2, h3, rfl⟩
  simp [side] at *
  nlinarith [mul_self_nonneg v.y]

/-! C85. -/

/-- C85: the oriented box of two corners has the same points as the axis-aligned box. -/
theorem C85_corners {K : Type} [Field K] [LinearOrder K] [IsStrictOrderedRing K] (lo hi x : V3 K) :
    InOBox (obbOfCorners lo hi) x ↔ InBox ⟨lo, hi⟩ x := by
  simp only [InOBox, obbOfCorners, InBox, V3.smul_x, V3.smul_y, V3.smul_z, V3.sub_x, V3.sub_y, V3.sub_z, abs_le]
  constructor
  · rintro ⟨s, t, u, ⟨a1, a2⟩, ⟨b1, b2⟩, ⟨c1, c2⟩, rfl⟩
    simp only [V3.add_x, V3.add_y, V3.add_z, V3.smul_x, V3.smul_y, V3.smul_z]
    refine ⟨⟨?_, ?_⟩, ⟨?_, ?_⟩, ?_, ?_⟩ <;> linarith
  · rintro ⟨⟨a1, a2⟩, ⟨b1, b2⟩, c1, c2⟩
    refine ⟨x.x - 1 / 2 * (lo.x + hi.x), x.y - 1 / 2 * (lo.y + hi.y), x.z - 1 / 2 * (lo.z + hi.z), ⟨?_, ?_⟩, ⟨?_, ?_⟩, ⟨?_, ?_⟩, ?_⟩
    any_goals linarith
    apply V3.ext <;> simp <;> ring

theorem sqrt_lenSq_ne {v : V3 ℝ} (h : v ≠ 0) : 0 < √ v.lenSq := Real.sqrt_pos.2 (lenSq_pos_of h)

theorem lenSq_zero : √ (0 : V3 ℝ).lenSq = 0 := by simp [V3.lenSq, V3.dot]

/-- C85: the constructor from axes gives numbers exactly if no axis is zero; then the axes have length one and
the same direction, and the points are those which the given axes span. -/
theorem C85_axes (center x y z : V3 ℝ) :
    ((∃ b, obbOfAxes center x y z = some b) ↔ x ≠ 0 ∧ y ≠ 0 ∧ z ≠ 0) ∧
    ∀ b, obbOfAxes center x y z = some b → b.axisX.lenSq = 1 ∧ b.axisY.lenSq = 1 ∧ b.axisZ.lenSq = 1 ∧
      ∀ q, InOBox b q ↔ ∃ s t u : ℝ, |s| ≤ 1 ∧ |t| ≤ 1 ∧ |u| ≤ 1 ∧ q = center + (s • x + (t • y + u • z)) := by
  constructor
  · constructor
    · rintro ⟨b, h⟩
      refine ⟨?_, ?_, ?_⟩ <;> rintro rfl <;> simp [obbOfAxes, updateHalfSize, lenSq_zero] at h
    · rintro ⟨hx, hy, hz⟩
      refine ⟨_, by
        simp only [obbOfAxes, updateHalfSize]
        rw [if_neg]
        simp only [not_or]
        exact ⟨(sqrt_lenSq_ne hx).ne', (sqrt_lenSq_ne hy).ne', (sqrt_lenSq_ne hz).ne'⟩⟩
  · intro b h
    simp only [obbOfAxes, updateHalfSize] at h
    split_ifs at h with hc
    simp only [not_or] at hc
    injection h with h
    subst h
    have unit : ∀ v : V3 ℝ, √ v.lenSq ≠ 0 → ((1 / √ v.lenSq) • v).lenSq = 1 := by
      intro v hv
      have hp : 0 ≤ v.lenSq := by unfold V3.lenSq V3.dot; nlinarith [mul_self_nonneg v.x, mul_self_nonneg v.y, mul_self_nonneg v.z]
      have := Real.mul_self_sqrt hp
      rw [V3.lenSq_smul]
      field_simp
      rw [sq]
      exact this.symm
    refine ⟨unit x hc.1, unit y hc.2.1, unit z hc.2.2, fun q => ?_⟩
    have px := lt_of_le_of_ne (Real.sqrt_nonneg x.lenSq) (Ne.symm hc.1)
    have py := lt_of_le_of_ne (Real.sqrt_nonneg y.lenSq) (Ne.symm hc.2.1)
    have pz := lt_of_le_of_ne (Real.sqrt_nonneg z.lenSq) (Ne.symm hc.2.2)
    simp only [InOBox]
    generalize √ x.lenSq = a at *
    generalize √ y.lenSq = b at *
    generalize √ z.lenSq = c at *
    constructor
    · rintro ⟨s, t, u, h1, h2, h3, rfl⟩
      refine ⟨s / a, t / b, u / c, ?_, ?_, ?_, ?_⟩
      · rwa [abs_div, abs_of_pos px, div_le_one px]
      · rwa [abs_div, abs_of_pos py, div_le_one py]
      · rwa [abs_div, abs_of_pos pz, div_le_one pz]
      · simp only [smul_smul, div_eq_mul_inv, one_mul]
    · rintro ⟨s, t, u, h1, h2, h3, rfl⟩
      refine ⟨s * a, t * b, u * c, ?_, ?_, ?_, ?_⟩
      · rw [abs_mul, abs_of_pos px]; exact mul_le_of_le_one_left px.le h1
      · rw [abs_mul, abs_of_pos py]; exact mul_le_of_le_one_left py.le h2
      · rw [abs_mul, abs_of_pos pz]; exact mul_le_of_le_one_left pz.le h3
      · simp only [smul_smul, mul_assoc, mul_one_div_cancel px.ne', mul_one_div_cancel py.ne', mul_one_div_cancel pz.ne', mul_one]

/-- A box with skew axes, and the box of two corners. -/
example : (⟨1, 0, 0⟩ : V3 ℝ) ≠ 0 ∧ (⟨1, 2, 0⟩ : V3 ℝ) ≠ 0 := by
  constructor <;> intro h <;> simpa using congrArg V3.x h
example : obbOfCorners (⟨0, 0, 0⟩ : V3 ℚ) ⟨2, 4, 6⟩ = ⟨⟨1, 2, 3⟩, ⟨1, 2, 3⟩, ⟨1, 0, 0⟩, ⟨0, 1, 0⟩, ⟨0, 0, 1⟩⟩ := by
  simp [obbOfCorners, V3.ext_iff]; norm_num

/-! C86. -/

/-- C86: for a height other than zero, `GetAngle` inverts `SetAngle` for angles below a right angle, and `SetAngle` of the
own angle changes nothing. -/
theorem C86_cone (c : Cone) (h : c.height ≠ 0) :
    (∀ a, |a| < Real.pi / 2 → getAngle (setAngle c a) = a) ∧ setAngle c (getAngle c) = c := by
  constructor
  · intro a ha
    rw [abs_lt] at ha
    simp only [getAngle, setAngle]
    rw [mul_div_cancel_left₀ _ h, Real.arctan_tan (by linarith) (by linarith)]
  · obtain ⟨P, d, hh, r⟩ := c
    simp only [getAngle, setAngle, Real.tan_arctan, Cone.mk.injEq, true_and]
    exact mul_div_cancel₀ _ h

/-- An angle below a right angle. -/
example : |(1 / 2 : ℝ)| < Real.pi / 2 := by rw [abs_of_pos (by norm_num)]; linarith [Real.two_le_pi]

/-! The theorems for the rays and the cone of the examples. -/

example := C83_lines (K := ℚ) (⟨⟨-1, 0, 0⟩, ⟨1, 0, 0⟩⟩ : RayV (V3 ℚ)) ⟨⟨2, -3, 1⟩, ⟨0, 1, 0⟩⟩ (by decide +kernel) (by decide +kernel) (by decide +kernel)
example := C83_partial (K := ℚ) (⟨⟨-1, 0, 0⟩, ⟨1, 0, 0⟩⟩ : RayV (V3 ℚ)) ⟨⟨2, -3, 1⟩, ⟨0, 1, 0⟩⟩ (by decide +kernel) (by decide +kernel) (by decide +kernel) 3 3
  (by norm_num) (by norm_num) (by decide +kernel)
example := C84_member_partial .nxdEqZero ⟨⟨0, 0, -2⟩, ⟨1, 0, 0⟩, 1, 3⟩ ⟨⟨0, 0, 1⟩, 0⟩ (by norm_num) (by norm_num)
example := C84_partial .nxEqD ⟨⟨0, 0, 2⟩, ⟨1, 0, 0⟩, 1, 1⟩ ⟨⟨0, 0, 1⟩, 0⟩ (by norm_num) (by norm_num) sample_cone

end Geom.Shapes
