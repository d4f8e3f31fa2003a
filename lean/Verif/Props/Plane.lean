import Verif.Base.Tac
import Verif.Spec.Plane

/-!
Properties C10-C13 and C78-C81: planes, points and solids.
-/

set_option linter.unusedSectionVars false
set_option autoImplicit false

namespace Geom.Plane.Props

open Spec

section ring
variable {K : Type} [CommRing K]

theorem sgnDistance_eq (eq : Eqn) (p : Pl K) (x : V3 K) : sgnDistance eq p x = side eq p x := by
  cases eq <;> simp [sgnDistance, side, V3.dot, Eqn.distanceSign]

theorem on_iff (eq : Eqn) (p : Pl K) (x : V3 K) : On eq p x ↔ side eq p x = 0 := by
  cases eq
  · exact sub_eq_zero.symm
  · exact Iff.rfl

/-! ## C10 -/

/-- `Flip` negates the signed distance, twice gives the plane back; `Flipped` is the same. -/
theorem C10_flip (eq : Eqn) (p : Pl K) :
    (∀ x, sgnDistance eq (flip p) x = -sgnDistance eq p x) ∧ flip (flip p) = p ∧ flipped p = flip p := by
  refine ⟨fun x => ?_, ?_, rfl⟩
  · rw [sgnDistance_eq, sgnDistance_eq]
    cases eq <;> simp [side, flip] <;> ring
  · ext <;> simp [flip]

/-- The signed distance is zero exactly on the plane. -/
theorem C10_zero (eq : Eqn) (p : Pl K) (x : V3 K) : sgnDistance eq p x = 0 ↔ On eq p x := by
  rw [sgnDistance_eq, on_iff]

/-- `Build(normal, memberPoint)` keeps the normal and puts the plane through the point. -/
theorem C10_build_member (eq : Eqn) (n m : V3 K) :
    On eq (buildMember eq n m) m ∧ (buildMember eq n m).normal = n := by
  refine ⟨?_, rfl⟩
  rw [on_iff]
  cases eq <;> simp [buildMember, updateDistance, Eqn.distanceSign, side, V3.dot]

end ring

theorem lenSq_pos_of {K : Type} [Field K] [LinearOrder K] [IsStrictOrderedRing K] {v : V3 K} (h : v ≠ 0) : 0 < v.lenSq := by
  have h0 : 0 ≤ v.lenSq := by unfold V3.lenSq V3.dot; nlinarith [mul_self_nonneg v.x, mul_self_nonneg v.y, mul_self_nonneg v.z]
  refine lt_of_le_of_ne h0 fun h1 => h ?_
  unfold V3.lenSq V3.dot at h1
  have hx := mul_self_nonneg v.x
  have hy := mul_self_nonneg v.y
  have hz := mul_self_nonneg v.z
  ext <;> simp <;> apply mul_self_eq_zero.1 <;> linarith

theorem normalizeVec_unit {v : V3 ℝ} (h : v ≠ 0) : (normalizeVec v).lenSq = 1 := by
  have h0 := lenSq_pos_of h
  rw [normalizeVec, if_neg h0.ne']
  have : (√v.lenSq) * (√v.lenSq) = v.lenSq := Real.mul_self_sqrt h0.le
  have hs : √v.lenSq ≠ 0 := (Real.sqrt_pos.2 h0).ne'
  rw [V3.lenSq_smul]
  generalize √v.lenSq = r at *
  rw [← this]
  field_simp

theorem normalizeVec_smul (v : V3 ℝ) : ∃ s : ℝ, normalizeVec v = s • v := by
  unfold normalizeVec
  split
  · exact ⟨1, by ext <;> simp⟩
  · exact ⟨_, rfl⟩

/-- `Build(a, b, c)` for points which are not collinear: unit normal, and the three points lie on
the plane. -/
theorem C10_build (eq : Eqn) (a b c : V3 ℝ) (h : V3.cross (b - a) (c - a) ≠ 0) :
    UnitN (build eq a b c) ∧ On eq (build eq a b c) a ∧ On eq (build eq a b c) b ∧ On eq (build eq a b c) c := by
  have hu := normalizeVec_unit h
  obtain ⟨s, hs⟩ := normalizeVec_smul (V3.cross (b - a) (c - a))
  refine ⟨by simpa [UnitN, build, updateDistance, V3.lenSq, V3.dot] using hu, ?_, ?_, ?_⟩ <;> rw [on_iff] <;>
    cases eq <;> simp only [build, updateDistance, hs, side, V3.dot, Eqn.distanceSign, V3.smul_x, V3.smul_y, V3.smul_z,
      V3.cross_x, V3.cross_y, V3.cross_z, V3.sub_x, V3.sub_y, V3.sub_z] <;> ring

/-- The normal is on the side of the cross product (b - a) × (c - a). -/
theorem C10_build_side (eq : Eqn) (a b c : V3 ℝ) (h : V3.cross (b - a) (c - a) ≠ 0) :
    0 < V3.dot (build eq a b c).normal (V3.cross (b - a) (c - a)) := by
  have h0 := lenSq_pos_of h
  simp only [build, updateDistance, normalizeVec, if_neg h0.ne']
  generalize V3.cross (b - a) (c - a) = v at *
  have : V3.dot ((1 / √v.lenSq) • v) v = (1 / √v.lenSq) * v.lenSq := by
    simp only [V3.lenSq, V3.dot, V3.smul_x, V3.smul_y, V3.smul_z]; ring
  rw [this]
  have := Real.sqrt_pos.2 h0
  positivity

/-- For collinear points the normal is zero and each of the points still satisfies the equation. -/
theorem C10_build_degenerate (eq : Eqn) (a b c : V3 ℝ) (h : V3.cross (b - a) (c - a) = 0) (x : V3 ℝ) :
    (build eq a b c).normal = 0 ∧ On eq (build eq a b c) x := by
  refine ⟨by simp [build, updateDistance, normalizeVec, h, V3.lenSq, V3.dot], ?_⟩
  rw [on_iff]
  cases eq <;> simp [build, updateDistance, normalizeVec, h, V3.lenSq, V3.dot, side, Eqn.distanceSign]

/-- A triangle which is not in a coordinate plane. -/
theorem sample_cross : V3.cross ((⟨0, 1, 0⟩ : V3 ℝ) - ⟨1, 0, 0⟩) (⟨0, 0, 1⟩ - ⟨1, 0, 0⟩) ≠ 0 := by
  intro h
  have := congrArg V3.x h
  simp at this

example := C10_build .nxEqD _ _ _ sample_cross
example := C10_build_side .nxEqD _ _ _ sample_cross

/-! ## C78: Normalize and MemberPoint -/

/-- `Normalize` of a plane with nonzero normal gives a unit normal and keeps the set of points and
the sides. -/
theorem C78_normalize (eq : Eqn) (p : Pl ℝ) (h : p.normal ≠ 0) :
    UnitN (normalize p) ∧ (∀ x, On eq (normalize p) x ↔ On eq p x) ∧
    ∀ x, 0 < sgnDistance eq (normalize p) x ↔ 0 < sgnDistance eq p x := by
  have h0 := lenSq_pos_of h
  have hs := Real.sqrt_pos.2 h0
  have hm : √p.normal.lenSq * √p.normal.lenSq = p.normal.lenSq := Real.mul_self_sqrt h0.le
  have hi : 0 < 1 / √p.normal.lenSq := by positivity
  have hside : ∀ x, side eq (normalize p) x = (1 / √p.normal.lenSq) * side eq p x := by
    intro x
    cases eq <;> simp only [normalize, if_pos hs, side, V3.smul_x, V3.smul_y, V3.smul_z] <;> ring
  refine ⟨?_, fun x => ?_, fun x => ?_⟩
  · have h1 : (normalize p).normal.lenSq = 1 := by
      simp only [normalize, if_pos hs, V3.lenSq_smul]
      generalize √p.normal.lenSq = r at *
      rw [← hm]
      have := hs.ne'
      field_simp
    exact h1
  · rw [on_iff, on_iff, hside, mul_eq_zero]
    exact ⟨fun h => h.resolve_left hi.ne', Or.inr⟩
  · rw [sgnDistance_eq, sgnDistance_eq, hside]
    exact ⟨fun h => pos_of_mul_pos_right h hi.le, mul_pos hi⟩

example := C78_normalize .nxEqD ⟨⟨3, 4, 0⟩, 10⟩ (fun h => by simpa using congrArg V3.x h)

/-- A zero normal is left alone. -/
theorem C78_normalize_zero (p : Pl ℝ) (h : p.normal = 0) : normalize p = p := by
  simp [normalize, h, V3.lenSq, V3.dot]

example : normalize ⟨0, 10⟩ = (⟨0, 10⟩ : Pl ℝ) := C78_normalize_zero _ rfl

/-- For a unit normal `MemberPoint` lies on the plane and no other point of the plane is nearer to
the origin. -/
theorem C78_memberPoint (eq : Eqn) {K : Type} [Field K] [LinearOrder K] [IsStrictOrderedRing K] (p : Pl K) (h : UnitN p) :
    On eq p (memberPoint eq p) ∧ ∀ x, On eq p x → distSq (memberPoint eq p) 0 ≤ distSq x 0 := by
  unfold UnitN at h
  refine ⟨?_, fun x hx => ?_⟩
  · rw [on_iff]
    cases eq <;> simp [side, memberPoint, Eqn.distanceSign]
    · linear_combination p.distance * h
    · linear_combination -p.distance * h
  · rw [on_iff] at hx
    have key : distSq x 0 = distSq (memberPoint eq p) 0 + distSq x (memberPoint eq p) := by
      cases eq <;> simp only [side, memberPoint, Eqn.distanceSign, distSq, V3.smul_x, V3.smul_y, V3.smul_z, V3.zero_x, V3.zero_y, V3.zero_z] at hx ⊢
      · linear_combination 2 * p.distance * hx - 2 * p.distance * p.distance * h
      · linear_combination -2 * p.distance * hx - 2 * p.distance * p.distance * h
    rw [key]
    have : 0 ≤ distSq x (memberPoint eq p) := by
      unfold distSq
      have h1 := mul_self_nonneg (x.x - (memberPoint eq p).x)
      have h2 := mul_self_nonneg (x.y - (memberPoint eq p).y)
      have h3 := mul_self_nonneg (x.z - (memberPoint eq p).z)
      linarith
    linarith

/-- A normal of length 5 with a distance; normalizing divides both. -/
example : (normalize ⟨⟨3, 4, 0⟩, 10⟩ : Pl ℝ) = ⟨⟨3/5, 4/5, 0⟩, 2⟩ := by
  have : √((3 : ℝ) * 3 + 4 * 4) = 5 := by
    rw [show ((3 : ℝ) * 3 + 4 * 4) = 5 ^ 2 by norm_num]
    exact Real.sqrt_sq (by norm_num)
  simp [normalize, V3.lenSq, V3.dot, this]
  refine ⟨by ext <;> norm_num, by norm_num⟩

/-! ## C11: the constructor from four coefficients -/

section
variable {K : Type} [Field K] [LinearOrder K] [IsStrictOrderedRing K]

/-- With both equations the constructor builds the plane n·p = d instead of n·p + d = 0. -/
theorem C11_actual_refuted (eq : Eqn) (x y z d : K) (p : V3 K) :
    On eq (ofCoeffs eq x y z d) p ↔ x * p.x + y * p.y + z * p.z = d := by
  cases eq <;> simp [On, ofCoeffs, Eqn.distanceSign]
  exact ⟨fun h => by linear_combination h, fun h => by linear_combination h⟩

/-- So the documented plane comes out only if d = 0 or the normal is zero. -/
theorem C11_partial (eq : Eqn) (x y z d : K) :
    (∀ p : V3 K, On eq (ofCoeffs eq x y z d) p ↔ x * p.x + y * p.y + z * p.z + d = 0) ↔
      d = 0 ∨ (x = 0 ∧ y = 0 ∧ z = 0) := by
  simp only [C11_actual_refuted]
  constructor
  · intro h
    by_cases hn : x = 0 ∧ y = 0 ∧ z = 0
    · exact Or.inr hn
    · left
      have hpos : 0 < x * x + y * y + z * z := by
        have hx := mul_self_nonneg x
        have hy := mul_self_nonneg y
        have hz := mul_self_nonneg z
        by_contra hc
        exact hn ⟨mul_self_eq_zero.1 (by linarith), mul_self_eq_zero.1 (by linarith), mul_self_eq_zero.1 (by linarith)⟩
      have h1 := h ⟨d / (x * x + y * y + z * z) * x, d / (x * x + y * y + z * z) * y, d / (x * x + y * y + z * z) * z⟩
      simp only at h1
      have e : x * (d / (x * x + y * y + z * z) * x) + y * (d / (x * x + y * y + z * z) * y) +
          z * (d / (x * x + y * y + z * z) * z) = d := by
        have e : ∀ k : K, x * (k * x) + y * (k * y) + z * (k * z) = k * (x * x + y * y + z * z) := fun k => by ring
        rw [e, div_mul_cancel₀ _ hpos.ne']
      rw [e] at h1
      have := h1.1 rfl
      linarith
  · rintro (rfl | ⟨rfl, rfl, rfl⟩) p
    · simp
    · simp [eq_comm]

/-- The plane x = 3 built as 1, 0, 0, -3: the point (3, 0, 0) is not on it. -/
theorem C11_refuted : ∃ (eq : Eqn) (x y z d : ℚ) (p : V3 ℚ),
    x * p.x + y * p.y + z * p.z + d = 0 ∧ ¬ On eq (ofCoeffs eq x y z d) p :=
  ⟨.nxEqD, 1, 0, 0, -3, ⟨3, 0, 0⟩, by norm_num, by rw [C11_actual_refuted]; norm_num⟩

/-! ## C12: ClosestPointOnPlane -/

theorem distSq_nonneg (a b : V3 K) : 0 ≤ distSq a b := by
  unfold distSq
  have h1 := mul_self_nonneg (a.x - b.x)
  have h2 := mul_self_nonneg (a.y - b.y)
  have h3 := mul_self_nonneg (a.z - b.z)
  linarith

/-- For a unit normal the result is on the plane, as near as any point of the plane, at the
distance given by `DistanceToPlane`. -/
theorem C12_closest (eq : Eqn) (p : Pl K) (h : UnitN p) (x : V3 K) :
    On eq p (closestPoint eq p x) ∧ (∀ y, On eq p y → y ≠ closestPoint eq p x → distSq x (closestPoint eq p x) < distSq x y) ∧
    distSq x (closestPoint eq p x) = distance eq p x * distance eq p x ∧ 0 ≤ distance eq p x := by
  unfold UnitN at h
  have hd : distSq x (closestPoint eq p x) = side eq p x * side eq p x := by
    simp only [distSq, closestPoint, sgnDistance_eq, V3.sub_x, V3.sub_y, V3.sub_z, V3.smul_x, V3.smul_y, V3.smul_z]
    linear_combination side eq p x * side eq p x * h
  have ho : On eq p (closestPoint eq p x) := by
    rw [on_iff]
    have e : side eq p (closestPoint eq p x) = side eq p x -
        side eq p x * (p.normal.x * p.normal.x + p.normal.y * p.normal.y + p.normal.z * p.normal.z) := by
      simp only [closestPoint, sgnDistance_eq]
      generalize hk : side eq p x = k
      cases eq <;> simp only [side, V3.sub_x, V3.sub_y, V3.sub_z, V3.smul_x, V3.smul_y, V3.smul_z] at hk ⊢ <;>
        linear_combination hk
    rw [e, h]; ring
  refine ⟨ho, fun y hy hne => ?_, ?_, abs_nonneg _⟩
  · have key : distSq x y = distSq x (closestPoint eq p x) + distSq y (closestPoint eq p x) := by
      rw [on_iff] at hy ho
      have h2 : ∀ c, side eq p c = 0 → side eq p y = 0 → p.normal.x * (y.x - c.x) + p.normal.y * (y.y - c.y) +
          p.normal.z * (y.z - c.z) = 0 := by
        intro c h1 h2
        cases eq <;> simp only [side] at h1 h2 <;> linear_combination h2 - h1
      have h3 := h2 _ ho hy
      simp only [closestPoint] at h3 ⊢
      generalize sgnDistance eq p x = s at *
      simp only [distSq, V3.sub_x, V3.sub_y, V3.sub_z, V3.smul_x, V3.smul_y, V3.smul_z] at *
      linear_combination -2 * s * h3
    have h0 : 0 < distSq y (closestPoint eq p x) := by
      refine lt_of_le_of_ne (distSq_nonneg _ _) fun h0 => hne ?_
      simp only [distSq] at h0
      have a := mul_self_nonneg (y.x - (closestPoint eq p x).x)
      have b := mul_self_nonneg (y.y - (closestPoint eq p x).y)
      have c := mul_self_nonneg (y.z - (closestPoint eq p x).z)
      ext
      · exact sub_eq_zero.1 (mul_self_eq_zero.1 (by linarith))
      · exact sub_eq_zero.1 (mul_self_eq_zero.1 (by linarith))
      · exact sub_eq_zero.1 (mul_self_eq_zero.1 (by linarith))
    linarith
  · rw [hd, distance, sgnDistance_eq, abs_mul_abs_self]

/-- A unit normal off the axes. -/
example : UnitN (⟨⟨3/5, 4/5, 0⟩, 2⟩ : Pl ℚ) ∧ closestPoint .nxEqD ⟨⟨3/5, 4/5, 0⟩, 2⟩ (0 : V3 ℚ) = ⟨6/5, 8/5, 0⟩ := by
  refine ⟨by norm_num [UnitN], by decide +kernel⟩

end

end Geom.Plane.Props
