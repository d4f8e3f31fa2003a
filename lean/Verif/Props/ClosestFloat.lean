import Verif.Model.ClosestFloat
import Verif.Spec.ClosestFloat
import Verif.Props.PlaneFloat

/-
  C130: the closest point on a plane in floating-point arithmetic.
-/
set_option autoImplicit false
set_option linter.unusedSectionVars false

namespace Geom.Plane.Props
open Spec Geom.Float
open Clip (dotFl sgnDistanceFl relationPointFl subFl)

variable {p : ℕ} {emin : ℤ} {fl : ℚ → ℚ}

/-- One coordinate. -/
theorem closest_coord (hf : IsRounding p emin fl) (hp : 1 ≤ p) {n x d s e : ℚ} (hx : x ∈ Floats p emin) (h : |d - s| ≤ e) :
    |fl (x - fl (n * d)) - (x - s * n)| ≤ ulp p * (|x| + (2 + ulp p) * (|n| * (|s| + e)) + 2 ^ emin) + 2 ^ emin + |n| * e := by
  have hu := ulp_pos p
  have h1 : |fl (n * d) - n * d| ≤ ulp p * |n * d| + 2 ^ emin := round_any hf hp _
  have h2 : |fl (x - fl (n * d)) - (x - fl (n * d))| ≤ ulp p * |x - fl (n * d)| := round_sub hf hp hx (hf.mem _)
  have hd : |d| ≤ |s| + e := by
    have := abs_sub_abs_le_abs_sub d s
    linarith
  have h3 : |n * d| ≤ |n| * (|s| + e) := by
    rw [abs_mul]
    exact mul_le_mul_of_nonneg_left hd (abs_nonneg _)
  have h4 : |n * d - s * n| ≤ |n| * e := by
    rw [show n * d - s * n = n * (d - s) by ring, abs_mul]
    exact mul_le_mul_of_nonneg_left h (abs_nonneg _)
  have h5 : |fl (n * d)| ≤ (1 + ulp p) * |n * d| + 2 ^ emin := by
    have := abs_sub_abs_le_abs_sub (fl (n * d)) (n * d)
    linarith
  have h6 : |x - fl (n * d)| ≤ |x| + ((1 + ulp p) * |n * d| + 2 ^ emin) := (abs_sub _ _).trans (by linarith)
  generalize |n| * (|s| + e) = T at *
  have h7 := mul_le_mul_of_nonneg_left h6 hu.le
  have h8 := mul_le_mul_of_nonneg_left h3 hu.le
  have h9 := mul_le_mul_of_nonneg_left h8 hu.le
  have h10 : |fl (x - fl (n * d)) - (x - s * n)| ≤ |fl (x - fl (n * d)) - (x - fl (n * d))| + |fl (n * d) - n * d| + |n * d - s * n| := by
    rw [show fl (x - fl (n * d)) - (x - s * n) = (fl (x - fl (n * d)) - (x - fl (n * d))) - (fl (n * d) - n * d) - (n * d - s * n) by ring]
    exact (abs_sub _ _).trans (add_le_add_left (abs_sub _ _) _)
  nlinarith

/-- The result is near the exact one of the code. -/
theorem closest_near (hf : IsRounding p emin fl) (hp : 1 ≤ p) (eq : Eqn) (pl : Pl ℚ) (hd : pl.distance ∈ Floats p emin) (x : V3 ℚ) (hx : FloatV p emin x) :
    |(closestPointFl fl eq pl x).x - (x.x - side eq pl x * pl.normal.x)| ≤ closestErr p emin eq pl x pl.normal.x x.x ∧
    |(closestPointFl fl eq pl x).y - (x.y - side eq pl x * pl.normal.y)| ≤ closestErr p emin eq pl x pl.normal.y x.y ∧
    |(closestPointFl fl eq pl x).z - (x.z - side eq pl x * pl.normal.z)| ≤ closestErr p emin eq pl x pl.normal.z x.z := by
  have h := C109_distance_partial hf hp eq pl hd x
  exact ⟨closest_coord hf hp hx.1 h, closest_coord hf hp hx.2.1 h, closest_coord hf hp hx.2.2 h⟩

theorem side_foot {eq : Eqn} {pl : Pl ℚ} {x f : V3 ℚ} {t : ℚ} (h : IsFoot eq pl x f t) : side eq pl x = t * normSq pl.normal := by
  obtain ⟨h0, h1, h2, h3⟩ := h
  have e1 : x.x = f.x + t * pl.normal.x := by linarith
  have e2 : x.y = f.y + t * pl.normal.y := by linarith
  have e3 : x.z = f.z + t * pl.normal.z := by linarith
  cases eq <;> simp only [side, normSq, e1, e2, e3] at h0 ⊢ <;> linear_combination h0

/-- C130: each coordinate of the result is near the one of the foot of the perpendicular, in each rounding mode, for normals of nearly unit length. -/
theorem C130_near_partial (hf : IsRounding p emin fl) (hp : 1 ≤ p) (eq : Eqn) (pl : Pl ℚ) (hd : pl.distance ∈ Floats p emin) (x f : V3 ℚ) (hx : FloatV p emin x)
    (t : ℚ) (h : IsFoot eq pl x f t) :
    |(closestPointFl fl eq pl x).x - f.x| ≤ closestErr p emin eq pl x pl.normal.x x.x + |normSq pl.normal - 1| * |x.x - f.x| ∧
    |(closestPointFl fl eq pl x).y - f.y| ≤ closestErr p emin eq pl x pl.normal.y x.y + |normSq pl.normal - 1| * |x.y - f.y| ∧
    |(closestPointFl fl eq pl x).z - f.z| ≤ closestErr p emin eq pl x pl.normal.z x.z + |normSq pl.normal - 1| * |x.z - f.z| := by
  obtain ⟨k1, k2, k3⟩ := closest_near hf hp eq pl hd x hx
  have hs := side_foot h
  obtain ⟨-, h1, h2, h3⟩ := h
  rw [hs] at k1 k2 k3
  have key : ∀ r x f n E : ℚ, |r - (x - t * normSq pl.normal * n)| ≤ E → x - f = t * n → |r - f| ≤ E + |normSq pl.normal - 1| * |x - f| := by
    intro r x f n E a b
    have e : r - f = (r - (x - t * normSq pl.normal * n)) - (normSq pl.normal - 1) * (x - f) := by rw [b]; linear_combination b
    rw [e, ← abs_mul]
    exact (abs_sub _ _).trans (by linarith)
  exact ⟨key _ _ _ _ _ k1 h1, key _ _ _ _ _ k2 h2, key _ _ _ _ _ k3 h3⟩

/-- C130: the result is on the plane up to rounding. -/
theorem C130_onto_partial (hf : IsRounding p emin fl) (hp : 1 ≤ p) (eq : Eqn) (pl : Pl ℚ) (hd : pl.distance ∈ Floats p emin) (x : V3 ℚ) (hx : FloatV p emin x) :
    |side eq pl (closestPointFl fl eq pl x)| ≤ |pl.normal.x| * closestErr p emin eq pl x pl.normal.x x.x + |pl.normal.y| * closestErr p emin eq pl x pl.normal.y x.y +
      |pl.normal.z| * closestErr p emin eq pl x pl.normal.z x.z + |normSq pl.normal - 1| * |side eq pl x| := by
  obtain ⟨k1, k2, k3⟩ := closest_near hf hp eq pl hd x hx
  generalize closestPointFl fl eq pl x = r at *
  have e : side eq pl r = pl.normal.x * (r.x - (x.x - side eq pl x * pl.normal.x)) + pl.normal.y * (r.y - (x.y - side eq pl x * pl.normal.y)) +
      pl.normal.z * (r.z - (x.z - side eq pl x * pl.normal.z)) - (normSq pl.normal - 1) * side eq pl x := by
    cases eq <;> simp only [side, normSq] <;> ring
  rw [e]
  have m1 := mul_le_mul_of_nonneg_left k1 (abs_nonneg pl.normal.x)
  have m2 := mul_le_mul_of_nonneg_left k2 (abs_nonneg pl.normal.y)
  have m3 := mul_le_mul_of_nonneg_left k3 (abs_nonneg pl.normal.z)
  rw [← abs_mul] at m1 m2 m3
  refine (abs_sub _ _).trans ?_
  rw [abs_mul (normSq pl.normal - 1)]
  refine add_le_add_left ((abs_add_three _ _ _).trans ?_) _
  linarith

/-- The coordinate along the axis. -/
theorem axis_coord (hf : IsRounding p emin fl) {s y D : ℚ} (hs : s = 1 ∨ s = -1) (hD : D ∈ Floats p emin) (h : s * y - D ∈ Floats p emin) :
    fl (y - fl (s * (s * y - D))) = s * D := by
  rcases hs with rfl | rfl
  · rw [one_mul, one_mul] at *
    rw [hf.fix _ h, sub_sub_cancel, one_mul, hf.fix _ hD]
  · rw [neg_one_mul (_ - _), hf.fix _ (neg_mem h), show y - -(-1 * y - D) = -D by ring, hf.fix _ (neg_mem hD), neg_one_mul]

/-- C130: for planes normal to an axis the other two coordinates do not change; and if the distance is a float, the result is exactly on the plane, counts as on the
plane for each tolerance, and is its own closest point. -/
theorem C130_axis_partial (hf : IsRounding p emin fl) (eq : Eqn) (pl : Pl ℚ) (hn : Axis pl.normal) (hd : pl.distance ∈ Floats p emin) (x : V3 ℚ) (hx : FloatV p emin x) :
    (pl.normal.x = 0 → (closestPointFl fl eq pl x).x = x.x) ∧ (pl.normal.y = 0 → (closestPointFl fl eq pl x).y = x.y) ∧
    (pl.normal.z = 0 → (closestPointFl fl eq pl x).z = x.z) ∧
    (side eq pl x ∈ Floats p emin → side eq pl (closestPointFl fl eq pl x) = 0 ∧
      (∀ eps, 0 ≤ eps → relationPointFl fl eq pl (closestPointFl fl eq pl x) eps = .onto) ∧
      closestPointFl fl eq pl (closestPointFl fl eq pl x) = closestPointFl fl eq pl x) := by
  have h0 : fl 0 = 0 := hf.fix 0 ⟨0, emin, by simp, le_rfl, by simp⟩
  have nm : ∀ y ∈ Floats p emin, fl (-y) = -y := fun y hy => hf.fix _ (neg_mem hy)
  have fx : ∀ y ∈ Floats p emin, fl y = y := hf.fix
  have zero : ∀ {a : ℚ}, a ∈ Floats p emin → ∀ d, fl (a - fl (0 * d)) = a := fun ha d => by rw [zero_mul, h0, sub_zero, fx _ ha]
  refine ⟨fun h => ?_, fun h => ?_, fun h => ?_, fun hs => ?_⟩
  · simp only [closestPointFl, subFl, h]; exact zero hx.1 _
  · simp only [closestPointFl, subFl, h]; exact zero hx.2.1 _
  · simp only [closestPointFl, subFl, h]; exact zero hx.2.2 _
  -- the distance is exact
  have dist : ∀ y : V3 ℚ, FloatV p emin y → side eq pl y ∈ Floats p emin → sgnDistanceFl fl eq pl y = side eq pl y := by
    intro y hy hs
    obtain ⟨s, hs1, hs2⟩ := hn
    have e : dotFl fl pl.normal y = V3.dot pl.normal y := by
      rcases hs2 with g | g | g <;> rw [g] <;> rcases hs1 with rfl | rfl <;>
        simp [dotFl, V3.dot, h0, fx, nm, hy.1, hy.2.1, hy.2.2]
    have e2 : V3.dot pl.normal y - eq.distanceSign pl.distance = side eq pl y := by
      cases eq <;> simp [V3.dot, side, Eqn.distanceSign]
    simp only [sgnDistanceFl, e, e2, fx _ hs]
  have res : ∀ y : V3 ℚ, FloatV p emin y → side eq pl y ∈ Floats p emin →
      FloatV p emin (closestPointFl fl eq pl y) ∧ side eq pl (closestPointFl fl eq pl y) = 0 ∧ (side eq pl y = 0 → closestPointFl fl eq pl y = y) := by
    intro y hy hs
    have e := dist y hy hs
    refine ⟨⟨hf.mem _, hf.mem _, hf.mem _⟩, ?_, fun h => ?_⟩
    · obtain ⟨s, hs1, hs2⟩ := hn
      have hS : ∀ z : V3 ℚ, side eq pl z = V3.dot pl.normal z - eq.distanceSign pl.distance := fun z => by
        cases eq <;> simp [V3.dot, side, Eqn.distanceSign]
      rw [hS (closestPointFl fl eq pl y)]
      simp only [closestPointFl, subFl, e]
      have hD := sign_mem eq hd
      rw [hS] at hs ⊢
      generalize eq.distanceSign pl.distance = D at *
      rcases hs2 with g | g | g <;> rw [g] at hs ⊢ <;> simp only [V3.dot, zero_mul, zero_add, add_zero, h0, sub_zero] at hs ⊢ <;>
        rw [axis_coord hf hs1 hD hs] <;> rcases hs1 with rfl | rfl <;> ring
    · simp only [closestPointFl, subFl, e, h, mul_zero, h0, sub_zero, fx _ hy.1, fx _ hy.2.1, fx _ hy.2.2]
  obtain ⟨r1, r2, -⟩ := res x hx hs
  have hz : (0 : ℚ) ∈ Floats p emin := ⟨0, emin, by simp, le_rfl, by simp⟩
  refine ⟨r2, fun eps he => ?_, (res _ r1 (by rw [r2]; exact hz)).2.2 r2⟩
  simp only [relationPointFl, dist _ r1 (by rw [r2]; exact hz), r2]
  rw [if_neg (not_lt.2 he), if_neg (by linarith)]

/-- C130: a point which counts as on the plane (without tolerance) is its own closest point, for all planes. -/
theorem C130_fixed (hf : IsRounding p emin fl) (eq : Eqn) (pl : Pl ℚ) (x : V3 ℚ) (hx : FloatV p emin x) (h : relationPointFl fl eq pl x 0 = .onto) :
    closestPointFl fl eq pl x = x := by
  have h0 : fl 0 = 0 := hf.fix 0 ⟨0, emin, by simp, le_rfl, by simp⟩
  have hd : sgnDistanceFl fl eq pl x = 0 := by
    simp only [relationPointFl] at h
    split_ifs at h with a b
    exact le_antisymm (not_lt.1 a) (by linarith [not_lt.1 b])
  simp only [closestPointFl, subFl, hd, mul_zero, h0, sub_zero, hf.fix _ hx.1, hf.fix _ hx.2.1, hf.fix _ hx.2.2]

/-- The distance of a point at `2 ^ (p + 1)` from the plane x = -1 is rounded. -/
theorem closest_lost (hf : IsNearest p emin fl) (hp : 2 ≤ p) (he : emin ≤ 0) {eps : ℚ} (h1 : eps < 1) :
    closestPointFl fl .nxEqD ⟨⟨1, 0, 0⟩, -1⟩ ⟨2 ^ (p + 1), 0, 0⟩ = ⟨0, 0, 0⟩ ∧
    relationPointFl fl .nxEqD ⟨⟨1, 0, 0⟩, -1⟩ (closestPointFl fl .nxEqD ⟨⟨1, 0, 0⟩, -1⟩ ⟨2 ^ (p + 1), 0, 0⟩) eps = .inFrontOf := by
  have h0 : fl 0 = 0 := hf.fix 0 ⟨0, emin, by simp, le_rfl, by simp⟩
  have f1 : fl 1 = 1 := hf.fix 1 ⟨1, 0, by rw [abs_one]; exact one_lt_pow₀ (by norm_num) (by omega), he, by norm_num⟩
  have f2 : fl (2 ^ (p + 1)) = 2 ^ (p + 1) := hf.fix _ ⟨1, p + 1, by rw [abs_one]; exact one_lt_pow₀ (by norm_num) (by omega), by omega, by
    rw [Int.cast_one, one_mul]; norm_cast⟩
  have f3 : fl (2 ^ (p + 1) + 1) = 2 ^ (p + 1) := by
    have e : (2 : ℚ) ^ (p + 1) = ((2 ^ (p - 1) : ℤ) : ℚ) * 2 ^ (2 : ℤ) := by
      obtain ⟨q, rfl⟩ : ∃ q, p = q + 1 := ⟨p - 1, by omega⟩
      push_cast
      simp only [pow_succ]
      ring
    rw [e]
    refine nearest_down hf (by omega) (by omega) le_rfl (pow_lt_pow_right₀ (by norm_num) (by omega)) (by linarith) (by norm_num)
  have e : closestPointFl fl .nxEqD ⟨⟨1, 0, 0⟩, -1⟩ ⟨2 ^ (p + 1), 0, 0⟩ = ⟨0, 0, 0⟩ := by
    simp [closestPointFl, subFl, sgnDistanceFl, dotFl, Eqn.distanceSign, h0, f2, f3]
  refine ⟨e, ?_⟩
  rw [e]
  simp [relationPointFl, sgnDistanceFl, dotFl, Eqn.distanceSign, h0, f1, h1]

/-- C130: with `float`, the result for the plane x = -1 and the point (2^25, 0, 0) is the origin, at distance one from the plane; `RelationToPlane` says so. -/
theorem C130_float_refuted (hf : IsNearest 24 (-149) fl) {eps : ℚ} (h : eps < 1) :
    ∃ (pl : Pl ℚ) (x f : V3 ℚ), Axis pl.normal ∧ pl.distance ∈ Floats 24 (-149) ∧ FloatV 24 (-149) x ∧ (∃ t, IsFoot .nxEqD pl x f t) ∧
      closestPointFl fl .nxEqD pl x = ⟨f.x + 1, f.y, f.z⟩ ∧ relationPointFl fl .nxEqD pl (closestPointFl fl .nxEqD pl x) eps = .inFrontOf := by
  obtain ⟨h1, h2⟩ := closest_lost hf (by norm_num) (by norm_num) h
  have z : (0 : ℚ) ∈ Floats 24 (-149) := ⟨0, 0, by norm_num, by norm_num, by norm_num⟩
  exact ⟨⟨⟨1, 0, 0⟩, -1⟩, ⟨2 ^ (24 + 1), 0, 0⟩, ⟨-1, 0, 0⟩, ⟨1, .inl rfl, .inl rfl⟩, ⟨-1, 0, by norm_num, by norm_num, by norm_num⟩,
    ⟨⟨1, 25, by norm_num, by norm_num, by norm_num⟩, z, z⟩, ⟨2 ^ 25 + 1, by norm_num [IsFoot, side]⟩, by rw [h1]; norm_num, h2⟩

/-- C130: the same with `double`. -/
theorem C130_double_refuted (hf : IsNearest 53 (-1074) fl) {eps : ℚ} (h : eps < 1) :
    ∃ (pl : Pl ℚ) (x f : V3 ℚ), Axis pl.normal ∧ pl.distance ∈ Floats 53 (-1074) ∧ FloatV 53 (-1074) x ∧ (∃ t, IsFoot .nxEqD pl x f t) ∧
      closestPointFl fl .nxEqD pl x = ⟨f.x + 1, f.y, f.z⟩ ∧ relationPointFl fl .nxEqD pl (closestPointFl fl .nxEqD pl x) eps = .inFrontOf := by
  obtain ⟨h1, h2⟩ := closest_lost hf (by norm_num) (by norm_num) h
  have z : (0 : ℚ) ∈ Floats 53 (-1074) := ⟨0, 0, by norm_num, by norm_num, by norm_num⟩
  exact ⟨⟨⟨1, 0, 0⟩, -1⟩, ⟨2 ^ (53 + 1), 0, 0⟩, ⟨-1, 0, 0⟩, ⟨1, .inl rfl, .inl rfl⟩, ⟨-1, 0, by norm_num, by norm_num, by norm_num⟩,
    ⟨⟨1, 54, by norm_num, by norm_num, by norm_num⟩, z, z⟩, ⟨2 ^ 54 + 1, by norm_num [IsFoot, side]⟩, by rw [h1]; norm_num, h2⟩

/-! ## The hypotheses are met -/

example := C130_near_partial (nearest_isNearest (p := 24) (emin := -149) (by norm_num)).toIsRounding (by norm_num) .nxEqD ⟨⟨0, -1, 0⟩, 3⟩ ⟨3, 0, by norm_num, by norm_num, by norm_num⟩
  ⟨1, 2, 3⟩ ⟨1, -3, 3⟩ ⟨⟨1, 0, by norm_num, by norm_num, by norm_num⟩, ⟨2, 0, by norm_num, by norm_num, by norm_num⟩, ⟨3, 0, by norm_num, by norm_num, by norm_num⟩⟩
  (-5) (by norm_num [IsFoot, side])
/-- A normal which is only nearly of unit length. -/
example (fl : ℚ → ℚ) (hf : IsRounding 24 (-149) fl) := C130_onto_partial hf (by norm_num) .nxdEqZero ⟨⟨5 / 8, 25 / 32, 0⟩, 3⟩ ⟨3, 0, by norm_num, by norm_num, by norm_num⟩
  ⟨1, 2, 3⟩ ⟨⟨1, 0, by norm_num, by norm_num, by norm_num⟩, ⟨2, 0, by norm_num, by norm_num, by norm_num⟩, ⟨3, 0, by norm_num, by norm_num, by norm_num⟩⟩
/-- The bound is small for points near the origin. -/
example : closestErr 24 (-149) .nxEqD ⟨⟨0, -1, 0⟩, 3⟩ ⟨1, 2, 3⟩ (-1) 2 < 1 / 100000 := by
  norm_num [closestErr, distErr, ulp, absDot, side]
/-- The point (1, 2, 3) is 5 behind the plane -y = 3. -/
example (fl : ℚ → ℚ) (hf : IsRounding 24 (-149) fl) := (C130_axis_partial hf .nxEqD ⟨⟨0, -1, 0⟩, 3⟩ ⟨-1, .inr rfl, .inr (.inl rfl)⟩
  ⟨3, 0, by norm_num, by norm_num, by norm_num⟩ ⟨1, 2, 3⟩
  ⟨⟨1, 0, by norm_num, by norm_num, by norm_num⟩, ⟨2, 0, by norm_num, by norm_num, by norm_num⟩, ⟨3, 0, by norm_num, by norm_num, by norm_num⟩⟩).2.2.2
  ⟨-5, 0, by norm_num, by norm_num, by norm_num [side]⟩
/-- (2^24, 1/2, 0) counts as on the plane x + y = 2^24. -/
example : relationPointFl (Float.nearest 24 (-149)) .nxEqD ⟨⟨1, 1, 0⟩, 2 ^ 24⟩ ⟨2 ^ 24, 1 / 2, 0⟩ 0 = .onto := by decide +kernel
example := C130_float_refuted (nearest_isNearest (by norm_num)) (eps := 1 / 1000) (by norm_num)
example := C130_double_refuted (nearest_isNearest (by norm_num)) (eps := 1 / 1000) (by norm_num)

end Geom.Plane.Props
