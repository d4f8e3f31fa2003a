import Verif.Model.LinePlaneFloat
import Verif.Spec.LinePlaneFloat
import Verif.Props.RayPlaneFloat

/-
  C132: the intersection of a plane and a line segment in floating-point arithmetic.
-/
set_option autoImplicit false
set_option linter.unusedSectionVars false

namespace Geom.Plane.Props
open Spec Geom.Float
open Clip (dotFl subFl sgnDistanceFl relationPointFl interpFl roundExt)

variable {p : ℕ} {emin : ℤ} {fl : ℚ → ℚ}

theorem side_onLine (eq : Eqn) (pl : Pl ℚ) (l : Line ℚ) (t : ℚ) :
    side eq pl (onLine l t) = side eq pl l.a + t * (side eq pl l.b - side eq pl l.a) := by
  cases eq <;> simp only [side, onLine] <;> ring

/-- The error of the quotient of two numbers with errors. -/
theorem quot_near (hf : IsRounding p emin fl) (hp : 1 ≤ p) {s c S C E F : ℚ} (hc : c ≠ 0) (h1 : |s - S| ≤ E) (h2 : |c - C| ≤ F) :
    |S + fl (-s / c) * C| ≤ E + ulp p * (|S| + E) + 2 ^ emin * (|C| + F) + |fl (-s / c)| * F := by
  have hu := ulp_pos p
  have hη := two_zpow_pos emin
  have h3 : |fl (-s / c) - -s / c| ≤ ulp p * |-s / c| + 2 ^ emin := round_any hf hp _
  generalize fl (-s / c) = t at *
  have k1 : |t * c + s| ≤ ulp p * |s| + 2 ^ emin * |c| := by
    have e : t * c + s = c * (t - -s / c) := by field_simp; ring
    rw [e, abs_mul]
    have := mul_le_mul_of_nonneg_left h3 (abs_nonneg c)
    have e2 : |c| * (ulp p * |-s / c| + 2 ^ emin) = ulp p * |s| + 2 ^ emin * |c| := by
      rw [abs_div, abs_neg]
      have : |c| ≠ 0 := abs_ne_zero.2 hc
      field_simp
    linarith
  have k2 : |s| ≤ |S| + E := by have := abs_sub_abs_le_abs_sub s S; linarith
  have k3 : |c| ≤ |C| + F := by have := abs_sub_abs_le_abs_sub c C; linarith
  have k4 : |t * (c - C)| ≤ |t| * F := by rw [abs_mul]; exact mul_le_mul_of_nonneg_left h2 (abs_nonneg _)
  have k5 : |S + t * C| ≤ |s - S| + |t * c + s| + |t * (c - C)| := by
    rw [show S + t * C = (t * c + s) - (s - S) - t * (c - C) by ring]
    exact (abs_sub _ _).trans (by have := abs_sub (t * c + s) (s - S); linarith)
  have k6 := mul_le_mul_of_nonneg_left k2 hu.le
  have k7 := mul_le_mul_of_nonneg_left k3 hη.le
  linarith

/-- The error of the product of the normal and the direction. -/
theorem line_dot (hf : IsRounding p emin fl) (hp : 1 ≤ p) (eq : Eqn) (pl : Pl ℚ) (l : Line ℚ) (ha : FloatV p emin l.a) (hb : FloatV p emin l.b) :
    |dotFl fl pl.normal (subFl fl l.b l.a) - (side eq pl l.b - side eq pl l.a)| ≤ lineDotErr p emin pl l := by
  have hu := ulp_pos p
  have h := dot_error hf hp pl.normal (subFl fl l.b l.a)
  have key : ∀ n a b : ℚ, a ∈ Floats p emin → b ∈ Floats p emin →
      |n * fl (b - a) - n * (b - a)| ≤ ulp p * |n * (b - a)| ∧ |n * fl (b - a)| ≤ (1 + ulp p) * |n * (b - a)| := by
    intro n a b ha hb
    have h1 : |n * fl (b - a) - n * (b - a)| ≤ ulp p * |n * (b - a)| := by
      rw [← mul_sub, abs_mul, abs_mul]
      have : |fl (b - a) - (b - a)| ≤ ulp p * |b - a| := round_sub hf hp hb ha
      have := mul_le_mul_of_nonneg_left this (abs_nonneg n)
      linarith
    refine ⟨h1, ?_⟩
    have := abs_sub_abs_le_abs_sub (n * fl (b - a)) (n * (b - a))
    linarith
  obtain ⟨x1, x2⟩ := key pl.normal.x _ _ ha.1 hb.1
  obtain ⟨y1, y2⟩ := key pl.normal.y _ _ ha.2.1 hb.2.1
  obtain ⟨z1, z2⟩ := key pl.normal.z _ _ ha.2.2 hb.2.2
  have e : side eq pl l.b - side eq pl l.a = pl.normal.x * (l.b.x - l.a.x) + pl.normal.y * (l.b.y - l.a.y) + pl.normal.z * (l.b.z - l.a.z) := by
    cases eq <;> simp only [side] <;> ring
  rw [e]
  have hd : |V3.dot pl.normal (subFl fl l.b l.a) - (pl.normal.x * (l.b.x - l.a.x) + pl.normal.y * (l.b.y - l.a.y) + pl.normal.z * (l.b.z - l.a.z))| ≤
      ulp p * (|pl.normal.x * (l.b.x - l.a.x)| + |pl.normal.y * (l.b.y - l.a.y)| + |pl.normal.z * (l.b.z - l.a.z)|) := by
    have e2 : V3.dot pl.normal (subFl fl l.b l.a) - (pl.normal.x * (l.b.x - l.a.x) + pl.normal.y * (l.b.y - l.a.y) + pl.normal.z * (l.b.z - l.a.z)) =
        (pl.normal.x * fl (l.b.x - l.a.x) - pl.normal.x * (l.b.x - l.a.x)) + (pl.normal.y * fl (l.b.y - l.a.y) - pl.normal.y * (l.b.y - l.a.y)) +
        (pl.normal.z * fl (l.b.z - l.a.z) - pl.normal.z * (l.b.z - l.a.z)) := by simp only [V3.dot, subFl]; ring
    rw [e2]
    exact (abs_add_three _ _ _).trans (by linarith)
  have hA : absDot pl.normal (subFl fl l.b l.a) ≤
      (1 + ulp p) * (|pl.normal.x * (l.b.x - l.a.x)| + |pl.normal.y * (l.b.y - l.a.y)| + |pl.normal.z * (l.b.z - l.a.z)|) := by
    simp only [absDot, subFl]; linarith
  have hk : 0 ≤ (1 + ulp p) ^ 3 - 1 := by nlinarith [pow_pos hu 2, pow_pos hu 3]
  have hA2 := mul_le_mul_of_nonneg_left hA hk
  unfold dotErr at h
  unfold lineDotErr
  generalize |pl.normal.x * (l.b.x - l.a.x)| + |pl.normal.y * (l.b.y - l.a.y)| + |pl.normal.z * (l.b.z - l.a.z)| = A at *
  refine (abs_sub_le _ (V3.dot pl.normal (subFl fl l.b l.a)) _).trans ?_
  have : ((1 + ulp p) ^ 4 - 1) * A = ((1 + ulp p) ^ 3 - 1) * ((1 + ulp p) * A) + ulp p * A := by ring
  linarith

/-- A coordinate of the point. -/
theorem line_coord (hf : IsRounding p emin fl) (hp : 1 ≤ p) {a b t : ℚ} (ha : a ∈ Floats p emin) (hb : b ∈ Floats p emin) :
    |fl (fl (fl (b - a) * t) + a) - (a + t * (b - a))| ≤ lineLerpErr p emin a b t := by
  have hu := ulp_pos p
  have h1 := lerp_coord hf hp (d := fl (b - a)) (t := t) ha
  have h2 : |fl (b - a) - (b - a)| ≤ ulp p * |b - a| := round_sub hf hp hb ha
  have h3 : |fl (b - a) * t - (b - a) * t| ≤ ulp p * |(b - a) * t| := by
    rw [← sub_mul, abs_mul, abs_mul, ← mul_assoc]
    exact mul_le_mul_of_nonneg_right h2 (abs_nonneg t)
  have h4 : |fl (b - a) * t| ≤ (1 + ulp p) * |(b - a) * t| := by
    have := abs_sub_abs_le_abs_sub (fl (b - a) * t) ((b - a) * t)
    linarith
  have h5 := mul_le_mul_of_nonneg_left h4 (mul_pos hu (by linarith : 0 < 2 + ulp p)).le
  have h6 : |fl (fl (fl (b - a) * t) + a) - (a + t * (b - a))| ≤
      |fl (fl (fl (b - a) * t) + a) - (a + t * fl (b - a))| + |fl (b - a) * t - (b - a) * t| := by
    rw [show fl (fl (fl (b - a) * t) + a) - (a + t * (b - a)) =
      (fl (fl (fl (b - a) * t) + a) - (a + t * fl (b - a))) + (fl (b - a) * t - (b - a) * t) by ring]
    exact abs_add_le _ _
  unfold lerpErr at h1
  unfold lineLerpErr
  linarith

/-- C132: the returned point is a point of the segment and of the plane, up to rounding. -/
theorem C132_hit_partial (hf : IsRounding p emin fl) (hp : 1 ≤ p) (nz : Bool) (eq : Eqn) (pl : Pl ℚ) (hd : pl.distance ∈ Floats p emin) (l : Line ℚ)
    (ha : FloatV p emin l.a) (hb : FloatV p emin l.b) (x : V3 ℚ) (h : intersectLineFl fl nz eq pl l = .point x) :
    ∃ t, 0 ≤ t ∧ t ≤ 1 ∧ |side eq pl (onLine l t)| ≤ lineErr p emin eq pl l t ∧ |x.x - (onLine l t).x| ≤ lineLerpErr p emin l.a.x l.b.x t ∧
      |x.y - (onLine l t).y| ≤ lineLerpErr p emin l.a.y l.b.y t ∧ |x.z - (onLine l t).z| ≤ lineLerpErr p emin l.a.z l.b.z t := by
  by_cases hc : dotFl fl pl.normal (subFl fl l.b l.a) = 0
  · simp only [intersectLineFl, interpFl, Ext.div, if_pos hc] at h
    split_ifs at h <;> simp_all [roundExt]
  · simp only [intersectLineFl, interpFl, Ext.div_ne hc, roundExt, Ext.ge, Ext.le, Bool.and_eq_true, decide_eq_true_eq] at h
    split_ifs at h with h0
    obtain rfl := Hit.point.inj h
    refine ⟨_, h0.1, h0.2, ?_, line_coord hf hp ha.1 hb.1, line_coord hf hp ha.2.1 hb.2.1, line_coord hf hp ha.2.2 hb.2.2⟩
    rw [side_onLine]
    exact quot_near hf hp hc (C109_distance_partial hf hp eq pl hd l.a) (line_dot hf hp eq pl l ha hb)

/-- C132: a segment that starts on the plane, by the computed distance, and is not parallel to it by the computed product hits it exactly at the start. -/
theorem C132_start (hf : IsRounding p emin fl) (nz : Bool) (eq : Eqn) (pl : Pl ℚ) (l : Line ℚ) (ha : FloatV p emin l.a)
    (h : relationPointFl fl eq pl l.a 0 = .onto) (hc : dotFl fl pl.normal (subFl fl l.b l.a) ≠ 0) : intersectLineFl fl nz eq pl l = .point l.a := by
  have h0 : fl 0 = 0 := hf.fix 0 ⟨0, emin, by simp, le_rfl, by simp⟩
  have hs : sgnDistanceFl fl eq pl l.a = 0 := by
    simp only [relationPointFl, neg_zero] at h
    split_ifs at h with h1 h2
    exact le_antisymm (not_lt.1 h1) (not_lt.1 h2)
  simp [intersectLineFl, interpFl, Line.lerpFl, Ext.div_ne hc, hs, roundExt, Ext.ge, Ext.le, h0, hf.fix _ ha.1, hf.fix _ ha.2.1, hf.fix _ ha.2.2]

/-- C132: a segment whose end points are on different sides of a plane normal to an axis, or one of them on it, hits the plane, if the rounding is symmetric. -/
theorem C132_axis_partial (hf : IsRounding p emin fl) (hodd : ∀ x, fl (-x) = -fl x) (hp : 1 ≤ p) (he : emin ≤ 0) (nz : Bool) (eq : Eqn) (pl : Pl ℚ)
    (hn : Axis pl.normal) (l : Line ℚ) (ha : FloatV p emin l.a) (hb : FloatV p emin l.b)
    (h : (0 ≤ side eq pl l.a ∧ side eq pl l.b ≤ 0) ∨ (side eq pl l.a ≤ 0 ∧ 0 ≤ side eq pl l.b)) (hne : side eq pl l.a ≠ side eq pl l.b) :
    ∃ x, intersectLineFl fl nz eq pl l = .point x := by
  have hu := ulp_pos p
  have h0 : fl 0 = 0 := hf.fix 0 ⟨0, emin, by simp, le_rfl, by simp⟩
  have h1 : fl 1 = 1 := hf.fix 1 ⟨1, 0, by rw [abs_one]; exact one_lt_pow₀ (by norm_num) (by omega), he, by norm_num⟩
  have hs : sgnDistanceFl fl eq pl l.a = fl (side eq pl l.a) := by
    simp only [sgnDistanceFl, dotFl_axis hf hn ha]
    congr 1
    cases eq <;> simp [V3.dot, side, Eqn.distanceSign]
  have hc : dotFl fl pl.normal (subFl fl l.b l.a) = fl (side eq pl l.b - side eq pl l.a) := by
    rw [dotFl_axis hf hn ⟨hf.mem _, hf.mem _, hf.mem _⟩]
    have e : side eq pl l.b - side eq pl l.a = pl.normal.x * (l.b.x - l.a.x) + pl.normal.y * (l.b.y - l.a.y) + pl.normal.z * (l.b.z - l.a.z) := by
      cases eq <;> simp only [side] <;> ring
    rw [e]
    obtain ⟨s, rfl | rfl, g | g | g⟩ := hn <;> rw [g] <;> simp only [V3.dot, subFl, one_mul, zero_mul, zero_add, add_zero, neg_one_mul, hodd]
  -- the difference of two different floats is not rounded to zero
  have hc0 : fl (side eq pl l.b - side eq pl l.a) ≠ 0 := by
    intro hz
    have hm : ∃ y z : ℚ, y ∈ Floats p emin ∧ z ∈ Floats p emin ∧ side eq pl l.b - side eq pl l.a = y - z := by
      obtain ⟨s, rfl | rfl, g | g | g⟩ := hn
      · exact ⟨_, _, hb.1, ha.1, by cases eq <;> simp [side, g]⟩
      · exact ⟨_, _, hb.2.1, ha.2.1, by cases eq <;> simp [side, g]⟩
      · exact ⟨_, _, hb.2.2, ha.2.2, by cases eq <;> simp [side, g]⟩
      · exact ⟨_, _, ha.1, hb.1, by cases eq <;> simp [side, g] <;> ring⟩
      · exact ⟨_, _, ha.2.1, hb.2.1, by cases eq <;> simp [side, g] <;> ring⟩
      · exact ⟨_, _, ha.2.2, hb.2.2, by cases eq <;> simp [side, g] <;> ring⟩
    obtain ⟨y, z, hy, hz', e⟩ := hm
    rw [e] at hz
    have hyz : y - z ≠ 0 := fun g => hne (by rw [g] at e; linarith)
    obtain ⟨m, f, -, hf1, rfl⟩ := hy
    obtain ⟨k, g, -, hg1, rfl⟩ := hz'
    obtain ⟨i, rfl⟩ : ∃ i : ℕ, f = emin + i := ⟨(f - emin).toNat, by omega⟩
    obtain ⟨j, rfl⟩ : ∃ j : ℕ, g = emin + j := ⟨(g - emin).toNat, by omega⟩
    have e3 : (m : ℚ) * 2 ^ (emin + (i : ℤ)) - k * 2 ^ (emin + (j : ℤ)) = ((m * 2 ^ i - k * 2 ^ j : ℤ) : ℚ) * 2 ^ emin := by
      rw [zpow_add₀ (by norm_num), zpow_add₀ (by norm_num), zpow_natCast, zpow_natCast]; push_cast; ring
    rw [e3] at hz hyz
    have hη := two_zpow_pos emin
    have mη : (2 : ℚ) ^ emin ∈ Floats p emin := ⟨1, emin, by rw [abs_one]; exact one_lt_pow₀ (by norm_num) (by omega), le_rfl, by simp⟩
    generalize m * 2 ^ i - k * 2 ^ j = N at *
    rcases lt_trichotomy N 0 with q | q | q
    · have : (N : ℚ) ≤ -1 := by exact_mod_cast (by omega : N ≤ -1)
      have := hf.mono (show (N : ℚ) * 2 ^ emin ≤ -2 ^ emin by have := mul_le_mul_of_nonneg_right this hη.le; linarith)
      rw [hz, hf.fix _ (neg_mem mη)] at this
      linarith
    · exact hyz (by rw [q]; simp)
    · have : (1 : ℚ) ≤ N := by exact_mod_cast q
      have := hf.mono (show (2 : ℚ) ^ emin ≤ (N : ℚ) * 2 ^ emin by have := mul_le_mul_of_nonneg_right this hη.le; linarith)
      rw [hz, hf.fix _ mη] at this
      linarith
  have hq : 0 ≤ -fl (side eq pl l.a) / fl (side eq pl l.b - side eq pl l.a) ∧ -fl (side eq pl l.a) / fl (side eq pl l.b - side eq pl l.a) ≤ 1 := by
    generalize side eq pl l.a = S at *
    generalize side eq pl l.b = T at *
    rcases h with ⟨a, b⟩ | ⟨a, b⟩
    · have i1 : 0 ≤ fl S := h0 ▸ hf.mono a
      have i2 : fl (T - S) ≤ -fl S := hodd S ▸ hf.mono (by linarith)
      have i3 : fl (T - S) < 0 := lt_of_le_of_ne (by linarith) hc0
      exact ⟨div_nonneg_of_nonpos (by linarith) i3.le, (div_le_one_of_neg i3).2 i2⟩
    · have i1 : fl S ≤ 0 := h0 ▸ hf.mono a
      have i2 : -fl S ≤ fl (T - S) := hodd S ▸ hf.mono (by linarith)
      have i3 : 0 < fl (T - S) := lt_of_le_of_ne (by linarith) (Ne.symm hc0)
      exact ⟨div_nonneg (by linarith) i3.le, (div_le_one i3).2 i2⟩
  have t0 := hf.mono hq.1
  have t1 := hf.mono hq.2
  rw [h0] at t0
  rw [h1] at t1
  simp only [intersectLineFl, interpFl, Ext.div_ne hc0, roundExt, Ext.ge, Ext.le, hs, hc, t0, t1, decide_true, Bool.and_self, if_true]
  exact ⟨_, rfl⟩

/-- The computed numbers with the sign of one side. -/
theorem line_signs (hf : IsRounding p emin fl) (hp : 1 ≤ p) (eq : Eqn) (pl : Pl ℚ) (hd : pl.distance ∈ Floats p emin) (l : Line ℚ)
    (ha : FloatV p emin l.a) (hb : FloatV p emin l.b) {σ : ℚ} (hσ : σ = 1 ∨ σ = -1) :
    |σ * sgnDistanceFl fl eq pl l.a - σ * side eq pl l.a| ≤ distErr p emin pl l.a ∧
    |σ * dotFl fl pl.normal (subFl fl l.b l.a) - (σ * side eq pl l.b - σ * side eq pl l.a)| ≤ lineDotErr p emin pl l ∧
    -sgnDistanceFl fl eq pl l.a / dotFl fl pl.normal (subFl fl l.b l.a) = -(σ * sgnDistanceFl fl eq pl l.a) / (σ * dotFl fl pl.normal (subFl fl l.b l.a)) := by
  have h1 := C109_distance_partial hf hp eq pl hd l.a
  have h2 := line_dot hf hp eq pl l ha hb
  have hs : |σ| = 1 := by rcases hσ with rfl | rfl <;> norm_num
  have hne : σ ≠ 0 := by rcases hσ with rfl | rfl <;> norm_num
  refine ⟨?_, ?_, ?_⟩
  · rw [← mul_sub, abs_mul, hs, one_mul]; exact h1
  · rw [← mul_sub, ← mul_sub, abs_mul, hs, one_mul]; exact h2
  · rw [← mul_neg, mul_div_mul_left _ _ hne]

/-- C132: a segment from one side (`σ` is the sign of its distance) to a point which is clearly on the other side hits the plane. -/
theorem C132_crossing_partial (hf : IsRounding p emin fl) (hp : 1 ≤ p) (he : emin ≤ 0) (nz : Bool) (eq : Eqn) (pl : Pl ℚ) (hd : pl.distance ∈ Floats p emin)
    (l : Line ℚ) (ha : FloatV p emin l.a) (hb : FloatV p emin l.b) (σ : ℚ) (hσ : σ = 1 ∨ σ = -1) (h1 : distErr p emin pl l.a < σ * side eq pl l.a)
    (h2 : σ * side eq pl l.b ≤ -(distErr p emin pl l.a + lineDotErr p emin pl l)) : ∃ x, intersectLineFl fl nz eq pl l = .point x := by
  obtain ⟨k1, k2, k3⟩ := line_signs hf hp eq pl hd l ha hb hσ
  rw [abs_le] at k1 k2
  have hc : σ * dotFl fl pl.normal (subFl fl l.b l.a) < 0 := by linarith [k1.1, k1.2, k2.2]
  have hc0 : dotFl fl pl.normal (subFl fl l.b l.a) ≠ 0 := fun g => by rw [g, mul_zero] at hc; exact lt_irrefl _ hc
  have q0 := div_nonneg_of_nonpos (by linarith [k1.1] : -(σ * sgnDistanceFl fl eq pl l.a) ≤ 0) hc.le
  have q1 := (div_le_one_of_neg hc).2 (by linarith [k1.2, k2.2] : σ * dotFl fl pl.normal (subFl fl l.b l.a) ≤ -(σ * sgnDistanceFl fl eq pl l.a))
  rw [← k3] at q0 q1
  have t0 := hf.mono q0
  have t1 := hf.mono q1
  rw [hf.fix 0 ⟨0, emin, by simp, le_rfl, by simp⟩] at t0
  rw [hf.fix 1 ⟨1, 0, by rw [abs_one]; exact one_lt_pow₀ (by norm_num) (by omega), he, by norm_num⟩] at t1
  simp only [intersectLineFl, interpFl, Ext.div_ne hc0, roundExt, Ext.ge, Ext.le, t0, t1, decide_true, Bool.and_self, if_true]
  exact ⟨_, rfl⟩

/-- C132: a segment whose end points are clearly on the same side (`σ` is the sign of their distances) does not hit the plane. -/
theorem C132_same_partial (hf : IsRounding p emin fl) (hp : 2 ≤ p) (he : emin ≤ 1 - p) (nz : Bool) (eq : Eqn) (pl : Pl ℚ) (hd : pl.distance ∈ Floats p emin)
    (l : Line ℚ) (ha : FloatV p emin l.a) (hb : FloatV p emin l.b) (σ : ℚ) (hσ : σ = 1 ∨ σ = -1) (h0 : distErr p emin pl l.a < σ * side eq pl l.a)
    (h1 : distErr p emin pl l.a + (1 + ulp p) * (σ * side eq pl l.a - σ * side eq pl l.b + lineDotErr p emin pl l) ≤ σ * side eq pl l.a)
    (h2 : distErr p emin pl l.a + 2 ^ emin * (σ * side eq pl l.b - σ * side eq pl l.a + lineDotErr p emin pl l) ≤ σ * side eq pl l.a) :
    intersectLineFl fl nz eq pl l = .none := by
  obtain ⟨k1, k2, k3⟩ := line_signs hf (by omega) eq pl hd l ha hb hσ
  have hu := ulp_pos p
  have hη := two_zpow_pos emin
  rw [abs_le] at k1 k2
  have one : |(1 : ℤ)| < 2 ^ p := by rw [abs_one]; exact one_lt_pow₀ (by norm_num) (by omega)
  by_cases hc0 : dotFl fl pl.normal (subFl fl l.b l.a) = 0
  · have hs0 : sgnDistanceFl fl eq pl l.a ≠ 0 := fun g => by rw [g, mul_zero] at k1; linarith [k1.1]
    simp only [intersectLineFl, interpFl, Ext.div, if_pos hc0]
    split_ifs <;> simp_all [roundExt, Ext.ge, Ext.le]
  · have ht : fl (-sgnDistanceFl fl eq pl l.a / dotFl fl pl.normal (subFl fl l.b l.a)) < 0 ∨
        1 < fl (-sgnDistanceFl fl eq pl l.a / dotFl fl pl.normal (subFl fl l.b l.a)) := by
      rw [k3]
      have hne : σ * dotFl fl pl.normal (subFl fl l.b l.a) ≠ 0 := mul_ne_zero (by rcases hσ with rfl | rfl <;> norm_num) hc0
      generalize σ * dotFl fl pl.normal (subFl fl l.b l.a) = c at *
      generalize σ * sgnDistanceFl fl eq pl l.a = s at *
      rcases lt_or_gt_of_ne hne with g | g
      · right
        have m : (1 : ℚ) + ulp p ∈ Floats p emin := by
          refine ⟨2 ^ (p - 1) + 1, 1 - p, ?_, he, ?_⟩
          · obtain ⟨q, rfl⟩ : ∃ q, p = q + 2 := ⟨p - 2, by omega⟩
            have : (1 : ℤ) ≤ 2 ^ q := one_le_pow₀ (by norm_num)
            rw [abs_of_nonneg (by positivity)]
            simp only [show q + 2 - 1 = q + 1 by omega, pow_succ]
            linarith
          · obtain ⟨q, rfl⟩ : ∃ q, p = q + 1 := ⟨p - 1, by omega⟩
            have e : (2 : ℚ) ^ q * 2 ^ (1 - ((q + 1 : ℕ) : ℤ)) = 1 := by
              rw [← zpow_natCast, ← zpow_add₀ (by norm_num)]
              simp
            simp only [ulp, Nat.add_sub_cancel, Int.cast_add, Int.cast_pow, Int.cast_ofNat, Int.cast_one, add_mul, one_mul, e]
        have hq : 1 + ulp p ≤ -s / c := by
          rw [le_div_iff_of_neg g]
          have : (1 + ulp p) * -c ≤ (1 + ulp p) * (σ * side eq pl l.a - σ * side eq pl l.b + lineDotErr p emin pl l) :=
            mul_le_mul_of_nonneg_left (by linarith [k2.1]) (by linarith)
          linarith [k1.1]
        have := hf.mono hq
        rw [hf.fix _ m] at this
        linarith
      · left
        have hq : -s / c ≤ -2 ^ emin := by
          rw [div_le_iff₀ g]
          have : 2 ^ emin * c ≤ 2 ^ emin * (σ * side eq pl l.b - σ * side eq pl l.a + lineDotErr p emin pl l) :=
            mul_le_mul_of_nonneg_left (by linarith [k2.2]) hη.le
          linarith [k1.1]
        have := hf.mono hq
        rw [hf.fix _ (neg_mem ⟨1, emin, one, le_rfl, by simp⟩)] at this
        linarith
    simp only [intersectLineFl, interpFl, Ext.div_ne hc0, roundExt, Ext.ge, Ext.le, Bool.and_eq_true, decide_eq_true_eq]
    rw [if_neg]
    rintro ⟨g1, g2⟩
    rcases ht with g | g <;> linarith

/-- The segment from (2 ^ (p + 1), 0, 0) to the origin is in front of the plane x = -1. -/
theorem line_lost (hf : IsNearest p emin fl) (hp : 2 ≤ p) (he : emin ≤ 0) (nz : Bool) {eps : ℚ} (h1 : eps < 1) :
    intersectLineFl fl nz .nxEqD ⟨⟨1, 0, 0⟩, -1⟩ ⟨⟨2 ^ (p + 1), 0, 0⟩, ⟨0, 0, 0⟩⟩ = .point ⟨0, 0, 0⟩ ∧
    relationPointFl fl .nxEqD ⟨⟨1, 0, 0⟩, -1⟩ ⟨0, 0, 0⟩ eps = .inFrontOf ∧
    relationPointFl fl .nxEqD ⟨⟨1, 0, 0⟩, -1⟩ ⟨2 ^ (p + 1), 0, 0⟩ eps = .inFrontOf := by
  have h0 : fl 0 = 0 := hf.fix 0 ⟨0, emin, by simp, le_rfl, by simp⟩
  have one : |(1 : ℤ)| < 2 ^ p := by rw [abs_one]; exact one_lt_pow₀ (by norm_num) (by omega)
  have f1 : fl 1 = 1 := hf.fix 1 ⟨1, 0, one, he, by norm_num⟩
  have m2 : (2 : ℚ) ^ (p + 1) ∈ Floats p emin := ⟨1, p + 1, one, by omega, by rw [Int.cast_one, one_mul]; norm_cast⟩
  have f2 := hf.fix _ m2
  have fm2 := hf.fix _ (neg_mem m2)
  have f3 : fl (2 ^ (p + 1) + 1) = 2 ^ (p + 1) := by
    have e : (2 : ℚ) ^ (p + 1) = ((2 ^ (p - 1) : ℤ) : ℚ) * 2 ^ (2 : ℤ) := by
      obtain ⟨q, rfl⟩ : ∃ q, p = q + 1 := ⟨p - 1, by omega⟩
      push_cast
      simp only [pow_succ]
      ring
    rw [e]
    refine nearest_down hf (by omega) (by omega) le_rfl (pow_lt_pow_right₀ (by norm_num) (by omega)) (by linarith) (by norm_num)
  have hpos : (1 : ℚ) ≤ 2 ^ (p + 1) := one_le_pow₀ (by norm_num)
  refine ⟨?_, ?_, ?_⟩
  · simp [intersectLineFl, interpFl, subFl, Line.lerpFl, sgnDistanceFl, dotFl, Eqn.distanceSign, Ext.div, roundExt, Ext.ge, Ext.le, h0, f1, f2, fm2, f3]
  · simp [relationPointFl, sgnDistanceFl, dotFl, Eqn.distanceSign, h0, f1, h1]
  · simp [relationPointFl, sgnDistanceFl, dotFl, Eqn.distanceSign, h0, f2, f3, h1.trans_le hpos]

/-- C132: with `float`, the segment from (2^25, 0, 0) to the origin, both in front of the plane x = -1 and at least at distance one, hits this plane. -/
theorem C132_float_refuted (hf : IsNearest 24 (-149) fl) (nz : Bool) {eps : ℚ} (h : eps < 1) :
    ∃ (pl : Pl ℚ) (l : Line ℚ) (x : V3 ℚ), Axis pl.normal ∧ pl.distance ∈ Floats 24 (-149) ∧ FloatV 24 (-149) l.a ∧ FloatV 24 (-149) l.b ∧
      intersectLineFl fl nz .nxEqD pl l = .point x ∧ (∀ t, 0 ≤ t → t ≤ 1 → 1 ≤ side .nxEqD pl (onLine l t)) ∧
      relationPointFl fl .nxEqD pl l.a eps = .inFrontOf ∧ relationPointFl fl .nxEqD pl l.b eps = .inFrontOf ∧ relationPointFl fl .nxEqD pl x eps = .inFrontOf := by
  obtain ⟨h1, h2, h3⟩ := line_lost hf (by norm_num) (by norm_num) nz h
  have z : (0 : ℚ) ∈ Floats 24 (-149) := ⟨0, 0, by norm_num, by norm_num, by norm_num⟩
  refine ⟨_, _, _, ⟨1, .inl rfl, .inl rfl⟩, ⟨-1, 0, by norm_num, by norm_num, by norm_num⟩, ⟨⟨1, 25, by norm_num, by norm_num, by norm_num⟩, z, z⟩, ⟨z, z, z⟩, h1,
    fun t t0 t1 => ?_, h3, h2, h2⟩
  norm_num [side, onLine]
  linarith

/-- C132: the same with `double`. -/
theorem C132_double_refuted (hf : IsNearest 53 (-1074) fl) (nz : Bool) {eps : ℚ} (h : eps < 1) :
    ∃ (pl : Pl ℚ) (l : Line ℚ) (x : V3 ℚ), Axis pl.normal ∧ pl.distance ∈ Floats 53 (-1074) ∧ FloatV 53 (-1074) l.a ∧ FloatV 53 (-1074) l.b ∧
      intersectLineFl fl nz .nxEqD pl l = .point x ∧ (∀ t, 0 ≤ t → t ≤ 1 → 1 ≤ side .nxEqD pl (onLine l t)) ∧
      relationPointFl fl .nxEqD pl l.a eps = .inFrontOf ∧ relationPointFl fl .nxEqD pl l.b eps = .inFrontOf ∧ relationPointFl fl .nxEqD pl x eps = .inFrontOf := by
  obtain ⟨h1, h2, h3⟩ := line_lost hf (by norm_num) (by norm_num) nz h
  have z : (0 : ℚ) ∈ Floats 53 (-1074) := ⟨0, 0, by norm_num, by norm_num, by norm_num⟩
  refine ⟨_, _, _, ⟨1, .inl rfl, .inl rfl⟩, ⟨-1, 0, by norm_num, by norm_num, by norm_num⟩, ⟨⟨1, 54, by norm_num, by norm_num, by norm_num⟩, z, z⟩, ⟨z, z, z⟩, h1,
    fun t t0 t1 => ?_, h3, h2, h2⟩
  norm_num [side, onLine]
  linarith

/-- Without a tie each rounding to the nearest has the same result. -/
theorem no_tie (hf : IsNearest p emin fl) (hp : 1 ≤ p) {x y : ℚ} (h : down p emin x = x ∨ x - down p emin x ≠ up p emin x - x) (hy : nearest p emin x = y) :
    fl x = y := by
  subst hy
  rcases h with h | h
  · have hm : x ∈ Floats p emin := h ▸ down_mem hp x
    rw [hf.fix x hm, (nearest_isNearest hp).fix x hm]
  have n1 := hf.near x _ (down_mem hp x)
  have n2 := hf.near x _ (up_mem hp x)
  have d1 := down_le (p := p) (emin := emin) x
  have u1 := le_up (p := p) (emin := emin) x
  rw [abs_of_nonpos (by linarith : down p emin x - x ≤ 0), abs_le] at n1
  rw [abs_of_nonneg (by linarith : 0 ≤ up p emin x - x), abs_le] at n2
  unfold nearest
  rcases le_or_gt (fl x) x with g | g
  · have := le_down hp (hf.mem x) g
    rw [if_pos (by linarith [n2.1])]
    linarith [n1.1]
  · have := up_le hp (hf.mem x) g.le
    rw [if_neg (fun q => h (by linarith [n1.2]))]
    linarith [n2.2]

/-- C132: with `float` there is a plane with nearly unit normal, and a segment from a point in front of the plane to a point which is behind it by more than
two, by the exact and by the computed distance, that does not hit the plane: the parameter is rounded to a number greater than one. -/
theorem C132_crossing_refuted (hf : IsNearest 24 (-149) fl) (nz : Bool) :
    ∃ (pl : Pl ℚ) (l : Line ℚ), FloatV 24 (-149) pl.normal ∧ |V3.dot pl.normal pl.normal - 1| < 1 / 10000000 ∧ pl.distance = 0 ∧
      FloatV 24 (-149) l.a ∧ FloatV 24 (-149) l.b ∧ 2 < side .nxEqD pl l.a ∧ side .nxEqD pl l.b < -2 ∧ relationPointFl fl .nxEqD pl l.a 2 = .inFrontOf ∧
      relationPointFl fl .nxEqD pl l.b 2 = .behind ∧ intersectLineFl fl nz .nxEqD pl l = .none := by
  have F : ∀ {x y : ℚ}, (down 24 (-149) x = x ∨ x - down 24 (-149) x ≠ up 24 (-149) x - x) → nearest 24 (-149) x = y → fl x = y :=
    fun h g => no_tie hf (by norm_num) h g
  have z : (0 : ℚ) ∈ Floats 24 (-149) := ⟨0, 0, by norm_num, by norm_num, by norm_num⟩
  have n0 : (11863283 / 16777216 : ℚ) ∈ Floats 24 (-149) := ⟨11863283, -24, by norm_num, by norm_num, by norm_num⟩
  have h0 := hf.fix 0 z
  have a1 : fl (11863283 / 16777216 * 67108864) = 47453132 := F (by decide +kernel) (by decide +kernel)
  have a2 : fl (11863283 / 16777216 * (23 / 8)) = 8526735 / 4194304 := F (by decide +kernel) (by decide +kernel)
  have a3 : fl (47453132 + 8526735 / 4194304) = 47453136 := F (by decide +kernel) (by decide +kernel)
  have a4 : fl 47453136 = 47453136 := F (by decide +kernel) (by decide +kernel)
  have b1 : fl (11863283 / 16777216 * (-31 / 8)) = -11492555 / 4194304 := F (by decide +kernel) (by decide +kernel)
  have b2 : fl (11863283 / 16777216 * (7 / 8)) = 10380373 / 16777216 := F (by decide +kernel) (by decide +kernel)
  have b3 : fl (-11492555 / 4194304 + 10380373 / 16777216) = -4448731 / 2097152 := F (by decide +kernel) (by decide +kernel)
  have b4 : fl (-4448731 / 2097152) = -4448731 / 2097152 := F (by decide +kernel) (by decide +kernel)
  have c1 : fl (-31 / 8 - 67108864) = -67108864 := F (by decide +kernel) (by decide +kernel)
  have c2 : fl (7 / 8 - 23 / 8) = -2 := F (by decide +kernel) (by decide +kernel)
  have c3 : fl (11863283 / 16777216 * -67108864) = -47453132 := F (by decide +kernel) (by decide +kernel)
  have c4 : fl (11863283 / 16777216 * -2) = -11863283 / 8388608 := F (by decide +kernel) (by decide +kernel)
  have c5 : fl (-47453132 + -11863283 / 8388608) = -47453132 := F (by decide +kernel) (by decide +kernel)
  have c6 : fl (-47453132) = -47453132 := F (by decide +kernel) (by decide +kernel)
  have t1 : fl (-47453136 / -47453132) = 8388609 / 8388608 := F (by decide +kernel) (by decide +kernel)
  have sa : sgnDistanceFl fl .nxEqD ⟨⟨11863283 / 16777216, 11863283 / 16777216, 0⟩, 0⟩ ⟨67108864, 23 / 8, 0⟩ = 47453136 := by
    simp only [sgnDistanceFl, dotFl, Eqn.distanceSign, mul_zero, h0, a1, a2, a3, a4, add_zero, sub_zero]
  have sb : sgnDistanceFl fl .nxEqD ⟨⟨11863283 / 16777216, 11863283 / 16777216, 0⟩, 0⟩ ⟨-31 / 8, 7 / 8, 0⟩ = -4448731 / 2097152 := by
    simp only [sgnDistanceFl, dotFl, Eqn.distanceSign, mul_zero, h0, b1, b2, b3, b4, add_zero, sub_zero]
  have cc : dotFl fl ⟨11863283 / 16777216, 11863283 / 16777216, 0⟩ (subFl fl ⟨-31 / 8, 7 / 8, 0⟩ ⟨67108864, 23 / 8, 0⟩) = -47453132 := by
    simp only [dotFl, subFl, c1, c2, c3, c4, c5, c6, sub_zero, h0, mul_zero, add_zero]
  refine ⟨⟨⟨11863283 / 16777216, 11863283 / 16777216, 0⟩, 0⟩, ⟨⟨67108864, 23 / 8, 0⟩, ⟨-31 / 8, 7 / 8, 0⟩⟩, ⟨n0, n0, z⟩, ?_, rfl,
    ⟨⟨1, 26, by norm_num, by norm_num, by norm_num⟩, ⟨23, -3, by norm_num, by norm_num, by norm_num⟩, z⟩,
    ⟨⟨-31, -3, by norm_num, by norm_num, by norm_num⟩, ⟨7, -3, by norm_num, by norm_num, by norm_num⟩, z⟩, ?_, ?_, ?_, ?_, ?_⟩
  · norm_num [V3.dot, abs_lt]
  · norm_num [side]
  · norm_num [side]
  · simp only [relationPointFl, sa]; norm_num
  · simp only [relationPointFl, sb]; norm_num
  · simp only [intersectLineFl, interpFl, sa, cc]
    rw [Ext.div_ne (by norm_num)]
    simp only [roundExt, t1, Ext.ge, Ext.le]
    norm_num

/-! ## The hypotheses are met -/

/-- The rounding toward zero is symmetric. -/
def toZero (p : ℕ) (emin : ℤ) (x : ℚ) : ℚ := if 0 ≤ x then down p emin x else up p emin x

theorem toZero_rounding (hp : 1 ≤ p) : IsRounding p emin (toZero p emin) where
  mem x := by unfold toZero; split_ifs; exacts [down_mem hp x, up_mem hp x]
  fix x hx := by unfold toZero; rw [(down_rounding hp).fix x hx, (up_rounding hp).fix x hx, ite_self]
  mono x y h := by
    have z : (0 : ℚ) ∈ Floats p emin := ⟨0, emin, by simp, le_rfl, by simp⟩
    unfold toZero
    split_ifs with h1 h2 h2
    · exact (down_rounding hp).mono h
    · exact absurd (h1.trans h) h2
    · exact (up_le hp z (not_le.1 h1).le).trans (le_down hp z h2)
    · exact (up_rounding hp).mono h

theorem toZero_odd (hp : 1 ≤ p) (x : ℚ) : toZero p emin (-x) = -toZero p emin x := by
  rcases lt_trichotomy x 0 with h | rfl | h
  · unfold toZero
    rw [if_pos (by linarith), if_neg (by linarith), up, neg_neg]
  · have z : (0 : ℚ) ∈ Floats p emin := ⟨0, emin, by simp, le_rfl, by simp⟩
    rw [neg_zero, (toZero_rounding hp).fix 0 z, neg_zero]
  · unfold toZero
    rw [if_neg (by linarith), if_pos h.le, up, neg_neg]

/-- The segment from (1, 2, 3) to (5, -7, 3) and the plane y = 1/2. -/
theorem sample_line : FloatV 24 (-149) (⟨1, 2, 3⟩ : V3 ℚ) ∧ FloatV 24 (-149) (⟨5, -7, 3⟩ : V3 ℚ) ∧ (1 / 2 : ℚ) ∈ Floats 24 (-149) :=
  ⟨⟨⟨1, 0, by norm_num, by norm_num, by norm_num⟩, ⟨2, 0, by norm_num, by norm_num, by norm_num⟩, ⟨3, 0, by norm_num, by norm_num, by norm_num⟩⟩,
    ⟨⟨5, 0, by norm_num, by norm_num, by norm_num⟩, ⟨-7, 0, by norm_num, by norm_num, by norm_num⟩, ⟨3, 0, by norm_num, by norm_num, by norm_num⟩⟩,
    ⟨1, -1, by norm_num, by norm_num, by norm_num⟩⟩

example (nz : Bool) := C132_axis_partial (toZero_rounding (p := 24) (emin := -149) (by norm_num)) (toZero_odd (by norm_num)) (by norm_num) (by norm_num) nz .nxEqD
  ⟨⟨0, 1, 0⟩, 1 / 2⟩ ⟨1, .inl rfl, .inr (.inl rfl)⟩ ⟨⟨1, 2, 3⟩, ⟨5, -7, 3⟩⟩ sample_line.1 sample_line.2.1 (.inl (by norm_num [side])) (by norm_num [side])
example := C132_hit_partial (nearest_isNearest (p := 24) (emin := -149) (by norm_num)).toIsRounding (by norm_num) false .nxEqD ⟨⟨0, 1, 0⟩, 1 / 2⟩ sample_line.2.2
  ⟨⟨1, 2, 3⟩, ⟨5, -7, 3⟩⟩ sample_line.1 sample_line.2.1 ⟨13981013 / 8388608, 1 / 2, 3⟩ (by decide +kernel)
example : lineErr 24 (-149) .nxEqD ⟨⟨0, 1, 0⟩, 1 / 2⟩ ⟨⟨1, 2, 3⟩, ⟨5, -7, 3⟩⟩ 1 < 1 / 100000 := by
  norm_num [lineErr, distErr, lineDotErr, ulp, absDot, side]
example := C132_start (nearest_isNearest (p := 24) (emin := -149) (by norm_num)).toIsRounding false .nxEqD ⟨⟨0, 1, 0⟩, 2⟩ ⟨⟨1, 2, 3⟩, ⟨5, -7, 3⟩⟩ sample_line.1
  (by decide +kernel) (by decide +kernel)
example (fl : ℚ → ℚ) (hf : IsRounding 24 (-149) fl) (nz : Bool) := C132_crossing_partial hf (by norm_num) (by norm_num) nz .nxEqD ⟨⟨1 / 3, 2 / 3, 2 / 3⟩, 1 / 2⟩
  sample_line.2.2 ⟨⟨1, 2, 3⟩, ⟨5, -7, 3⟩⟩ sample_line.1 sample_line.2.1 1 (.inl rfl) (by norm_num [distErr, ulp, absDot, side])
  (by norm_num [distErr, lineDotErr, ulp, absDot, side])
example (fl : ℚ → ℚ) (hf : IsRounding 24 (-149) fl) (nz : Bool) := C132_same_partial hf (by norm_num) (by norm_num) nz .nxEqD ⟨⟨-2 / 3, 1 / 3, -2 / 3⟩, 1 / 2⟩
  sample_line.2.2 ⟨⟨1, 2, 3⟩, ⟨5, -7, 3⟩⟩ sample_line.1 sample_line.2.1 (-1) (.inr rfl) (by norm_num [distErr, ulp, absDot, side])
  (by norm_num [distErr, lineDotErr, ulp, absDot, side]) (by norm_num [distErr, lineDotErr, ulp, absDot, side])
example (nz : Bool) := C132_float_refuted (nearest_isNearest (by norm_num)) nz (eps := 1 / 1000) (by norm_num)
example (nz : Bool) := C132_double_refuted (nearest_isNearest (by norm_num)) nz (eps := 1 / 1000) (by norm_num)
example (nz : Bool) := C132_crossing_refuted (nearest_isNearest (by norm_num)) nz

end Geom.Plane.Props
