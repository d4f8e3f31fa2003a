import Verif.Model.RayPlaneFloat
import Verif.Spec.RayPlaneFloat
import Verif.Props.PlaneFloat

/-
  C131: the intersection of a plane and a ray in floating-point arithmetic.
-/
set_option autoImplicit false
set_option linter.unusedSectionVars false

namespace Geom.Plane.Props
open Spec Geom.Float
open Clip (dotFl sgnDistanceFl relationPointFl interpFl roundExt)

variable {p : ℕ} {emin : ℤ} {fl : ℚ → ℚ}

/-- A coordinate of the point. -/
theorem lerp_coord (hf : IsRounding p emin fl) (hp : 1 ≤ p) {o d t : ℚ} (ho : o ∈ Floats p emin) :
    |fl (fl (d * t) + o) - (o + t * d)| ≤ lerpErr p emin o d t := by
  have hu := ulp_pos p
  have h1 : |fl (d * t) - d * t| ≤ ulp p * |d * t| + 2 ^ emin := round_any hf hp _
  have h2 := round_add hf hp (hf.mem (d * t)) ho
  have h3 : |fl (d * t)| ≤ (1 + ulp p) * |d * t| + 2 ^ emin := by
    have := abs_sub_abs_le_abs_sub (fl (d * t)) (d * t)
    linarith
  have h4 : |fl (d * t) + o| ≤ (1 + ulp p) * |d * t| + 2 ^ emin + |o| := (abs_add_le _ _).trans (by linarith)
  have h5 := mul_le_mul_of_nonneg_left h4 hu.le
  have h6 : |fl (fl (d * t) + o) - (o + t * d)| ≤ |fl (fl (d * t) + o) - (fl (d * t) + o)| + |fl (d * t) - d * t| := by
    rw [show fl (fl (d * t) + o) - (o + t * d) = (fl (fl (d * t) + o) - (fl (d * t) + o)) + (fl (d * t) - d * t) by ring]
    exact abs_add_le _ _
  unfold lerpErr
  linarith

theorem side_onRay (eq : Eqn) (pl : Pl ℚ) (r : Ray ℚ) (t : ℚ) : side eq pl (onRay r t) = side eq pl r.origin + t * rise pl r := by
  cases eq <;> simp only [side, onRay, rise] <;> ring

theorem rise_error (hf : IsRounding p emin fl) (hp : 1 ≤ p) (pl : Pl ℚ) (r : Ray ℚ) :
    |dotFl fl pl.normal r.direction - rise pl r| ≤ dotErr p emin pl.normal r.direction := dot_error hf hp pl.normal r.direction

/-- The point at the rounded parameter is near the plane. -/
theorem interp_near (hf : IsRounding p emin fl) (hp : 1 ≤ p) (eq : Eqn) (pl : Pl ℚ) (hd : pl.distance ∈ Floats p emin) (r : Ray ℚ)
    (hc : dotFl fl pl.normal r.direction ≠ 0) :
    |side eq pl (onRay r (fl (-sgnDistanceFl fl eq pl r.origin / dotFl fl pl.normal r.direction)))| ≤
      interpErr p emin eq pl r (fl (-sgnDistanceFl fl eq pl r.origin / dotFl fl pl.normal r.direction)) := by
  have hu := ulp_pos p
  have hη := two_zpow_pos emin
  have h1 := C109_distance_partial hf hp eq pl hd r.origin
  have h2 := rise_error hf hp pl r
  have h3 : |fl (-sgnDistanceFl fl eq pl r.origin / dotFl fl pl.normal r.direction) - -sgnDistanceFl fl eq pl r.origin / dotFl fl pl.normal r.direction| ≤
    ulp p * |-sgnDistanceFl fl eq pl r.origin / dotFl fl pl.normal r.direction| + 2 ^ emin := round_any hf hp _
  rw [side_onRay]
  unfold interpErr
  generalize sgnDistanceFl fl eq pl r.origin = s at *
  generalize dotFl fl pl.normal r.direction = c at *
  generalize fl (-s / c) = t at *
  generalize side eq pl r.origin = S at *
  generalize rise pl r = C at *
  generalize distErr p emin pl r.origin = E at *
  generalize dotErr p emin pl.normal r.direction = F at *
  have k1 : |t * c + s| ≤ ulp p * |s| + 2 ^ emin * |c| := by
    have e : t * c + s = c * (t - -s / c) := by field_simp; ring
    rw [e, abs_mul]
    have := mul_le_mul_of_nonneg_left h3 (abs_nonneg c)
    have e2 : |c| * (ulp p * |-s / c| + 2 ^ emin) = ulp p * |s| + 2 ^ emin * |c| := by
      rw [abs_div, abs_neg]
      have : |c| ≠ 0 := abs_ne_zero.2 hc
      field_simp
    linarith
  have k2 : |s| ≤ |S| + E := by have := abs_sub_abs_le_abs_sub s S; linarith
  have k3 : |c| ≤ |C| + F := by have := abs_sub_abs_le_abs_sub c C; linarith
  have k4 : |t * (c - C)| ≤ |t| * F := by rw [abs_mul]; exact mul_le_mul_of_nonneg_left h2 (abs_nonneg _)
  have k5 : |S + t * C| ≤ |s - S| + |t * c + s| + |t * (c - C)| := by
    rw [show S + t * C = (t * c + s) - (s - S) - t * (c - C) by ring]
    exact (abs_sub _ _).trans (by have := abs_sub (t * c + s) (s - S); linarith)
  have k6 := mul_le_mul_of_nonneg_left k2 hu.le
  have k7 := mul_le_mul_of_nonneg_left k3 hη.le
  linarith

/-- C131: the returned point is a point of the ray and of the plane, up to rounding. -/
theorem C131_hit_partial (hf : IsRounding p emin fl) (hp : 1 ≤ p) (nz : Bool) (eq : Eqn) (pl : Pl ℚ) (hd : pl.distance ∈ Floats p emin) (r : Ray ℚ)
    (ho : FloatV p emin r.origin) (x : V3 ℚ) (h : intersectRayFl fl nz eq pl r = .point x) :
    ∃ t, 0 ≤ t ∧ |side eq pl (onRay r t)| ≤ interpErr p emin eq pl r t ∧ |x.x - (onRay r t).x| ≤ lerpErr p emin r.origin.x r.direction.x t ∧
      |x.y - (onRay r t).y| ≤ lerpErr p emin r.origin.y r.direction.y t ∧ |x.z - (onRay r t).z| ≤ lerpErr p emin r.origin.z r.direction.z t := by
  by_cases hc : dotFl fl pl.normal r.direction = 0
  · simp only [intersectRayFl, interpFl, Ext.div, if_pos hc] at h
    split_ifs at h <;> simp_all [roundExt]
  · simp only [intersectRayFl, interpFl, Ext.div_ne hc, roundExt, Ext.ge, decide_eq_true_eq] at h
    split_ifs at h with h0
    obtain rfl := Hit.point.inj h
    exact ⟨_, h0, interp_near hf hp eq pl hd r hc, lerp_coord hf hp ho.1, lerp_coord hf hp ho.2.1, lerp_coord hf hp ho.2.2⟩

/-- The signs of the two computed numbers. -/
theorem signs (hf : IsRounding p emin fl) (hp : 1 ≤ p) (eq : Eqn) (pl : Pl ℚ) (hd : pl.distance ∈ Floats p emin) (r : Ray ℚ) :
    |sgnDistanceFl fl eq pl r.origin - side eq pl r.origin| ≤ distErr p emin pl r.origin ∧
    |dotFl fl pl.normal r.direction - rise pl r| ≤ dotErr p emin pl.normal r.direction :=
  ⟨C109_distance_partial hf hp eq pl hd r.origin, rise_error hf hp pl r⟩

/-- C131: a ray which clearly leads to the plane hits it. -/
theorem C131_towards_partial (hf : IsRounding p emin fl) (hp : 1 ≤ p) (nz : Bool) (eq : Eqn) (pl : Pl ℚ) (hd : pl.distance ∈ Floats p emin) (r : Ray ℚ)
    (h : (distErr p emin pl r.origin < side eq pl r.origin ∧ rise pl r < -dotErr p emin pl.normal r.direction) ∨
      (side eq pl r.origin < -distErr p emin pl r.origin ∧ dotErr p emin pl.normal r.direction < rise pl r)) :
    ∃ x, intersectRayFl fl nz eq pl r = .point x := by
  obtain ⟨h1, h2⟩ := signs hf hp eq pl hd r
  rw [abs_le] at h1 h2
  have hq : dotFl fl pl.normal r.direction ≠ 0 ∧ 0 ≤ -sgnDistanceFl fl eq pl r.origin / dotFl fl pl.normal r.direction := by
    rcases h with ⟨a, b⟩ | ⟨a, b⟩
    · exact ⟨by linarith [h2.2] |> ne_of_lt, div_nonneg_of_nonpos (by linarith [h1.1]) (by linarith [h2.2])⟩
    · exact ⟨by linarith [h2.1] |> ne_of_gt, div_nonneg (by linarith [h1.2]) (by linarith [h2.1])⟩
  have h0 : fl 0 = 0 := hf.fix 0 ⟨0, emin, by simp, le_rfl, by simp⟩
  have ht : 0 ≤ fl (-sgnDistanceFl fl eq pl r.origin / dotFl fl pl.normal r.direction) := h0 ▸ hf.mono hq.2
  simp only [intersectRayFl, interpFl, Ext.div_ne hq.1, roundExt, Ext.ge, ht, decide_true, if_true]
  exact ⟨_, rfl⟩

/-- C131: a ray which clearly leads away from the plane does not hit it, if the quotient is not rounded to zero. -/
theorem C131_away_partial (hf : IsRounding p emin fl) (hp : 1 ≤ p) (nz : Bool) (eq : Eqn) (pl : Pl ℚ) (hd : pl.distance ∈ Floats p emin) (r : Ray ℚ)
    (h : (0 < side eq pl r.origin ∧ dotErr p emin pl.normal r.direction < rise pl r) ∨
      (side eq pl r.origin < 0 ∧ rise pl r < -dotErr p emin pl.normal r.direction))
    (hs : distErr p emin pl r.origin + 2 ^ emin * (|rise pl r| + dotErr p emin pl.normal r.direction) ≤ |side eq pl r.origin|) :
    intersectRayFl fl nz eq pl r = .none := by
  obtain ⟨h1, h2⟩ := signs hf hp eq pl hd r
  have hη := two_zpow_pos emin
  have hm : -(2 : ℚ) ^ emin ∈ Floats p emin := ⟨-1, emin, by rw [abs_neg, abs_one]; exact one_lt_pow₀ (by norm_num) (by omega), le_rfl, by simp⟩
  have hc := abs_sub_abs_le_abs_sub (dotFl fl pl.normal r.direction) (rise pl r)
  have hb : 2 ^ emin * |dotFl fl pl.normal r.direction| ≤ |side eq pl r.origin| - distErr p emin pl r.origin := by
    have := mul_le_mul_of_nonneg_left (by linarith : |dotFl fl pl.normal r.direction| ≤ |rise pl r| + dotErr p emin pl.normal r.direction) hη.le
    linarith
  rw [abs_le] at h1 h2
  have hq : dotFl fl pl.normal r.direction ≠ 0 ∧ -sgnDistanceFl fl eq pl r.origin / dotFl fl pl.normal r.direction ≤ -2 ^ emin := by
    rcases h with ⟨a, b⟩ | ⟨a, b⟩
    · have hc0 : 0 < dotFl fl pl.normal r.direction := by linarith [h2.1]
      rw [abs_of_pos a, abs_of_pos hc0] at hb
      refine ⟨hc0.ne', ?_⟩
      rw [div_le_iff₀ hc0]
      linarith [h1.1]
    · have hc0 : dotFl fl pl.normal r.direction < 0 := by linarith [h2.2]
      rw [abs_of_neg a, abs_of_neg hc0] at hb
      refine ⟨hc0.ne, ?_⟩
      rw [div_le_iff_of_neg hc0]
      linarith [h1.2]
  have ht := hf.mono hq.2
  rw [hf.fix _ hm] at ht
  simp only [intersectRayFl, interpFl, Ext.div_ne hq.1, roundExt, Ext.ge]
  rw [if_neg (by simpa using by linarith)]

/-- The distance of an origin at `2 ^ (p + 1)` from the plane x = -1 is rounded. -/
theorem ray_lost (hf : IsNearest p emin fl) (hp : 2 ≤ p) (he : emin ≤ 0) (nz : Bool) {eps : ℚ} (h1 : eps < 1) :
    intersectRayFl fl nz .nxEqD ⟨⟨1, 0, 0⟩, -1⟩ ⟨⟨2 ^ (p + 1), 0, 0⟩, ⟨-1, 0, 0⟩⟩ = .point ⟨0, 0, 0⟩ ∧
    relationPointFl fl .nxEqD ⟨⟨1, 0, 0⟩, -1⟩ ⟨0, 0, 0⟩ eps = .inFrontOf := by
  have h0 : fl 0 = 0 := hf.fix 0 ⟨0, emin, by simp, le_rfl, by simp⟩
  have one : |(1 : ℤ)| < 2 ^ p := by rw [abs_one]; exact one_lt_pow₀ (by norm_num) (by omega)
  have f1 : fl 1 = 1 := hf.fix 1 ⟨1, 0, one, he, by norm_num⟩
  have fm : fl (-1) = -1 := hf.fix (-1) (neg_mem ⟨1, 0, one, he, by norm_num⟩)
  have m2 : (2 : ℚ) ^ (p + 1) ∈ Floats p emin := ⟨1, p + 1, one, by omega, by rw [Int.cast_one, one_mul]; norm_cast⟩
  have f2 := hf.fix _ m2
  have fm2 := hf.fix _ (neg_mem m2)
  have f3 : fl (2 ^ (p + 1) + 1) = 2 ^ (p + 1) := by
    have e : (2 : ℚ) ^ (p + 1) = ((2 ^ (p - 1) : ℤ) : ℚ) * 2 ^ (2 : ℤ) := by
      obtain ⟨q, rfl⟩ : ∃ q, p = q + 1 := ⟨p - 1, by omega⟩
      push_cast
      simp only [pow_succ]
      ring
    rw [e]
    refine nearest_down hf (by omega) (by omega) le_rfl (pow_lt_pow_right₀ (by norm_num) (by omega)) (by linarith) (by norm_num)
  constructor
  · simp [intersectRayFl, interpFl, Sphere.lerpFl, sgnDistanceFl, dotFl, Eqn.distanceSign, Ext.div, roundExt, Ext.ge, h0, f2, fm2, f3, fm]
  · simp [relationPointFl, sgnDistanceFl, dotFl, Eqn.distanceSign, h0, f1, h1]

/-- C131: with `float`, the ray from (2^25, 0, 0) along (-1, 0, 0) meets the plane x = -1 at the origin, which is at distance one from the plane. -/
theorem C131_float_refuted (hf : IsNearest 24 (-149) fl) (nz : Bool) {eps : ℚ} (h : eps < 1) :
    ∃ (pl : Pl ℚ) (r : Ray ℚ) (x : V3 ℚ), Axis pl.normal ∧ pl.distance ∈ Floats 24 (-149) ∧ FloatV 24 (-149) r.origin ∧ FloatV 24 (-149) r.direction ∧
      intersectRayFl fl nz .nxEqD pl r = .point x ∧ side .nxEqD pl x = 1 ∧ relationPointFl fl .nxEqD pl x eps = .inFrontOf := by
  obtain ⟨h1, h2⟩ := ray_lost hf (by norm_num) (by norm_num) nz h
  have z : (0 : ℚ) ∈ Floats 24 (-149) := ⟨0, 0, by norm_num, by norm_num, by norm_num⟩
  have o : (-1 : ℚ) ∈ Floats 24 (-149) := ⟨-1, 0, by norm_num, by norm_num, by norm_num⟩
  exact ⟨_, _, _, ⟨1, .inl rfl, .inl rfl⟩, o, ⟨⟨1, 25, by norm_num, by norm_num, by norm_num⟩, z, z⟩, ⟨o, z, z⟩, h1, by norm_num [side], h2⟩

/-- C131: the same with `double`. -/
theorem C131_double_refuted (hf : IsNearest 53 (-1074) fl) (nz : Bool) {eps : ℚ} (h : eps < 1) :
    ∃ (pl : Pl ℚ) (r : Ray ℚ) (x : V3 ℚ), Axis pl.normal ∧ pl.distance ∈ Floats 53 (-1074) ∧ FloatV 53 (-1074) r.origin ∧ FloatV 53 (-1074) r.direction ∧
      intersectRayFl fl nz .nxEqD pl r = .point x ∧ side .nxEqD pl x = 1 ∧ relationPointFl fl .nxEqD pl x eps = .inFrontOf := by
  obtain ⟨h1, h2⟩ := ray_lost hf (by norm_num) (by norm_num) nz h
  have z : (0 : ℚ) ∈ Floats 53 (-1074) := ⟨0, 0, by norm_num, by norm_num, by norm_num⟩
  have o : (-1 : ℚ) ∈ Floats 53 (-1074) := ⟨-1, 0, by norm_num, by norm_num, by norm_num⟩
  exact ⟨_, _, _, ⟨1, .inl rfl, .inl rfl⟩, o, ⟨⟨1, 54, by norm_num, by norm_num, by norm_num⟩, z, z⟩, ⟨o, z, z⟩, h1, by norm_num [side], h2⟩

/-- A quotient of less than half of the smallest float is rounded to zero. -/
theorem tiny (hf : IsNearest p emin fl) : fl (-2 ^ emin / 4) = 0 := by
  have hη := two_zpow_pos emin
  have h := hf.near (-2 ^ emin / 4) 0 ⟨0, emin, by simp, le_rfl, by simp⟩
  obtain ⟨m, e, -, he, h2⟩ := hf.mem (-2 ^ emin / 4)
  have hle : (2 : ℚ) ^ emin ≤ 2 ^ e := zpow_le_zpow_right₀ (by norm_num) he
  rw [abs_of_pos (by linarith : (0 : ℚ) < 0 - -2 ^ emin / 4), abs_le] at h
  rw [h2] at h ⊢
  rcases lt_trichotomy m 0 with g | g | g
  · have : (m : ℚ) ≤ -1 := by exact_mod_cast (by omega : m ≤ -1)
    have := mul_le_mul_of_nonneg_right this (hη.trans_le hle).le
    linarith [h.1]
  · simp [g]
  · have : (1 : ℚ) ≤ m := by exact_mod_cast g
    have := mul_le_mul_of_nonneg_right this (hη.trans_le hle).le
    linarith [h.2]

/-- C131: a ray which leads away from a plane in front of which it starts hits the plane, at its origin, if the origin is very near the plane. -/
theorem C131_away_refuted (hf : IsNearest p emin fl) (hp : 3 ≤ p) (he : emin ≤ 0) (nz : Bool) :
    ∃ (pl : Pl ℚ) (r : Ray ℚ), FloatV p emin r.origin ∧ FloatV p emin r.direction ∧ 0 < side .nxEqD pl r.origin ∧ 0 < rise pl r ∧
      intersectRayFl fl nz .nxEqD pl r = .point r.origin := by
  have hη := two_zpow_pos emin
  have z : (0 : ℚ) ∈ Floats p emin := ⟨0, emin, by simp, le_rfl, by simp⟩
  have one : |(1 : ℤ)| < 2 ^ p := by rw [abs_one]; exact one_lt_pow₀ (by norm_num) (by omega)
  have m1 : (2 : ℚ) ^ emin ∈ Floats p emin := ⟨1, emin, one, le_rfl, by simp⟩
  have m4 : (4 : ℚ) ∈ Floats p emin := ⟨1, 2, one, by omega, by norm_num⟩
  have h0 := hf.fix _ z
  refine ⟨⟨⟨1, 0, 0⟩, 0⟩, ⟨⟨2 ^ emin, 0, 0⟩, ⟨4, 0, 0⟩⟩, ⟨m1, z, z⟩, ⟨m4, z, z⟩, by simpa [side] using hη, by norm_num [rise], ?_⟩
  simp [intersectRayFl, interpFl, Sphere.lerpFl, sgnDistanceFl, dotFl, Eqn.distanceSign, Ext.div, roundExt, Ext.ge, h0, hf.fix _ m1, hf.fix _ m4, tiny hf]

/-- C131: if the product of the normal and the direction is rounded to zero, no finite point is returned; and nothing is returned if the ray starts on the plane. -/
theorem C131_parallel (nz : Bool) (eq : Eqn) (pl : Pl ℚ) (r : Ray ℚ) (hc : dotFl fl pl.normal r.direction = 0) :
    (∀ x, intersectRayFl fl nz eq pl r ≠ .point x) ∧ (relationPointFl fl eq pl r.origin 0 = .onto → intersectRayFl fl nz eq pl r = .none) := by
  constructor
  · intro x h
    simp only [intersectRayFl, interpFl, Ext.div, if_pos hc] at h
    split_ifs at h <;> simp_all [roundExt]
  · intro h
    have hs : sgnDistanceFl fl eq pl r.origin = 0 := by
      simp only [relationPointFl, neg_zero] at h
      split_ifs at h with h1 h2
      exact le_antisymm (not_lt.1 h1) (not_lt.1 h2)
    simp [intersectRayFl, interpFl, Ext.div, hc, hs, roundExt, Ext.ge]

/-- C131: a ray parallel to the plane, on its back (or, with a product `-0.0`, front) side, hits the plane at an infinite point. -/
theorem C131_parallel_refuted (hf : IsRounding p emin fl) (hp : 1 ≤ p) (he : emin ≤ 0) (nz : Bool) :
    ∃ (pl : Pl ℚ) (r : Ray ℚ), Axis pl.normal ∧ FloatV p emin r.origin ∧ FloatV p emin r.direction ∧ side .nxEqD pl r.origin ≠ 0 ∧ rise pl r = 0 ∧
      r.direction.y = 1 ∧ intersectRayFl fl nz .nxEqD pl r = .infinite := by
  have z : (0 : ℚ) ∈ Floats p emin := ⟨0, emin, by simp, le_rfl, by simp⟩
  have one : (1 : ℚ) ∈ Floats p emin := ⟨1, 0, by rw [abs_one]; exact one_lt_pow₀ (by norm_num) (by omega), he, by norm_num⟩
  have h0 := hf.fix _ z
  have h1 := hf.fix _ one
  have h2 := hf.fix _ (neg_mem one)
  cases nz
  · refine ⟨⟨⟨1, 0, 0⟩, 0⟩, ⟨⟨-1, 0, 0⟩, ⟨0, 1, 0⟩⟩, ⟨1, .inl rfl, .inl rfl⟩, ⟨neg_mem one, z, z⟩, ⟨z, one, z⟩, by norm_num [side], by norm_num [rise], rfl, ?_⟩
    simp [intersectRayFl, interpFl, sgnDistanceFl, dotFl, Eqn.distanceSign, Ext.div, roundExt, Ext.ge, h0, h2]
  · refine ⟨⟨⟨1, 0, 0⟩, 0⟩, ⟨⟨1, 0, 0⟩, ⟨0, 1, 0⟩⟩, ⟨1, .inl rfl, .inl rfl⟩, ⟨one, z, z⟩, ⟨z, one, z⟩, by norm_num [side], by norm_num [rise], rfl, ?_⟩
    simp [intersectRayFl, interpFl, sgnDistanceFl, dotFl, Eqn.distanceSign, Ext.div, roundExt, Ext.ge, h0, h1, show ¬ (1 : ℚ) < 0 by norm_num]

/-! ## The hypotheses are met -/

/-- The ray from (1, 2, 3) along (0, -1, 1) leads to the plane y = -3, and away from the plane y = 5. -/
example (fl : ℚ → ℚ) (hf : IsRounding 24 (-149) fl) (nz : Bool) := C131_towards_partial hf (by norm_num) nz .nxEqD ⟨⟨0, 1, 0⟩, -3⟩ ⟨-3, 0, by norm_num, by norm_num, by norm_num⟩
  ⟨⟨1, 2, 3⟩, ⟨0, -1, 1⟩⟩ (Or.inl (by norm_num [distErr, dotErr, ulp, absDot, side, rise]))
example (fl : ℚ → ℚ) (hf : IsRounding 24 (-149) fl) (nz : Bool) := C131_away_partial hf (by norm_num) nz .nxEqD ⟨⟨0, -1, 0⟩, -5⟩ ⟨-5, 0, by norm_num, by norm_num, by norm_num⟩
  ⟨⟨1, 2, 3⟩, ⟨0, -1, 1⟩⟩ (Or.inl (by norm_num [distErr, dotErr, ulp, absDot, side, rise])) (by norm_num [distErr, dotErr, ulp, absDot, side, rise])
example := C131_hit_partial (nearest_isNearest (p := 24) (emin := -149) (by norm_num)).toIsRounding (by norm_num) false .nxEqD ⟨⟨0, 1, 0⟩, -3⟩
  ⟨-3, 0, by norm_num, by norm_num, by norm_num⟩ ⟨⟨1, 2, 3⟩, ⟨0, -1, 1⟩⟩
  ⟨⟨1, 0, by norm_num, by norm_num, by norm_num⟩, ⟨2, 0, by norm_num, by norm_num, by norm_num⟩, ⟨3, 0, by norm_num, by norm_num, by norm_num⟩⟩ ⟨1, -3, 8⟩ (by decide +kernel)
/-- The bound is small for points near the origin. -/
example : interpErr 24 (-149) .nxEqD ⟨⟨0, 1, 0⟩, -3⟩ ⟨⟨1, 2, 3⟩, ⟨0, -1, 1⟩⟩ 5 < 1 / 100000 := by
  norm_num [interpErr, distErr, dotErr, ulp, absDot, side, rise]
example : intersectRayFl (Float.nearest 24 (-149)) false .nxEqD ⟨⟨0, 1, 0⟩, -3⟩ ⟨⟨1, 2, 3⟩, ⟨0, -1, 1⟩⟩ = .point ⟨1, -3, 8⟩ := by decide +kernel
example (nz : Bool) := C131_parallel (fl := Float.nearest 24 (-149)) nz .nxEqD ⟨⟨0, 1, 0⟩, 2⟩ ⟨⟨1, 2, 3⟩, ⟨4, 0, 1⟩⟩ (by decide +kernel)
example : relationPointFl (Float.nearest 24 (-149)) .nxEqD ⟨⟨0, 1, 0⟩, 2⟩ ⟨1, 2, 3⟩ 0 = .onto := by decide +kernel
example (nz : Bool) := C131_parallel_refuted (nearest_isNearest (p := 24) (emin := -149) (by norm_num)).toIsRounding (by norm_num) (by norm_num) nz
example (nz : Bool) := C131_float_refuted (nearest_isNearest (by norm_num)) nz (eps := 1 / 1000) (by norm_num)
example (nz : Bool) := C131_double_refuted (nearest_isNearest (by norm_num)) nz (eps := 1 / 1000) (by norm_num)
example (nz : Bool) := C131_away_refuted (nearest_isNearest (p := 24) (emin := -149) (by norm_num)) (by norm_num) (by norm_num) nz

end Geom.Plane.Props
