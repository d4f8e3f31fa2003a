import Verif.Spec.Sphere
import Verif.Base.VecTac
import Mathlib.Tactic.Linarith
import Mathlib.Tactic.LinearCombination
import Mathlib.Tactic.FieldSimp
import Mathlib.Tactic.NormNum.RealSqrt

/-
  C28, C29: ray and sphere; C86: volume and area.
-/
set_option autoImplicit false
set_option linter.unusedSectionVars false

namespace Geom.Sphere
open Spec
open Plane (Ray)

theorem lerp_eq (r : Ray ℝ) (t : ℝ) : r.lerp t = rayAt r.origin r.direction t := by
  apply V3.ext <;> simp [Ray.lerp, rayAt] <;> ring

/-- The excess along a ray is a quadratic function. -/
theorem excess_ray (s : Sphere ℝ) (o d : V3 ℝ) (t : ℝ) :
    excess s (rayAt o d t) = (d.x ^ 2 + d.y ^ 2 + d.z ^ 2) * t ^ 2 + 2 * V3.dot (o - s.origin) d * t + excess s o := by
  simp only [excess, rayAt, V3.dot, V3.sub_x, V3.sub_y, V3.sub_z]; ring

theorem lenSq_excess (s : Sphere ℝ) (o : V3 ℝ) : (o - s.origin).lenSq - s.radius * s.radius = excess s o := by
  simp only [excess, V3.lenSq, V3.dot, V3.sub_x, V3.sub_y, V3.sub_z]; ring

theorem interp_eq (s : Sphere ℝ) (o d : V3 ℝ) (t : ℝ) : interp s o d = some t ↔
    0 ≤ excess s o ∧ V3.dot (o - s.origin) d ≤ 0 ∧ 0 ≤ V3.dot (o - s.origin) d * V3.dot (o - s.origin) d - excess s o ∧
    t = -V3.dot (o - s.origin) d - √(V3.dot (o - s.origin) d * V3.dot (o - s.origin) d - excess s o) := by
  simp only [interp, lenSq_excess]
  generalize excess s o = c
  generalize V3.dot (o - s.origin) d = b
  split_ifs with h1 h2 h3
  · simp [not_le.2 h1]
  · simp [not_le.2 h2]
  · simp [not_le.2 h3]
  · push Not at h1 h2 h3
    simp only [Option.some.injEq, h1, h2, h3, true_and]
    exact eq_comm

/-- C28: for a ray with unit direction from outside, the result is the first point of the ray on the sphere. -/
theorem C28_first (s : Sphere ℝ) (r : Ray ℝ) (hu : IsUnit3 r.direction) (ho : 0 < excess s r.origin) (p : V3 ℝ) :
    intersection s r = some p ↔ ∃ t, 0 ≤ t ∧ p = rayAt r.origin r.direction t ∧ OnSphere s p ∧
      ∀ t', 0 ≤ t' → OnSphere s (rayAt r.origin r.direction t') → t ≤ t' := by
  have hq : ∀ t, excess s (rayAt r.origin r.direction t) =
      t ^ 2 + 2 * V3.dot (r.origin - s.origin) r.direction * t + excess s r.origin := by
    intro t; rw [excess_ray, show r.direction.x ^ 2 + r.direction.y ^ 2 + r.direction.z ^ 2 = 1 from hu]; ring
  have hi := interp_eq s r.origin r.direction
  generalize hb : V3.dot (r.origin - s.origin) r.direction = b at *
  generalize hc : excess s r.origin = c at *
  have hp : intersection s r = some p ↔ ∃ t, interp s r.origin r.direction = some t ∧ p = rayAt r.origin r.direction t := by
    unfold intersection
    cases interp s r.origin r.direction with
    | none => simp
    | some t => simp [lerp_eq, eq_comm]
  rw [hp]
  constructor
  · rintro ⟨t, h, rfl⟩
    obtain ⟨-, h2, h3, rfl⟩ := (hi t).1 h
    have hs := Real.sq_sqrt h3
    have hs0 := Real.sqrt_nonneg (b * b - c)
    set q := √(b * b - c)
    have hqb : q ≤ -b := by
      by_contra hcon
      push Not at hcon
      nlinarith
    refine ⟨-b - q, by linarith, rfl, ?_, fun t' h0 ht' => ?_⟩
    · rw [OnSphere, hq]; nlinarith
    · rw [OnSphere, hq] at ht'
      have : (t' + b) ^ 2 = q ^ 2 := by linarith
      rcases sq_eq_sq_iff_eq_or_eq_neg.1 this with e | e <;> linarith
  · rintro ⟨t, h0, rfl, h1, h2⟩
    rw [OnSphere, hq] at h1
    have hd : (t + b) ^ 2 = b * b - c := by linarith
    have h3 : 0 ≤ b * b - c := by rw [← hd]; positivity
    have hbn : b ≤ 0 := by
      by_contra hcon
      push Not at hcon
      nlinarith [mul_nonneg hcon.le h0]
    have hs := Real.sq_sqrt h3
    have hs0 := Real.sqrt_nonneg (b * b - c)
    refine ⟨t, (hi t).2 ⟨ho.le, hbn, h3, ?_⟩, rfl⟩
    set q := √(b * b - c)
    have hqb : q ≤ -b := by
      by_contra hcon
      push Not at hcon
      nlinarith
    have hle := h2 (-b - q) (by linarith) (by rw [OnSphere, hq]; nlinarith)
    rw [← hs] at hd
    rcases sq_eq_sq_iff_eq_or_eq_neg.1 hd with e | e <;> linarith

/-- C28: so the query succeeds exactly if the ray meets the sphere. -/
theorem C28_success (s : Sphere ℝ) (r : Ray ℝ) (hu : IsUnit3 r.direction) (ho : 0 < excess s r.origin) :
    (∃ p, intersection s r = some p) ↔ ∃ t, 0 ≤ t ∧ OnSphere s (rayAt r.origin r.direction t) := by
  constructor
  · rintro ⟨p, h⟩
    obtain ⟨t, h0, rfl, h1, -⟩ := (C28_first s r hu ho p).1 h
    exact ⟨t, h0, h1⟩
  · rintro ⟨t, h0, h1⟩
    have hq : ∀ t, excess s (rayAt r.origin r.direction t) =
        t ^ 2 + 2 * V3.dot (r.origin - s.origin) r.direction * t + excess s r.origin := by
      intro t; rw [excess_ray, show r.direction.x ^ 2 + r.direction.y ^ 2 + r.direction.z ^ 2 = 1 from hu]; ring
    have h2 := h1
    rw [OnSphere, hq] at h2
    set b := V3.dot (r.origin - s.origin) r.direction with hb
    -- the other root
    have h3 : OnSphere s (rayAt r.origin r.direction (-2 * b - t)) := by rw [OnSphere, hq]; linarith
    have ht : 0 < t := lt_of_le_of_ne h0 (by rintro rfl; linarith)
    have h4 : t * (-2 * b - t) = excess s r.origin := by linarith
    have h5 : 0 < -2 * b - t := by
      by_contra hcon
      push Not at hcon
      nlinarith
    have hroots : ∀ t', OnSphere s (rayAt r.origin r.direction t') → t' = t ∨ t' = -2 * b - t := by
      intro t' ht'
      rw [OnSphere, hq] at ht'
      have : (t' - t) * (t' - (-2 * b - t)) = 0 := by linarith
      rcases mul_eq_zero.1 this with e | e
      · exact .inl (by linarith)
      · exact .inr (by linarith)
    rcases le_total t (-2 * b - t) with hle | hle
    · exact ⟨_, (C28_first s r hu ho _).2 ⟨t, h0, rfl, h1, fun t' _ ht' => by
        rcases hroots t' ht' with rfl | rfl <;> linarith⟩⟩
    · exact ⟨_, (C28_first s r hu ho _).2 ⟨-2 * b - t, h5.le, rfl, h3, fun t' _ ht' => by
        rcases hroots t' ht' with rfl | rfl <;> linarith⟩⟩

/-- C28: from inside of the sphere the query fails, although the ray always meets the sphere. -/
theorem C28_inside (s : Sphere ℝ) (r : Ray ℝ) (ho : excess s r.origin < 0) : intersection s r = none := by
  simp only [intersection, interp, lenSq_excess, if_pos ho]

/-- C28: from a point on the sphere the query returns this point, unless the ray points away. -/
theorem C28_surface (s : Sphere ℝ) (r : Ray ℝ) (ho : OnSphere s r.origin) :
    intersection s r = if V3.dot (r.origin - s.origin) r.direction ≤ 0 then some r.origin else none := by
  have ho' : excess s r.origin = 0 := ho
  have hi := interp_eq s r.origin r.direction
  rw [ho'] at hi
  generalize hb : V3.dot (r.origin - s.origin) r.direction = b at *
  split_ifs with h
  · have hs : √(b * b - 0) = -b := by
      rw [sub_zero, ← neg_mul_neg, Real.sqrt_mul_self (by linarith)]
    have := (hi 0).2 ⟨le_rfl, h, by nlinarith, by rw [hs]; ring⟩
    simp only [intersection, this, lerp_eq]
    congr 1
    apply V3.ext <;> simp [rayAt]
  · cases e : interp s r.origin r.direction with
    | none => simp [intersection, e]
    | some t => exact absurd ((hi t).1 e).2.1 h

/-- A ray which meets the unit sphere. -/
example : IsUnit3 ⟨3 / 5, 4 / 5, 0⟩ ∧ 0 < excess ⟨0, 1⟩ ⟨-3, -4, 0⟩ ∧ OnSphere ⟨0, 1⟩ (rayAt ⟨-3, -4, 0⟩ ⟨3 / 5, 4 / 5, 0⟩ 4) ∧
    V3.dot (⟨-3, -4, 0⟩ : V3 ℝ) ⟨3 / 5, 4 / 5, 0⟩ ≤ 0 := by
  norm_num [IsUnit3, excess, OnSphere, rayAt, V3.dot]

/-- C29 is violated: the same ray with a direction of twice the length gives a different point (which is not on the
sphere). -/
theorem C29_refuted : ∃ (s : Sphere ℝ) (o d : V3 ℝ) (p : V3 ℝ),
    intersection s ⟨o, d⟩ = some p ∧ OnSphere s p ∧ ∃ q, intersection s ⟨o, (2 : ℝ) • d⟩ = some q ∧ ¬ OnSphere s q := by
  refine ⟨⟨0, 1⟩, ⟨-3, 0, 0⟩, ⟨1, 0, 0⟩, ⟨-1, 0, 0⟩, ?_, by norm_num [OnSphere, excess],
    rayAt ⟨-3, 0, 0⟩ ((2 : ℝ) • ⟨1, 0, 0⟩) (6 - √28), ?_, ?_⟩
  · rw [C28_first _ _ (by norm_num [IsUnit3]) (by norm_num [excess])]
    refine ⟨2, by norm_num, by apply V3.ext <;> norm_num [rayAt], by norm_num [OnSphere, excess], fun t' _ h => ?_⟩
    simp only [OnSphere, excess, rayAt] at h
    norm_num at h
    nlinarith
  · have := (interp_eq ⟨0, 1⟩ ⟨-3, 0, 0⟩ ((2 : ℝ) • ⟨1, 0, 0⟩) (6 - √28)).2 (by
      norm_num [excess, V3.dot])
    simp only [intersection, this, lerp_eq]
  · intro h
    rw [OnSphere, excess_ray] at h
    norm_num [V3.dot, excess] at h
    have hs : √28 ^ 2 = 28 := Real.sq_sqrt (by norm_num)
    have h0 := Real.sqrt_nonneg 28
    nlinarith

/-- C29: the returned point is on the sphere exactly if the direction has length one, or the ray starts
on the sphere. -/
theorem C29_partial (s : Sphere ℝ) (r : Ray ℝ) (p : V3 ℝ) (h : intersection s r = some p) :
    OnSphere s p ↔ IsUnit3 r.direction ∨ OnSphere s r.origin := by
  have hp : ∃ t, interp s r.origin r.direction = some t ∧ p = rayAt r.origin r.direction t := by
    revert h
    unfold intersection
    cases interp s r.origin r.direction with
    | none => simp
    | some t => simp [lerp_eq, eq_comm]
  obtain ⟨t, ht, rfl⟩ := hp
  obtain ⟨h1, h2, h3, e⟩ := (interp_eq s _ _ t).1 ht
  have hq := excess_ray s r.origin r.direction t
  unfold OnSphere
  rw [hq]
  generalize hb : V3.dot (r.origin - s.origin) r.direction = b at *
  generalize hc : excess s r.origin = c at *
  have hs := Real.sq_sqrt h3
  have hs0 := Real.sqrt_nonneg (b * b - c)
  set q := √(b * b - c)
  have h4 : t ^ 2 + 2 * b * t + c = 0 := by rw [e]; nlinarith
  have h5 : (r.direction.x ^ 2 + r.direction.y ^ 2 + r.direction.z ^ 2) * t ^ 2 + 2 * b * t + c =
      (r.direction.x ^ 2 + r.direction.y ^ 2 + r.direction.z ^ 2 - 1) * t ^ 2 := by linear_combination h4
  rw [h5, mul_eq_zero, pow_eq_zero_iff two_ne_zero, sub_eq_zero]
  apply or_congr Iff.rfl
  constructor
  · rintro rfl
    linarith
  · rintro rfl
    have : q ^ 2 = (-b) ^ 2 := by rw [hs]; ring
    rcases sq_eq_sq_iff_eq_or_eq_neg.1 this with e' | e'
    · linarith
    · have : b = 0 := by linarith
      have : q = 0 := by linarith
      linarith

/-! C86: volume and area. -/

/-- C86: `SetVolume` and `SetArea` are right inverses of `GetVolume` and `GetArea` for values that are not negative,
they keep the centre and give a radius that is not negative. -/
theorem C86_sphere (s : Sphere ℝ) (x : ℝ) (hx : 0 ≤ x) :
    (getVolume (setVolume s x) = x ∧ (setVolume s x).origin = s.origin ∧ 0 ≤ (setVolume s x).radius) ∧
    (getArea (setArea s x) = x ∧ (setArea s x).origin = s.origin ∧ 0 ≤ (setArea s x).radius) := by
  have hpi := Real.pi_pos
  refine ⟨⟨?_, rfl, ?_⟩, ?_, rfl, ?_⟩
  · have h0 : 0 ≤ x * 3 / (4 * Real.pi) := by positivity
    have : ((x * 3 / (4 * Real.pi)) ^ (1 / 3 : ℝ)) ^ 3 = x * 3 / (4 * Real.pi) := by
      rw [← Real.rpow_natCast, ← Real.rpow_mul h0]
      norm_num
    simp only [getVolume, setVolume]
    generalize (x * 3 / (4 * Real.pi)) ^ (1 / 3 : ℝ) = y at this
    calc 4 / 3 * Real.pi * y * y * y = 4 / 3 * Real.pi * y ^ 3 := by ring
      _ = x := by rw [this]; field_simp
  · exact Real.rpow_nonneg (by positivity) _
  · have := Real.sq_sqrt (show 0 ≤ x / (4 * Real.pi) by positivity)
    simp only [getArea, setArea]
    generalize √(x / (4 * Real.pi)) = y at this
    calc 4 * Real.pi * y * y = 4 * Real.pi * y ^ 2 := by ring
      _ = x := by rw [this]; field_simp
  · exact Real.sqrt_nonneg _

/-- C86: conversely a radius that is not negative is recovered from volume or area, and both grow with the radius. -/
theorem C86_sphere_inverse (s : Sphere ℝ) (h : 0 ≤ s.radius) :
    setVolume s (getVolume s) = s ∧ setArea s (getArea s) = s ∧
    ∀ s' : Sphere ℝ, s.radius < s'.radius → getVolume s < getVolume s' ∧ getArea s < getArea s' := by
  have hpi := Real.pi_pos
  obtain ⟨o, r⟩ := s
  dsimp only at h
  refine ⟨?_, ?_, ?_⟩
  · simp only [getVolume, setVolume, Sphere.mk.injEq, true_and]
    rw [show 4 / 3 * Real.pi * r * r * r * 3 / (4 * Real.pi) = r ^ (3 : ℝ) by
      rw [show (3 : ℝ) = ((3 : ℕ) : ℝ) by norm_num, Real.rpow_natCast]; field_simp]
    rw [← Real.rpow_mul h]
    norm_num
  · simp only [getArea, setArea, Sphere.mk.injEq, true_and]
    rw [show 4 * Real.pi * r * r / (4 * Real.pi) = r * r by field_simp, Real.sqrt_mul_self h]
  · intro s' hs
    dsimp only at hs
    have h2 : r * r < s'.radius * s'.radius := by nlinarith
    have h3 : r * r * r < s'.radius * s'.radius * s'.radius := by nlinarith
    simp only [getVolume, getArea]
    constructor
    · have := mul_lt_mul_of_pos_left h3 (show 0 < 4 / 3 * Real.pi by positivity)
      linarith
    · have := mul_lt_mul_of_pos_left h2 (show 0 < 4 * Real.pi by positivity)
      linarith

/-- The unit sphere. -/
example : getArea ⟨0, 1⟩ = 4 * Real.pi ∧ (0 : ℝ) ≤ (⟨0, 1⟩ : Sphere ℝ).radius := by
  constructor <;> simp [getArea]

/-! The theorems for rays and the unit sphere. -/

example := C28_first ⟨0, 1⟩ ⟨⟨-3, -4, 0⟩, ⟨3 / 5, 4 / 5, 0⟩⟩ (by norm_num [IsUnit3]) (by norm_num [excess]) ⟨-3 / 5, -4 / 5, 0⟩
example : ∃ p, intersection ⟨0, 1⟩ ⟨⟨-3, -4, 0⟩, ⟨3 / 5, 4 / 5, 0⟩⟩ = some p :=
  (C28_success _ _ (by norm_num [IsUnit3]) (by norm_num [excess])).2 ⟨4, by norm_num, by norm_num [OnSphere, rayAt, excess]⟩
example : ∃ p, intersection ⟨0, 1⟩ ⟨⟨-3, -4, 0⟩, ⟨3 / 5, 4 / 5, 0⟩⟩ = some p ∧ OnSphere ⟨0, 1⟩ p := by
  obtain ⟨p, h⟩ := (C28_success ⟨0, 1⟩ ⟨⟨-3, -4, 0⟩, ⟨3 / 5, 4 / 5, 0⟩⟩ (by norm_num [IsUnit3]) (by norm_num [excess])).2
    ⟨4, by norm_num, by norm_num [OnSphere, rayAt, excess]⟩
  exact ⟨p, h, (C29_partial _ _ _ h).2 (.inl (by norm_num [IsUnit3]))⟩
example : intersection ⟨0, 1⟩ ⟨⟨1 / 2, 0, 0⟩, ⟨3 / 5, 4 / 5, 0⟩⟩ = none := C28_inside _ _ (by norm_num [excess])
example := C86_sphere ⟨⟨1, 2, 3⟩, 4⟩ 5 (by norm_num)

end Geom.Sphere
