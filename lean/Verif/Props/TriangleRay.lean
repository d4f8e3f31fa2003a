import Verif.Props.Triangle

/-!
Properties C22-C24: rays, segments and triangles against triangles.
-/

set_option linter.unusedSectionVars false
set_option autoImplicit false

namespace Geom.Triangle.Props

open Spec
open Plane (Eqn Pl Ray Line Hit)

section
variable {K : Type} [Field K] [LinearOrder K] [IsStrictOrderedRing K]

/-- The three areas of the query. -/
def areaA (t : Tri K) (o d : V3 K) : K := V3.dot (t.b - o) (V3.cross d (t.c - o))
def areaB (t : Tri K) (o d : V3 K) : K := V3.dot (t.c - o) (V3.cross d (t.a - o))
def areaC (t : Tri K) (o d : V3 K) : K := V3.dot (t.a - o) (V3.cross d (t.b - o))

theorem sum_eq (t : Tri K) (o d : V3 K) : areaA t o d + areaB t o d + areaC t o d = -facing t d := by
  simp only [areaA, areaB, areaC, facing]; vec_simp; ring

/-- The areas of a point of the line which is an affine combination of the corners. -/
theorem area_of (t : Tri K) (o d : V3 K) (s u v w : K) (h1 : u + v + w = 1)
    (h : o + s • d = u • t.a + v • t.b + w • t.c) :
    areaA t o d = u * -facing t d ∧ areaB t o d = v * -facing t d ∧ areaC t o d = w * -facing t d := by
  have ho : o = u • t.a + v • t.b + w • t.c - s • d := by rw [← h]; module
  obtain rfl : u = 1 - v - w := by linarith
  subst ho
  refine ⟨?_, ?_, ?_⟩ <;> simp only [areaA, areaB, areaC, facing] <;> vec_simp <;> ring

/-- The areas are the coordinates of the intersection of the line with the plane. -/
theorem area_point (t : Tri K) (o d : V3 K) :
    areaA t o d • t.a + areaB t o d • t.b + areaC t o d • t.c = (-facing t d) • o + facing t (o - t.a) • d := by
  ext <;> simp only [areaA, areaB, areaC, facing] <;> vec_simp <;> ring

theorem facing_combo (t : Tri K) (u v w : K) (h1 : u + v + w = 1) :
    facing t (u • t.a + v • t.b + w • t.c) = facing t t.a := by
  obtain rfl : u = 1 - v - w := by linarith
  simp only [facing]; vec_simp; ring

theorem facing_add (t : Tri K) (x y : V3 K) : facing t (x + y) = facing t x + facing t y := by
  simp only [facing]; vec_simp; ring

theorem facing_sub (t : Tri K) (x y : V3 K) : facing t (x - y) = facing t x - facing t y := by
  simp only [facing]; vec_simp; ring

theorem facing_smul (t : Tri K) (s : K) (x : V3 K) : facing t (s • x) = s * facing t x := by
  simp only [facing]; vec_simp; ring

/-- The result of the barycentric query in terms of the areas. -/
theorem barycentric_eq (t : Tri K) (r : Ray K) : barycentric t r =
    if 0 ≤ areaA t r.origin r.direction ∧ 0 ≤ areaB t r.origin r.direction ∧ 0 ≤ areaC t r.origin r.direction ∧
      facing t r.direction < 0 ∧ facing t t.a < facing t r.origin then
      some ((1 / -facing t r.direction) • ⟨areaA t r.origin r.direction, areaB t r.origin r.direction, areaC t r.origin r.direction⟩)
    else none := by
  have eB : -V3.dot (t.a - r.origin) (V3.cross r.direction (t.c - r.origin)) = areaB t r.origin r.direction := by
    simp only [areaB]; vec_simp; ring
  have hn : ∀ v, V3.dot (V3.cross (t.b - t.a) (t.c - t.a)) v = facing t v := fun v => (facing_eq t v).symm
  rw [← sum_eq t r.origin]
  unfold barycentric
  simp only [eB, hn]
  change (if areaA t r.origin r.direction < 0 then none else if areaB t r.origin r.direction < 0 then none else
    if areaC t r.origin r.direction < 0 then none else _) = _
  by_cases h1 : areaA t r.origin r.direction < 0
  · rw [if_pos h1, if_neg (fun h => absurd h.1 (not_le.2 h1))]
  rw [if_neg h1]
  by_cases h2 : areaB t r.origin r.direction < 0
  · rw [if_pos h2, if_neg (fun h => absurd h.2.1 (not_le.2 h2))]
  rw [if_neg h2]
  by_cases h3 : areaC t r.origin r.direction < 0
  · rw [if_pos h3, if_neg (fun h => absurd h.2.2.1 (not_le.2 h3))]
  rw [if_neg h3]
  by_cases h4 : facing t r.direction ≥ 0
  · rw [if_pos h4, if_neg (fun h => absurd h.2.2.2.1 (not_lt.2 h4))]
  rw [if_neg h4]
  by_cases h5 : facing t r.origin ≤ facing t t.a
  · rw [if_pos h5, if_neg (fun h => absurd h.2.2.2.2 (not_lt.2 h5))]
  rw [if_neg h5, if_pos ⟨not_lt.1 h1, not_lt.1 h2, not_lt.1 h3, not_le.1 h4, not_le.1 h5⟩]
  rfl

/-! ## C22 -/

/-- A ray which opposes the normal: the barycentric query succeeds exactly if the ray meets the triangle
at a parameter greater than zero. Missing: the parameter zero. -/
theorem C22_barycentric_partial (t : Tri K) (r : Ray K) (hd : facing t r.direction < 0) :
    (∃ q, barycentric t r = some q) ↔ ∃ s, 0 < s ∧ InTri t (at_ r s) := by
  have hp : 0 < -facing t r.direction := neg_pos.2 hd
  rw [barycentric_eq]
  constructor
  · rintro ⟨q, hq⟩
    split_ifs at hq with h
    obtain ⟨hA, hB, hC, -, hf⟩ := h
    have hs := sum_eq t r.origin r.direction
    have hpt := area_point t r.origin r.direction
    generalize areaA t r.origin r.direction = x at *
    generalize areaB t r.origin r.direction = y at *
    generalize areaC t r.origin r.direction = z at *
    refine ⟨facing t (r.origin - t.a) / -facing t r.direction, div_pos (by rw [facing_sub]; linarith) hp,
      x / -facing t r.direction, y / -facing t r.direction, z / -facing t r.direction, div_nonneg hA hp.le,
      div_nonneg hB hp.le, div_nonneg hC hp.le, ?_, ?_⟩
    · rw [← add_div, ← add_div, hs, div_self hp.ne']
    · generalize -facing t r.direction = n at *
      have e : (n : K)⁻¹ • (x • t.a + y • t.b + z • t.c) = (n : K)⁻¹ • (n • r.origin + facing t (r.origin - t.a) • r.direction) := by
        rw [hpt]
      simp only [smul_add, smul_smul, inv_mul_cancel₀ hp.ne', one_smul, inv_mul_eq_div] at e
      rw [at_, e]
  · rintro ⟨s, hs, u, v, w, hu, hv, hw, h1, h⟩
    obtain ⟨e1, e2, e3⟩ := area_of t r.origin r.direction s u v w h1 h
    refine ⟨_, if_pos ⟨?_, ?_, ?_, hd, ?_⟩⟩
    · rw [e1]; positivity
    · rw [e2]; positivity
    · rw [e3]; positivity
    · have := facing_combo t u v w h1
      rw [← h, at_, facing_add, facing_smul] at this
      have := mul_neg_of_pos_of_neg hs hd
      linarith

/-- The result of a successful query: nonnegative coordinates of sum one, which describe a point of the
ray in front of its origin. The direction need not be assumed. -/
theorem C22_coordinates (t : Tri K) (r : Ray K) (q : V3 K) (h : barycentric t r = some q) :
    (0 ≤ q.x ∧ 0 ≤ q.y ∧ 0 ≤ q.z ∧ q.x + q.y + q.z = 1) ∧
    ∃ s, 0 < s ∧ q.x • t.a + q.y • t.b + q.z • t.c = at_ r s := by
  rw [barycentric_eq] at h
  split_ifs at h with hc
  obtain ⟨hA, hB, hC, hd, hf⟩ := hc
  have hp : 0 < -facing t r.direction := neg_pos.2 hd
  have hs := sum_eq t r.origin r.direction
  have hpt := area_point t r.origin r.direction
  cases h
  generalize areaA t r.origin r.direction = x at *
  generalize areaB t r.origin r.direction = y at *
  generalize areaC t r.origin r.direction = z at *
  simp only [V3.smul_x, V3.smul_y, V3.smul_z]
  have hfo : 0 < facing t (r.origin - t.a) := by rw [facing_sub]; linarith
  generalize -facing t r.direction = n at *
  refine ⟨⟨by positivity, by positivity, by positivity, ?_⟩, facing t (r.origin - t.a) / n, div_pos hfo hp, ?_⟩
  · rw [← mul_add, ← mul_add, hs, one_div_mul_cancel hp.ne']
  · have e : (1 / n) • (x • t.a + y • t.b + z • t.c) = (1 / n) • (n • r.origin + facing t (r.origin - t.a) • r.direction) := by
      rw [hpt]
    simp only [smul_add, smul_smul, one_div_mul_cancel hp.ne', one_smul] at e
    rw [at_, e, one_div, inv_mul_eq_div]

/-- A ray which does not oppose the normal never succeeds (back faces and grazing rays). -/
theorem C22_back (t : Tri K) (r : Ray K) (hd : 0 ≤ facing t r.direction) : barycentric t r = none := by
  rw [barycentric_eq, if_neg (fun h => absurd h.2.2.2.1 (not_lt.2 hd))]

/-- The claim with the parameter zero included fails: a ray which starts on the triangle. -/
theorem C22_origin_refuted :
    ¬ ∀ (t : Tri ℚ) (r : Ray ℚ), facing t r.direction < 0 →
      ((∃ q, barycentric t r = some q) ↔ ∃ s, 0 ≤ s ∧ InTri t (at_ r s)) := by
  intro h
  have h1 := (h ⟨⟨0, 0, 0⟩, ⟨4, 0, 0⟩, ⟨0, 4, 0⟩⟩ ⟨⟨1, 1, 0⟩, ⟨0, 0, -1⟩⟩ (by decide +kernel)).2
    ⟨0, le_rfl, 1 / 2, 1 / 4, 1 / 4, by norm_num, by norm_num, by norm_num, by norm_num, by ext <;> norm_num [at_]⟩
  obtain ⟨q, hq⟩ := h1
  have : barycentric (⟨⟨0, 0, 0⟩, ⟨4, 0, 0⟩, ⟨0, 4, 0⟩⟩ : Tri ℚ) ⟨⟨1, 1, 0⟩, ⟨0, 0, -1⟩⟩ = none := by decide +kernel
  rw [this] at hq
  cases hq

/-- A ray from above which hits. -/
example :
    let t : Tri ℚ := ⟨⟨0, 0, 0⟩, ⟨4, 0, 0⟩, ⟨0, 4, 0⟩⟩
    facing t ⟨0, 0, -2⟩ < 0 ∧ barycentric t ⟨⟨1, 2, 5⟩, ⟨0, 0, -2⟩⟩ = some ⟨1 / 4, 1 / 4, 1 / 2⟩ := by
  decide +kernel

/-- A plane through the corners of a triangle which is not degenerate has a multiple of the normal. -/
theorem plane_side (eq : Eqn) (t : Tri K) (pl : Pl K) (h : NonDeg t) (hn : pl.normal ≠ 0)
    (ha : Plane.Spec.On eq pl t.a) (hb : Plane.Spec.On eq pl t.b) (hc : Plane.Spec.On eq pl t.c) :
    ∃ k : K, k ≠ 0 ∧ (∀ d, V3.dot pl.normal d = k * facing t d) ∧
      ∀ x, Plane.sgnDistance eq pl x = k * (facing t x - facing t t.a) := by
  have hN := Plane.Props.lenSq_pos_of (normal_ne h)
  have e1 : V3.dot pl.normal (t.b - t.a) = 0 := by
    cases eq <;> simp only [Plane.Spec.On] at * <;> vec_simp <;> linarith
  have e2 : V3.dot pl.normal (t.c - t.a) = 0 := by
    cases eq <;> simp only [Plane.Spec.On] at * <;> vec_simp <;> linarith
  have key : t.normal.lenSq • pl.normal = V3.dot pl.normal t.normal • t.normal := by
    have : t.normal.lenSq • pl.normal - V3.dot pl.normal t.normal • t.normal =
        V3.dot pl.normal (t.b - t.a) • V3.cross (t.c - t.a) t.normal - V3.dot pl.normal (t.c - t.a) • V3.cross (t.b - t.a) t.normal := by
      ext <;> vec_simp [Tri.normal] <;> ring
    rw [e1, e2, zero_smul, zero_smul, sub_zero] at this
    exact sub_eq_zero.1 this
  have hk : pl.normal = (V3.dot pl.normal t.normal / t.normal.lenSq) • t.normal := by
    rw [div_eq_inv_mul, mul_smul, ← key, smul_smul, inv_mul_cancel₀ hN.ne', one_smul]
  generalize V3.dot pl.normal t.normal / t.normal.lenSq = k at *
  have hdot : ∀ d, V3.dot pl.normal d = k * facing t d := by
    intro d
    rw [facing_eq, hk]; vec_simp; ring
  refine ⟨k, fun h0 => hn (by rw [hk, h0, zero_smul]), hdot, fun x => ?_⟩
  have h1 : eq.distanceSign pl.distance = V3.dot pl.normal t.a := by
    cases eq <;> simp only [Plane.Spec.On, Eqn.distanceSign] at * <;> vec_simp <;> linarith
  rw [Plane.sgnDistance, h1, hdot, hdot]; ring

/-- The query by interpolation, for a direction with a nonzero divisor. -/
theorem interp_eq (nz : Bool) (eq : Eqn) (t : Tri K) (pl : Pl K) (k : K) (hk : k ≠ 0)
    (hd : ∀ d, V3.dot pl.normal d = k * facing t d)
    (hs : ∀ x, Plane.sgnDistance eq pl x = k * (facing t x - facing t t.a)) (o d : V3 K) (hz : facing t d ≠ 0) :
    interp nz eq t pl o d =
      if 0 ≤ areaA t o d ∧ 0 ≤ areaB t o d ∧ 0 ≤ areaC t o d then
        some (Ext.fin (facing t (o - t.a) / -facing t d)) else none := by
  have e : Plane.interp nz eq pl o d = Ext.fin (facing t (o - t.a) / -facing t d) := by
    rw [Plane.interp, hd, hs, Ext.div_ne (mul_ne_zero hk hz), facing_sub]
    congr 1
    field_simp
  unfold interp
  rw [e]
  change (if areaA t o d < 0 then none else if areaB t o d < 0 then none else
    if areaC t o d < 0 then none else _) = _
  by_cases h1 : areaA t o d < 0
  · rw [if_pos h1, if_neg (fun h => absurd h.1 (not_le.2 h1))]
  rw [if_neg h1]
  by_cases h2 : areaB t o d < 0
  · rw [if_pos h2, if_neg (fun h => absurd h.2.1 (not_le.2 h2))]
  rw [if_neg h2]
  by_cases h3 : areaC t o d < 0
  · rw [if_pos h3, if_neg (fun h => absurd h.2.2 (not_le.2 h3))]
  rw [if_neg h3, if_pos ⟨not_lt.1 h1, not_lt.1 h2, not_lt.1 h3⟩]

/-- Points of the line through `o` with direction `d` in the triangle, by the areas. -/
theorem inTri_line (t : Tri K) (o d : V3 K) (hd : facing t d < 0) (s : K) :
    InTri t (o + s • d) ↔ (0 ≤ areaA t o d ∧ 0 ≤ areaB t o d ∧ 0 ≤ areaC t o d) ∧ s = facing t (o - t.a) / -facing t d := by
  have hp : 0 < -facing t d := neg_pos.2 hd
  constructor
  · rintro ⟨u, v, w, hu, hv, hw, h1, h⟩
    obtain ⟨e1, e2, e3⟩ := area_of t o d s u v w h1 h
    refine ⟨⟨by rw [e1]; positivity, by rw [e2]; positivity, by rw [e3]; positivity⟩, ?_⟩
    have := facing_combo t u v w h1
    rw [← h, facing_add, facing_smul] at this
    rw [eq_div_iff hp.ne', facing_sub]
    linarith
  · rintro ⟨⟨hA, hB, hC⟩, rfl⟩
    have hs := sum_eq t o d
    have hpt := area_point t o d
    generalize areaA t o d = x at *
    generalize areaB t o d = y at *
    generalize areaC t o d = z at *
    refine ⟨x / -facing t d, y / -facing t d, z / -facing t d, div_nonneg hA hp.le, div_nonneg hB hp.le,
      div_nonneg hC hp.le, by rw [← add_div, ← add_div, hs, div_self hp.ne'], ?_⟩
    generalize -facing t d = n at *
    have e : (n : K)⁻¹ • (x • t.a + y • t.b + z • t.c) = (n : K)⁻¹ • (n • o + facing t (o - t.a) • d) := by rw [hpt]
    simp only [smul_add, smul_smul, inv_mul_cancel₀ hp.ne', one_smul, inv_mul_eq_div] at e
    rw [e]

/-- The ray query with any plane through the triangle, for a ray which opposes the normal: it succeeds
exactly if the ray meets the triangle at a parameter of at least zero, and returns this point. -/
theorem C22_ray (nz : Bool) (eq : Eqn) (t : Tri K) (pl : Pl K) (r : Ray K) (h : NonDeg t) (hn : pl.normal ≠ 0)
    (ha : Plane.Spec.On eq pl t.a) (hb : Plane.Spec.On eq pl t.b) (hc : Plane.Spec.On eq pl t.c)
    (hd : facing t r.direction < 0) (x : V3 K) :
    intersectRay nz eq t pl r = .point x ↔ ∃ s, 0 ≤ s ∧ x = at_ r s ∧ InTri t x := by
  obtain ⟨k, hk, h1, h2⟩ := plane_side eq t pl h hn ha hb hc
  unfold intersectRay
  rw [interp_eq nz eq t pl k hk h1 h2 _ _ hd.ne]
  by_cases hA : 0 ≤ areaA t r.origin r.direction ∧ 0 ≤ areaB t r.origin r.direction ∧ 0 ≤ areaC t r.origin r.direction
  · rw [if_pos hA]
    dsimp only
    by_cases hg : 0 ≤ facing t (r.origin - t.a) / -facing t r.direction
    · rw [if_pos (show Ext.ge _ _ = true by simpa [Ext.ge] using hg)]
      constructor
      · rintro ⟨⟩
        refine ⟨_, hg, ?_, ?_⟩
        · rw [Plane.Ray.lerp, at_, add_comm]
        · rw [Plane.Ray.lerp, add_comm]
          exact (inTri_line t _ _ hd _).2 ⟨hA, rfl⟩
      · rintro ⟨s, hs, rfl, hin⟩
        rw [((inTri_line t _ _ hd s).1 hin).2, Plane.Ray.lerp, at_, add_comm]
    · rw [if_neg (show ¬ Ext.ge _ _ = true by simpa [Ext.ge] using hg)]
      refine ⟨fun h => (by cases h), ?_⟩
      rintro ⟨s, hs, rfl, hin⟩
      rw [((inTri_line t _ _ hd s).1 hin).2] at hs
      exact absurd hs hg
  · rw [if_neg hA]
    refine ⟨fun h => (by cases h), ?_⟩
    rintro ⟨s, hs, rfl, hin⟩
    exact absurd ((inTri_line t _ _ hd s).1 hin).1 hA

/-- A ray with a nonzero direction which does not oppose the normal is never reported. -/
theorem C22_ray_back (nz : Bool) (eq : Eqn) (t : Tri K) (pl : Pl K) (r : Ray K) (h : NonDeg t) (hn : pl.normal ≠ 0)
    (ha : Plane.Spec.On eq pl t.a) (hb : Plane.Spec.On eq pl t.b) (hc : Plane.Spec.On eq pl t.c)
    (hr : r.direction ≠ 0) (hd : 0 ≤ facing t r.direction) : intersectRay nz eq t pl r = .none := by
  obtain ⟨k, hk, h1, h2⟩ := plane_side eq t pl h hn ha hb hc
  have hs := sum_eq t r.origin r.direction
  rcases hd.lt_or_eq with hd | hd
  · unfold intersectRay
    rw [interp_eq nz eq t pl k hk h1 h2 _ _ hd.ne', if_neg]
    rintro ⟨hA, hB, hC⟩
    linarith
  · unfold intersectRay interp
    change (match (if areaA t r.origin r.direction < 0 then none else if areaB t r.origin r.direction < 0 then none else
      if areaC t r.origin r.direction < 0 then none else some (Plane.interp nz eq pl r.origin r.direction)) with
      | none => Hit.none | some e => _) = _
    by_cases hf : facing t (r.origin - t.a) = 0
    · have : Plane.interp nz eq pl r.origin r.direction = Ext.nan := by
        rw [facing_sub] at hf
        rw [Plane.interp, h1, h2, ← hd, hf, mul_zero, neg_zero]
        simp [Ext.div]
      rw [this]
      split_ifs <;> simp [Ext.ge]
    · -- a ray beside the plane has an area of each sign
      have hpt := area_point t r.origin r.direction
      rw [← hd, neg_zero, zero_smul, zero_add] at hpt
      have hne : ¬ (areaA t r.origin r.direction = 0 ∧ areaB t r.origin r.direction = 0 ∧ areaC t r.origin r.direction = 0) := by
        rintro ⟨e1, e2, e3⟩
        rw [e1, e2, e3, zero_smul, zero_smul, zero_smul, add_zero, add_zero] at hpt
        apply hr
        have : (facing t (r.origin - t.a))⁻¹ • (0 : V3 K) = (facing t (r.origin - t.a))⁻¹ • facing t (r.origin - t.a) • r.direction := by
          rw [← hpt]
        rw [smul_zero, smul_smul, inv_mul_cancel₀ hf, one_smul] at this
        exact this.symm
      by_cases c1 : areaA t r.origin r.direction < 0
      · rw [if_pos c1]
      rw [if_neg c1]
      by_cases c2 : areaB t r.origin r.direction < 0
      · rw [if_pos c2]
      rw [if_neg c2]
      by_cases c3 : areaC t r.origin r.direction < 0
      · rw [if_pos c3]
      exact absurd ⟨by linarith, by linarith, by linarith⟩ hne

/-- The same for segments, with the parameter between zero and one. -/
theorem C22_segment (nz : Bool) (eq : Eqn) (t : Tri K) (pl : Pl K) (l : Line K) (h : NonDeg t) (hn : pl.normal ≠ 0)
    (ha : Plane.Spec.On eq pl t.a) (hb : Plane.Spec.On eq pl t.b) (hc : Plane.Spec.On eq pl t.c)
    (hd : facing t (l.b - l.a) < 0) (x : V3 K) :
    intersectLine nz eq t pl l = .point x ↔ ∃ s : K, 0 ≤ s ∧ s ≤ 1 ∧ x = l.a + s • (l.b - l.a) ∧ InTri t x := by
  obtain ⟨k, hk, h1, h2⟩ := plane_side eq t pl h hn ha hb hc
  unfold intersectLine
  rw [Plane.Line.direction, interp_eq nz eq t pl k hk h1 h2 _ _ hd.ne]
  by_cases hA : 0 ≤ areaA t l.a (l.b - l.a) ∧ 0 ≤ areaB t l.a (l.b - l.a) ∧ 0 ≤ areaC t l.a (l.b - l.a)
  · rw [if_pos hA]
    dsimp only
    by_cases hg : 0 ≤ facing t (l.a - t.a) / -facing t (l.b - l.a) ∧ facing t (l.a - t.a) / -facing t (l.b - l.a) ≤ 1
    · rw [if_pos (show (Ext.ge _ _ && Ext.le _ _) = true by simpa [Ext.ge, Ext.le] using hg)]
      constructor
      · rintro ⟨⟩
        exact ⟨_, hg.1, hg.2, rfl, (inTri_line t _ _ hd _).2 ⟨hA, rfl⟩⟩
      · rintro ⟨s, hs, hs1, rfl, hin⟩
        rw [((inTri_line t _ _ hd s).1 hin).2, Plane.Line.lerp]
    · rw [if_neg (show ¬ (Ext.ge _ _ && Ext.le _ _) = true by simpa [Ext.ge, Ext.le] using hg)]
      refine ⟨fun h => (by cases h), ?_⟩
      rintro ⟨s, hs, hs1, rfl, hin⟩
      rw [((inTri_line t _ _ hd s).1 hin).2] at hs hs1
      exact absurd ⟨hs, hs1⟩ hg
  · rw [if_neg hA]
    refine ⟨fun h => (by cases h), ?_⟩
    rintro ⟨s, hs, hs1, rfl, hin⟩
    exact absurd ((inTri_line t _ _ hd s).1 hin).1 hA

/-- A plane through the corners, and a ray which hits. -/
example :
    let t : Tri ℚ := ⟨⟨0, 0, 1⟩, ⟨4, 0, 1⟩, ⟨0, 4, 1⟩⟩
    let pl : Pl ℚ := ⟨⟨0, 0, 1⟩, 1⟩
    (Plane.Spec.On .nxEqD pl t.a ∧ Plane.Spec.On .nxEqD pl t.b ∧ Plane.Spec.On .nxEqD pl t.c) ∧
      intersectRay false .nxEqD t pl ⟨⟨1, 2, 5⟩, ⟨0, 0, -2⟩⟩ = .point ⟨1, 2, 1⟩ ∧
      intersectLine false .nxEqD t pl ⟨⟨1, 2, 5⟩, ⟨1, 2, -2⟩⟩ = .point ⟨1, 2, 1⟩ := by
  refine ⟨by norm_num [Plane.Spec.On], ?_⟩
  decide +kernel

/-! ## C23 -/

/-- The areas of the precomputed query are the same, and it wants all of them strictly positive. -/
theorem preBarycentric_eq (t : Tri K) (r : Ray K) : preBarycentric (preTri t) (preRay r) =
    if 0 < areaA t r.origin r.direction ∧ 0 < areaB t r.origin r.direction ∧ 0 < areaC t r.origin r.direction ∧
      facing t r.direction < 0 ∧ facing t t.a < facing t r.origin then
      some ((1 / -facing t r.direction) • ⟨areaA t r.origin r.direction, areaB t r.origin r.direction, areaC t r.origin r.direction⟩)
    else none := by
  have eA : V3.dot r.direction (V3.cross t.c t.b) + V3.dot (V3.cross r.direction r.origin) (t.c - t.b) =
      areaA t r.origin r.direction := by simp only [areaA]; vec_simp; ring
  have eB : V3.dot r.direction (V3.cross t.a t.c) + V3.dot (V3.cross r.direction r.origin) (t.a - t.c) =
      areaB t r.origin r.direction := by simp only [areaB]; vec_simp; ring
  have eC : V3.dot r.direction (V3.cross t.b t.a) - V3.dot (V3.cross r.direction r.origin) (t.c - t.b) -
      V3.dot (V3.cross r.direction r.origin) (t.a - t.c) = areaC t r.origin r.direction := by
    simp only [areaC]; vec_simp; ring
  have hn : ∀ v, V3.dot (V3.cross (t.b - t.a) (t.c - t.a)) v = facing t v := fun v => (facing_eq t v).symm
  have hs := sum_eq t r.origin r.direction
  simp only [preBarycentric, preTri, preRay, eA, eB, eC, hn]
  rw [← hs]
  generalize areaA t r.origin r.direction = x at *
  generalize areaB t r.origin r.direction = y at *
  generalize areaC t r.origin r.direction = z at *
  by_cases h1 : x * y ≤ 0
  · rw [if_pos h1, if_neg (fun h => absurd h1 (not_le.2 (mul_pos h.1 h.2.1)))]
  rw [if_neg h1]
  by_cases h2 : x * z ≤ 0
  · rw [if_pos h2, if_neg (fun h => absurd h2 (not_le.2 (mul_pos h.1 h.2.2.1)))]
  rw [if_neg h2]
  by_cases h4 : facing t r.direction ≥ 0
  · rw [if_pos h4, if_neg (fun h => absurd h.2.2.2.1 (not_lt.2 h4))]
  rw [if_neg h4]
  by_cases h5 : facing t r.origin ≤ facing t t.a
  · rw [if_pos h5, if_neg (fun h => absurd h.2.2.2.2 (not_lt.2 h5))]
  rw [if_neg h5, if_pos]
  have hx : 0 < x := by
    by_contra hc
    have hy : y < 0 := by
      by_contra hy
      exact h1 (mul_nonpos_of_nonpos_of_nonneg (not_lt.1 hc) (not_lt.1 hy))
    have hz : z < 0 := by
      by_contra hz
      exact h2 (mul_nonpos_of_nonpos_of_nonneg (not_lt.1 hc) (not_lt.1 hz))
    linarith [not_lt.1 hc, not_le.1 h4]
  exact ⟨hx, pos_of_mul_pos_right (not_le.1 h1) hx.le, pos_of_mul_pos_right (not_le.1 h2) hx.le, not_le.1 h4, not_le.1 h5⟩

/-- A success of the precomputed query is a success of the direct query with the same coordinates. -/
theorem C23_precomputed_direct (t : Tri K) (r : Ray K) (q : V3 K) (h : preBarycentric (preTri t) (preRay r) = some q) :
    barycentric t r = some q := by
  rw [preBarycentric_eq] at h
  split_ifs at h with hc
  rw [barycentric_eq, if_pos ⟨hc.1.le, hc.2.1.le, hc.2.2.1.le, hc.2.2.2⟩]
  exact h

/-- A success of the direct query at a point which is not on an edge is a success of the precomputed
query with the same coordinates. On the edges the precomputed query fails. -/
theorem C23_direct_precomputed (t : Tri K) (r : Ray K) (q : V3 K) (h : barycentric t r = some q) :
    preBarycentric (preTri t) (preRay r) = some q ↔ 0 < q.x ∧ 0 < q.y ∧ 0 < q.z := by
  rw [barycentric_eq] at h
  split_ifs at h with hc
  cases h
  have hp : 0 < 1 / -facing t r.direction := one_div_pos.2 (neg_pos.2 hc.2.2.2.1)
  have pos : ∀ x : K, 0 < 1 / -facing t r.direction * x ↔ 0 < x := fun x => mul_pos_iff_of_pos_left hp
  rw [preBarycentric_eq]
  simp only [V3.smul_x, V3.smul_y, V3.smul_z, pos]
  constructor
  · intro h
    split_ifs at h with h2
    exact ⟨h2.1, h2.2.1, h2.2.2.1⟩
  · rintro ⟨h1, h2, h3⟩
    rw [if_pos ⟨h1, h2, h3, hc.2.2.2⟩]

/-- Agreement inside, disagreement on an edge. -/
example :
    let t : Tri ℚ := ⟨⟨0, 0, 0⟩, ⟨4, 0, 0⟩, ⟨0, 4, 0⟩⟩
    let r1 : Ray ℚ := ⟨⟨1, 2, 5⟩, ⟨0, 0, -2⟩⟩
    let r2 : Ray ℚ := ⟨⟨1, 0, 5⟩, ⟨0, 0, -2⟩⟩
    preBarycentric (preTri t) (preRay r1) = barycentric t r1 ∧ (barycentric t r1).isSome ∧
      preBarycentric (preTri t) (preRay r2) = none ∧ barycentric t r2 = some ⟨3 / 4, 1 / 4, 0⟩ := by
  decide +kernel

end

/-! ## C24 -/

/-- A segment along the normal is not reported. -/
theorem line_back (nz : Bool) (eq : Eqn) (t : Tri ℝ) (l : Line ℝ) (hd : 0 < facing t (l.b - l.a)) :
    intersectLineDefault nz eq t l = .none := by
  have hN : t.normal ≠ 0 := by
    intro h0
    rw [facing_eq, h0] at hd
    simp [V3.dot] at hd
  have hnd := nonDeg_of_normal hN
  obtain ⟨hu, ha, hb, hc⟩ := Plane.Props.C10_build eq t.a t.b t.c hN
  have hn : (Plane.build eq t.a t.b t.c).normal ≠ 0 := by
    intro h0
    rw [Plane.Spec.UnitN, h0] at hu
    simp at hu
  obtain ⟨k, hk, h1, h2⟩ := plane_side eq t _ hnd hn ha hb hc
  have hs := sum_eq t l.a (l.b - l.a)
  unfold intersectLineDefault intersectLine
  rw [Plane.Line.direction, interp_eq nz eq t _ k hk h1 h2 _ _ hd.ne', if_neg]
  rintro ⟨hA, hB, hC⟩
  linarith

/-- A segment against the normal which meets the triangle is reported. -/
theorem line_front (nz : Bool) (eq : Eqn) (t : Tri ℝ) (l : Line ℝ) (hd : facing t (l.b - l.a) < 0) (s : ℝ)
    (h0 : 0 ≤ s) (h1 : s ≤ 1) (hin : InTri t (l.a + s • (l.b - l.a))) :
    intersectLineDefault nz eq t l = .point (l.a + s • (l.b - l.a)) := by
  have hN : t.normal ≠ 0 := by
    intro h0
    rw [facing_eq, h0] at hd
    simp [V3.dot] at hd
  obtain ⟨hu, ha, hb, hc⟩ := Plane.Props.C10_build eq t.a t.b t.c hN
  have hn : (Plane.build eq t.a t.b t.c).normal ≠ 0 := by
    intro h0
    rw [Plane.Spec.UnitN, h0] at hu
    simp at hu
  exact (C22_segment nz eq t _ l (nonDeg_of_normal hN) hn ha hb hc hd _).2 ⟨s, h0, h1, rfl, hin⟩

/-- A segment query which hits gives a point of the segment and of the triangle, whatever the
triangle and the segment. -/
theorem line_sound (nz : Bool) (eq : Eqn) (t : Tri ℝ) (l : Line ℝ) (h : intersectLineDefault nz eq t l ≠ .none) :
    ∃ x, intersectLineDefault nz eq t l = .point x ∧ InTri t x ∧ ∃ s : ℝ, 0 ≤ s ∧ s ≤ 1 ∧ x = l.a + s • (l.b - l.a) := by
  by_cases hN : t.normal = 0
  · -- a degenerate triangle gives NaN
    exfalso
    apply h
    have hb : Plane.build eq t.a t.b t.c = ⟨0, eq.distanceSign 0⟩ := by
      have h0 : V3.cross (t.b - t.a) (t.c - t.a) = 0 := hN
      simp [Plane.build, Plane.updateDistance, Plane.normalizeVec, h0, V3.lenSq, V3.dot]
    have e : Plane.interp nz eq (Plane.build eq t.a t.b t.c) l.a l.direction = Ext.nan := by
      rw [hb]
      cases eq <;> simp [Plane.interp, Plane.sgnDistance, V3.dot, Eqn.distanceSign, Ext.div]
    unfold intersectLineDefault intersectLine interp
    rw [e]
    simp only
    split_ifs <;> simp [Ext.ge, Ext.le]
  · have hnd := nonDeg_of_normal hN
    obtain ⟨hu, ha, hb, hc⟩ := Plane.Props.C10_build eq t.a t.b t.c hN
    have hn : (Plane.build eq t.a t.b t.c).normal ≠ 0 := by
      intro h0
      rw [Plane.Spec.UnitN, h0] at hu
      simp at hu
    obtain ⟨k, hk, h1, h2⟩ := plane_side eq t _ hnd hn ha hb hc
    have hs := sum_eq t l.a (l.b - l.a)
    rcases lt_trichotomy (facing t (l.b - l.a)) 0 with hd | hd | hd
    · have H := C22_segment nz eq t _ l hnd hn ha hb hc hd
      unfold intersectLineDefault at h ⊢
      revert h
      have hinf : intersectLine nz eq t (Plane.build eq t.a t.b t.c) l ≠ .infinite := by
        unfold intersectLine
        rw [Plane.Line.direction, interp_eq nz eq t _ k hk h1 h2 _ _ hd.ne]
        split_ifs <;> simp
        split_ifs <;> simp
      cases he : intersectLine nz eq t (Plane.build eq t.a t.b t.c) l with
      | none => exact fun h => absurd rfl h
      | infinite => exact absurd he hinf
      | point x =>
        intro _
        obtain ⟨s, s0, s1, e, hin⟩ := (H x).1 he
        exact ⟨x, rfl, hin, s, s0, s1, e⟩
    · -- a segment parallel to the plane: the factor is not finite
      exfalso
      apply h
      unfold intersectLineDefault intersectLine interp
      have e : ∀ y, Plane.interp nz eq (Plane.build eq t.a t.b t.c) l.a l.direction ≠ Ext.fin y := by
        intro y
        rw [Plane.interp, Plane.Line.direction, h1, hd, mul_zero]
        simp only [Ext.div, if_true]
        split_ifs <;> simp
      revert e
      generalize Plane.interp nz eq (Plane.build eq t.a t.b t.c) l.a l.direction = z
      intro e
      cases z with
      | fin y => exact absurd rfl (e y)
      | posInf => simp only; split_ifs <;> simp [Ext.ge, Ext.le]
      | negInf => simp only; split_ifs <;> simp [Ext.ge, Ext.le]
      | nan => simp only; split_ifs <;> simp [Ext.ge, Ext.le]
    · exact absurd (line_back nz eq t l hd) h

/-- The edges consist of points of the triangle. -/
theorem edge_inTri (t : Tri ℝ) (l : Line ℝ) (hl : l ∈ edges t) (s : ℝ) (h0 : 0 ≤ s) (h1 : s ≤ 1) :
    InTri t (l.a + s • (l.b - l.a)) := by
  simp only [edges, List.mem_cons, List.not_mem_nil, or_false] at hl
  rcases hl with rfl | rfl | rfl
  · exact ⟨1 - s, s, 0, by linarith, h0, le_rfl, by ring, by module⟩
  · exact ⟨0, 1 - s, s, le_rfl, by linarith, h0, by ring, by module⟩
  · exact ⟨s, 0, 1 - s, h0, le_rfl, by linarith, by ring, by module⟩

/-- The scan returns only points which satisfy `P`, if each edge does. -/
theorem scan_sound (nz : Line ℝ → Bool) (eq : Eqn) (P : V3 ℝ → Prop) :
    ∀ (es : List (Tri ℝ × Line ℝ)) (found : Option (Hit (V3 ℝ))),
      (∀ te ∈ es, ∀ x, InTri te.1 x → (∃ s : ℝ, 0 ≤ s ∧ s ≤ 1 ∧ x = te.2.a + s • (te.2.b - te.2.a)) → P x) →
      (∀ g, found = some g → ∃ x, g = .point x ∧ P x) →
      ∀ g h, scanEdges nz eq es found = some (g, h) → ∃ x y, g = .point x ∧ h = .point y ∧ P x ∧ P y
  | [], found, _, _, g, h, hs => by cases hs
  | (t, edge) :: rest, found, hes, hf, g, h, hs => by
    have hrest := fun te hte => hes te (List.mem_cons_of_mem _ hte)
    -- the hit of this edge
    have hhit : ∀ e, edgeHit nz eq t edge = e → e ≠ .none → ∃ x, e = .point x ∧ P x := by
      intro e he hne
      unfold edgeHit at he
      cases h1 : intersectLineDefault (nz edge) eq t edge with
      | none =>
        rw [h1] at he
        simp only at he
        rw [← he] at hne ⊢
        obtain ⟨x, hx, hin, s, s0, s1, e⟩ := line_sound _ _ _ _ hne
        refine ⟨x, hx, hes (t, edge) List.mem_cons_self x hin ⟨1 - s, by linarith, by linarith, ?_⟩⟩
        rw [e]; simp only; module
      | point x =>
        rw [h1] at he
        simp only at he
        obtain ⟨x', hx, hin, s, s0, s1, e⟩ := line_sound (nz edge) eq t edge (by rw [h1]; simp)
        rw [h1] at hx
        cases hx
        exact ⟨x, he.symm, hes (t, edge) List.mem_cons_self x hin ⟨s, s0, s1, e⟩⟩
      | infinite =>
        obtain ⟨x', hx, -⟩ := line_sound (nz edge) eq t edge (by rw [h1]; simp)
        rw [h1] at hx
        cases hx
    rw [scanEdges] at hs
    generalize edgeHit nz eq t edge = e at hs hhit
    cases e with
    | none => exact scan_sound nz eq P rest found hrest hf g h hs
    | infinite =>
      obtain ⟨x, hx, -⟩ := hhit _ rfl (by simp)
      cases hx
    | point x =>
      obtain ⟨x', hx, hP⟩ := hhit _ rfl (by simp)
      cases hx
      cases found with
      | none =>
        exact scan_sound nz eq P rest (some (.point x)) hrest (fun g hg => by cases hg; exact ⟨x, rfl, hP⟩) g h hs
      | some g0 =>
        simp only [Option.some.injEq, Prod.mk.injEq] at hs
        obtain ⟨rfl, rfl⟩ := hs
        obtain ⟨y, hy, hPy⟩ := hf _ rfl
        exact ⟨y, x, hy, rfl, hPy, hP⟩

/-- The end points of a reported intersection of two triangles are points of both triangles, whatever
the triangles (also for degenerate ones). -/
theorem C24_sound (nz : Line ℝ → Bool) (eq : Eqn) (ta tb : Tri ℝ) (g h : Hit (V3 ℝ))
    (hs : intersectTri nz eq ta tb = some (g, h)) :
    ∃ x y, g = .point x ∧ h = .point y ∧ (InTri ta x ∧ InTri tb x) ∧ InTri ta y ∧ InTri tb y := by
  refine scan_sound nz eq (fun x => InTri ta x ∧ InTri tb x) _ none ?_ (fun g hg => by cases hg) g h hs
  intro te hte x hx ⟨s, s0, s1, e⟩
  simp only [List.mem_append, List.mem_map] at hte
  rcases hte with ⟨l, hl, rfl⟩ | ⟨l, hl, rfl⟩
  · exact ⟨hx, by rw [e]; exact edge_inTri tb l hl s s0 s1⟩
  · exact ⟨by rw [e]; exact edge_inTri ta l hl s s0 s1, hx⟩

/-- Two crossing triangles which are reported with two different points. -/
example (nz : Line ℝ → Bool) :
    intersectTri nz .nxEqD ⟨⟨0, 0, 0⟩, ⟨4, 0, 0⟩, ⟨0, 4, 0⟩⟩ ⟨⟨1, 1, 1⟩, ⟨1, 1, -1⟩, ⟨2, 1, 1⟩⟩ =
      some (.point ⟨1, 1, 0⟩, .point ⟨3 / 2, 1, 0⟩) := by
  have h1 := line_front (nz ⟨⟨1, 1, 1⟩, ⟨1, 1, -1⟩⟩) .nxEqD ⟨⟨0, 0, 0⟩, ⟨4, 0, 0⟩, ⟨0, 4, 0⟩⟩ ⟨⟨1, 1, 1⟩, ⟨1, 1, -1⟩⟩
    (by norm_num [facing]) (1 / 2) (by norm_num) (by norm_num)
    ⟨1 / 2, 1 / 4, 1 / 4, by norm_num, by norm_num, by norm_num, by norm_num, by ext <;> norm_num⟩
  have h2 := line_back (nz ⟨⟨1, 1, -1⟩, ⟨2, 1, 1⟩⟩) .nxEqD ⟨⟨0, 0, 0⟩, ⟨4, 0, 0⟩, ⟨0, 4, 0⟩⟩ ⟨⟨1, 1, -1⟩, ⟨2, 1, 1⟩⟩
    (by norm_num [facing])
  have h3 := line_front (nz ⟨⟨2, 1, 1⟩, ⟨1, 1, -1⟩⟩) .nxEqD ⟨⟨0, 0, 0⟩, ⟨4, 0, 0⟩, ⟨0, 4, 0⟩⟩ ⟨⟨2, 1, 1⟩, ⟨1, 1, -1⟩⟩
    (by norm_num [facing]) (1 / 2) (by norm_num) (by norm_num)
    ⟨3 / 8, 3 / 8, 1 / 4, by norm_num, by norm_num, by norm_num, by norm_num, by ext <;> norm_num⟩
  have e1 : (⟨1, 1, 1⟩ : V3 ℝ) + (1 / 2 : ℝ) • ((⟨1, 1, -1⟩ : V3 ℝ) - ⟨1, 1, 1⟩) = ⟨1, 1, 0⟩ := by ext <;> norm_num
  have e2 : (⟨2, 1, 1⟩ : V3 ℝ) + (1 / 2 : ℝ) • ((⟨1, 1, -1⟩ : V3 ℝ) - ⟨2, 1, 1⟩) = ⟨3 / 2, 1, 0⟩ := by ext <;> norm_num
  simp only [e1] at h1
  simp only [e2] at h3
  simp only [intersectTri, edges, List.map_cons, List.map_nil, List.cons_append, List.nil_append, scanEdges, edgeHit, h1, h2, h3]

/-! The theorems for one triangle. -/

example := C22_barycentric_partial (⟨⟨0, 0, 0⟩, ⟨4, 0, 0⟩, ⟨0, 4, 0⟩⟩ : Tri ℚ) ⟨⟨1, 2, 5⟩, ⟨0, 0, -2⟩⟩ (by decide +kernel)
example := C22_coordinates (⟨⟨0, 0, 0⟩, ⟨4, 0, 0⟩, ⟨0, 4, 0⟩⟩ : Tri ℚ) ⟨⟨1, 2, 5⟩, ⟨0, 0, -2⟩⟩ ⟨1 / 4, 1 / 4, 1 / 2⟩ (by decide +kernel)
example := C22_back (⟨⟨0, 0, 0⟩, ⟨4, 0, 0⟩, ⟨0, 4, 0⟩⟩ : Tri ℚ) ⟨⟨1, 2, -5⟩, ⟨0, 0, 2⟩⟩ (by decide +kernel)
example := C22_ray false .nxEqD (⟨⟨0, 0, 1⟩, ⟨4, 0, 1⟩, ⟨0, 4, 1⟩⟩ : Tri ℚ) ⟨⟨0, 0, 1⟩, 1⟩ ⟨⟨1, 2, 5⟩, ⟨0, 0, -2⟩⟩ (nonDeg_of_normal (by decide +kernel)) (by decide +kernel)
  (by norm_num [Plane.Spec.On]) (by norm_num [Plane.Spec.On]) (by norm_num [Plane.Spec.On]) (by decide +kernel) ⟨1, 2, 1⟩
example := C22_ray_back false .nxEqD (⟨⟨0, 0, 1⟩, ⟨4, 0, 1⟩, ⟨0, 4, 1⟩⟩ : Tri ℚ) ⟨⟨0, 0, 1⟩, 1⟩ ⟨⟨1, 2, -5⟩, ⟨0, 0, 2⟩⟩ (nonDeg_of_normal (by decide +kernel))
  (by decide +kernel) (by norm_num [Plane.Spec.On]) (by norm_num [Plane.Spec.On]) (by norm_num [Plane.Spec.On]) (by decide +kernel) (by decide +kernel)
example := C23_precomputed_direct (⟨⟨0, 0, 0⟩, ⟨4, 0, 0⟩, ⟨0, 4, 0⟩⟩ : Tri ℚ) ⟨⟨1, 2, 5⟩, ⟨0, 0, -2⟩⟩ ⟨1 / 4, 1 / 4, 1 / 2⟩ (by decide +kernel)

end Geom.Triangle.Props
