import Verif.Base.Tac
import Verif.Base.VecTac
import Verif.Spec.Triangle
import Verif.Props.Plane

/-!
Properties C17-C19: barycentric coordinates, points inside a triangle, closest points.
-/

set_option linter.unusedSectionVars false
set_option autoImplicit false

namespace Geom.Triangle.Props

open Spec

variable {K : Type} [Field K] [LinearOrder K] [IsStrictOrderedRing K]

theorem facing_eq (t : Tri K) (d : V3 K) : facing t d = V3.dot t.normal d := by vec_simp [Tri.normal, facing]

/-- A triangle with independent edge vectors has a nonzero normal. -/
theorem normal_ne {t : Tri K} (h : NonDeg t) : t.normal ≠ 0 := by
  intro hn
  have hx : t.normal.x = 0 := by rw [hn]; rfl
  have hy : t.normal.y = 0 := by rw [hn]; rfl
  have hz : t.normal.z = 0 := by rw [hn]; rfl
  simp only [Tri.normal, V3.cross_x, V3.cross_y, V3.cross_z] at hx hy hz
  have h1 := h (t.c - t.a).x (-(t.b - t.a).x) (by ext <;> vec_simp <;> vec_simp at hx hy hz <;> linarith)
  have h2 := h (t.c - t.a).y (-(t.b - t.a).y) (by ext <;> vec_simp <;> vec_simp at hx hy hz <;> linarith)
  have h3 := h (t.c - t.a).z (-(t.b - t.a).z) (by ext <;> vec_simp <;> vec_simp at hx hy hz <;> linarith)
  have h4 := h 0 1 (by ext <;> simp only [zero_smul, one_smul, zero_add, V3.zero_x, V3.zero_y, V3.zero_z, h1.1, h2.1, h3.1])
  exact one_ne_zero h4.2

theorem nonDeg_of_normal {t : Tri K} (h : t.normal ≠ 0) : NonDeg t := by
  intro s r hsr
  have hx := congrArg V3.x hsr
  have hy := congrArg V3.y hsr
  have hz := congrArg V3.z hsr
  vec_simp at hx hy hz
  constructor
  · by_contra hs
    apply h
    ext <;> vec_simp [Tri.normal, facing] <;> apply mul_left_cancel₀ hs
    · linear_combination (t.c.z - t.a.z) * hy - (t.c.y - t.a.y) * hz
    · linear_combination (t.c.x - t.a.x) * hz - (t.c.z - t.a.z) * hx
    · linear_combination (t.c.y - t.a.y) * hx - (t.c.x - t.a.x) * hy
  · by_contra hs
    apply h
    ext <;> vec_simp [Tri.normal, facing] <;> apply mul_left_cancel₀ hs
    · linear_combination (t.b.y - t.a.y) * hz - (t.b.z - t.a.z) * hy
    · linear_combination (t.b.z - t.a.z) * hx - (t.b.x - t.a.x) * hz
    · linear_combination (t.b.x - t.a.x) * hy - (t.b.y - t.a.y) * hx

/-- The points of the plane, by the normal. -/
theorem facing_of_inPlane {t : Tri K} {x : V3 K} (h : InPlane t x) : V3.dot t.normal (x - t.a) = 0 := by
  obtain ⟨u, v, w, h1, rfl⟩ := h
  obtain rfl : u = 1 - v - w := by linarith
  vec_simp [Tri.normal, facing]; ring

/-! ## C17 -/

/-- The common end of the conversions. -/
theorem finish {nu nv den u v : K} (hd : den ≠ 0) (hu : nu = u * den) (hv : nv = v * den) :
    (if den = 0 then none else some (⟨nu * (1 / den), nv * (1 / den), 1 - nu * (1 / den) - nv * (1 / den)⟩ : V3 K)) =
      some ⟨u, v, 1 - u - v⟩ := by
  rw [if_neg hd, hu, hv]
  have e : ∀ x : K, x * den * (1 / den) = x := fun x => by field_simp
  rw [e, e]

/-- The three projections of the conversion in one statement: the divisor is not zero and the
coordinates of an affine combination are its coefficients. -/
theorem toBarycentric_of {t : Tri K} (h : NonDeg t) {u v w : K} (h1 : u + v + w = 1) :
    t.toBarycentric (u • t.a + v • t.b + w • t.c) = some ⟨u, v, w⟩ := by
  have hn := normal_ne h
  obtain rfl : w = 1 - u - v := by linarith
  unfold Tri.toBarycentric
  simp only
  have abs0 : ∀ x y : K, |x| ≥ |y| → x = 0 → y = 0 := fun x y h hx => by
    rw [hx, abs_zero] at h
    exact abs_nonpos_iff.1 h
  by_cases c1 : |t.normal.x| ≥ |t.normal.y| ∧ |t.normal.x| ≥ |t.normal.z|
  · rw [if_pos c1]
    refine finish (fun h0 => hn ?_) ?_ ?_
    · ext
      · exact h0
      · exact abs0 _ _ c1.1 h0
      · exact abs0 _ _ c1.2 h0
    all_goals vec_simp [area2D, Tri.normal]; ring
  · rw [if_neg c1]
    by_cases c2 : |t.normal.y| ≥ |t.normal.x| ∧ |t.normal.y| ≥ |t.normal.z|
    · rw [if_pos c2]
      refine finish (fun h0 => hn ?_) ?_ ?_
      · have h0 := neg_eq_zero.1 h0
        ext
        · exact abs0 _ _ c2.1 h0
        · exact h0
        · exact abs0 _ _ c2.2 h0
      all_goals vec_simp [area2D, Tri.normal]; ring
    · rw [if_neg c2]
      refine finish (fun h0 => c2 ?_) ?_ ?_
      · have h0 : t.normal.z = 0 := h0
        rw [h0, abs_zero] at c1 c2 ⊢
        rcases le_total |t.normal.x| |t.normal.y| with h2 | h2
        · exact ⟨h2, abs_nonneg _⟩
        · exact absurd ⟨h2, abs_nonneg _⟩ c1
      all_goals vec_simp [area2D, Tri.normal]; ring

/-- A point of the plane has barycentric coordinates of sum one which convert back to the point. -/
theorem C17_point (t : Tri K) (h : NonDeg t) (p : V3 K) (hp : InPlane t p) :
    ∃ q, t.toBarycentric p = some q ∧ q.x + q.y + q.z = 1 ∧ t.toCartesian q = p := by
  obtain ⟨u, v, w, h1, rfl⟩ := hp
  exact ⟨_, toBarycentric_of h h1, h1, rfl⟩

/-- Barycentric coordinates of sum one convert to a point of the plane and back. -/
theorem C17_triple (t : Tri K) (h : NonDeg t) (q : V3 K) (hq : q.x + q.y + q.z = 1) :
    InPlane t (t.toCartesian q) ∧ t.toBarycentric (t.toCartesian q) = some q :=
  ⟨⟨_, _, _, hq, rfl⟩, toBarycentric_of h hq⟩

/-- The points of the plane, by the equation of the plane through `a` with the normal of the triangle. -/
theorem C17_plane (t : Tri K) (h : NonDeg t) (p : V3 K) : InPlane t p ↔ V3.dot t.normal (p - t.a) = 0 := by
  refine ⟨facing_of_inPlane, fun h0 => ?_⟩
  have hn := Plane.Props.lenSq_pos_of (normal_ne h)
  refine ⟨1 - V3.dot (V3.cross (p - t.a) (t.c - t.a)) t.normal / t.normal.lenSq -
    V3.dot (V3.cross (t.b - t.a) (p - t.a)) t.normal / t.normal.lenSq,
    V3.dot (V3.cross (p - t.a) (t.c - t.a)) t.normal / t.normal.lenSq,
    V3.dot (V3.cross (t.b - t.a) (p - t.a)) t.normal / t.normal.lenSq, by ring, ?_⟩
  have key : t.normal.lenSq • (p - t.a) = V3.dot (V3.cross (p - t.a) (t.c - t.a)) t.normal • (t.b - t.a) +
      V3.dot (V3.cross (t.b - t.a) (p - t.a)) t.normal • (t.c - t.a) + V3.dot t.normal (p - t.a) • t.normal := by
    ext <;> vec_simp [Tri.normal] <;> ring
  rw [h0, zero_smul, add_zero] at key
  have hx := congrArg V3.x key
  have hy := congrArg V3.y key
  have hz := congrArg V3.z key
  generalize V3.dot (V3.cross (p - t.a) (t.c - t.a)) t.normal = v at *
  generalize V3.dot (V3.cross (t.b - t.a) (p - t.a)) t.normal = w at *
  generalize t.normal.lenSq = n at *
  simp only [V3.smul_x, V3.smul_y, V3.smul_z, V3.add_x, V3.add_y, V3.add_z, V3.sub_x, V3.sub_y, V3.sub_z] at hx hy hz
  have := hn.ne'
  ext <;> vec_simp <;> field_simp
  · linear_combination hx
  · linear_combination hy
  · linear_combination hz

/-- 2D triangles: each point converts and back. -/
theorem C17_2d (t : Tri2 K) (h : NonDeg2 t) :
    (∀ p, ∃ q, t.toBarycentric p = some q ∧ q.x + q.y + q.z = 1 ∧ t.toCartesian q = p) ∧
    ∀ q : V3 K, q.x + q.y + q.z = 1 → t.toBarycentric (t.toCartesian q) = some q := by
  have hn : t.normal.z ≠ 0 := by
    intro h0
    simp only [Tri2.normal, V3.cross_z] at h0
    have h1 := h (t.c - t.a).x (-(t.b - t.a).x) (by ext <;> simp <;> linarith)
    have h2 := h (t.c - t.a).y (-(t.b - t.a).y) (by ext <;> simp <;> linarith)
    have h4 := h 0 1 (by ext <;> simp only [zero_smul, one_smul, zero_add, V2.zero_x, V2.zero_y, h1.1, h2.1])
    exact one_ne_zero h4.2
  constructor
  · intro p
    refine ⟨_, by rw [Tri2.toBarycentric]; exact if_neg hn, by simp only; ring, ?_⟩
    have hn' : (t.b.x - t.a.x) * (t.c.y - t.a.y) - (t.b.y - t.a.y) * (t.c.x - t.a.x) ≠ 0 := hn
    ext <;> simp only [Tri2.toCartesian, Tri2.normal, area2D, V3.cross_z, V2.add_x, V2.add_y, V2.smul_x, V2.smul_y] <;>
      field_simp <;> ring
  · intro q hq
    obtain ⟨u, v, w⟩ := q
    simp only at hq
    obtain rfl : w = 1 - u - v := by linarith
    unfold Tri2.toBarycentric
    refine finish hn ?_ ?_ <;> simp [area2D, Tri2.normal, Tri2.toCartesian] <;> ring

/-- Each of the three projections is used by some triangle, with a point outside of the triangle. -/
example :
    let t1 : Tri ℚ := ⟨⟨0, 0, 0⟩, ⟨1, 3, 0⟩, ⟨1, 0, 4⟩⟩
    let t2 : Tri ℚ := ⟨⟨0, 0, 0⟩, ⟨3, 1, 0⟩, ⟨0, 1, 4⟩⟩
    let t3 : Tri ℚ := ⟨⟨0, 0, 0⟩, ⟨3, 0, 1⟩, ⟨0, 4, 1⟩⟩
    t1.toBarycentric ⟨2, 3, 4⟩ = some ⟨-1, 1, 1⟩ ∧ t2.toBarycentric ⟨3, 2, 4⟩ = some ⟨-1, 1, 1⟩ ∧
      t3.toBarycentric ⟨3, 4, 2⟩ = some ⟨-1, 1, 1⟩ ∧ t1.normal ≠ 0 ∧ t2.normal ≠ 0 ∧ t3.normal ≠ 0 := by
  decide +kernel

/-- A triangle meeting the assumption. -/
theorem sample_nonDeg : NonDeg (⟨⟨0, 0, 0⟩, ⟨1, 3, 0⟩, ⟨1, 0, 4⟩⟩ : Tri ℚ) := nonDeg_of_normal (by decide +kernel)

example := C17_triple _ sample_nonDeg ⟨-1, 1, 1⟩ (by norm_num)
example := C17_point _ sample_nonDeg _ (C17_triple _ sample_nonDeg ⟨-1, 1, 1⟩ (by norm_num)).1
example := C17_plane _ sample_nonDeg ⟨2, 3, 4⟩

/-! ## C18 -/

/-- For a point of the plane `IsInsideTriangle` tells whether it is a convex combination of the
corners. -/
theorem C18_inside (t : Tri K) (h : NonDeg t) (p : V3 K) (hp : InPlane t p) : isInside t p = true ↔ InTri t p := by
  have hn := Plane.Props.lenSq_pos_of (normal_ne h)
  obtain ⟨u, v, w, h1, hp⟩ := hp
  have key1 : V3.dot (V3.cross (t.c - t.b) (p - t.b)) (V3.cross (t.c - t.b) (t.a - t.b)) = u * t.normal.lenSq := by
    obtain rfl : v = 1 - u - w := by linarith
    rw [hp]; vec_simp [Tri.normal]; ring
  have key2 : V3.dot (V3.cross (t.c - t.a) (p - t.a)) (V3.cross (t.c - t.a) (t.b - t.a)) = v * t.normal.lenSq := by
    obtain rfl : u = 1 - v - w := by linarith
    rw [hp]; vec_simp [Tri.normal]; ring
  have key3 : V3.dot (V3.cross (t.b - t.a) (p - t.a)) (V3.cross (t.b - t.a) (t.c - t.a)) = w * t.normal.lenSq := by
    obtain rfl : u = 1 - v - w := by linarith
    rw [hp]; vec_simp [Tri.normal]; ring
  have pos : ∀ x : K, 0 ≤ x * t.normal.lenSq ↔ 0 ≤ x := fun x =>
    ⟨fun h => nonneg_of_mul_nonneg_left h hn, fun h => mul_nonneg h hn.le⟩
  have hin : isInside t p = true ↔ 0 ≤ u ∧ 0 ≤ v ∧ 0 ≤ w := by
    simp only [isInside, isOnSameSide, Bool.and_eq_true, decide_eq_true_eq, ge_iff_le, key1, key2, key3, pos, and_assoc]
  rw [hin]
  refine ⟨fun h2 => ⟨u, v, w, h2.1, h2.2.1, h2.2.2, h1, hp⟩, ?_⟩
  rintro ⟨u', v', w', hu, hv, hw, h1', hp'⟩
  have e := toBarycentric_of h h1
  rw [← hp, hp', toBarycentric_of h h1'] at e
  cases e
  exact ⟨hu, hv, hw⟩

/-- A point inside, one on an edge, one outside. -/
example :
    let t : Tri ℚ := ⟨⟨0, 0, 1⟩, ⟨4, 0, 1⟩, ⟨0, 4, 1⟩⟩
    isInside t ⟨1, 1, 1⟩ = true ∧ isInside t ⟨2, 2, 1⟩ = true ∧ isInside t ⟨3, 2, 1⟩ = false := by
  decide +kernel

/-! ## C19 -/

/-- One corner of the Voronoi regions: if the point is neither in the region of the corner nor on the
inner side of the first edge, it is on the outer side of the second edge, and if it is beyond the end of
the second edge it is in the region of that end. -/
theorem voronoi {A B C d1 d2 : K} (hA : 0 ≤ A) (hC : 0 ≤ C) (hD : B * B ≤ A * C) (hv : A * d2 - B * d1 ≤ 0)
    (h1 : d1 ≤ 0) (h2 : 0 < d2) : C * d1 - B * d2 ≤ 0 ∧ (C ≤ d2 → d1 - B ≤ d2 - C) := by
  rcases hA.lt_or_eq with hA | hA
  · have hB1 : 0 < B * d1 := lt_of_lt_of_le (mul_pos hA h2) (by linarith)
    have hB : B < 0 := by
      by_contra hc
      have := mul_nonpos_of_nonneg_of_nonpos (not_lt.1 hc) h1
      linarith
    constructor
    · have e1 := mul_le_mul_of_nonneg_right hD h2.le
      have e2 := mul_le_mul_of_nonneg_left (sub_nonpos.1 hv) hC
      have e3 : B * (B * d2 - C * d1) ≤ 0 := by linarith
      by_contra hc
      have := mul_pos_of_neg_of_neg hB (show B * d2 - C * d1 < 0 by linarith)
      linarith
    · intro h3
      have e1 := mul_le_mul_of_nonneg_left h3 hA.le
      have e3 : 0 ≤ B * (d1 - B) := by linarith
      by_contra hc
      have := mul_neg_of_neg_of_pos hB (show 0 < d1 - B by linarith)
      linarith
  · subst hA
    have hB : B = 0 := by
      have := mul_self_nonneg B
      apply mul_self_eq_zero.1; linarith
    subst hB
    have := mul_nonpos_of_nonneg_of_nonpos hC h1
    exact ⟨by linarith, fun h3 => by linarith⟩

/-- Without any of the regions of corners and edges all three areas are positive. -/
theorem interior {A B C d1 d2 : K} (hA : 0 ≤ A) (hC : 0 ≤ C) (hE : 0 ≤ A - 2 * B + C) (hD : B * B ≤ A * C)
    (n1 : ¬ (d1 ≤ 0 ∧ d2 ≤ 0)) (n2 : ¬ (d1 - A ≥ 0 ∧ d2 - B ≤ d1 - A))
    (n3 : ¬ (A * d2 - B * d1 ≤ 0 ∧ d1 > 0 ∧ d1 - A ≤ 0)) (n4 : ¬ (d2 - C ≥ 0 ∧ d1 - B ≤ d2 - C))
    (n5 : ¬ (C * d1 - B * d2 ≤ 0 ∧ d2 > 0 ∧ d2 - C ≤ 0))
    (n6 : ¬ (A * C - B * B - (C * d1 - B * d2) - (A * d2 - B * d1) ≤ 0 ∧ (d2 - B) - (d1 - A) > 0 ∧ (d1 - B) - (d2 - C) ≥ 0)) :
    0 < A * d2 - B * d1 ∧ 0 < C * d1 - B * d2 ∧ 0 < A * C - B * B - (C * d1 - B * d2) - (A * d2 - B * d1) := by
  have hc : 0 < A * d2 - B * d1 := by
    by_contra hc
    rcases le_or_gt d1 0 with h | h
    · have h2 : 0 < d2 := by
        by_contra h2; exact n1 ⟨h, not_lt.1 h2⟩
      obtain ⟨e1, e2⟩ := voronoi hA hC hD (not_lt.1 hc) h h2
      have h6 : C < d2 := by
        by_contra h6; exact n5 ⟨e1, h2, by linarith⟩
      exact n4 ⟨by linarith, by linarith [e2 h6.le]⟩
    · have h3 : 0 < d1 - A := by
        by_contra h3; exact n3 ⟨not_lt.1 hc, h, not_lt.1 h3⟩
      have h4 : d1 - A < d2 - B := by
        by_contra h4; exact n2 ⟨h3.le, not_lt.1 h4⟩
      obtain ⟨e1, e2⟩ := voronoi (A := A) (B := A - B) (C := A - 2 * B + C) (d1 := -(d1 - A)) (d2 := (d2 - B) - (d1 - A))
        hA hE (by linarith) (by linarith) (by linarith) (by linarith)
      have h5 : (d1 - B) - (d2 - C) < 0 := by
        by_contra h5; exact n6 ⟨by linarith, by linarith, not_lt.1 h5⟩
      have := e2 (by linarith)
      exact n4 ⟨by linarith, by linarith⟩
  have hb : 0 < C * d1 - B * d2 := by
    by_contra hb
    rcases le_or_gt d2 0 with h | h
    · have h2 : 0 < d1 := by
        by_contra h2; exact n1 ⟨not_lt.1 h2, h⟩
      obtain ⟨e1, e2⟩ := voronoi hC hA (by linarith) (not_lt.1 hb) h h2
      linarith
    · have h3 : 0 < d2 - C := by
        by_contra h3; exact n5 ⟨not_lt.1 hb, h, not_lt.1 h3⟩
      have h4 : d2 - C < d1 - B := by
        by_contra h4; exact n4 ⟨h3.le, not_lt.1 h4⟩
      obtain ⟨e1, e2⟩ := voronoi (A := C) (B := C - B) (C := A - 2 * B + C) (d1 := -(d2 - C)) (d2 := (d1 - B) - (d2 - C))
        hC hE (by linarith) (by linarith) (by linarith) (by linarith)
      have h5 : (d2 - B) - (d1 - A) ≤ 0 := by
        by_contra h5; exact n6 ⟨by linarith, not_le.1 h5, by linarith⟩
      have := e2 (by linarith)
      exact n2 ⟨by linarith, by linarith⟩
  refine ⟨hc, hb, ?_⟩
  by_contra ha
  rcases le_or_gt ((d2 - B) - (d1 - A)) 0 with h | h
  · have h3 : d1 - A < 0 := by
      by_contra h3; exact n2 ⟨not_lt.1 h3, by linarith⟩
    obtain ⟨e1, -⟩ := voronoi (A := A - 2 * B + C) (B := A - B) (C := A) (d1 := (d2 - B) - (d1 - A)) (d2 := -(d1 - A))
      hE hA (by linarith) (by linarith) h (by linarith)
    linarith
  · have h5 : (d1 - B) - (d2 - C) < 0 := by
      by_contra h5; exact n6 ⟨not_lt.1 ha, h, not_lt.1 h5⟩
    have h3 : d2 - C < 0 := by
      by_contra h3; exact n4 ⟨not_lt.1 h3, by linarith⟩
    obtain ⟨e1, -⟩ := voronoi (A := A - 2 * B + C) (B := C - B) (C := C) (d1 := (d1 - B) - (d2 - C)) (d2 := -(d2 - C))
      hE hC (by linarith) (by linarith) h5.le (by linarith)
    linarith

/-- A point of the triangle given by coordinates along the edges is the closest one if no corner is on
the near side. -/
theorem closest_of (t : Tri K) (p : V3 K) (v w : K) (hv : 0 ≤ v) (hw : 0 ≤ w) (h1 : v + w ≤ 1)
    (ga : -v * (V3.dot (t.b - t.a) (p - t.a) - v * V3.lenSq (t.b - t.a) - w * V3.dot (t.b - t.a) (t.c - t.a)) -
      w * (V3.dot (t.c - t.a) (p - t.a) - v * V3.dot (t.b - t.a) (t.c - t.a) - w * V3.lenSq (t.c - t.a)) ≤ 0)
    (gb : (1 - v) * (V3.dot (t.b - t.a) (p - t.a) - v * V3.lenSq (t.b - t.a) - w * V3.dot (t.b - t.a) (t.c - t.a)) -
      w * (V3.dot (t.c - t.a) (p - t.a) - v * V3.dot (t.b - t.a) (t.c - t.a) - w * V3.lenSq (t.c - t.a)) ≤ 0)
    (gc : -v * (V3.dot (t.b - t.a) (p - t.a) - v * V3.lenSq (t.b - t.a) - w * V3.dot (t.b - t.a) (t.c - t.a)) +
      (1 - w) * (V3.dot (t.c - t.a) (p - t.a) - v * V3.dot (t.b - t.a) (t.c - t.a) - w * V3.lenSq (t.c - t.a)) ≤ 0) :
    InTri t (t.a + v • (t.b - t.a) + w • (t.c - t.a)) ∧
    ∀ x, InTri t x → Plane.Spec.distSq p (t.a + v • (t.b - t.a) + w • (t.c - t.a)) ≤ Plane.Spec.distSq p x := by
  refine ⟨⟨1 - v - w, v, w, by linarith, hv, hw, by ring, by module⟩, ?_⟩
  rintro x ⟨u', v', w', hu', hv', hw', h1', rfl⟩
  obtain rfl : u' = 1 - v' - w' := by linarith
  have e : Plane.Spec.distSq p ((1 - v' - w') • t.a + v' • t.b + w' • t.c) =
      Plane.Spec.distSq p (t.a + v • (t.b - t.a) + w • (t.c - t.a)) -
      2 * ((v' - v) * (V3.dot (t.b - t.a) (p - t.a) - v * V3.lenSq (t.b - t.a) - w * V3.dot (t.b - t.a) (t.c - t.a)) +
        (w' - w) * (V3.dot (t.c - t.a) (p - t.a) - v * V3.dot (t.b - t.a) (t.c - t.a) - w * V3.lenSq (t.c - t.a))) +
      V3.lenSq ((v' - v) • (t.b - t.a) + (w' - w) • (t.c - t.a)) := by
    simp only [Plane.Spec.distSq]; vec_simp; ring
  have hsq : 0 ≤ V3.lenSq ((v' - v) • (t.b - t.a) + (w' - w) • (t.c - t.a)) :=
    DotSpace.dot_self_nonneg (K := K) ((v' - v) • (t.b - t.a) + (w' - w) • (t.c - t.a))
  rw [e]
  generalize V3.dot (t.b - t.a) (p - t.a) - v * V3.lenSq (t.b - t.a) - w * V3.dot (t.b - t.a) (t.c - t.a) = g1 at *
  generalize V3.dot (t.c - t.a) (p - t.a) - v * V3.dot (t.b - t.a) (t.c - t.a) - w * V3.lenSq (t.c - t.a) = g2 at *
  have e1 := mul_nonpos_of_nonneg_of_nonpos hu' ga
  have e2 := mul_nonpos_of_nonneg_of_nonpos hv' gb
  have e3 := mul_nonpos_of_nonneg_of_nonpos hw' gc
  linarith

/-- The result exists for each triangle (also for a degenerate one), is a point of the triangle, and no
point of the triangle is closer to the query point. -/
theorem C19_closest (t : Tri K) (p : V3 K) :
    ∃ q, closestPoint t p = some q ∧ InTri t q ∧ ∀ x, InTri t x → Plane.Spec.distSq p q ≤ Plane.Spec.distSq p x := by
  have H := closest_of t p
  have hA : 0 ≤ V3.lenSq (t.b - t.a) := DotSpace.dot_self_nonneg (K := K) (t.b - t.a)
  have hC : 0 ≤ V3.lenSq (t.c - t.a) := DotSpace.dot_self_nonneg (K := K) (t.c - t.a)
  have hE : 0 ≤ V3.lenSq (t.b - t.a) - 2 * V3.dot (t.b - t.a) (t.c - t.a) + V3.lenSq (t.c - t.a) := by
    have : 0 ≤ V3.lenSq (t.c - t.b) := DotSpace.dot_self_nonneg (K := K) (t.c - t.b)
    have e : V3.lenSq (t.c - t.b) = V3.lenSq (t.b - t.a) - 2 * V3.dot (t.b - t.a) (t.c - t.a) + V3.lenSq (t.c - t.a) := by
      vec_simp; ring
    rwa [e] at this
  have hD : V3.dot (t.b - t.a) (t.c - t.a) * V3.dot (t.b - t.a) (t.c - t.a) ≤ V3.lenSq (t.b - t.a) * V3.lenSq (t.c - t.a) := by
    have : 0 ≤ V3.lenSq t.normal := DotSpace.dot_self_nonneg (K := K) t.normal
    have e : V3.lenSq t.normal = V3.lenSq (t.b - t.a) * V3.lenSq (t.c - t.a) -
      V3.dot (t.b - t.a) (t.c - t.a) * V3.dot (t.b - t.a) (t.c - t.a) := by vec_simp [Tri.normal]; ring
    rw [e] at this; linarith
  have d3 : V3.dot (t.b - t.a) (p - t.b) = V3.dot (t.b - t.a) (p - t.a) - V3.lenSq (t.b - t.a) := by vec_simp; ring
  have d4 : V3.dot (t.c - t.a) (p - t.b) = V3.dot (t.c - t.a) (p - t.a) - V3.dot (t.b - t.a) (t.c - t.a) := by vec_simp; ring
  have d5 : V3.dot (t.b - t.a) (p - t.c) = V3.dot (t.b - t.a) (p - t.a) - V3.dot (t.b - t.a) (t.c - t.a) := by vec_simp; ring
  have d6 : V3.dot (t.c - t.a) (p - t.c) = V3.dot (t.c - t.a) (p - t.a) - V3.lenSq (t.c - t.a) := by vec_simp; ring
  unfold closestPoint
  simp only [d3, d4, d5, d6]
  generalize V3.lenSq (t.b - t.a) = A at *
  generalize V3.lenSq (t.c - t.a) = C at *
  generalize V3.dot (t.b - t.a) (t.c - t.a) = B at *
  generalize V3.dot (t.b - t.a) (p - t.a) = d1 at *
  generalize V3.dot (t.c - t.a) (p - t.a) = d2 at *
  clear d3 d4 d5 d6
  have evc : d1 * (d2 - B) - (d1 - A) * d2 = A * d2 - B * d1 := by ring
  have evb : (d1 - B) * d2 - d1 * (d2 - C) = C * d1 - B * d2 := by ring
  have eva : (d1 - A) * (d2 - C) - (d1 - B) * (d2 - B) = A * C - B * B - (C * d1 - B * d2) - (A * d2 - B * d1) := by ring
  rw [evc, evb, eva]
  -- corner a
  by_cases n1 : d1 ≤ 0 ∧ d2 ≤ 0
  · rw [if_pos n1]
    have := H 0 0 le_rfl le_rfl (by simp) (by simp) (by simpa using n1.1) (by simpa using n1.2)
    rw [zero_smul, zero_smul, add_zero, add_zero] at this
    exact ⟨_, rfl, this⟩
  rw [if_neg n1]
  -- corner b
  by_cases n2 : d1 - A ≥ 0 ∧ d2 - B ≤ d1 - A
  · rw [if_pos n2]
    have := H 1 0 zero_le_one le_rfl (by simp) (by linarith [n2.1]) (by linarith) (by linarith [n2.2])
    rw [one_smul, zero_smul, add_zero, add_sub_cancel] at this
    exact ⟨_, rfl, this⟩
  rw [if_neg n2]
  -- edge ab
  by_cases n3 : A * d2 - B * d1 ≤ 0 ∧ d1 > 0 ∧ d1 - A ≤ 0
  · rw [if_pos n3]
    have hA' : 0 < A := by linarith [n3.2.1, n3.2.2]
    have eA : d1 - (d1 - A) = A := by ring
    rw [eA]
    have g1 : d1 - d1 / A * A - 0 * B = 0 := by field_simp; ring
    have g2 : d2 - d1 / A * B - 0 * C = (A * d2 - B * d1) / A := by field_simp; ring
    have g2' : (A * d2 - B * d1) / A ≤ 0 := div_nonpos_of_nonpos_of_nonneg n3.1 hA'.le
    have := H (d1 / A) 0 (div_nonneg n3.2.1.le hA'.le) le_rfl (by rw [add_zero]; exact (div_le_one hA').2 (by linarith [n3.2.2]))
      (by rw [g1]; simp) (by rw [g1]; simp) (by rw [g1, g2]; simpa using g2')
    rw [zero_smul, add_zero] at this
    exact ⟨_, rfl, this⟩
  rw [if_neg n3]
  -- corner c
  by_cases n4 : d2 - C ≥ 0 ∧ d1 - B ≤ d2 - C
  · rw [if_pos n4]
    have := H 0 1 le_rfl zero_le_one (by simp) (by linarith [n4.1]) (by linarith [n4.2]) (by linarith)
    rw [one_smul, zero_smul, add_zero, add_sub_cancel] at this
    exact ⟨_, rfl, this⟩
  rw [if_neg n4]
  -- edge ac
  by_cases n5 : C * d1 - B * d2 ≤ 0 ∧ d2 > 0 ∧ d2 - C ≤ 0
  · rw [if_pos n5]
    have hC' : 0 < C := by linarith [n5.2.1, n5.2.2]
    have eC : d2 - (d2 - C) = C := by ring
    rw [eC]
    have g2 : d2 - 0 * B - d2 / C * C = 0 := by field_simp; ring
    have g1 : d1 - 0 * A - d2 / C * B = (C * d1 - B * d2) / C := by field_simp; ring
    have g1' : (C * d1 - B * d2) / C ≤ 0 := div_nonpos_of_nonpos_of_nonneg n5.1 hC'.le
    have := H 0 (d2 / C) le_rfl (div_nonneg n5.2.1.le hC'.le) (by rw [zero_add]; exact (div_le_one hC').2 (by linarith [n5.2.2]))
      (by rw [g2]; simp) (by rw [g1, g2]; simpa using g1') (by rw [g2]; simp)
    rw [zero_smul, add_zero] at this
    exact ⟨_, rfl, this⟩
  rw [if_neg n5]
  -- edge bc
  by_cases n6 : A * C - B * B - (C * d1 - B * d2) - (A * d2 - B * d1) ≤ 0 ∧ (d2 - B) - (d1 - A) > 0 ∧ (d1 - B) - (d2 - C) ≥ 0
  · rw [if_pos n6]
    obtain ⟨m1, m2, m3⟩ := n6
    have hE' : 0 < A - 2 * B + C := by linarith
    have eE : (d2 - B) - (d1 - A) + ((d1 - B) - (d2 - C)) = A - 2 * B + C := by ring
    rw [eE]
    have ew : (((d2 - B) - (d1 - A)) / (A - 2 * B + C)) * (A - 2 * B + C) = (d2 - B) - (d1 - A) :=
      div_mul_cancel₀ _ hE'.ne'
    have hw0 : 0 ≤ ((d2 - B) - (d1 - A)) / (A - 2 * B + C) := div_nonneg m2.le hE'.le
    have hw1 : ((d2 - B) - (d1 - A)) / (A - 2 * B + C) ≤ 1 := (div_le_one hE').2 (by linarith)
    generalize ((d2 - B) - (d1 - A)) / (A - 2 * B + C) = w at *
    have g12 : d2 - (1 - w) * B - w * C = d1 - (1 - w) * A - w * B := by linear_combination -ew
    have g1 : (A - 2 * B + C) * (d1 - (1 - w) * A - w * B) =
        -(A * C - B * B - (C * d1 - B * d2) - (A * d2 - B * d1)) := by
      linear_combination (A - B) * ew
    have g1' : 0 ≤ d1 - (1 - w) * A - w * B := by
      refine nonneg_of_mul_nonneg_right (a := A - 2 * B + C) ?_ hE'
      rw [g1]; linarith
    have := H (1 - w) w (by linarith) hw0 (by linarith) (by rw [g12]; linarith) (by rw [g12]; linarith) (by rw [g12]; linarith)
    have e : t.a + (1 - w) • (t.b - t.a) + w • (t.c - t.a) = t.b + w • (t.c - t.b) := by module
    rw [e] at this
    exact ⟨_, rfl, this⟩
  rw [if_neg n6]
  -- interior
  obtain ⟨pc, pb, pa⟩ := interior hA hC hE hD n1 n2 n3 n4 n5 n6
  have hsum : A * C - B * B - (C * d1 - B * d2) - (A * d2 - B * d1) + (C * d1 - B * d2) + (A * d2 - B * d1) = A * C - B * B := by ring
  have hD' : 0 < A * C - B * B := by linarith
  rw [hsum, if_neg hD'.ne']
  have hi : 0 < 1 / (A * C - B * B) := by positivity
  have hi' : (1 / (A * C - B * B)) * (A * C - B * B) = 1 := one_div_mul_cancel hD'.ne'
  generalize 1 / (A * C - B * B) = i at *
  have g1 : d1 - (C * d1 - B * d2) * i * A - (A * d2 - B * d1) * i * B = 0 := by linear_combination -d1 * hi'
  have g2 : d2 - (C * d1 - B * d2) * i * B - (A * d2 - B * d1) * i * C = 0 := by linear_combination -d2 * hi'
  refine ⟨_, rfl, H ((C * d1 - B * d2) * i) ((A * d2 - B * d1) * i) (by positivity) (by positivity) ?_
    (by rw [g1, g2]; simp) (by rw [g1, g2]; simp) (by rw [g1, g2]; simp)⟩
  have := mul_pos pa hi
  linarith

/-- All seven regions of one triangle. -/
example :
    let t : Tri ℚ := ⟨⟨0, 0, 0⟩, ⟨4, 0, 0⟩, ⟨0, 4, 0⟩⟩
    closestPoint t ⟨-1, -2, 3⟩ = some t.a ∧ closestPoint t ⟨6, 1, 3⟩ = some t.b ∧ closestPoint t ⟨1, 7, 3⟩ = some t.c ∧
    closestPoint t ⟨1, -2, 3⟩ = some ⟨1, 0, 0⟩ ∧ closestPoint t ⟨-1, 3, 3⟩ = some ⟨0, 3, 0⟩ ∧
    closestPoint t ⟨4, 4, 3⟩ = some ⟨2, 2, 0⟩ ∧ closestPoint t ⟨1, 2, 3⟩ = some ⟨1, 2, 0⟩ := by
  decide +kernel

end Geom.Triangle.Props
