import Verif.Model.TriangleAngle
import Verif.Spec.TriangleAngle
import Verif.Base.VecTac
import Mathlib.Geometry.Euclidean.Triangle
import Mathlib.Analysis.InnerProductSpace.PiL2
import Mathlib.Tactic.FieldSimp

/-
  C119: angles and unit normals of triangles.
-/
set_option autoImplicit false
set_option linter.unusedSectionVars false

namespace Geom.Triangle.Props
open Geom.Triangle.Spec

/-- The vector as an element of the Euclidean space of Mathlib. -/
noncomputable def toE (v : V3 ℝ) : EuclideanSpace ℝ (Fin 3) := !₂[v.x, v.y, v.z]

theorem inner_toE (u v : V3 ℝ) : inner ℝ (toE u) (toE v) = V3.dot u v := by
  simp [toE, PiLp.inner_apply, Fin.sum_univ_three, V3.dot]; ring

theorem norm_toE (u : V3 ℝ) : ‖toE u‖ = √u.lenSq := by
  rw [norm_eq_sqrt_real_inner, inner_toE]; rfl

theorem toE_sub (u v : V3 ℝ) : toE (u - v) = toE u - toE v := by
  ext i; fin_cases i <;> simp [toE]

theorem toE_ne {u v : V3 ℝ} (h : u ≠ v) : toE (u - v) ≠ 0 := by
  intro h0
  apply h
  have h1 := congrFun (congrArg WithLp.ofLp h0) 0
  have h2 := congrFun (congrArg WithLp.ofLp h0) 1
  have h3 := congrFun (congrArg WithLp.ofLp h0) 2
  simp [toE] at h1 h2 h3
  ext <;> linarith

/-- The angle of the code is the angle of Mathlib. -/
theorem vecAngle_eq {u v : V3 ℝ} (hu : toE u ≠ 0) (hv : toE v ≠ 0) : vecAngle u v = some (InnerProductGeometry.angle (toE u) (toE v)) := by
  unfold vecAngle
  rw [← norm_toE, ← norm_toE, if_neg (mul_ne_zero (norm_ne_zero_iff.2 hu) (norm_ne_zero_iff.2 hv)), ← inner_toE]
  rfl

/-- The three angles of a triangle with distinct corners are numbers, and their sum is a half turn. -/
theorem C119_sum (t : Tri ℝ) (h : Distinct t) :
    ∃ α β γ, t.angle 0 = .ok (some α) ∧ t.angle 1 = .ok (some β) ∧ t.angle 2 = .ok (some γ) ∧ α + β + γ = Real.pi := by
  obtain ⟨h1, h2, h3⟩ := h
  refine ⟨_, _, _, congrArg Res.ok (vecAngle_eq (toE_ne h1.symm) (toE_ne h3)), congrArg Res.ok (vecAngle_eq (toE_ne h2.symm) (toE_ne h1)),
    congrArg Res.ok (vecAngle_eq (toE_ne h3.symm) (toE_ne h2)), ?_⟩
  have := InnerProductGeometry.angle_add_angle_sub_add_angle_sub_eq_pi (toE (t.b - t.a)) (toE_ne h3)
  rw [← toE_sub, ← toE_sub, show t.b - t.a - (t.c - t.a) = t.b - t.c by ext <;> simp, show t.c - t.a - (t.b - t.a) = t.c - t.b by ext <;> simp] at this
  have e1 : InnerProductGeometry.angle (toE (t.c - t.b)) (toE (t.a - t.b)) = InnerProductGeometry.angle (toE (t.b - t.a)) (toE (t.b - t.c)) := by
    rw [InnerProductGeometry.angle_comm, ← InnerProductGeometry.angle_neg_neg]
    congr 1 <;> · ext i; fin_cases i <;> simp [toE]
  have e2 : InnerProductGeometry.angle (toE (t.a - t.c)) (toE (t.b - t.c)) = InnerProductGeometry.angle (toE (t.c - t.a)) (toE (t.c - t.b)) := by
    rw [← InnerProductGeometry.angle_neg_neg]
    congr 1 <;> · ext i; fin_cases i <;> simp [toE]
  rw [e1, e2]
  exact this

theorem angle_isAngle {o p q : V3 ℝ} (hp : p ≠ o) (hq : q ≠ o) : ∃ α, vecAngle (p - o) (q - o) = some α ∧ IsAngle o p q α := by
  refine ⟨_, vecAngle_eq (toE_ne hp) (toE_ne hq), InnerProductGeometry.angle_nonneg _ _, InnerProductGeometry.angle_le_pi _ _, ?_⟩
  intro d e d0 e0 hd he
  have k1 : ‖toE (p - o)‖ = d := by
    rw [norm_toE, Real.sqrt_eq_iff_mul_self_eq_of_pos d0, ← _root_.sq, hd]
    simp [V3.lenSq, V3.dot]; ring
  have k2 : ‖toE (q - o)‖ = e := by
    rw [norm_toE, Real.sqrt_eq_iff_mul_self_eq_of_pos e0, ← _root_.sq, he]
    simp [V3.lenSq, V3.dot]; ring
  rw [← k1, ← k2, mul_comm, InnerProductGeometry.cos_angle_mul_norm_mul_norm, inner_toE]
  simp [V3.dot]

/-- Each angle is the angle at its corner. -/
theorem C119_angle (t : Tri ℝ) (h : Distinct t) :
    (∃ α, t.angle 0 = .ok (some α) ∧ IsAngle t.a t.b t.c α) ∧ (∃ α, t.angle 1 = .ok (some α) ∧ IsAngle t.b t.c t.a α) ∧
      ∃ α, t.angle 2 = .ok (some α) ∧ IsAngle t.c t.a t.b α := by
  obtain ⟨h1, h2, h3⟩ := h
  obtain ⟨a, a1, a2⟩ := angle_isAngle h1.symm h3
  obtain ⟨b, b1, b2⟩ := angle_isAngle h2.symm h1
  obtain ⟨c, c1, c2⟩ := angle_isAngle h3.symm h2
  exact ⟨⟨a, congrArg Res.ok a1, a2⟩, ⟨b, congrArg Res.ok b1, b2⟩, c, congrArg Res.ok c1, c2⟩

theorem vecAngle_none (o q : V3 ℝ) : vecAngle (o - o) (q - o) = none ∧ vecAngle (q - o) (o - o) = none := by
  constructor <;> simp [vecAngle, V3.lenSq, V3.dot]

/-- The angle at a corner is a number just if neither of the other two corners is there. -/
theorem C119_number (t : Tri ℝ) :
    (t.angle 0 = .ok none ↔ t.b = t.a ∨ t.c = t.a) ∧ (t.angle 1 = .ok none ↔ t.c = t.b ∨ t.a = t.b) ∧
      (t.angle 2 = .ok none ↔ t.a = t.c ∨ t.b = t.c) := by
  have key : ∀ o p q : V3 ℝ, vecAngle (p - o) (q - o) = none ↔ p = o ∨ q = o := by
    intro o p q
    constructor
    · intro h
      by_contra hc
      push Not at hc
      rw [vecAngle_eq (toE_ne hc.1) (toE_ne hc.2)] at h
      cases h
    · rintro (rfl | rfl)
      · exact (vecAngle_none p q).1
      · exact (vecAngle_none q p).2
  refine ⟨?_, ?_, ?_⟩
  · rw [← key]; exact ⟨Res.ok.inj, congrArg Res.ok⟩
  · rw [← key]; exact ⟨Res.ok.inj, congrArg Res.ok⟩
  · rw [← key]; exact ⟨Res.ok.inj, congrArg Res.ok⟩

/-- Other indices are out of range. -/
theorem C119_index (t : Tri ℝ) (i : ℕ) : t.angle i ≠ .ub ↔ i < 3 := by
  rcases i with _ | _ | _ | i
  · simp [Tri.angle, Tri.corner, Res.bind]
  · simp [Tri.angle, Tri.corner, Res.bind]
  · simp [Tri.angle, Tri.corner, Res.bind]
  · have h : t.corner (i + 3) = .ub := rfl
    have h2 : ∃ p, t.corner ((i + 3 + 1) % 3) = .ok p := by
      have : (i + 3 + 1) % 3 < 3 := Nat.mod_lt _ (by norm_num)
      generalize (i + 3 + 1) % 3 = j at *
      rcases j with _ | _ | _ | j
      · exact ⟨_, rfl⟩
      · exact ⟨_, rfl⟩
      · exact ⟨_, rfl⟩
      · omega
    obtain ⟨p, hp⟩ := h2
    unfold Tri.angle
    rw [hp, h]
    simp [Res.bind]

theorem normal_pos {t : Tri ℝ} (h : Proper t) : 0 < t.normal.lenSq := by
  obtain ⟨h1, h2⟩ := h
  have hl : 0 < (t.b.x - t.a.x) ^ 2 + (t.b.y - t.a.y) ^ 2 + (t.b.z - t.a.z) ^ 2 := by
    by_contra hc
    push Not at hc
    have x := sq_nonneg (t.b.x - t.a.x)
    have y := sq_nonneg (t.b.y - t.a.y)
    have z := sq_nonneg (t.b.z - t.a.z)
    have x0 := pow_eq_zero_iff (two_ne_zero) |>.1 (le_antisymm (by linarith) x)
    have y0 := pow_eq_zero_iff (two_ne_zero) |>.1 (le_antisymm (by linarith) y)
    have z0 := pow_eq_zero_iff (two_ne_zero) |>.1 (le_antisymm (by linarith) z)
    exact h1 (by ext <;> linarith)
  by_contra hc
  push Not at hc
  have e : t.normal.lenSq = t.normal.x ^ 2 + t.normal.y ^ 2 + t.normal.z ^ 2 := by simp [V3.lenSq, V3.dot]; ring
  rw [e] at hc
  have x := sq_nonneg t.normal.x
  have y := sq_nonneg t.normal.y
  have z := sq_nonneg t.normal.z
  have x0 := pow_eq_zero_iff (two_ne_zero) |>.1 (le_antisymm (by linarith) x)
  have y0 := pow_eq_zero_iff (two_ne_zero) |>.1 (le_antisymm (by linarith) y)
  have z0 := pow_eq_zero_iff (two_ne_zero) |>.1 (le_antisymm (by linarith) z)
  simp only [Tri.normal, V3.cross, V3.sub_x, V3.sub_y, V3.sub_z] at x0 y0 z0
  refine h2 (((t.b.x - t.a.x) * (t.c.x - t.a.x) + (t.b.y - t.a.y) * (t.c.y - t.a.y) + (t.b.z - t.a.z) * (t.c.z - t.a.z)) /
    ((t.b.x - t.a.x) ^ 2 + (t.b.y - t.a.y) ^ 2 + (t.b.z - t.a.z) ^ 2)) ?_
  ext
  · simp only []
    rw [← sub_eq_iff_eq_add', div_mul_eq_mul_div, eq_div_iff hl.ne']
    linear_combination (t.b.y - t.a.y) * (-z0) + (t.b.z - t.a.z) * y0
  · simp only []
    rw [← sub_eq_iff_eq_add', div_mul_eq_mul_div, eq_div_iff hl.ne']
    linear_combination (t.b.x - t.a.x) * z0 - (t.b.z - t.a.z) * x0
  · simp only []
    rw [← sub_eq_iff_eq_add', div_mul_eq_mul_div, eq_div_iff hl.ne']
    linear_combination (t.b.y - t.a.y) * x0 - (t.b.x - t.a.x) * y0

theorem normalize_of_pos {n : V3 ℝ} (hn : 0 < n.lenSq) : ∃ k : ℝ, 0 < k ∧ k ^ 2 * n.lenSq = 1 ∧ Plane.normalizeVec n = k • n := by
  refine ⟨1 / √n.lenSq, by positivity, ?_, if_neg hn.ne'⟩
  rw [div_pow, Real.sq_sqrt hn.le, one_pow, one_div, inv_mul_cancel₀ hn.ne']

/-- The unit normal of a triangle whose corners are not on a line. -/
theorem C119_unitNormal (t : Tri ℝ) (h : Proper t) : IsUnitNormal t t.unitNormal := by
  have hn := normal_pos h
  obtain ⟨k, k0, k1, hk⟩ := normalize_of_pos hn
  have e : t.unitNormal = k • t.normal := hk
  have hl : t.normal.lenSq = t.normal.x ^ 2 + t.normal.y ^ 2 + t.normal.z ^ 2 := by simp only [V3.lenSq, V3.dot]; ring
  rw [e]
  refine ⟨?_, ?_, ?_, ?_⟩
  · simp only [V3.smul_x, V3.smul_y, V3.smul_z]; rw [← k1, hl]; ring
  · simp only [V3.smul_x, V3.smul_y, V3.smul_z, Tri.normal, V3.cross_x, V3.cross_y, V3.cross_z, V3.sub_x, V3.sub_y, V3.sub_z]; ring
  · simp only [V3.smul_x, V3.smul_y, V3.smul_z, Tri.normal, V3.cross_x, V3.cross_y, V3.cross_z, V3.sub_x, V3.sub_y, V3.sub_z]; ring
  · have := mul_pos k0 hn
    rw [hl] at this
    simp only [V3.smul_x, V3.smul_y, V3.smul_z, Tri.normal, V3.cross_x, V3.cross_y, V3.cross_z, V3.sub_x, V3.sub_y, V3.sub_z] at this ⊢
    linarith

/-- A triangle with two corners exchanged has the opposite unit normal, and one with its corners in the same cyclic order has the same one. -/
theorem C119_flip (t : Tri ℝ) : (⟨t.a, t.c, t.b⟩ : Tri ℝ).unitNormal = -t.unitNormal ∧ (⟨t.b, t.c, t.a⟩ : Tri ℝ).unitNormal = t.unitNormal := by
  have e1 : (⟨t.a, t.c, t.b⟩ : Tri ℝ).normal = -t.normal := by ext <;> simp [Tri.normal] <;> ring
  have e2 : (⟨t.b, t.c, t.a⟩ : Tri ℝ).normal = t.normal := by ext <;> simp [Tri.normal] <;> ring
  have e3 : (-t.normal).lenSq = t.normal.lenSq := by simp [V3.lenSq, V3.dot]
  constructor
  · unfold Tri.unitNormal Plane.normalizeVec
    rw [e1, e3]
    split_ifs
    · rfl
    · ext <;> simp
  · unfold Tri.unitNormal
    rw [e2]

/-- Without a proper triangle the unit normal is the zero vector, not of length one. -/
theorem C119_degenerate (t : Tri ℝ) (h : ¬Proper t) : t.unitNormal = ⟨0, 0, 0⟩ := by
  have hz : t.normal = ⟨0, 0, 0⟩ := by
    unfold Proper at h
    push Not at h
    by_cases hab : t.a = t.b
    · ext <;> simp [Tri.normal, hab]
    · obtain ⟨s, hs⟩ := h hab
      ext <;> simp [Tri.normal, hs] <;> ring
  have hl : t.normal.lenSq = 0 := by rw [hz]; simp [V3.lenSq, V3.dot]
  unfold Tri.unitNormal Plane.normalizeVec
  rw [if_pos hl, hz]

/-- The normal is as long as the product of two edges and the sine of the angle between them, that is, as twice the area. -/
theorem C119_area (t : Tri ℝ) (h : Distinct t) (d e α : ℝ) (hα : t.angle 0 = .ok (some α)) (hd : 0 < d) (he : 0 < e)
    (hd2 : d ^ 2 = (t.b.x - t.a.x) ^ 2 + (t.b.y - t.a.y) ^ 2 + (t.b.z - t.a.z) ^ 2)
    (he2 : e ^ 2 = (t.c.x - t.a.x) ^ 2 + (t.c.y - t.a.y) ^ 2 + (t.c.z - t.a.z) ^ 2) :
    √(t.normal.x ^ 2 + t.normal.y ^ 2 + t.normal.z ^ 2) = d * e * Real.sin α := by
  obtain ⟨⟨α', h1, h2⟩, -, -⟩ := C119_angle t h
  obtain rfl : α = α' := by rw [hα] at h1; simpa using h1
  have hc := h2.cos d e hd he hd2 he2
  have hs : 0 ≤ d * e * Real.sin α := mul_nonneg (mul_pos hd he).le (Real.sin_nonneg_of_nonneg_of_le_pi h2.nonneg h2.le_pi)
  rw [Real.sqrt_eq_iff_mul_self_eq (by positivity) hs]
  have hsc := Real.sin_sq_add_cos_sq α
  simp only [Tri.normal, V3.cross_x, V3.cross_y, V3.cross_z, V3.sub_x, V3.sub_y, V3.sub_z]
  have : d * e * Real.sin α * (d * e * Real.sin α) = d ^ 2 * e ^ 2 - (d * e * Real.cos α) ^ 2 := by
    linear_combination d ^ 2 * e ^ 2 * hsc
  rw [this, hc, hd2, he2]
  ring

/-- A 2D triangle has the angles and the unit normal of the same triangle in the plane of x and y. -/
theorem C119_flat (t : Tri2 ℝ) : (∀ i, t.angle i = (lift t).angle i) ∧ t.unitNormal = (lift t).unitNormal := by
  constructor
  · have key : ∀ o p q : V2 ℝ, vecAngle2 (p - o) (q - o) = vecAngle ((⟨p.x, p.y, 0⟩ : V3 ℝ) - ⟨o.x, o.y, 0⟩) ((⟨q.x, q.y, 0⟩ : V3 ℝ) - ⟨o.x, o.y, 0⟩) := by
      intro o p q
      simp [vecAngle, vecAngle2, V3.lenSq, V2.lenSq, V3.dot, V2.dot]
    have hc : ∀ i, (lift t).corner i = (t.corner i).bind fun p => .ok ⟨p.x, p.y, 0⟩ := by
      intro i
      rcases i with _ | _ | _ | i <;> rfl
    intro i
    unfold Tri.angle Tri2.angle
    simp only [hc]
    rcases t.corner ((i + 1) % 3) with p | _ | _ | _ <;> try rfl
    rcases t.corner i with o | _ | _ | _ <;> try rfl
    rcases t.corner ((i + 2) % 3) with q | _ | _ | _ <;> try rfl
    exact congrArg Res.ok (key o p q)
  · unfold Tri.unitNormal Tri2.unitNormal Tri.normal Tri2.normal lift
    congr 1
    ext <;> simp

/-- The unit normal of a 2D triangle is one of the two directions of the third axis: up if the corners are counterclockwise. -/
theorem C119_flat_normal (t : Tri2 ℝ) :
    t.unitNormal = ⟨0, 0, SignType.sign ((t.b.x - t.a.x) * (t.c.y - t.a.y) - (t.b.y - t.a.y) * (t.c.x - t.a.x))⟩ := by
  have hn : t.normal = ⟨0, 0, (t.b.x - t.a.x) * (t.c.y - t.a.y) - (t.b.y - t.a.y) * (t.c.x - t.a.x)⟩ := by
    ext <;> simp [Tri2.normal]
  unfold Tri2.unitNormal
  rw [hn]
  generalize (t.b.x - t.a.x) * (t.c.y - t.a.y) - (t.b.y - t.a.y) * (t.c.x - t.a.x) = w
  have hl : (⟨0, 0, w⟩ : V3 ℝ).lenSq = w * w := by simp [V3.lenSq, V3.dot]
  unfold Plane.normalizeVec
  rw [hl, Real.sqrt_mul_self_eq_abs]
  rcases lt_trichotomy w 0 with h | h | h
  · rw [if_neg (mul_self_ne_zero.2 h.ne), abs_of_neg h]
    ext <;> simp [h]
    field_simp
    exact div_self h.ne
  · subst h; simp
  · rw [if_neg (mul_self_ne_zero.2 h.ne'), abs_of_pos h]
    ext <;> simp [h]
    field_simp

/-- A triangle with a right angle. -/
def right : Tri ℝ := ⟨⟨0, 0, 0⟩, ⟨3, 0, 0⟩, ⟨0, 4, 0⟩⟩

example : Distinct right := by
  refine ⟨?_, ?_, ?_⟩ <;> simp [right]

example : Proper right := by
  refine ⟨by simp [right], fun s => by simp [right]⟩

example : ¬Proper ⟨⟨0, 0, 0⟩, ⟨1, 1, 1⟩, ⟨2, 2, 2⟩⟩ := by
  intro h
  exact h.2 2 (by ext <;> norm_num)

example : right.angle 0 = .ok (some (Real.pi / 2)) ∧ right.unitNormal = ⟨0, 0, 1⟩ := by
  constructor
  · simp [Tri.angle, Tri.corner, Res.bind, right, vecAngle, V3.lenSq, V3.dot]
  · have : (12 : ℝ) * 12 ≠ 0 := by norm_num
    have h2 : √((12 : ℝ) * 12) = 12 := Real.sqrt_mul_self (by norm_num)
    have hn : right.normal = ⟨0, 0, 12⟩ := by ext <;> norm_num [right, Tri.normal]
    unfold Tri.unitNormal Plane.normalizeVec
    rw [hn]
    have hl : (⟨0, 0, 12⟩ : V3 ℝ).lenSq = 12 * 12 := by simp [V3.lenSq, V3.dot]
    rw [hl, if_neg this, h2]
    ext <;> norm_num

end Geom.Triangle.Props
