import Verif.Spec.PlaneMatrix
import Verif.Props.PlaneSolid

/-!
Property C80: exactly for which matrices `TransformPlane` is right.
-/

set_option autoImplicit false
set_option linter.unusedSectionVars false

namespace Geom.Plane.Props
open Geom.Plane Geom.Plane.Spec

variable {K : Type} [Field K] [LinearOrder K] [IsStrictOrderedRing K]

/-- A vector whose orthogonal vectors are those of the unit vector `n` is a multiple of `n`. -/
theorem same_orthogonal {a b c n1 n2 n3 : K} (hn : n1 * n1 + n2 * n2 + n3 * n3 = 1)
    (h : ∀ x y z : K, a * x + b * y + c * z = 0 ↔ n1 * x + n2 * y + n3 * z = 0) :
    ∃ l, l ≠ 0 ∧ a = l * n1 ∧ b = l * n2 ∧ c = l * n3 := by
  set l := a * n1 + b * n2 + c * n3 with hl
  have h1 := (h (a - l * n1) (b - l * n2) (c - l * n3)).2 (by rw [hl]; linear_combination (-(a * n1 + b * n2 + c * n3)) * hn)
  have h2 : (a - l * n1) * (a - l * n1) + (b - l * n2) * (b - l * n2) + (c - l * n3) * (c - l * n3) = 0 := by
    linear_combination h1 + l * l * hn - l * hl
  have e1 := mul_self_nonneg (a - l * n1)
  have e2 := mul_self_nonneg (b - l * n2)
  have e3 := mul_self_nonneg (c - l * n3)
  refine ⟨l, ?_, ?_, ?_, ?_⟩
  · intro h0
    have := (h n1 n2 n3).1 (by rw [← hl, h0])
    rw [hn] at this
    exact one_ne_zero this
  · exact sub_eq_zero.1 (mul_self_eq_zero.1 (by linarith))
  · exact sub_eq_zero.1 (mul_self_eq_zero.1 (by linarith))
  · exact sub_eq_zero.1 (mul_self_eq_zero.1 (by linarith))

/-- C80: with the equation n·x = d the transformed plane is right for exactly those matrices that keep right angles with the normal. -/
theorem C80_exact_partial (m : Transform.Mat K) (p : Pl K) (hp : UnitN p) :
    (∀ x, On .nxEqD (transformPlane .nxEqD m p) (Transform.apply m x) ↔ On .nxEqD p x) ↔ ∃ l, l ≠ 0 ∧ Principal m p.normal l := by
  obtain ⟨⟨n1, n2, n3⟩, d⟩ := p
  simp only [UnitN, On, transformPlane, rotateVector, memberPoint, Transform.apply, Eqn.distanceSign, V3.dot, V3.smul_x, V3.smul_y, V3.smul_z, Principal, column] at *
  constructor
  · intro h
    have := same_orthogonal hp (a := n1 * (m 0 0 * m 0 0 + m 1 0 * m 1 0 + m 2 0 * m 2 0) + n2 * (m 0 0 * m 0 1 + m 1 0 * m 1 1 + m 2 0 * m 2 1) +
        n3 * (m 0 0 * m 0 2 + m 1 0 * m 1 2 + m 2 0 * m 2 2))
      (b := n1 * (m 0 1 * m 0 0 + m 1 1 * m 1 0 + m 2 1 * m 2 0) + n2 * (m 0 1 * m 0 1 + m 1 1 * m 1 1 + m 2 1 * m 2 1) +
        n3 * (m 0 1 * m 0 2 + m 1 1 * m 1 2 + m 2 1 * m 2 2))
      (c := n1 * (m 0 2 * m 0 0 + m 1 2 * m 1 0 + m 2 2 * m 2 0) + n2 * (m 0 2 * m 0 1 + m 1 2 * m 1 1 + m 2 2 * m 2 1) +
        n3 * (m 0 2 * m 0 2 + m 1 2 * m 1 2 + m 2 2 * m 2 2)) (fun x y z => by
        have := h ⟨d * n1 + x, d * n2 + y, d * n3 + z⟩
        constructor
        · intro e
          have := this.1 (by linear_combination e)
          linear_combination this - d * hp
        · intro e
          have := this.2 (by linear_combination e + d * hp)
          linear_combination this)
    exact this
  · rintro ⟨l, hl, h1, h2, h3⟩ ⟨x, y, z⟩
    constructor
    · intro h
      have : l * (n1 * x + n2 * y + n3 * z - d) = 0 := by
        linear_combination h - (x - d * n1) * h1 - (y - d * n2) * h2 - (z - d * n3) * h3 + l * d * hp
      exact sub_eq_zero.1 ((mul_eq_zero.1 this).resolve_left hl)
    · intro h
      linear_combination l * h + (x - d * n1) * h1 + (y - d * n2) * h2 + (z - d * n3) * h3 - l * d * hp

/-- C80: with the equation n·x + d = 0 the matrix must also take the plane to a plane through the origin. -/
theorem C80_alt_exact_partial (m : Transform.Mat K) (p : Pl K) (hp : UnitN p) :
    (∀ x, On .nxdEqZero (transformPlane .nxdEqZero m p) (Transform.apply m x) ↔ On .nxdEqZero p x) ↔
      (∃ l, l ≠ 0 ∧ Principal m p.normal l) ∧ (transformPlane .nxdEqZero m p).distance = 0 := by
  have hq : UnitN (⟨p.normal, -p.distance⟩ : Pl K) := hp
  have hd : transformPlane .nxEqD m (⟨p.normal, -p.distance⟩ : Pl K) = transformPlane .nxdEqZero m p := by
    simp [transformPlane, memberPoint, Eqn.distanceSign]
  have ho : ∀ x, On .nxEqD (⟨p.normal, -p.distance⟩ : Pl K) x ↔ On .nxdEqZero p x := by
    intro x
    simp only [On]
    rw [eq_neg_iff_add_eq_zero]
  have main := C80_exact_partial m _ hq
  rw [hd] at main
  simp only [ho] at main
  have flat : (transformPlane .nxdEqZero m p).distance = 0 →
      ∀ x, On .nxdEqZero (transformPlane .nxdEqZero m p) x ↔ On .nxEqD (transformPlane .nxdEqZero m p) x := by
    intro h x
    simp only [On, h, add_zero]
  constructor
  · intro h
    have h0 : (transformPlane .nxdEqZero m p).distance = 0 := by
      have h1 := (h (memberPoint .nxdEqZero p)).2 (by
        simp only [On, memberPoint, Eqn.distanceSign, V3.smul_x, V3.smul_y, V3.smul_z]
        unfold UnitN at hp
        linear_combination (-p.distance) * hp)
      simp only [On] at h1
      have h2 : (transformPlane .nxdEqZero m p).distance + (transformPlane .nxdEqZero m p).distance = 0 := h1
      linarith
    exact ⟨main.1 fun x => ((flat h0 _).symm.trans (h x)), h0⟩
  · rintro ⟨h1, h0⟩ x
    exact (flat h0 _).trans (main.2 h1 x)

/-- C80: for rotations, reflections, moves and scalings which are the same in all directions the result is right with the equation n·x = d. -/
theorem C80_similar_partial (m : Transform.Mat K) (l : K) (hl : l ≠ 0) (hm : Similar m l) (p : Pl K) (hp : UnitN p) (x : V3 K) :
    On .nxEqD (transformPlane .nxEqD m p) (Transform.apply m x) ↔ On .nxEqD p x := by
  refine (C80_exact_partial m p hp).2 ⟨l, hl, ?_⟩ x
  obtain ⟨h1, h2⟩ := hm
  have a0 : V3.dot (column m 0) (column m 0) = l := h1 0
  have a1 : V3.dot (column m 1) (column m 1) = l := h1 1
  have a2 : V3.dot (column m 2) (column m 2) = l := h1 2
  have b01 : V3.dot (column m 0) (column m 1) = 0 := h2 0 1 (by decide)
  have b02 : V3.dot (column m 0) (column m 2) = 0 := h2 0 2 (by decide)
  have b10 : V3.dot (column m 1) (column m 0) = 0 := h2 1 0 (by decide)
  have b12 : V3.dot (column m 1) (column m 2) = 0 := h2 1 2 (by decide)
  have b20 : V3.dot (column m 2) (column m 0) = 0 := h2 2 0 (by decide)
  have b21 : V3.dot (column m 2) (column m 1) = 0 := h2 2 1 (by decide)
  simp only [Principal, a0, a1, a2, b01, b02, b10, b12, b20, b21]
  refine ⟨by ring, by ring, by ring⟩

/-! The hypotheses are met: a rotation with the factor 10, and a scaling along the normal. -/

example := C80_similar_partial (fun i j => match i, j with | 0, 0 => 6 | 0, 1 => -8 | 1, 0 => 8 | 1, 1 => 6 | 2, 2 => 10 | 2, 3 => 9 | _, _ => 0) 100 (by norm_num)
  (by unfold Similar column V3.dot; decide +kernel) (⟨⟨3 / 5, 4 / 5, 0⟩, 2⟩ : Pl ℚ) (by norm_num [UnitN]) ⟨5, 6, 2⟩

example : ∃ l : ℚ, l ≠ 0 ∧ Principal (fun i j => match i, j with | 0, 0 => 6 | 1, 1 => 7 | 2, 2 => 8 | _, _ => 0) ⟨0, 1, 0⟩ l :=
  ⟨49, by norm_num, by simp [Principal, column, V3.dot]; norm_num⟩

end Geom.Plane.Props
