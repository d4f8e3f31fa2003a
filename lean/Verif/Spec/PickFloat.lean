import Verif.Model.Triangle
import Verif.Spec.PlaneFloat

/-
  Specification of error bounds for rays and triangles in floating-point arithmetic.
-/
set_option autoImplicit false

namespace Geom.Triangle.Spec

/-- The number is a multiple of `2 ^ e`, at most `n` times this power. -/
def OnGrid (e : ℤ) (n : ℕ) (x : ℚ) : Prop := ∃ m : ℤ, |m| ≤ n ∧ x = m * 2 ^ e

/-- The coordinates are multiples of `2 ^ e`, at most `n` times this power. -/
def GridV (e : ℤ) (n : ℕ) (v : V3 ℚ) : Prop := OnGrid e n v.x ∧ OnGrid e n v.y ∧ OnGrid e n v.z

/-- The number is a multiple of `2 ^ e`. -/
def Mult (e : ℤ) (x : ℚ) : Prop := ∃ m : ℤ, x = m * 2 ^ e

/-- The coordinates are multiples of `2 ^ e`. -/
def MultV (e : ℤ) (v : V3 ℚ) : Prop := Mult e v.x ∧ Mult e v.y ∧ Mult e v.z

/-- The triple product of the vectors, with absolute values of all products. -/
def absTriple (a b c : V3 ℚ) : ℚ :=
  |a.x| * (|b.y| * |c.z| + |b.z| * |c.y|) + |a.y| * (|b.z| * |c.x| + |b.x| * |c.z|) + |a.z| * (|b.x| * |c.y| + |b.y| * |c.x|)

/-- The bound for the error of a triple product of differences: seven roundings. -/
def tripleErr (p : ℕ) (a b c : V3 ℚ) : ℚ := ((1 + Plane.Spec.ulp p) ^ 7 - 1) * absTriple a b c

end Geom.Triangle.Spec
