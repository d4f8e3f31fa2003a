import Verif.Model.Plane
import Verif.Base.Float

/-
  Specification of error bounds for planes in floating-point arithmetic.
-/
set_option autoImplicit false

namespace Geom.Plane.Spec
open Geom.Float

/-- The bound for the relative error of a rounding, in any mode. -/
def ulp (p : ℕ) : ℚ := 2 ^ (1 - (p : ℤ))

/-- The sum of the absolute values of the products. -/
def absDot (n x : V3 ℚ) : ℚ := |n.x * x.x| + |n.y * x.y| + |n.z * x.z|

/-- The error bound for the product of a normal and a point: three roundings, and underflow of the products. -/
def dotErr (p : ℕ) (emin : ℤ) (n x : V3 ℚ) : ℚ := ((1 + ulp p) ^ 3 - 1) * absDot n x + 3 * (1 + ulp p) ^ 2 * 2 ^ emin

/-- The error bound for the distance of a point: one more rounding. -/
def distErr (p : ℕ) (emin : ℤ) (pl : Pl ℚ) (x : V3 ℚ) : ℚ :=
  ((1 + ulp p) ^ 4 - 1) * (absDot pl.normal x + |pl.distance|) + 3 * (1 + ulp p) ^ 3 * 2 ^ emin

/-- The greatest absolute values of the coordinates of points of a box. -/
def reach (b : Box ℚ) : V3 ℚ := ⟨max |b.min.x| |b.max.x|, max |b.min.y| |b.max.y|, max |b.min.z| |b.max.z|⟩

/-- The normal is along an axis, with length 1. -/
def Axis (n : V3 ℚ) : Prop := ∃ s : ℚ, (s = 1 ∨ s = -1) ∧ (n = ⟨s, 0, 0⟩ ∨ n = ⟨0, s, 0⟩ ∨ n = ⟨0, 0, s⟩)

/-- The coordinates are floats. -/
def FloatV (p : ℕ) (emin : ℤ) (x : V3 ℚ) : Prop := x.x ∈ Floats p emin ∧ x.y ∈ Floats p emin ∧ x.z ∈ Floats p emin

end Geom.Plane.Spec
