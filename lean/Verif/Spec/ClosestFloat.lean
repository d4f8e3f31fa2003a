import Verif.Spec.PlaneFloat
import Verif.Spec.Plane

/-
  Specification of error bounds for the closest point on a plane in floating-point arithmetic.
-/
set_option autoImplicit false

namespace Geom.Plane.Spec
open Geom.Float

/-- The error bound for a coordinate of the closest point, where `n` and `x` are the coordinates of the normal and of the point: the error of
the distance, times the coordinate of the normal, and the roundings of the product and of the difference. -/
def closestErr (p : ℕ) (emin : ℤ) (eq : Eqn) (pl : Pl ℚ) (v : V3 ℚ) (n x : ℚ) : ℚ :=
  let t := |n| * (|side eq pl v| + distErr p emin pl v)
  ulp p * (|x| + (2 + ulp p) * t + 2 ^ emin) + 2 ^ emin + |n| * distErr p emin pl v

/-- The squared length of the normal. -/
def normSq (n : V3 ℚ) : ℚ := n.x ^ 2 + n.y ^ 2 + n.z ^ 2

/-- `f` is the foot of the perpendicular from `x`, at `t` normals from `x`. -/
def IsFoot (eq : Eqn) (pl : Pl ℚ) (x f : V3 ℚ) (t : ℚ) : Prop :=
  side eq pl f = 0 ∧ x.x - f.x = t * pl.normal.x ∧ x.y - f.y = t * pl.normal.y ∧ x.z - f.z = t * pl.normal.z

end Geom.Plane.Spec
