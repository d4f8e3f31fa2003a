import Verif.Spec.PlaneFloat
import Verif.Spec.Plane

/-
  Specification of error bounds for the intersection of a plane and a ray in floating-point arithmetic.
-/
set_option autoImplicit false

namespace Geom.Plane.Spec
open Geom.Float

/-- The point of a ray at parameter `t`. -/
def onRay (r : Ray ℚ) (t : ℚ) : V3 ℚ :=
  ⟨r.origin.x + t * r.direction.x, r.origin.y + t * r.direction.y, r.origin.z + t * r.direction.z⟩

/-- How fast the ray rises over the plane. -/
def rise (pl : Pl ℚ) (r : Ray ℚ) : ℚ := pl.normal.x * r.direction.x + pl.normal.y * r.direction.y + pl.normal.z * r.direction.z

/-- The error bound for the distance of the point at parameter `t`: the errors of the distance of the origin, of the quotient, and of the rise. -/
def interpErr (p : ℕ) (emin : ℤ) (eq : Eqn) (pl : Pl ℚ) (r : Ray ℚ) (t : ℚ) : ℚ :=
  distErr p emin pl r.origin + ulp p * (|side eq pl r.origin| + distErr p emin pl r.origin) +
    2 ^ emin * (|rise pl r| + dotErr p emin pl.normal r.direction) + |t| * dotErr p emin pl.normal r.direction

/-- The error bound for a coordinate of the point at parameter `t`. -/
def lerpErr (p : ℕ) (emin : ℤ) (o d t : ℚ) : ℚ := ulp p * (|o| + (2 + ulp p) * |d * t| + 2 ^ emin) + 2 ^ emin

end Geom.Plane.Spec
