import Verif.Spec.PlaneFloat
import Verif.Spec.Plane

/-
  Specification of error bounds for the intersection of a plane and a line segment in floating-point arithmetic.
-/
set_option autoImplicit false

namespace Geom.Plane.Spec
open Geom.Float

/-- The point of a segment at parameter `t`. -/
def onLine (l : Line ℚ) (t : ℚ) : V3 ℚ :=
  ⟨l.a.x + t * (l.b.x - l.a.x), l.a.y + t * (l.b.y - l.a.y), l.a.z + t * (l.b.z - l.a.z)⟩

/-- The error bound for the computed difference of the distances of the end points: one more rounding than for a product. -/
def lineDotErr (p : ℕ) (emin : ℤ) (pl : Pl ℚ) (l : Line ℚ) : ℚ :=
  ((1 + ulp p) ^ 4 - 1) * (|pl.normal.x * (l.b.x - l.a.x)| + |pl.normal.y * (l.b.y - l.a.y)| + |pl.normal.z * (l.b.z - l.a.z)|) +
    3 * (1 + ulp p) ^ 2 * 2 ^ emin

/-- The error bound for the distance of the point at parameter `t`. -/
def lineErr (p : ℕ) (emin : ℤ) (eq : Eqn) (pl : Pl ℚ) (l : Line ℚ) (t : ℚ) : ℚ :=
  distErr p emin pl l.a + ulp p * (|side eq pl l.a| + distErr p emin pl l.a) +
    2 ^ emin * (|side eq pl l.b - side eq pl l.a| + lineDotErr p emin pl l) + |t| * lineDotErr p emin pl l

/-- The error bound for a coordinate of the point at parameter `t`. -/
def lineLerpErr (p : ℕ) (emin : ℤ) (a b t : ℚ) : ℚ :=
  ulp p * (|a| + (1 + (2 + ulp p) * (1 + ulp p)) * |(b - a) * t| + 2 ^ emin) + 2 ^ emin

end Geom.Plane.Spec
