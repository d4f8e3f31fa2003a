import Verif.Spec.Plane
import Verif.Spec.PlaneFloat

/-
  Specification of conversions of planes between floating-point types.
-/
set_option autoImplicit false

namespace Geom.Plane.Spec
open Geom.Float

/-- The members are floats. -/
def FloatPl (p : ℕ) (emin : ℤ) (pl : Pl ℚ) : Prop := FloatV p emin pl.normal ∧ pl.distance ∈ Floats p emin

/-- How far the left hand side of the plane equation can move for a point. -/
def moved (p : ℕ) (emin : ℤ) (pl : Pl ℚ) (x : V3 ℚ) : ℚ :=
  ulp p * (absDot pl.normal x + |pl.distance|) + 2 ^ emin * (|x.x| + |x.y| + |x.z| + 1)

end Geom.Plane.Spec
