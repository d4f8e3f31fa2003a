import Verif.Base.Float
import Verif.Model.BSplineFloat
import Verif.Spec.Spline

/-
  Specification of B-splines in floating-point arithmetic.
-/
set_option autoImplicit false

namespace Geom.Spline.Spec
open Geom.Float

/-- The relative error of one operation (for each rounding mode). -/
def unit (p : ℕ) : ℚ := 2 ^ (1 - (p : ℤ))

/-- The knots and the points are floats. -/
structure FloatSpline {ι : Type} (p : ℕ) (emin : ℤ) (s : Spline ℚ (ι → ℚ)) : Prop where
  knots : ∀ i < s.points.length, knot s i ∈ Floats p emin
  points : ∀ i < s.points.length, ∀ c, pt s i c ∈ Floats p emin

/-- The point with the index `i` belongs to the part of the curve at `t`: `t` is from the knot `i - order` on and before the knot `i + 1` (as far as there are such knots). -/
def Near {V : Type} (s : Spline ℚ V) (t : ℚ) (i : ℕ) : Prop :=
  knot s (i - s.order.toNat) ≤ t ∧ t < knot s (min (i + 1) (s.points.length - 1))

end Geom.Spline.Spec
