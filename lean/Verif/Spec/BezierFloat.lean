import Verif.Spec.BSplineFloat
import Verif.Spec.Bezier
import Verif.Model.BezierFloat

/-
  Specification of Bezier curves in floating-point arithmetic: what is assumed about `std::pow`.
-/
set_option autoImplicit false

namespace Geom.Bezier.Spec
open Geom.Float Geom.Spline.Spec

/-- The function `std::pow` for natural exponents and bases from 0 to 1: exact for the exponent zero and for the bases 0 and 1, and otherwise
a float with an error of at most one unit. -/
structure IsPow (p : ℕ) (emin : ℤ) (pw : ℚ → ℕ → ℚ) : Prop where
  mem : ∀ x n, pw x n ∈ Floats p emin
  nonneg : ∀ x n, 0 ≤ x → 0 ≤ pw x n
  exp_zero : ∀ x, pw x 0 = 1
  one : ∀ n, pw 1 n = 1
  zero : ∀ n, pw 0 (n + 1) = 0
  near : ∀ x n, 0 ≤ x → x ≤ 1 → |pw x n - x ^ n| ≤ unit p * x ^ n + 2 ^ emin

/-- The control points are floats. -/
def FloatPoints {ι : Type} (p : ℕ) (emin : ℤ) (ps : List (ι → ℚ)) : Prop := ∀ q ∈ ps, ∀ c, q c ∈ Floats p emin

end Geom.Bezier.Spec
