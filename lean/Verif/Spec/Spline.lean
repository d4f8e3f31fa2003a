import Verif.Model.Spline
import Mathlib.Analysis.Convex.Hull

/-
  Specification of B-splines.
-/
set_option autoImplicit false

namespace Geom.Spline.Spec

variable {K V : Type}

/-- The point with the index `i`. -/
def pt [AddCommGroup V] (s : Spline K V) (i : ℕ) : V := (s.points[i]?.map ControlPoint.point).getD 0

/-- The knot with the index `i`. -/
def knot [Field K] (s : Spline K V) (i : ℕ) : K := (s.points[i]?.map ControlPoint.interval).getD 0

/-- The knots do not decrease. -/
def Sorted [Field K] [LinearOrder K] (s : Spline K V) : Prop := ∀ i j, i ≤ j → j < s.points.length → knot s i ≤ knot s j

/-- The knots increase. -/
def Increasing [Field K] [LinearOrder K] (s : Spline K V) : Prop := ∀ i j, i < j → j < s.points.length → knot s i < knot s j

/-- A history of calls. -/
inductive Call (K V : Type) where
  | addPoint (p : V) (t : K)
  | setOrder (o : ℤ)

end Geom.Spline.Spec
