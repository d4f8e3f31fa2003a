import Verif.Model.Spline
import Mathlib.Algebra.Module.Pi
import Mathlib.Algebra.Field.Rat
import Mathlib.Algebra.Order.Ring.Rat

/-
  Model of include/Geom/Spline.h in floating-point arithmetic: `fl` rounds the result of each operation. The
  points are vectors with one coordinate for each element of `ι`; GaussianLib computes with each coordinate on
  its own (assumed meaning). No overflow, no NaN.
-/
set_option autoImplicit false

namespace Geom.Spline

/-- include/Geom/Spline.h 129-151, `BernsteinPolynomial`, for the intervals `x`. -/
def basisFl (fl : ℚ → ℚ) (x : ℤ → ℚ) : ℕ → ℤ → ℚ → ℚ
  | 0, i, t => if x i ≤ t ∧ t < x (i + 1) then 1 else 0
  | q + 1, i, t =>
    let xi := x i
    let xi1 := x (i + 1)
    let xiq := x (i + (q + 1 : ℕ))
    let xiq1 := x (i + (q + 1 : ℕ) + 1)
    let dx1 := fl (xiq - xi)
    let dx2 := fl (xiq1 - xi1)
    let r1 := if 0 < dx1 then fl (fl (fl (t - xi) / dx1) * basisFl fl x q i t) else 0
    let r2 := if 0 < dx2 then fl (fl (fl (xiq1 - t) / dx2) * basisFl fl x q (i + 1) t) else 0
    fl (r1 + r2)

/-- include/Geom/Spline.h 61-73, `Evaluate`. -/
def evaluateFl {ι : Type} (fl : ℚ → ℚ) (s : Spline ℚ (ι → ℚ)) (t : ℚ) : ι → ℚ :=
  if s.points.isEmpty then 0
  else (s.points.foldl (fun (a : (ι → ℚ) × ℤ) p =>
    (fun c => fl (a.1 c + fl (p.point c * basisFl fl (interval s.points) s.order.toNat a.2 t)), a.2 + 1)) (0, -s.order)).1

end Geom.Spline
