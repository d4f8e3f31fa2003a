import Mathlib.Algebra.Module.Basic
import Mathlib.Algebra.Order.Field.Basic
import Mathlib.Algebra.Order.Ring.Int

/-
  Model of include/Geom/Spline.h.

  `K` is the type `T` of the scalars, `V` the type `P` of the points. Indices are integers of any size (`int` and
  `std::size_t` in the code).
-/
set_option autoImplicit false

namespace Geom.Spline

variable {K V : Type} [Field K] [LinearOrder K] [AddCommGroup V] [Module K V]

/-- include/Geom/Spline.h 38-42, `ControlPoint`. -/
structure ControlPoint (K V : Type) where
  point : V
  interval : K

/-- include/Geom/Spline.h 153-157: the members. -/
structure Spline (K V : Type) where
  points : List (ControlPoint K V)
  order : ℤ

/-- include/Geom/Spline.h 153-157: a new spline. -/
def new : Spline K V := ⟨[], 1⟩

/-- include/Geom/Spline.h 94-100, `AddPoint`. -/
def addPoint (s : Spline K V) (point : V) (t : K) : Spline K V := { s with points := s.points ++ [⟨point, t⟩] }

/-- include/Geom/Spline.h 80-87, `SetOrder`. -/
def setOrder (s : Spline K V) (order : ℤ) : Spline K V :=
  { s with order := if order < 1 then 1 else if (s.points.length : ℤ) < order then s.points.length else order }

/-- include/Geom/Spline.h 110-117, `Idx`. -/
def idx (n : ℕ) (i : ℤ) : ℕ := if i < 0 then 0 else if n ≤ i.toNat then n - 1 else i.toNat

/-- include/Geom/Spline.h 124-127, `Interval`. Only called for splines with points, so that the access is in range (C74_in_range). -/
def interval (ps : List (ControlPoint K V)) (i : ℤ) : K := (ps[idx ps.length i]?.map ControlPoint.interval).getD 0

/-- include/Geom/Spline.h 129-151, `BernsteinPolynomial`, for the intervals `x`. -/
def basis (x : ℤ → K) : ℕ → ℤ → K → K
  | 0, i, t => if x i ≤ t ∧ t < x (i + 1) then 1 else 0
  | q + 1, i, t =>
    let xi := x i
    let xi1 := x (i + 1)
    let xiq := x (i + (q + 1 : ℕ))
    let xiq1 := x (i + (q + 1 : ℕ) + 1)
    let dx1 := xiq - xi
    let dx2 := xiq1 - xi1
    let r1 := if 0 < dx1 then (t - xi) / dx1 * basis x q i t else 0
    let r2 := if 0 < dx2 then (xiq1 - t) / dx2 * basis x q (i + 1) t else 0
    r1 + r2

/-- include/Geom/Spline.h 61-73, `Evaluate`. The order is never negative (C74_order). -/
def evaluate (s : Spline K V) (t : K) : V :=
  if s.points.isEmpty then 0
  else (s.points.foldl (fun (a : V × ℤ) p => (a.1 + basis (interval s.points) s.order.toNat a.2 t • p.point, a.2 + 1)) (0, -s.order)).1

end Geom.Spline
