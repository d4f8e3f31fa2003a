import Verif.Base.Loop32
import Mathlib.Algebra.Module.Basic
import Mathlib.Algebra.Field.Basic

/-
  Model of include/Geom/BernsteinPolynomial.h, include/Geom/BezierCurve.h, include/Geom/BezierPatch.h and
  include/Geom/BezierTriangle.h.

  `K` is the type `T` of the scalars, `V` the type `P` of the points. `P()` is assumed to be the zero vector (GaussianLib
  is not part of the repository).
-/
set_option autoImplicit false

namespace Geom.Bezier

/-- include/Geom/BernsteinPolynomial.h 24-32: Unsigned 64-bit arithmetic. -/
def w64 (x : ℕ) : ℕ := x % 2 ^ 64

/-- include/Geom/BernsteinPolynomial.h 24-27, `Details::Factorial`. (The depth of the recursion is not limited in the model.) -/
def factorial64 : ℕ → ℕ
  | 0 => 1
  | n + 1 => if n + 1 ≤ 1 then 1 else w64 ((n + 1) * factorial64 n)

/-- include/Geom/BernsteinPolynomial.h 29-32, `Details::BinomialCoefficient`, for `i <= n`. A division of integers by zero
is undefined. -/
def binomial64 (i n : ℕ) : Res ℕ :=
  let d := w64 (factorial64 i * factorial64 (n - i))
  if d = 0 then .ub else .ok (factorial64 n / d)

variable {K V : Type} [Field K] [AddCommGroup V] [Module K V]

/-- include/Geom/BernsteinPolynomial.h 43-52, `BernsteinPolynomial`. The casts of the exponents to `int` do not matter: the
binomial coefficient is undefined long before. -/
def bernstein (t : K) (i n : ℕ) : Res K :=
  if i ≤ n ∧ 0 < n then
    (binomial64 i n).bind fun coeff => .ok ((coeff : K) * t ^ i * (1 - t) ^ (n - i))
  else .ok 0

/-- include/Geom/BezierCurve.h 35-43, `Evaluate`. -/
def evaluate (controlPoints : List V) (t : K) : Res V :=
  let n := w32 controlPoints.length
  forLt 0 n (fun i point => (bernstein t i (w32 (n + 2 ^ 32 - 1))).bind fun b => .ok (point + b • controlPoints.getD i 0)) 0

/-! Patch. -/

/-- include/Geom/BezierPatch.h 119-121: the members. -/
structure Patch (V : Type) where
  order : ℕ
  controlPoints : List V

namespace Patch

/-- include/Geom/BezierPatch.h 114-117, `GetIndex`. -/
def getIndex (p : Patch V) (u v : ℕ) : ℕ := w32 (w32 (v * w32 (p.order + 1)) + u)

/-- include/Geom/BezierPatch.h 73-78, `SetControlPoint`. -/
def set (p : Patch V) (u v : ℕ) (point : V) : Patch V :=
  let idx := p.getIndex u v
  if idx < p.controlPoints.length then { p with controlPoints := p.controlPoints.set idx point } else p

/-- include/Geom/BezierPatch.h 85-89, `GetControlPoint`. -/
def get (p : Patch V) (u v : ℕ) : V :=
  let idx := p.getIndex u v
  if idx < p.controlPoints.length then p.controlPoints.getD idx 0 else 0

/-- include/Geom/BezierPatch.h 98-103, `SetOrder`; also the constructor 34-37. The product is one of 32-bit integers. -/
def setOrder (order : ℕ) : Patch V := ⟨order, List.replicate (w32 (w32 (order + 1) * w32 (order + 1))) 0⟩

/-- include/Geom/BezierPatch.h 49-65, `Evaluate`. -/
def eval (p : Patch V) (u v : K) : Res V :=
  forLe 0 p.order (fun i result =>
    forLe 0 p.order (fun j result =>
      (bernstein u i p.order).bind fun bu => (bernstein v j p.order).bind fun bv => .ok (result + (bu * bv) • p.get i j)) result) 0

end Patch

/-! Triangle. -/

/-- include/Geom/BezierTriangle.h 109-111: the members. -/
structure Tri (V : Type) where
  order : ℕ
  controlPoints : List V

namespace Tri

/-- include/Geom/BezierTriangle.h 104-107, `GetIndex`, with wrapping 32-bit arithmetic. -/
def getIndex (p : Tri V) (i j : ℕ) : ℕ :=
  if 0 < j then w32 (w32 (w32 (w32 (j * w32 (p.order + 1)) + 2 ^ 32 - j) + 1) + i) else i

/-- include/Geom/BezierTriangle.h 59-64, `SetControlPoint`. -/
def set (p : Tri V) (i j : ℕ) (point : V) : Tri V :=
  let idx := p.getIndex i j
  if idx < p.controlPoints.length then { p with controlPoints := p.controlPoints.set idx point } else p

/-- include/Geom/BezierTriangle.h 72-76, `GetControlPoint`. -/
def get (p : Tri V) (i j : ℕ) : V :=
  let idx := p.getIndex i j
  if idx < p.controlPoints.length then p.controlPoints.getD idx 0 else 0

/-- include/Geom/BezierTriangle.h 85-90, `SetOrder`; also the constructor 33-36. `Gs::GaussianSum(n)` is assumed to be
n (n + 1) / 2, as a 32-bit integer. -/
def setOrder (order : ℕ) : Tri V := ⟨order, List.replicate (w32 (w32 (w32 (order + 1) * w32 (w32 (order + 1) + 1)) / 2)) 0⟩

/-- include/Geom/BezierTriangle.h 43-50, `Evaluate` (not implemented). -/
def eval (_p : Tri V) (_s _t _u : K) : V := 0

end Tri

end Geom.Bezier
