import Verif.Model.Bezier
import Verif.Model.GridFloat
import Mathlib.Algebra.Module.Pi
import Mathlib.Algebra.Field.Rat

/-
  Model of include/Geom/BernsteinPolynomial.h, include/Geom/BezierCurve.h and include/Geom/BezierPatch.h in floating-point
  arithmetic: `fl` rounds the result of each operation, and `pw x n` is the result of `std::pow`, converted to `T`. The points
  are vectors with one coordinate for each element of `ι`; GaussianLib computes with each coordinate on its own (assumed
  meaning). No overflow, no NaN.
-/
set_option autoImplicit false

namespace Geom.Bezier
open Geom.Gen

variable {ι : Type}

/-- include/Geom/BernsteinPolynomial.h 43-52, `BernsteinPolynomial`. -/
def bernsteinFl (fl : ℚ → ℚ) (pw : ℚ → ℕ → ℚ) (t : ℚ) (i n : ℕ) : Res ℚ :=
  if i ≤ n ∧ 0 < n then
    (binomial64 i n).bind fun coeff => .ok (fl (fl (fl (coeff : ℚ) * pw t i) * pw (fl (1 - t)) (n - i)))
  else .ok 0

/-- include/Geom/BezierCurve.h 35-43, `Evaluate`. -/
def evaluateFl (fl : ℚ → ℚ) (pw : ℚ → ℕ → ℚ) (controlPoints : List (ι → ℚ)) (t : ℚ) : Res (ι → ℚ) :=
  let n := w32 controlPoints.length
  forLt 0 n (fun i point => (bernsteinFl fl pw t i (w32 (n + 2 ^ 32 - 1))).bind fun b =>
    .ok fun c => fl (point c + fl (controlPoints.getD i 0 c * b))) 0

/-- include/Geom/BezierPatch.h 49-65, `Evaluate`. -/
def Patch.evalFl (fl : ℚ → ℚ) (pw : ℚ → ℕ → ℚ) (p : Patch (ι → ℚ)) (u v : ℚ) : Res (ι → ℚ) :=
  forLe 0 p.order (fun i result =>
    forLe 0 p.order (fun j result =>
      (bernsteinFl fl pw u i p.order).bind fun bu => (bernsteinFl fl pw v j p.order).bind fun bv =>
        .ok fun c => fl (result c + fl (p.get i j c * fl (bu * bv)))) result) 0

/-- sources/MeshGeneratorBezierPatch.cpp 41-50: the position of the vertex in row `i` and column `j`, for `segsX` and `segsY` segments. -/
def Patch.vertexFl (fl : ℚ → ℚ) (pw : ℚ → ℕ → ℚ) (p : Patch (ι → ℚ)) (segsX segsY i j : ℕ) : Res (ι → ℚ) :=
  p.evalFl fl pw (gridFl fl segsX j) (gridFl fl segsY i)

end Geom.Bezier
