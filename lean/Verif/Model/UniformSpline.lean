import Verif.Base.Res
import Mathlib.Algebra.Order.Field.Basic
import Mathlib.Algebra.Order.Floor.Ring
import Mathlib.Algebra.Module.Pi
import Mathlib.Data.Fin.VecNotation

/-
  Model of include/Geom/UniformSpline.h.

  A point `P` with `d` components is a function `Fin d → K`.
-/
set_option autoImplicit false

namespace Geom.UniformSpline

variable {K : Type} [Field K] {d : ℕ}

/-- include/Geom/UniformSpline.h 42-60, `Polynomial`. -/
structure Polynomial (K : Type) (d : ℕ) where
  coeff : Fin 4 → Fin d → K

/-- include/Geom/UniformSpline.h 54-57, `Polynomial::Evaluate`. -/
def Polynomial.evaluate (p : Polynomial K d) (t : K) : Fin d → K := fun k => p.coeff 0 k + p.coeff 1 k * t + p.coeff 2 k * t * t + p.coeff 3 k * t * t * t

section Dimension
variable (n : ℕ) (p : ℕ → K) (e : K)

/-- include/Geom/UniformSpline.h 140-145: the array `y`, for the components `p` of `n` points. -/
def y (i : ℕ) : K :=
  if i = 0 then 3 * (p 1 - p 0)
  else if i < n - 1 then 3 * (p (i + 1) - p (i - 1))
  else 3 * (p (n - 1) - p (n - 2))

/-- include/Geom/UniformSpline.h 147, 150-152: the array `v`. -/
def v : ℕ → K
  | 0 => 1 / 2
  | i + 1 => 1 / (4 - v i)

/-- include/Geom/UniformSpline.h 148-156: the array `q`. -/
def q : ℕ → K
  | 0 => 1 / 2 * y n p 0
  | i + 1 =>
    if i + 1 + 1 < n then e * v (i + 1) * (y n p (i + 1) - q i)
    else e * (1 / (2 - v (n - 2))) * (y n p (n - 1) - q i)

/-- include/Geom/UniformSpline.h 158-161: the array `s`, by the distance of the index from the last index. -/
def sRev : ℕ → K
  | 0 => q n p e (n - 1)
  | m + 1 => q n p e (n - 1 - m - 1) - v (n - 1 - m - 1) * sRev m

/-- include/Geom/UniformSpline.h 158-161: the array `s`. -/
def s (i : ℕ) : K := sRev n p e (n - 1 - i)

/-- include/Geom/UniformSpline.h 163-171: the coefficients of the polynomial with the index `i`. -/
def coeffs (i : ℕ) : Fin 4 → K :=
  ![p i, s n p e i, 3 * p (i + 1) - 3 * p i - 2 * s n p e i - s n p e (i + 1), 2 * p i - 2 * p (i + 1) + s n p e i + s n p e (i + 1)]

end Dimension

/-- include/Geom/UniformSpline.h 73-82 and 134-172, `Build` for the polynomials `old`. Each component of each coefficient is written, therefore what `resize` keeps does not matter. -/
def build (old : List (Polynomial K d)) (points : List (Fin d → K)) (expansion : K) : List (Polynomial K d) :=
  if 2 ≤ points.length then
    (List.range (points.length - 1)).map fun i => ⟨fun c dim => coeffs points.length (fun j => (points[j]?.map (· dim)).getD 0) expansion i c⟩
  else old

/-- include/Geom/UniformSpline.h 102-124, `Evaluate`. -/
def evaluate [LinearOrder K] [IsStrictOrderedRing K] [FloorRing K] (ps : List (Polynomial K d)) (t : K) : Res (Fin d → K) :=
  if ps ≠ [] then
    if t ≤ 0 then
      match ps.head? with
      | some p => .ok (p.evaluate 0)
      | none => .ub
    else if 1 ≤ t then
      match ps.getLast? with
      | some p => .ok (p.evaluate 1)
      | none => .ub
    else
      let t := t * (ps.length : K)
      let trimedT := ⌊t⌋
      let t := t - trimedT
      match ps[trimedT.toNat]? with
      | some p => .ok (p.evaluate t)
      | none => .ub
  else .ok 0

end Geom.UniformSpline
