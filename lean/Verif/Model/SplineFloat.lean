import Verif.Model.UniformSpline
import Mathlib.Data.Rat.Floor

/-
  `UniformSpline::Evaluate` with the rounding of the machine. Source: include/Geom/UniformSpline.h 102-124.

  Simplifications
  * Numbers are rationals, `fl` is the rounding that follows each operation (see Base/Float). `std::floor` is exact.
  * The evaluation of a polynomial is any function `ev` of the polynomial and the parameter, so its rounding is arbitrary.
-/
set_option autoImplicit false

namespace Geom.UniformSpline

variable {α β : Type}

/-- include/Geom/UniformSpline.h 102-124, `Evaluate` for polynomials `ps`; `zero` is `P(0)`. -/
def evaluateFl (fl : ℚ → ℚ) (ev : α → ℚ → β) (zero : β) (ps : List α) (t : ℚ) : Res β :=
  if ps ≠ [] then
    if t ≤ 0 then
      match ps.head? with
      | some p => .ok (ev p 0)
      | none => .ub
    else if 1 ≤ t then
      match ps.getLast? with
      | some p => .ok (ev p 1)
      | none => .ub
    else
      let t := fl (t * fl (ps.length : ℚ))
      let trimedT := ⌊t⌋
      let t := fl (t - trimedT)
      match ps[trimedT.toNat]? with
      | some p => .ok (ev p t)
      | none => .ub
  else .ok zero

end Geom.UniformSpline
