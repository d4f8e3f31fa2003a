import Verif.Model.AABB
import Verif.Base.Float

/-
  Specification of the ray/box query in floating-point arithmetic.
-/
set_option autoImplicit false

namespace Geom.AABB.Props
open Geom.Float

variable {n : ℕ}

/-- The bound for the relative error of the parameters of planes: three roundings. -/
def gamma (p : ℕ) : ℚ := (1 + 2 ^ (1 - (p : ℤ))) ^ 3 - 1

/-- The margin of a side at `b` of a box: for the roundings of the distance from the origin, and for underflow. -/
def margin (p : ℕ) (emin : ℤ) (o d b : ℚ) : ℚ := gamma p * |b - o| + |d| * 2 ^ emin

/-- The inputs of the query: floats, a valid box, and no direction that is too large or snapped to zero. -/
structure Inputs (p : ℕ) (emin : ℤ) (eps : ℚ) (box : Box n ℚ) (o d : Fin n → ℚ) : Prop where
  valid : ∀ i, box.min i ≤ box.max i
  origin : ∀ i, o i ∈ Floats p emin
  min : ∀ i, box.min i ∈ Floats p emin
  max : ∀ i, box.max i ∈ Floats p emin
  clear : ∀ i, d i = 0 ∨ eps ≤ |d i|
  bounded : ∀ i, |d i| ≤ 2 ^ (1 - (p : ℤ) - emin)

end Geom.AABB.Props
