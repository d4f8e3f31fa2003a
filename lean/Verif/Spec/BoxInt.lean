import Verif.Model.BoxInt

/-
  Specification of boxes of integers and of conversions of boxes.
-/
set_option autoImplicit false

namespace Geom.AABB.Spec
open Geom.Float

variable {n : ℕ}

/-- The components are in the limits of 32 bit integers. -/
def IntBox (b : Box n ℤ) : Prop := ∀ i, -2 ^ 31 ≤ b.min i ∧ b.min i < 2 ^ 31 ∧ -2 ^ 31 ≤ b.max i ∧ b.max i < 2 ^ 31

/-- A rounding of floats with the largest number `big`, or integers. -/
def Sound : Target → Prop
  | .float fl big => ∃ (p : ℕ) (emin : ℤ), IsRounding p emin fl ∧ big ∈ Floats p emin
  | .int _ _ => True

/-- The numbers of a type. -/
def Has : Target → ℚ → Prop
  | .float fl big, x => fl x = x ∧ |x| ≤ big
  | .int lo hi, x => ∃ k : ℤ, x = k ∧ lo ≤ k ∧ k ≤ hi

end Geom.AABB.Spec
