import Verif.Model.AABB
import Verif.Base.Float
import Verif.Base.Ext

/-
  Specification of the size and the center of boxes in floating-point arithmetic.
-/
set_option autoImplicit false

namespace Geom.AABB.Spec
open Geom.Float

variable {n : ℕ}

/-- A box of finite floats. -/
structure FloatBox (p : ℕ) (emin : ℤ) (big : ℚ) (b : Box n ℚ) : Prop where
  min : ∀ i, b.min i ∈ Floats p emin
  max : ∀ i, b.max i ∈ Floats p emin
  minBound : ∀ i, |b.min i| ≤ big
  maxBound : ∀ i, |b.max i| ≤ big

/-- The order of numbers and infinities. -/
def LeE : Ext ℚ → Ext ℚ → Prop
  | .nan, _ => False
  | _, .nan => False
  | .negInf, _ => True
  | _, .posInf => True
  | .fin x, .fin y => x ≤ y
  | _, _ => False

/-- The largest numbers of `float` and `double`. -/
def maxFloat : ℚ := (2 ^ 24 - 1) * 2 ^ 104
def maxDouble : ℚ := (2 ^ 53 - 1) * 2 ^ 971

end Geom.AABB.Spec
