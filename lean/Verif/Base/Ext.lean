import Mathlib.Algebra.Order.Field.Basic

/-
  Floating point division with a zero divisor. Arithmetic is exact, but a quotient by zero is an
  infinity or NaN as in IEEE 754, and comparisons treat these values as IEEE 754 does.
-/
set_option autoImplicit false

namespace Geom

/-- A floating point value: a number, an infinity, or NaN. -/
inductive Ext (K : Type) where
  | fin (k : K)
  | posInf
  | negInf
  | nan
  deriving DecidableEq

namespace Ext
variable {K : Type} [Field K] [LinearOrder K]

/-- `a / b`; `negZero` tells the sign of the divisor if it is zero (`-0.0`). -/
def div (negZero : Bool) (a b : K) : Ext K :=
  if b = 0 then
    (if a = 0 then nan else if decide (0 < a) = negZero then negInf else posInf)
  else fin (a / b)

/-- `t >= k`. -/
def ge : Ext K → K → Bool
  | fin t, k => decide (k ≤ t)
  | posInf, _ => true
  | negInf, _ => false
  | nan, _ => false

/-- `t <= k`. -/
def le : Ext K → K → Bool
  | fin t, k => decide (t ≤ k)
  | posInf, _ => false
  | negInf, _ => true
  | nan, _ => false

/-- `t > k`. -/
def gt : Ext K → K → Bool
  | fin t, k => decide (k < t)
  | posInf, _ => true
  | negInf, _ => false
  | nan, _ => false

/-- `t < k`. -/
def lt : Ext K → K → Bool
  | fin t, k => decide (t < k)
  | posInf, _ => false
  | negInf, _ => true
  | nan, _ => false

theorem div_ne {s : Bool} {a b : K} (h : b ≠ 0) : div s a b = fin (a / b) := by simp [div, h]

end Ext
end Geom
