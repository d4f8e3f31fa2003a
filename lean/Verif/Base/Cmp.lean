import Mathlib.Order.Defs.LinearOrder
import Mathlib.Order.Basic

/-
  Comparison of scalars as the C++ operator `<`.

  The model of the axis-aligned boxes is written over this class so that the same
  definitions run on exact numbers (any linear order) and on numbers with NaN.
-/
set_option autoImplicit false

namespace Geom

/-- The C++ operator `a < b` on a scalar type. `a > b` is `lt b a`. -/
class CLt (T : Type) where
  lt : T → T → Bool

/-- Exact scalars: any linear order. -/
instance (priority := low) CLt.ofLinearOrder {T : Type} [LinearOrder T] : CLt T where
  lt a b := decide (a < b)

/-- Scalars with NaN: IEEE 754 numbers with the order of the represented numbers
(infinities are elements of `T` like any other); each comparison with NaN is false. -/
inductive Flt (T : Type) where
  | num (x : T)
  | nan
  deriving DecidableEq

instance {T : Type} [LinearOrder T] : CLt (Flt T) where
  lt
    | .num a, .num b => decide (a < b)
    | _, _ => false

/-- Not a NaN. -/
def Flt.IsNum {T : Type} : Flt T → Prop
  | .num _ => True
  | .nan => False

end Geom
