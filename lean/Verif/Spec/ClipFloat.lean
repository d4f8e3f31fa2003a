import Verif.Base.Vec
import Mathlib.Algebra.Order.Field.Basic
import Mathlib.Data.Rat.Cast.Order

/-
  Grids of numbers, and points that are near each other.
-/
set_option autoImplicit false

namespace Geom.Clip.Spec

/-- A whole multiple of `2 ^ e`, at most `B` times. -/
def Multiple (e B : ℤ) (x : ℚ) : Prop := ∃ k : ℤ, |k| ≤ B ∧ x = k * (2 : ℚ) ^ e

/-- All components of a vector. -/
def MultipleV (e B : ℤ) (v : V3 ℚ) : Prop := Multiple e B v.x ∧ Multiple e B v.y ∧ Multiple e B v.z

/-- Points whose coordinates differ by at most `d`. -/
def Near (d : ℚ) (v w : V3 ℚ) : Prop := |w.x - v.x| ≤ d ∧ |w.y - v.y| ≤ d ∧ |w.z - v.z| ≤ d

end Geom.Clip.Spec
