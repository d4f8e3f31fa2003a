import Verif.Spec.AABB
import Verif.Spec.Pick

/-
  Specification of the edges of a box.
-/
set_option autoImplicit false

namespace Geom.Gen.Spec

/-- Both points are on the same one of the two sides of the centered box across the axis `i`. -/
def SameSide (size p q : V3 ℝ) (i : Fin 3) : Prop := comps p i = comps q i ∧ |comps p i| = comps size i / 2

/-- Both points are on the same line through one of the twelve edges of the centered box. -/
def AlongBoxEdge (size p q : V3 ℝ) : Prop := ∃ i j : Fin 3, i ≠ j ∧ SameSide size p q i ∧ SameSide size p q j

/-- The point is on one of the twelve edges of the centered box. -/
def OnBoxEdge (size p : V3 ℝ) : Prop := comps p ∈ AABB.pts (centered size) ∧ AlongBoxEdge size p p

end Geom.Gen.Spec
