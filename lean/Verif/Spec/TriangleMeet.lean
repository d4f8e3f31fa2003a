import Verif.Spec.Triangle

/-
  The points which two triangles have in common.
-/
set_option autoImplicit false

namespace Geom.Triangle.Spec

variable {K : Type} [Field K] [LinearOrder K]

/-- A point of both triangles. -/
def Common (ta tb : Tri K) (p : V3 K) : Prop := InTri ta p ∧ InTri tb p

/-- A point of the segment from `x` to `y`. -/
def Between (x y p : V3 K) : Prop := ∃ s : K, 0 ≤ s ∧ s ≤ 1 ∧ p = x + s • (y - x)

/-- The planes of the triangles are parallel or equal: each direction of the one is a direction of the
other. -/
def Parallel (ta tb : Tri K) : Prop := ∀ d : V3 K, facing ta d = 0 ↔ facing tb d = 0

end Geom.Triangle.Spec
