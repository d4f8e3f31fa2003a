import Verif.Spec.Gen
import Verif.Model.PatchMesh
import Mathlib.Analysis.Convex.Hull

/-
  Specification for meshes of Bezier patches.
-/
set_option autoImplicit false

namespace Geom.Gen.Spec
open TMesh (Vertex)

/-- The control points of a patch. -/
def controls (p : Bezier.Patch (V3 ℝ)) : Set (V3 ℝ) := {x | ∃ i j, i ≤ p.order ∧ j ≤ p.order ∧ x = p.get i j}

/-- The parameters (U, V) of a vertex: the second texture coordinate runs against V unless the faces point to the back. -/
def params (backFacing : Bool) (v : Vertex ℝ) : ℝ × ℝ := (v.texCoord.x, if backFacing then v.texCoord.y else 1 - v.texCoord.y)

/-- The control points are a regular grid of the parallelogram with the corner `a` and the sides `e` and `f`. -/
def Regular (p : Bezier.Patch (V3 ℝ)) (a e f : V3 ℝ) : Prop :=
  ∀ i j, i ≤ p.order → j ≤ p.order → p.get i j = a + ((i : ℝ) / p.order) • e + ((j : ℝ) / p.order) • f

end Geom.Gen.Spec
