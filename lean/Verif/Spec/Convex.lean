import Verif.Spec.Winding

/-
  Specification of convex solids.
-/
set_option autoImplicit false

namespace Geom.Gen.Spec
open TMesh (Mesh Vertex Ix)

/-- The given vertices are behind the plane of the triangle (or in it). -/
def Behind (vs : List (Vertex ℝ)) (a b c : Vertex ℝ) : Prop :=
  ∀ q ∈ vs, V3.dot (facet a.position b.position c.position) (q.position - a.position) ≤ 0

/-- New vertices and triangles are added; all of the new vertices are behind each of the new triangles. -/
def AddsConvex (m m' : Mesh ℝ) : Prop :=
  ∃ vs, vs ≠ [] ∧ m'.vertices = m.vertices ++ vs ∧ AddsTriangles m m' (Behind vs)

end Geom.Gen.Spec
