import Verif.Spec.Gen
import Verif.Spec.Triangle
import Verif.Model.AABBCollision

/-
  Specification of picking with rays.
-/
set_option autoImplicit false

namespace Geom.Gen.Spec

/-- A face as triangle of the queries. -/
def Face.tri (f : Face) : Triangle.Tri ℝ := ⟨f.1, f.2.1, f.2.2⟩

/-- The components of a vector. -/
def comps (p : V3 ℝ) : Fin 3 → ℝ := ![p.x, p.y, p.z]

/-- The box with the given size and the center (0, 0, 0). -/
noncomputable def centered (size : V3 ℝ) : AABB.Box 3 ℝ :=
  ⟨![-size.x / 2, -size.y / 2, -size.z / 2], ![size.x / 2, size.y / 2, size.z / 2]⟩

/-- The face is hit by the query, with coordinates of the point `p` of the face. -/
def Picks (f : Face) (r : Plane.Ray ℝ) (p : V3 ℝ) : Prop :=
  ∃ q, Triangle.barycentric f.tri r = some q ∧ p = q.x • f.1 + q.y • f.2.1 + q.z • f.2.2

end Geom.Gen.Spec
