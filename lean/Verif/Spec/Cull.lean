import Verif.Spec.TriangleMesh
import Verif.Spec.Triangle
import Verif.Spec.Plane
import Verif.Model.Plane
import Verif.Model.AABB

/-
  Specification for tests with the bounds of a mesh.
-/
set_option autoImplicit false

namespace Geom.TMesh.Spec

variable {K : Type}

/-- The box of type `AABB3T<T>` with three named coordinates. -/
def planeBox (b : AABB.Box 3 K) : Plane.Box K := ⟨⟨b.min 0, b.min 1, b.min 2⟩, ⟨b.max 0, b.max 1, b.max 2⟩⟩

/-- The mesh `f` consists of all the triangles of `m` in order, and each triangle has its own three vertices. -/
def Unshared (m f : Mesh K) : Prop :=
  f.vertices.length = 3 * m.triangles.length ∧
  f.triangles = (List.range m.triangles.length).map (fun k => ⟨3 * k, 3 * k + 1, 3 * k + 2⟩) ∧
  ∀ k t (i : Fin 3), m.triangles[k]? = some t → f.vertices[3 * k + i.val]? = m.vertices[corner t i]?

/-- Triangle `t` of the mesh has the three corners. -/
def HasCorners (m : Mesh K) (t : Ix) (x : Triangle.Tri K) : Prop :=
  ∃ a b c, m.vertices[t.a]? = some a ∧ m.vertices[t.b]? = some b ∧ m.vertices[t.c]? = some c ∧
    x = ⟨a.position, b.position, c.position⟩

end Geom.TMesh.Spec
