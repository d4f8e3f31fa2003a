import Verif.Model.TriangleMesh

/-
  Specification of the contents of meshes without their order.
-/
set_option autoImplicit false

namespace Geom.TMesh.Spec

variable {K : Type}

/-- The triangles of a mesh with their vertices. -/
def faces (m : Mesh K) : List (Option (Vertex K) × Option (Vertex K) × Option (Vertex K)) :=
  m.triangles.map fun t => (m.vertices[t.a]?, m.vertices[t.b]?, m.vertices[t.c]?)

end Geom.TMesh.Spec
