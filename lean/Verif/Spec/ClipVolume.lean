import Verif.Spec.MeshModifier

/-
  Specification of the volume between a point and the triangles of a mesh.
-/
set_option autoImplicit false

namespace Geom.TMesh.Spec

variable {K : Type} [Field K]

/-- Six times the volume of the tetrahedron of a point and three corners, negative if the corners are clockwise seen from
the outside. -/
def tetra (o p q r : V3 K) : K := V3.dot (p - o) (V3.cross (q - o) (r - o))

/-- Six times the volume of the tetrahedra of a point and the triangles `ts` of the mesh. For a closed mesh it is six times the volume that
is enclosed by the mesh, for every point. -/
def volumeAt (o : V3 K) (m : Mesh K) (ts : List Ix) : K := (ts.map fun t => tetra o (posAt m t.a) (posAt m t.b) (posAt m t.c)).sum

end Geom.TMesh.Spec
