import Verif.Spec.MeshModifier

/-
  Specification of the edges of a mesh, as pairs of positions.
-/
set_option autoImplicit false

namespace Geom.TMesh.Spec

variable {K : Type} [Field K] [LinearOrder K]

/-- The directed edges of the triangles of a mesh, from position to position. -/
def posEdges (m : Mesh K) : List (V3 K × V3 K) :=
  m.triangles.flatMap fun t => [(posAt m t.a, posAt m t.b), (posAt m t.b, posAt m t.c), (posAt m t.c, posAt m t.a)]

/-- Among the edges there are as many from `p` to `q` as from `q` to `p`. -/
def Paired (es : List (V3 K × V3 K)) (p q : V3 K) : Prop := es.count (p, q) = es.count (q, p)

/-- Closed surfaces with an orientation: each edge between two triangles is used in both directions. -/
def ClosedMesh (m : Mesh K) : Prop := ∀ p q, Paired (posEdges m) p q

end Geom.TMesh.Spec
