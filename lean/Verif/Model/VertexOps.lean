import Verif.Model.TriangleMesh

/-
  Model of the operators of `TriangleMesh::Vertex`, sources/TriangleMesh.cpp 32-46.
-/
set_option autoImplicit false

namespace Geom.TMesh

variable {K : Type}

/-- sources/TriangleMesh.cpp 32-38, `operator +=`: the new vertex. -/
def Vertex.addAssign [Add K] (v rhs : Vertex K) : Vertex K :=
  ⟨⟨v.position.x + rhs.position.x, v.position.y + rhs.position.y, v.position.z + rhs.position.z⟩,
    ⟨v.normal.x + rhs.normal.x, v.normal.y + rhs.normal.y, v.normal.z + rhs.normal.z⟩,
    ⟨v.texCoord.x + rhs.texCoord.x, v.texCoord.y + rhs.texCoord.y⟩⟩

/-- sources/TriangleMesh.cpp 40-46, `operator *=`: the new vertex. -/
def Vertex.mulAssign [Mul K] (v : Vertex K) (rhs : K) : Vertex K :=
  ⟨⟨v.position.x * rhs, v.position.y * rhs, v.position.z * rhs⟩, ⟨v.normal.x * rhs, v.normal.y * rhs, v.normal.z * rhs⟩,
    ⟨v.texCoord.x * rhs, v.texCoord.y * rhs⟩⟩

end Geom.TMesh
