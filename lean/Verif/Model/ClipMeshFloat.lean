import Verif.Model.ClipFloat
import Verif.Model.MeshModifier

/-
  Model of `ClipMesh` in floating-point arithmetic: each operation of the code is the exact operation followed by a rounding `fl`. The
  numbers are rationals; overflow to infinity is not modelled. The bytes of the vertices are not modelled again (see `MeshModifier.lean`).
-/
set_option autoImplicit false

namespace Geom.TMesh

open Plane (Eqn Pl Relation)

/-- sources/MeshModifier.cpp 123-127: the assignment for a component. -/
def mixFl (fl : ℚ → ℚ) (x0 x1 x2 : ℚ) (bc : V3 ℚ) : ℚ := fl (fl (fl (x0 * bc.x) + fl (x1 * bc.y)) + fl (x2 * bc.z))

/-- sources/TriangleMesh.cpp 82-116, `Barycentric`, with sources/MeshModifier.cpp 101-130, `InterpolateBarycentric`, for the default
descriptor: all eight components of the vertex. -/
def barycentricFl (fl : ℚ → ℚ) (m : Mesh ℚ) (triangleIndex : ℕ) (bc : V3 ℚ) : Res (Vertex ℚ) :=
  (getR m.triangles triangleIndex).bind fun t =>
  (corners m t).bind fun (a, b, c) =>
  .ok ⟨⟨mixFl fl a.position.x b.position.x c.position.x bc, mixFl fl a.position.y b.position.y c.position.y bc,
      mixFl fl a.position.z b.position.z c.position.z bc⟩,
    ⟨mixFl fl a.normal.x b.normal.x c.normal.x bc, mixFl fl a.normal.y b.normal.y c.normal.y bc, mixFl fl a.normal.z b.normal.z c.normal.z bc⟩,
    ⟨mixFl fl a.texCoord.x b.texCoord.x c.texCoord.x bc, mixFl fl a.texCoord.y b.texCoord.y c.texCoord.y bc⟩⟩

/-- sources/MeshModifier.cpp 146-205: the body of the loop, for triangle `triIdx`. -/
def clipOneFl (fl : ℚ → ℚ) (nz : ℕ → Bool) (eq : Eqn) (pl : Pl ℚ) (eps : ℚ) (m : Mesh ℚ) (triIdx : ℕ) (t : Ix) (s : Mesh ℚ × Mesh ℚ) :
    Res (Mesh ℚ × Mesh ℚ) :=
  (corners m t).bind fun (a, b, c) =>
  (Clip.clipTriangleFl fl nz eq pl ⟨a.position, b.position, c.position⟩ eps [] []).bind fun (rel, frontPoly, backPoly) =>
  match rel with
  | .inFrontOf => .ok (addTriCopy s.1 a b c, s.2)
  | .behind => .ok (s.1, addTriCopy s.2 a b c)
  | .clipped =>
    (addFan (barycentricFl fl m triIdx) s.1.vertices.length 0 frontPoly s.1).bind fun f =>
    (addFan (barycentricFl fl m triIdx) s.2.vertices.length 0 backPoly s.2).bind fun b =>
    .ok (f, b)
  | .onto => .ok s

/-- sources/MeshModifier.cpp 143-206: the loop over the triangles. -/
def clipLoopFl (fl : ℚ → ℚ) (nz : ℕ → ℕ → Bool) (eq : Eqn) (pl : Pl ℚ) (eps : ℚ) (m : Mesh ℚ) :
    ℕ → List Ix → Mesh ℚ × Mesh ℚ → Res (Mesh ℚ × Mesh ℚ)
  | _, [], s => .ok s
  | i, t :: l, s => (clipOneFl fl (nz i) eq pl eps m i t s).bind (clipLoopFl fl nz eq pl eps m (i + 1) l)

/-- sources/MeshModifier.cpp 132-207, `ClipMesh` for output meshes which are different from the input and from each other. -/
def clipMeshFl (fl : ℚ → ℚ) (nz : ℕ → ℕ → Bool) (eq : Eqn) (pl : Pl ℚ) (eps : ℚ) (m front back : Mesh ℚ) : Res (Mesh ℚ × Mesh ℚ) :=
  clipLoopFl fl nz eq pl eps m 0 m.triangles (clear front, clear back)

end Geom.TMesh
