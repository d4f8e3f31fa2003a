import Verif.Model.MeshModifier
import Mathlib.Logic.Function.Basic

/-
  Model of `ClipMesh` of sources/MeshModifier.cpp with references: the meshes are objects with a number, so that arguments can be the same object.
-/
set_option autoImplicit false

namespace Geom.TMesh
open Plane (Eqn Pl)

variable {K : Type} [Field K] [LinearOrder K]

/-- sources/MeshModifier.cpp 132-207: the objects. -/
abbrev Objects (K : Type) := ℕ → Mesh K

/-- sources/MeshModifier.cpp 146-205: the body of the loop, for triangle `triIdx`. -/
def clipOneAt (sz : ℕ) (zero : Vertex K) (nz : ℕ → Bool) (eq : Eqn) (pl : Pl K) (eps : K) (mesh front back : ℕ) (triIdx : ℕ) (t : Ix) (o : Objects K) :
    Res (Objects K) :=
  (corners (o mesh) t).bind fun (a, b, c) =>
  (Clip.clipTriangle nz eq pl ⟨a.position, b.position, c.position⟩ eps [] []).bind fun (rel, frontPoly, backPoly) =>
  match rel with
  | .inFrontOf => .ok (Function.update o front (addTriCopy (o front) a b c))
  | .behind => .ok (Function.update o back (addTriCopy (o back) a b c))
  | .clipped =>
    (addFan (barycentric sz zero (o mesh) triIdx) (o front).vertices.length 0 frontPoly (o front)).bind fun f =>
    let o := Function.update o front f
    (addFan (barycentric sz zero (o mesh) triIdx) (o back).vertices.length 0 backPoly (o back)).bind fun b =>
    .ok (Function.update o back b)
  | .onto => .ok o

/-- sources/MeshModifier.cpp 143-206: the loop over the triangles. -/
def clipLoopAt (sz : ℕ) (zero : Vertex K) (nz : ℕ → ℕ → Bool) (eq : Eqn) (pl : Pl K) (eps : K) (mesh front back : ℕ) :
    ℕ → List Ix → Objects K → Res (Objects K)
  | _, [], o => .ok o
  | i, t :: l, o => (clipOneAt sz zero (nz i) eq pl eps mesh front back i t o).bind (clipLoopAt sz zero nz eq pl eps mesh front back (i + 1) l)

/-- sources/MeshModifier.cpp 132-207, `ClipMesh(mesh, clipPlane, front, back)`. The loop is over the triangles after the two calls of `Clear`; it changes
them only if there are none, since the loop changes `front` and `back` only. -/
def clipMeshAt (sz : ℕ) (zero : Vertex K) (nz : ℕ → ℕ → Bool) (eq : Eqn) (pl : Pl K) (eps : K) (mesh front back : ℕ) (o : Objects K) : Res (Objects K) :=
  let o := Function.update o front (clear (o front))
  let o := Function.update o back (clear (o back))
  clipLoopAt sz zero nz eq pl eps mesh front back 0 (o mesh).triangles o

end Geom.TMesh
