import Verif.Model.TriangleMesh
import Verif.Model.Clip

/-
  Model of sources/MeshModifier.cpp, and of `TriangleMesh::Barycentric`, which uses it.

  A vertex buffer is a list of cells of type `Gs::Real`. An address is a number of bytes from the start of the
  buffer; an access at address `a` is defined if `a` is a multiple of the size of a cell and the cell is in the
  buffer. Output and input buffer are different.
-/
set_option autoImplicit false

namespace Geom.TMesh

variable {K : Type}

/-- include/Geom/MeshModifier.h 30-44, `VertexAttributeDescriptor`. -/
structure Attr where
  offset : ℕ
  components : ℕ
  deriving DecidableEq

/-- include/Geom/MeshModifier.h 47-64, `VertexDescriptor`. -/
structure Desc where
  attributes : List Attr
  stride : ℕ
  deriving DecidableEq

/-- sources/MeshModifier.cpp 24-33, `GetVertexStride`; `sz` is `sizeof(Gs::Real)`. -/
def vertexStride (sz : ℕ) (d : Desc) : ℕ :=
  if d.stride = 0 then d.attributes.foldl (fun s a => s + a.components * sz) d.stride else d.stride

/-- sources/MeshModifier.cpp 101-130: Read a cell. -/
def readAt (sz : ℕ) (buf : List K) (addr : ℕ) : Res K := if addr % sz = 0 then getR buf (addr / sz) else .ub

/-- sources/MeshModifier.cpp 101-130: Write a cell. -/
def writeAt (sz : ℕ) (buf : List K) (addr : ℕ) (x : K) : Res (List K) :=
  if addr % sz = 0 ∧ addr / sz < buf.length then .ok (buf.set (addr / sz) x) else .ub

/-- sources/MeshModifier.cpp 75-78, `Attrib`: the address. -/
def attribAddr (sz : ℕ) (d : Desc) (a : Attr) (index : ℕ) : ℕ := index * vertexStride sz d + a.offset

section interp
variable [Add K] [Mul K]

/-- sources/MeshModifier.cpp 123-127: the assignment for component `i`. -/
def interpOne (sz : ℕ) (d : Desc) (a : Attr) (input : List K) (v0 v1 v2 : ℕ) (bc : V3 K) (i : ℕ) (out : List K) :
    Res (List K) :=
  (readAt sz input (attribAddr sz d a v0 + i * sz)).bind fun x0 =>
  (readAt sz input (attribAddr sz d a v1 + i * sz)).bind fun x1 =>
  (readAt sz input (attribAddr sz d a v2 + i * sz)).bind fun x2 =>
  writeAt sz out (attribAddr sz d a 0 + i * sz) (x0 * bc.x + x1 * bc.y + x2 * bc.z)

/-- sources/MeshModifier.cpp 121-128: the loop over the components, from `i` on for `n` components. -/
def interpAttr (sz : ℕ) (d : Desc) (a : Attr) (input : List K) (v0 v1 v2 : ℕ) (bc : V3 K) :
    ℕ → ℕ → List K → Res (List K)
  | _, 0, out => .ok out
  | i, n + 1, out => (interpOne sz d a input v0 v1 v2 bc i out).bind (interpAttr sz d a input v0 v1 v2 bc (i + 1) n)

/-- sources/MeshModifier.cpp 113-129: the loop over the attributes. -/
def interpAttrs (sz : ℕ) (d : Desc) (input : List K) (v0 v1 v2 : ℕ) (bc : V3 K) : List Attr → List K → Res (List K)
  | [], out => .ok out
  | a :: l, out => (interpAttr sz d a input v0 v1 v2 bc 0 a.components out).bind
      (interpAttrs sz d input v0 v1 v2 bc l)

/-- sources/MeshModifier.cpp 101-130, `InterpolateBarycentric`: the new content of the output buffer. -/
def interpolate (sz : ℕ) (d : Desc) (out input : List K) (v0 v1 v2 : ℕ) (bc : V3 K) : Res (List K) :=
  interpAttrs sz d input v0 v1 v2 bc d.attributes out

/-- sources/MeshModifier.cpp 88-99, `GetDefaultVertexDesc`. -/
def defaultDesc (sz : ℕ) : Desc := ⟨[⟨0, 3⟩, ⟨3 * sz, 3⟩, ⟨6 * sz, 2⟩], 0⟩

/-- include/Geom/TriangleMesh.h 50-52: The cells of a vertex (the members of `TriangleMesh::Vertex` are taken to be stored without gaps). -/
def cells (v : Vertex K) : List K :=
  [v.position.x, v.position.y, v.position.z, v.normal.x, v.normal.y, v.normal.z, v.texCoord.x, v.texCoord.y]

/-- include/Geom/TriangleMesh.h 50-52: The vertex with the given cells. -/
def ofCells : List K → Res (Vertex K)
  | [a, b, c, d, e, f, g, h] => .ok ⟨⟨a, b, c⟩, ⟨d, e, f⟩, ⟨g, h⟩⟩
  | _ => .ub

/-- sources/TriangleMesh.cpp 82-116, `Barycentric`; `zero` is a default constructed vertex. -/
def barycentric (sz : ℕ) (zero : Vertex K) (m : Mesh K) (triangleIndex : ℕ) (bc : V3 K) : Res (Vertex K) :=
  (getR m.triangles triangleIndex).bind fun tri =>
  (interpolate sz (defaultDesc sz) (cells zero) (m.vertices.flatMap cells) tri.a tri.b tri.c bc).bind ofCells

end interp

/-! `ClipMesh`. -/

open Plane (Eqn Pl Relation)

/-- sources/MeshModifier.cpp 161-165 and 172-176: copy a triangle to a mesh. -/
def addTriCopy (m : Mesh K) (a b c : Vertex K) : Mesh K :=
  let count := m.vertices.length
  (addTriangle ⟨m.vertices ++ [a] ++ [b] ++ [c], m.triangles⟩ ⟨count, count + 1, count + 2⟩).1

/-- sources/MeshModifier.cpp 183-188 and 191-196: add a polygon to a mesh; `i` is the loop counter, and `bc`
the call of `Barycentric`. -/
def addFan (bc : V3 K → Res (Vertex K)) (count : ℕ) : ℕ → List (V3 K) → Mesh K → Res (Mesh K)
  | _, [], m => .ok m
  | i, p :: ps, m => (bc p).bind fun v =>
      addFan bc count (i + 1) ps
        (if i ≥ 2 then (addTriangle ⟨m.vertices ++ [v], m.triangles⟩ ⟨count, count + i - 1, count + i⟩).1
         else ⟨m.vertices ++ [v], m.triangles⟩)

section clip
variable [Field K] [LinearOrder K]

/-- sources/MeshModifier.cpp 146-205: the body of the loop, for triangle `triIdx`. -/
def clipOne (sz : ℕ) (zero : Vertex K) (nz : ℕ → Bool) (eq : Eqn) (pl : Pl K) (eps : K) (m : Mesh K) (triIdx : ℕ) (t : Ix)
    (s : Mesh K × Mesh K) : Res (Mesh K × Mesh K) :=
  (corners m t).bind fun (a, b, c) =>
  (Clip.clipTriangle nz eq pl ⟨a.position, b.position, c.position⟩ eps [] []).bind fun (rel, frontPoly, backPoly) =>
  match rel with
  | .inFrontOf => .ok (addTriCopy s.1 a b c, s.2)
  | .behind => .ok (s.1, addTriCopy s.2 a b c)
  | .clipped =>
    (addFan (barycentric sz zero m triIdx) s.1.vertices.length 0 frontPoly s.1).bind fun f =>
    (addFan (barycentric sz zero m triIdx) s.2.vertices.length 0 backPoly s.2).bind fun b =>
    .ok (f, b)
  | .onto => .ok s

/-- sources/MeshModifier.cpp 143-206: the loop over the triangles. `nz` are the signs of zero divisors. -/
def clipLoop (sz : ℕ) (zero : Vertex K) (nz : ℕ → ℕ → Bool) (eq : Eqn) (pl : Pl K) (eps : K) (m : Mesh K) :
    ℕ → List Ix → Mesh K × Mesh K → Res (Mesh K × Mesh K)
  | _, [], s => .ok s
  | i, t :: l, s => (clipOne sz zero (nz i) eq pl eps m i t s).bind (clipLoop sz zero nz eq pl eps m (i + 1) l)

/-- sources/MeshModifier.cpp 132-207, `ClipMesh` for output meshes which are different from the input and from
each other: the new front and back mesh. `eps` is the default tolerance of `ClipTriangle`. -/
def clipMesh (sz : ℕ) (zero : Vertex K) (nz : ℕ → ℕ → Bool) (eq : Eqn) (pl : Pl K) (eps : K) (m front back : Mesh K) :
    Res (Mesh K × Mesh K) :=
  clipLoop sz zero nz eq pl eps m 0 m.triangles (clear front, clear back)

end clip

end Geom.TMesh
