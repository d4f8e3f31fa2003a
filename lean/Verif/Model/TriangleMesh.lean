import Verif.Model.AABB
import Verif.Model.Plane
import Verif.Base.Res
import Mathlib.Data.Finset.Sort
import Mathlib.Analysis.SpecialFunctions.Trigonometric.Basic

/-
  Model of sources/TriangleMesh.cpp and include/Geom/TriangleMesh.h.

  Vertex and triangle indices are `size_t`; they are natural numbers here (a vector has fewer than
  2^64 elements, and the code only adds to indices of existing elements). An access to a vector out of its
  range is undefined behaviour; `GS_ASSERT` is taken to be disabled.
-/
set_option autoImplicit false

namespace Geom.TMesh

/-- include/Geom/TriangleMesh.h 41-53, `TriangleMesh::Vertex`. -/
@[ext] structure Vertex (K : Type) where
  position : V3 K
  normal : V3 K
  texCoord : V2 K
  deriving DecidableEq

/-- include/Geom/TriangleMesh.h 57, `TriangleMesh::Edge`. -/
@[ext] structure Edge where
  a : ℕ
  b : ℕ
  deriving DecidableEq

/-- include/Geom/TriangleMesh.h 58, `TriangleMesh::Triangle`. -/
@[ext] structure Ix where
  a : ℕ
  b : ℕ
  c : ℕ
  deriving DecidableEq

/-- include/Geom/TriangleMesh.h 141-142: the members. -/
@[ext] structure Mesh (K : Type) where
  vertices : List (Vertex K)
  triangles : List Ix
  deriving DecidableEq

variable {K : Type}

/-- include/Geom/TriangleMesh.h 62: The default constructor. -/
def Mesh.empty : Mesh K := ⟨[], []⟩

/-- sources/TriangleMesh.cpp 82-116 and others: Element access `v[i]`. -/
def getR {α : Type} (l : List α) (i : ℕ) : Res α :=
  match l[i]? with
  | some a => .ok a
  | none => .ub

/-- sources/TriangleMesh.cpp 61-65, `Clear`. -/
def clear (_ : Mesh K) : Mesh K := ⟨[], []⟩

/-- sources/TriangleMesh.cpp 67-72, `AddVertex`: the new mesh and the returned index. -/
def addVertex (m : Mesh K) (v : Vertex K) : Mesh K × ℕ := (⟨m.vertices ++ [v], m.triangles⟩, m.vertices.length)

/-- sources/TriangleMesh.cpp 74-80, `AddTriangle`: the new mesh and the returned index. -/
def addTriangle (m : Mesh K) (t : Ix) : Mesh K × ℕ := (⟨m.vertices, m.triangles ++ [t]⟩, m.triangles.length)

/-- sources/TriangleMesh.cpp 122-128, the lambda `AddEdge`. -/
def orderedEdge (a b : ℕ) : Edge := if a < b then ⟨a, b⟩ else ⟨b, a⟩

/-- sources/TriangleMesh.cpp 130-136: the edges of all triangles. -/
def allEdges (ts : List Ix) : List Edge :=
  ts.flatMap fun t => [orderedEdge t.a t.b, orderedEdge t.b t.c, orderedEdge t.c t.a]

/-- sources/TriangleMesh.cpp 141-148: the comparator. -/
def edgeLt (l r : Edge) : Bool :=
  if l.a < r.a then true else if l.a > r.a then false else decide (l.b < r.b)

/-- sources/TriangleMesh.cpp 139-149, `std::sort`. The comparator is a total order, so the sorted
permutation is unique; it is computed by insertion here. -/
def insertEdge (e : Edge) : List Edge → List Edge
  | [] => [e]
  | f :: l => if edgeLt f e then f :: insertEdge e l else e :: f :: l

/-- sources/TriangleMesh.cpp 139-149, `std::sort`. -/
def sortEdges : List Edge → List Edge
  | [] => []
  | e :: l => insertEdge e (sortEdges l)

/-- sources/TriangleMesh.cpp 151-159, `std::unique` and `erase`: of consecutive equal elements the first
one is kept. -/
def uniqueFrom (prev : Edge) : List Edge → List Edge
  | [] => []
  | e :: l => if prev.a = e.a ∧ prev.b = e.b then uniqueFrom prev l else e :: uniqueFrom e l

/-- sources/TriangleMesh.cpp 151-159, `std::unique` and `erase`. -/
def unique : List Edge → List Edge
  | [] => []
  | e :: l => e :: uniqueFrom e l

/-- sources/TriangleMesh.cpp 118-162, `Edges`. -/
def edges (m : Mesh K) : List Edge := unique (sortEdges (allEdges m.triangles))

/-- sources/TriangleMesh.cpp 273-301: The loop of `FindTriangles`: the indices, from `i` on, of the elements that satisfy the condition. -/
def findFrom (p : Ix → Bool) (i : ℕ) : List Ix → List ℕ
  | [] => []
  | t :: l => if p t then i :: findFrom p (i + 1) l else findFrom p (i + 1) l

/-- sources/TriangleMesh.cpp 273-285, `FindTriangles(vertexIndex)`. -/
def findVertex (m : Mesh K) (v : ℕ) : List ℕ :=
  findFrom (fun t => decide (t.a = v) || decide (t.b = v) || decide (t.c = v)) 0 m.triangles

/-- sources/TriangleMesh.cpp 291-297, the lambda `HasEdge`. -/
def hasEdge (t : Ix) (v0 v1 : ℕ) : Bool :=
  (decide (t.a = v0) && decide (t.b = v1)) || (decide (t.b = v0) && decide (t.c = v1)) ||
    (decide (t.c = v0) && decide (t.a = v1))

/-- sources/TriangleMesh.cpp 287-307, `FindTriangles(edge)`. -/
def findEdge (m : Mesh K) (e : Edge) : List ℕ :=
  findFrom (fun t => hasEdge t e.a e.b || hasEdge t e.b e.a) 0 m.triangles

/-- sources/TriangleMesh.cpp 136-200: A loop over a list which appends one result per element. -/
def mapRes {α β : Type} (f : α → Res β) : List α → Res (List β)
  | [] => .ok []
  | a :: l => (f a).bind fun b => (mapRes f l).bind fun bs => .ok (b :: bs)

/-- sources/TriangleMesh.cpp 82-116: The three vertices of a triangle. -/
def corners (m : Mesh K) (t : Ix) : Res (Vertex K × Vertex K × Vertex K) :=
  (getR m.vertices t.a).bind fun a => (getR m.vertices t.b).bind fun b => (getR m.vertices t.c).bind fun c =>
    .ok (a, b, c)

/-- sources/TriangleMesh.cpp 309-325, `TriangleList`. -/
def triangleList (m : Mesh K) : Res (List (Vertex K × Vertex K × Vertex K)) := mapRes (corners m) m.triangles

/-- sources/TriangleMesh.cpp 327-338, `TriangleNormal`. -/
noncomputable def triangleNormal (m : Mesh ℝ) (i : ℕ) : Res (V3 ℝ) :=
  (getR m.triangles i).bind fun t => (corners m t).bind fun (a, b, c) =>
    .ok (Plane.normalizeVec (V3.cross (b.position - a.position) (c.position - a.position)))

open Classical in
/-- sources/TriangleMesh.cpp 180-185: the loop over the other triangles; `tol` is the adjusted tolerance. -/
noncomputable def allClose (m : Mesh ℝ) (eps tol : ℝ) (pattern : V3 ℝ) : List ℕ → Res Bool
  | [] => .ok true
  | i :: l => (triangleNormal m i).bind fun n =>
      if |V3.dot n pattern - 1| ≥ eps + tol then .ok false else allClose m eps tol pattern l

/-- sources/TriangleMesh.cpp 172-191, the lambda `PartOfSilh` (true means: remove). -/
noncomputable def partOfSilh (m : Mesh ℝ) (eps tol : ℝ) (e : Edge) : Res Bool :=
  match findEdge m e with
  | t0 :: t1 :: rest => (triangleNormal m t0).bind fun pattern => allClose m eps tol pattern (t1 :: rest)
  | _ => .ok false

/-- sources/TriangleMesh.cpp 194-197: `std::remove_if` and `erase`. -/
def removeIf {α : Type} (p : α → Res Bool) : List α → Res (List α)
  | [] => .ok []
  | a :: l => (p a).bind fun b => (removeIf p l).bind fun l' => .ok (if b then l' else a :: l')

/-- sources/TriangleMesh.cpp 164-200, `SilhouetteEdges`; `eps` is `Gs::Epsilon<Gs::Real>()`. -/
noncomputable def silhouetteEdges (m : Mesh ℝ) (eps toleranceAngle : ℝ) : Res (List Edge) :=
  removeIf (partOfSilh m eps (Real.sin |toleranceAngle|)) (edges m)

/-! `TriangleNeighbors`. A `std::set` is a finite set, which is iterated in ascending order. `equals` is
`Gs::Equals` of two positions. -/

/-- sources/TriangleMesh.cpp 210-213, the lambda `MatchVertex`. -/
def matchVertex (equals : V3 K → V3 K → Bool) (m : Mesh K) (a b : ℕ) : Res Bool :=
  (getR m.vertices a).bind fun va => (getR m.vertices b).bind fun vb => .ok (equals va.position vb.position)

/-- sources/TriangleMesh.cpp 273-301: Short-circuit `||`. -/
def orRes (a b : Res Bool) : Res Bool := a.bind fun x => if x then .ok true else b

/-- sources/TriangleMesh.cpp 215-220, the lambda `HasVertex`. -/
def hasVertex (equals : V3 K → V3 K → Bool) (m : Mesh K) (viaPosition : Bool) (tri : Ix) (v : ℕ) : Res Bool :=
  if viaPosition then
    orRes (matchVertex equals m v tri.a) (orRes (matchVertex equals m v tri.b) (matchVertex equals m v tri.c))
  else .ok (decide (v = tri.a) || decide (v = tri.b) || decide (v = tri.c))

/-- sources/TriangleMesh.cpp 238-260: is triangle `indices` bonded to triangle `tri`? -/
def bonded (equals : V3 K → V3 K → Bool) (m : Mesh K) (edgeBond viaPosition : Bool) (indices tri : Ix) : Res Bool :=
  if !edgeBond then
    orRes (hasVertex equals m viaPosition tri indices.a)
      (orRes (hasVertex equals m viaPosition tri indices.b) (hasVertex equals m viaPosition tri indices.c))
  else
    (hasVertex equals m viaPosition tri indices.a).bind fun x =>
    (hasVertex equals m viaPosition tri indices.b).bind fun y =>
    (hasVertex equals m viaPosition tri indices.c).bind fun z =>
    .ok (decide (x.toNat + y.toNat + z.toNat ≥ 2))

/-- sources/TriangleMesh.cpp 234-261: the loop over the search set for triangle `i`; the result tells
whether `i` is inserted. -/
def anyBond (equals : V3 K → V3 K → Bool) (m : Mesh K) (edgeBond viaPosition : Bool) (indices : Ix) :
    List ℕ → Res Bool
  | [] => .ok false
  | j :: l => (getR m.triangles j).bind fun tri => (bonded equals m edgeBond viaPosition indices tri).bind fun x =>
      (anyBond equals m edgeBond viaPosition indices l).bind fun y => .ok (x || y)

/-- sources/TriangleMesh.cpp 227-263: the loop over all triangles, from index `i` on; the new neighbours. -/
def newNeighbors (equals : V3 K → V3 K → Bool) (m : Mesh K) (edgeBond viaPosition : Bool) (s : Finset ℕ) (i : ℕ) :
    List Ix → Res (Finset ℕ)
  | [] => .ok ∅
  | t :: l =>
    (if i ∈ s then .ok false else anyBond equals m edgeBond viaPosition t (s.sort (· ≤ ·))).bind fun x =>
    (newNeighbors equals m edgeBond viaPosition s (i + 1) l).bind fun n => .ok (if x then insert i n else n)

/-- sources/TriangleMesh.cpp 202-271, `TriangleNeighbors`. -/
def neighbors (equals : V3 K → V3 K → Bool) (m : Mesh K) (edgeBond viaPosition : Bool) :
    ℕ → Finset ℕ → Res (Finset ℕ)
  | 0, s => .ok s
  | depth + 1, s => (newNeighbors equals m edgeBond viaPosition s 0 m.triangles).bind fun n =>
      neighbors equals m edgeBond viaPosition depth (s ∪ n)

/-! Bounding boxes. -/

/-- sources/TriangleMesh.cpp 340-358: A position as the vector type of the box model. -/
def coords (p : V3 K) : Fin 3 → K := ![p.x, p.y, p.z]

section box
variable [CLt K]

/-- sources/TriangleMesh.cpp 340-348, `BoundingBox()`; `lo`, `hi` are the numeric limits. -/
def boundingBox (lo hi : K) (m : Mesh K) : AABB.Box 3 K :=
  m.vertices.foldl (fun b v => AABB.insert b (coords v.position)) (AABB.reset lo hi)

/-- sources/TriangleMesh.cpp 350-358, `BoundingBox(matrix)`; `transform` is `Gs::TransformVector(matrix, _)`. -/
def boundingBoxM (lo hi : K) (transform : V3 K → V3 K) (m : Mesh K) : AABB.Box 3 K :=
  m.vertices.foldl (fun b v => AABB.insert b (coords (transform v.position))) (AABB.reset lo hi)

end box

/-! `Append`. -/

/-- sources/TriangleMesh.cpp 422, 427: `std::copy(src.begin(), src.end(), dst.begin() + offset)`. -/
def stdCopy {α : Type} (src dst : List α) (offset : ℕ) : Res (List α) :=
  if offset + src.length ≤ dst.length then .ok (dst.take offset ++ src ++ dst.drop (offset + src.length)) else .ub

/-- sources/TriangleMesh.cpp 417-436, `Append(other)`; `other = none` is the call with the mesh itself as
argument, for which `other.vertices` has already been resized when it is copied. `zero` is a default
constructed vertex. -/
def append (zero : Vertex K) (m : Mesh K) (other : Option (Mesh K)) : Res (Mesh K) :=
  let vertexOffset := m.vertices.length
  let resized := m.vertices ++ List.replicate ((other.getD m).vertices.length) zero
  let source := match other with
    | some o => o.vertices
    | none => resized
  (stdCopy source resized vertexOffset).bind fun vs =>
  let triangleOffset := m.triangles.length
  let resizedT := m.triangles ++ List.replicate ((other.getD m).triangles.length) (⟨0, 0, 0⟩ : Ix)
  let sourceT := match other with
    | some o => o.triangles
    | none => resizedT
  (stdCopy sourceT resizedT triangleOffset).bind fun ts =>
  .ok ⟨vs, ts.take triangleOffset ++
    (ts.drop triangleOffset).map fun t => ⟨t.a + vertexOffset, t.b + vertexOffset, t.c + vertexOffset⟩⟩

end Geom.TMesh
