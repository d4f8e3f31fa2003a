import Verif.Model.MeshModifier
import Verif.Spec.TriangleMesh
import Verif.Spec.Clip
import Verif.Spec.Plane
import Verif.Spec.Triangle

/-
  What the interpolation of vertex buffers and the clipping of meshes mean.
-/
set_option autoImplicit false

namespace Geom.TMesh.Spec

variable {K : Type}

/-- The distance of the vertices of a buffer: the given one, or the size of all components. -/
def strideOf (sz : ℕ) (d : Desc) : ℕ := if d.stride = 0 then (d.attributes.map fun a => a.components).sum * sz else d.stride

/-- Cell `c` of a vertex belongs to a component of an attribute. -/
def Described (sz : ℕ) (d : Desc) (c : ℕ) : Prop := ∃ a ∈ d.attributes, ∃ i < a.components, c * sz = a.offset + i * sz

/-- All described components are aligned cells inside of the output buffer, and, for the three vertices, of the
input buffer. -/
def Fits (sz : ℕ) (d : Desc) (out input : List K) (v0 v1 v2 : ℕ) : Prop :=
  ∀ a ∈ d.attributes, ∀ i < a.components,
    (∃ c < out.length, c * sz = a.offset + i * sz) ∧
    ∀ v, v = v0 ∨ v = v1 ∨ v = v2 → ∃ c < input.length, c * sz = v * strideOf sz d + a.offset + i * sz

/-- The vertex is the combination of three vertices with the given weights. -/
def Combines [Add K] [Mul K] (v a b c : Vertex K) (w : V3 K) : Prop :=
  v.position.x = a.position.x * w.x + b.position.x * w.y + c.position.x * w.z ∧
  v.position.y = a.position.y * w.x + b.position.y * w.y + c.position.y * w.z ∧
  v.position.z = a.position.z * w.x + b.position.z * w.y + c.position.z * w.z ∧
  v.normal.x = a.normal.x * w.x + b.normal.x * w.y + c.normal.x * w.z ∧
  v.normal.y = a.normal.y * w.x + b.normal.y * w.y + c.normal.y * w.z ∧
  v.normal.z = a.normal.z * w.x + b.normal.z * w.y + c.normal.z * w.z ∧
  v.texCoord.x = a.texCoord.x * w.x + b.texCoord.x * w.y + c.texCoord.x * w.z ∧
  v.texCoord.y = a.texCoord.y * w.x + b.texCoord.y * w.y + c.texCoord.y * w.z

section field
variable [Field K] [LinearOrder K]

/-- The vertex is a point of a triangle of the mesh, with interpolated attributes. -/
def FromMesh (m : Mesh K) (v : Vertex K) : Prop :=
  ∃ t ∈ m.triangles, ∃ a b c w, m.vertices[t.a]? = some a ∧ m.vertices[t.b]? = some b ∧ m.vertices[t.c]? = some c ∧
    0 ≤ w.x ∧ 0 ≤ w.y ∧ 0 ≤ w.z ∧ w.x + w.y + w.z = 1 ∧ Combines v a b c w

/-- The position of vertex number `i` (zero for an invalid index). -/
def posAt (m : Mesh K) (i : ℕ) : V3 K := ((m.vertices[i]?).map fun v => v.position).getD 0

/-- Twice the vector area of a triangle of the mesh. -/
def triArea (m : Mesh K) (t : Ix) : V3 K := Clip.Spec.area (posAt m t.a) (posAt m t.b) (posAt m t.c)

/-- No corner of the triangle is in the tolerance around the plane, except exactly on the plane. -/
def ExactAt (eq : Plane.Eqn) (pl : Plane.Pl K) (eps : K) (m : Mesh K) (t : Ix) : Prop :=
  ∀ i, -eps ≤ Plane.Spec.side eq pl (posAt m (corner t i)) → Plane.Spec.side eq pl (posAt m (corner t i)) ≤ eps →
    Plane.Spec.side eq pl (posAt m (corner t i)) = 0

/-- All corners of triangle `x` of the mesh `f` are points of triangle `t` of `m`. -/
def InsideOf (m f : Mesh K) (t x : Ix) : Prop :=
  ∀ i, Triangle.Spec.InTri ⟨posAt m t.a, posAt m t.b, posAt m t.c⟩ (posAt f (corner x i))

/-- The triangles `tf` of mesh `front` and `tb` of mesh `back` are parts of triangle `t` of `m`, are oriented like it, and together
they have `k` times its area. -/
def Replaces (m front back : Mesh K) (t : Ix) (tf tb : List Ix) (k : K) : Prop :=
  (∀ x ∈ tf, InsideOf m front t x ∧ ∃ l : K, 0 ≤ l ∧ triArea front x = l • triArea m t) ∧
  (∀ x ∈ tb, InsideOf m back t x ∧ ∃ l : K, 0 ≤ l ∧ triArea back x = l • triArea m t) ∧
  (tf.map (triArea front)).sum + (tb.map (triArea back)).sum = k • triArea m t

/-- A triangle with no corner behind the plane has no part in the back mesh, and one with all corners behind it has no part in the
front mesh. -/
def Sorted (eq : Plane.Eqn) (pl : Plane.Pl K) (eps : K) (m : Mesh K) (t : Ix) (tf tb : List Ix) : Prop :=
  ((∀ i, -eps ≤ Plane.Spec.side eq pl (posAt m (corner t i))) → tb = []) ∧
  ((∀ i, Plane.Spec.side eq pl (posAt m (corner t i)) < -eps) → tf = [])

end field

end Geom.TMesh.Spec
